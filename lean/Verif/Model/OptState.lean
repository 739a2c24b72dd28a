import Verif.Model.State
/-
The journaling state of src/ethereum_optimized/state_db.py, which replaces the snapshot state of
src/ethereum/osaka/state.py when the optimizations are switched on.

Simplifications. The Python dictionaries `dirty_accounts`, `dirty_storage` and `destroyed_accounts` are partial or
total functions (`none` is "key absent"; `destroyed_accounts` is a `defaultdict` of counters, so an absent key is
0). The Rust database behind `rust_pyspec_glue.DB` is not in the repository; it is taken to be two maps, one of
accounts and one of storage slots with default 0, and one saved copy of each for its own transactions. The roots it
computes, its metadata and its files are not modelled. The journal and the restore points have the newest entry
first. `KeyError` and `IndexError` are the one value `.indexError`; the bare `Exception("In a non-db transaction")`
is `.assertionError`.
-/
namespace Verif.Opt

/-- Point update of a function. -/
def upd {α β : Type} [DecidableEq α] (f : α → β) (a : α) (v : β) : α → β := fun x => if x = a then v else f x

/-- The contents of the Rust database (`state.db`, line 78): what `get_account_optional` and `get_storage` read. -/
structure Db where
  account : Address → Option Account
  storage : Address → Word → Word

/-- A dictionary from storage keys to values (line 80). -/
abbrev Slots := Word → Option Word

/-- The empty dictionary. -/
def noSlots : Slots := fun _ => none

/-- Journal items (lines 376-380, 406-408, 416). `none` is the marker `Unmodified`. Python tells the three kinds
apart by the length of the tuple and the type of its second component (lines 288, 294). -/
inductive JItem where
  | slot (a : Address) (k : Word) (old : Option Word)
  | destroyed (a : Address) (old : Slots)
  | account (a : Address) (old : Option (Option Account))

/-- The caches of `State` that a rollback works on (lines 79-81). -/
structure Cache where
  accounts : Address → Option (Option Account)
  slots : Address → Option Slots
  destroyed : Address → Nat

/-- No cached change. -/
def Cache.empty : Cache := ⟨fun _ => none, fun _ => none, fun _ => 0⟩

/-- `State` (lines 66-99): the database, the caches, `tx_restore_points`, `journal` and `created_accounts`. `saved`
is the database at the last `begin_mutable`. -/
structure OptState where
  db : Db
  saved : Db
  cache : Cache
  restorePoints : List Nat
  journal : List JItem
  created : List Address

/-- `State(path)` (lines 86-99) on a database with the contents `db`. -/
def OptState.init (db : Db) : OptState := ⟨db, db, Cache.empty, [], [], []⟩

/-- Lines 181-198 `flush`: the three loops write destroyed storages, accounts and slots, in this order, and clear the
caches. The loops are written pointwise: the result for one slot depends on the caches for that slot only. -/
def flushDb (db : Db) (c : Cache) : Db where
  account a := (c.accounts a).getD (db.account a)
  storage a k :=
    match (c.slots a).bind (fun d => d k) with
    | some v => v
    | none => if c.destroyed a ≠ 0 then 0 else db.storage a k

/-- Lines 181-198 `flush`. -/
def flush (o : OptState) : Except Crash OptState :=
  if o.restorePoints ≠ [] then .error .assertionError
  else .ok { o with db := flushDb o.db o.cache, cache := Cache.empty }

/-- Lines 383-396 `get_account_optional`. -/
def getAccountOptional (o : OptState) (a : Address) : Option Account :=
  match o.cache.accounts a with
  | some acc => acc
  | none => o.db.account a

/-- Lines 334-348 `get_storage`. -/
def getStorage (o : OptState) (a : Address) (k : Word) : Word :=
  match (o.cache.slots a).bind (fun d => d k) with
  | some v => v
  | none => if o.cache.destroyed a ≠ 0 then 0 else o.db.storage a k

/-- Lines 350-360 `get_storage_original`. -/
def getStorageOriginal (o : OptState) (a : Address) (k : Word) : Word :=
  if a ∈ o.created then 0 else o.db.storage a k

/-- Lines 398-409 `set_account`. The two tests are on the same key, so one item is appended. -/
def setAccount (o : OptState) (a : Address) (acc : Option Account) : OptState :=
  { o with journal := .account a (o.cache.accounts a) :: o.journal
           cache := { o.cache with accounts := upd o.cache.accounts a (some acc) } }

/-- Lines 362-381 `set_storage`. The entry made in `dirty_accounts` is not journaled. -/
def setStorage (o : OptState) (a : Address) (k v : Word) : OptState :=
  let accounts := match o.cache.accounts a with
    | some _ => o.cache.accounts
    | none => upd o.cache.accounts a (some (getAccountOptional o a))
  let d := (o.cache.slots a).getD noSlots
  { o with journal := .slot a k (d k) :: o.journal
           cache := { o.cache with accounts := accounts, slots := upd o.cache.slots a (some (upd d k (some v))) } }

/-- Lines 411-418 `destroy_storage`. -/
def destroyStorage (o : OptState) (a : Address) : OptState :=
  let o1 := { o with
    journal := .destroyed a ((o.cache.slots a).getD noSlots) :: o.journal
    cache := { o.cache with slots := upd o.cache.slots a none
                            destroyed := upd o.cache.destroyed a (o.cache.destroyed a + 1) } }
  setAccount o1 a (getAccountOptional o1 a)

/-- Lines 420-425 `mark_account_created`. -/
def markAccountCreated (o : OptState) (a : Address) : OptState := { o with created := setAdd o.created a }

/-- Lines 427-440 `account_has_storage`. `db.has_storage` is taken to mean that some slot is not 0. -/
def accountHasStorage (o : OptState) (a : Address) : Prop :=
  (∃ d k v, o.cache.slots a = some d ∧ d k = some v ∧ v ≠ 0) ∨
  (o.cache.destroyed a = 0 ∧ ∃ k, o.db.storage a k ≠ 0)

/-- Lines 212-218 `_begin_transaction`. -/
def begin_ (o : OptState) : Except Crash OptState :=
  let push (o : OptState) : OptState := { o with restorePoints := o.journal.length :: o.restorePoints }
  if o.restorePoints = [] then
    match flush o with
    | .error c => .error c
    | .ok o' => .ok (push o')
  else .ok (push o)

/-- Lines 248-256 `_commit_transaction`. -/
def commit (o : OptState) : Except Crash OptState :=
  match o.restorePoints with
  | [] => .error .indexError
  | _ :: ps =>
    if ps = [] then flush { o with restorePoints := ps, journal := [], created := [] }
    else .ok { o with restorePoints := ps }

/-- The body of the loop of `_rollback_transaction` (lines 287-305), after the item is popped. -/
def undoItem (c : Cache) : JItem → Except Crash Cache
  | .slot a k old =>
    match c.slots a with
    | none => .error .indexError
    | some d =>
      match old with
      | none => if d k = none then .error .indexError else .ok { c with slots := upd c.slots a (some (upd d k none)) }
      | some v => .ok { c with slots := upd c.slots a (some (upd d k (some v))) }
  | .destroyed a old =>
    if c.destroyed a = 0 then .error .overflowError
    else
      .ok { c with destroyed := upd c.destroyed a (c.destroyed a - 1)
                   slots := if c.destroyed a - 1 = 0 then upd c.slots a (some old) else c.slots }
  | .account a old =>
    match old with
    | none => if c.accounts a = none then .error .indexError else .ok { c with accounts := upd c.accounts a none }
    | some acc => .ok { c with accounts := upd c.accounts a (some acc) }

/-- The loop of `_rollback_transaction` (lines 286-305) over the items to undo, newest first. -/
def undoItems : List JItem → Cache → Except Crash Cache
  | [], c => .ok c
  | it :: its, c =>
    match undoItem c it with
    | .error e => .error e
    | .ok c' => undoItems its c'

/-- Lines 281-308 `_rollback_transaction`. -/
def rollback (o : OptState) : Except Crash OptState :=
  match o.restorePoints with
  | [] => .error .indexError
  | p :: ps =>
    let n := o.journal.length - p
    match undoItems (o.journal.take n) o.cache with
    | .error e => .error e
    | .ok c =>
      .ok { o with cache := c, journal := o.journal.drop n, restorePoints := ps
                   created := if ps = [] then [] else o.created }

/-- Lines 151-159 `commit_db_transaction`, followed by `begin_db_transaction` (lines 138-149), which must come next
because nothing else works outside a database transaction. -/
def commitDb (o : OptState) : Except Crash OptState :=
  match flush o with
  | .error c => .error c
  | .ok o' => .ok { o' with saved := o'.db, restorePoints := [], journal := [] }

/-- Lines 200-210 `rollback_db_transaction`, followed by `begin_db_transaction` (lines 138-149). -/
def rollbackDb (o : OptState) : Except Crash OptState :=
  if o.restorePoints ≠ [] then .error .assertionError
  else .ok { o with db := o.saved, cache := Cache.empty, restorePoints := [], journal := [] }

/-- The optimized state with the transient storage beside it; the latter is the reference one. -/
structure OptWorld where
  state : OptState
  transient : TransientStorage

/-- Lines 222-237 `begin_transaction`. -/
def beginTransaction (w : OptWorld) : Except Crash OptWorld :=
  match begin_ w.state with
  | .error c => .error c
  | .ok o => .ok ⟨o, { w.transient with snapshots := w.transient.tries :: w.transient.snapshots }⟩

/-- Lines 260-270 `commit_transaction`: an empty list of transient snapshots is tolerated. -/
def commitTransaction (w : OptWorld) : Except Crash OptWorld :=
  match commit w.state with
  | .error c => .error c
  | .ok o => .ok ⟨o, { w.transient with snapshots := w.transient.snapshots.tail }⟩

/-- Lines 312-323 `rollback_transaction`. -/
def rollbackTransaction (w : OptWorld) : Except Crash OptWorld :=
  match rollback w.state with
  | .error c => .error c
  | .ok o =>
    .ok ⟨o, match w.transient.snapshots with
      | [] => w.transient
      | t :: ts => ⟨t, ts⟩⟩

end Verif.Opt
