import Verif.Model.Base
/-
osaka/trie.py (map interface, lines 200-270), osaka/fork_types.py (accounts) and osaka/state.py.
-/
namespace Verif

/-- osaka/fork_types.py:31-40 `Account`. -/
structure Account where
  nonce : Nat
  balance : Word
  code : Bytes
  deriving DecidableEq, Repr

/-- osaka/fork_types.py:43-47 `EMPTY_ACCOUNT`. -/
def emptyAccount : Account := ⟨0, 0, []⟩

/-- osaka/trie.py:200-208 `Trie`. -/
structure Trie (K V : Type) where
  secured : Bool
  default : V
  data : Dict K V

section
variable {K V : Type} [DecidableEq K] [DecidableEq V]

/-- osaka/trie.py:229-249 `trie_set`. -/
def trieSet (t : Trie K V) (k : K) (v : V) : Trie K V :=
  if v = t.default then { t with data := t.data.del k } else { t with data := t.data.set k v }

/-- osaka/trie.py:252-270 `trie_get`. -/
def trieGet (t : Trie K V) (k : K) : V := (t.data.get? k).getD t.default
end

/-- Contents of the main account trie. -/
abbrev AccountTrie := Trie Address (Option Account)
/-- Storage tries per address. -/
abbrev StorageTries := Dict Address (Trie Word Word)

/-- osaka/state.py:31-49 `State`. `snapshots` has the newest snapshot first (Python appends at the end);
`createdAccounts` is a set. `fork` says to which package's `State` class the object belongs, i.e. which version of the code acts on
it; the Python object has no such field, because each package has its own class. -/
structure State where
  fork : Fork
  mainTrie : AccountTrie
  storageTries : StorageTries
  snapshots : List (AccountTrie × StorageTries)
  createdAccounts : List Address

/-- `State()` with default fields (osaka/state.py:36-49), in a given package. -/
def State.empty (fork : Fork := .osaka) : State := ⟨fork, ⟨true, none, Dict.empty⟩, Dict.empty, [], []⟩

/-- osaka/state.py:52-62 `TransientStorage` (newest snapshot first). -/
structure TransientStorage where
  tries : StorageTries
  snapshots : List StorageTries

/-- `TransientStorage()`. -/
def TransientStorage.empty : TransientStorage := ⟨Dict.empty, []⟩

/-- The two mutable stores an execution can touch. -/
structure World where
  state : State
  transient : TransientStorage

/-- osaka/state.py:77-102 `begin_transaction`. Copies are values here, so aliasing cannot occur. -/
def beginTransaction (w : World) : World :=
  { state := { w.state with snapshots := (w.state.mainTrie, w.state.storageTries) :: w.state.snapshots }
    transient := { w.transient with snapshots := w.transient.tries :: w.transient.snapshots } }

/-- osaka/state.py:105-121 `commit_transaction`. `list.pop` on an empty list is an `IndexError`. -/
def commitTransaction (w : World) : Except Crash World :=
  match w.state.snapshots, w.transient.snapshots with
  | _ :: ss, _ :: ts =>
    .ok { state := { w.state with
                      snapshots := ss
                      createdAccounts := if ss.isEmpty then [] else w.state.createdAccounts }
          transient := { w.transient with snapshots := ts } }
  | _, _ => .error .indexError

/-- osaka/state.py:124-142 `rollback_transaction`. -/
def rollbackTransaction (w : World) : Except Crash World :=
  match w.state.snapshots, w.transient.snapshots with
  | (m, st) :: ss, t :: ts =>
    .ok { state := { w.state with
                      mainTrie := m
                      storageTries := st
                      snapshots := ss
                      createdAccounts := if ss.isEmpty then [] else w.state.createdAccounts }
          transient := { tries := t, snapshots := ts } }
  | _, _ => .error .indexError

/-- osaka/state.py:170-187 `get_account_optional`. -/
def getAccountOptional (s : State) (a : Address) : Option Account := trieGet s.mainTrie a

/-- osaka/state.py:145-167 `get_account`. -/
def getAccount (s : State) (a : Address) : Account :=
  match getAccountOptional s a with
  | some acc => acc
  | none => emptyAccount

/-- osaka/state.py:190-206 `set_account`. -/
def setAccount (s : State) (a : Address) (acc : Option Account) : State :=
  { s with mainTrie := trieSet s.mainTrie a acc }

/-- osaka/state.py:228-241 `destroy_storage`. -/
def destroyStorage (s : State) (a : Address) : State :=
  { s with storageTries := s.storageTries.del a }

/-- osaka/state.py:209-225 `destroy_account`. -/
def destroyAccount (s : State) (a : Address) : State :=
  setAccount (destroyStorage s a) a none

/-- osaka/state.py:244-262 `mark_account_created`. -/
def markAccountCreated (s : State) (a : Address) : State :=
  { s with createdAccounts := setAdd s.createdAccounts a }

/-- The lookup shared by `get_storage`, `get_storage_original` and `get_transient_storage`. -/
def triesGet (d : StorageTries) (a : Address) (k : Word) : Word :=
  match d.get? a with
  | none => 0
  | some t => trieGet t k

/-- The update shared by `set_storage` (osaka/state.py:312-318) and `set_transient_storage`
(osaka/state.py:653-659): an emptied trie is removed. -/
def triesSet (d : StorageTries) (a : Address) (k v : Word) : StorageTries :=
  let t := match d.get? a with
    | none => ⟨true, 0, Dict.empty⟩
    | some t => t
  let t' := trieSet t k v
  if t'.data.entries.isEmpty then (d.set a t').del a else d.set a t'

/-- osaka/state.py:265-290 `get_storage`. -/
def getStorage (s : State) (a : Address) (k : Word) : Word := triesGet s.storageTries a k

/-- osaka/state.py:293-318 `set_storage`, with the assertion that the account exists. -/
def setStorage (s : State) (a : Address) (k v : Word) : Except Crash State :=
  match getAccountOptional s a with
  | none => .error .assertionError
  | some _ => .ok { s with storageTries := triesSet s.storageTries a k v }

/-- osaka/state.py:369-385 `account_exists`. -/
def accountExists (s : State) (a : Address) : Bool := (getAccountOptional s a).isSome

/-- osaka/state.py:388-406 `account_has_code_or_nonce`. -/
def accountHasCodeOrNonce (s : State) (a : Address) : Bool :=
  let acc := getAccount s a
  decide (acc.nonce ≠ 0) || decide (acc.code ≠ [])

/-- osaka/state.py:409-425 `account_has_storage`. -/
def accountHasStorage (s : State) (a : Address) : Bool := s.storageTries.contains a

/-- osaka/state.py:428-452 `account_exists_and_is_empty`. -/
def accountExistsAndIsEmpty (s : State) (a : Address) : Bool :=
  match getAccountOptional s a with
  | none => false
  | some acc => decide (acc.nonce = 0) && decide (acc.code = []) && decide (acc.balance = 0)

/-- osaka/state.py:455-472 `is_account_alive`. -/
def isAccountAlive (s : State) (a : Address) : Bool :=
  match getAccountOptional s a with
  | none => false
  | some acc => decide (acc ≠ emptyAccount)

/-- The end of `modify_state` (osaka/state.py:482-483): since paris an account that has become empty is destroyed at once. Before,
`modify_state` does nothing more (gray_glacier/state.py:457-463). -/
def dropEmpty (s : State) (a : Address) : State :=
  if s.fork.since .paris && accountExistsAndIsEmpty s a then destroyAccount s a else s

/-- osaka/state.py:475-483 `modify_state`; the callback may raise. -/
def modifyState (s : State) (a : Address) (f : Account → Except Crash Account) : Except Crash State :=
  match f (getAccount s a) with
  | .error c => .error c
  | .ok acc =>
    .ok (dropEmpty (setAccount s a (some acc)) a)

/-- U256 addition; raises OverflowError instead of wrapping. -/
def checkedAdd (x y : Word) : Except Crash Word :=
  if x.toNat + y.toNat < 2 ^ 256 then .ok (x + y) else .error .overflowError

/-- The callback `reduce_sender_balance` (osaka/state.py:496-499). -/
def reduceSenderBalance (amount : Word) (acc : Account) : Except Crash Account :=
  if acc.balance < amount then .error .assertionError
  else .ok { acc with balance := acc.balance - amount }

/-- The callback `increase_recipient_balance` (osaka/state.py:501-502). -/
def increaseRecipientBalance (amount : Word) (acc : Account) : Except Crash Account :=
  match checkedAdd acc.balance amount with
  | .error c => .error c
  | .ok b => .ok { acc with balance := b }

/-- osaka/state.py:486-505 `move_ether`. -/
def moveEther (s : State) (sender recipient : Address) (amount : Word) : Except Crash State :=
  match modifyState s sender (reduceSenderBalance amount) with
  | .error c => .error c
  | .ok s' => modifyState s' recipient (increaseRecipientBalance amount)

/-- `modify_state` with a callback that cannot raise. -/
def modifyState' (s : State) (a : Address) (f : Account → Account) : State :=
  dropEmpty (setAccount s a (some (f (getAccount s a)))) a

/-- osaka/state.py:508-527 `set_account_balance`. -/
def setAccountBalance (s : State) (a : Address) (amount : Word) : State :=
  modifyState' s a (fun acc => { acc with balance := amount })

/-- osaka/state.py:530-546 `increment_nonce`. -/
def incrementNonce (s : State) (a : Address) : State :=
  modifyState' s a (fun acc => { acc with nonce := acc.nonce + 1 })

/-- osaka/state.py:549-568 `set_code`. -/
def setCode (s : State) (a : Address) (code : Bytes) : State :=
  modifyState' s a (fun acc => { acc with code := code })

/-- gray_glacier/state.py:494-508 `touch_account`, in the forks before paris. -/
def touchAccount (s : State) (a : Address) : State :=
  if accountExists s a then s else setAccount s a (some emptyAccount)

/-- The call of `touch_account` at the start of `process_message` (gray_glacier/vm/interpreter.py:229); absent since paris. -/
def touchIn (s : State) (a : Address) : State := if s.fork.since .paris then s else touchAccount s a

/-- spurious_dragon/state.py:545-559 `destroy_touched_empty_accounts`; the sets of addresses are lists. -/
def destroyTouchedEmptyAccounts (s : State) (touched : List Address) : State :=
  touched.foldl (fun s a => if accountExistsAndIsEmpty s a then destroyAccount s a else s) s

/-- `if account_exists_and_is_empty(state, a): touched_accounts.add(a)`. -/
def touchedIfEmpty (s : State) (a : Address) (l : List Address) : List Address :=
  if accountExistsAndIsEmpty s a then setAdd l a else l

/-- osaka/state.py:571-601 `get_storage_original`; `_snapshots[0]` is the oldest snapshot. -/
def getStorageOriginal (s : State) (a : Address) (k : Word) : Except Crash Word :=
  if a ∈ s.createdAccounts then .ok 0
  else match s.snapshots.getLast? with
    | none => .error .indexError
    | some (_, orig) => .ok (triesGet orig a k)

/-- osaka/state.py:604-630 `get_transient_storage`. -/
def getTransientStorage (t : TransientStorage) (a : Address) (k : Word) : Word := triesGet t.tries a k

/-- osaka/state.py:633-659 `set_transient_storage`. -/
def setTransientStorage (t : TransientStorage) (a : Address) (k v : Word) : TransientStorage :=
  { t with tries := triesSet t.tries a k v }

end Verif
