import Verif.Model.State
import Verif.Model.OptState
/-!
Specification vocabulary for C43: an arbitrary user of the state interface, run on the reference state and on the
optimized state.
-/
namespace Verif

/-- A program that uses the state interface: it reads, and what it does next may depend on every answer; it writes,
and opens, commits and rolls back transactions in any order. At the end it returns a result. -/
inductive Client (α : Type) where
  | done (r : α)
  | readAccount (a : Address) (next : Option Account → Client α)
  | readStorage (a : Address) (k : Word) (next : Word → Client α)
  | readOriginal (a : Address) (k : Word) (next : Word → Client α)
  | readTransient (a : Address) (k : Word) (next : Word → Client α)
  | setAccount (a : Address) (acc : Option Account) (next : Client α)
  | setStorage (a : Address) (k v : Word) (next : Client α)
  | destroyStorage (a : Address) (next : Client α)
  | markCreated (a : Address) (next : Client α)
  | setTransient (a : Address) (k v : Word) (next : Client α)
  | begin_ (next : Client α)
  | commit (next : Client α)
  | rollback (next : Client α)

/-- Run a client on the reference state. -/
def Client.onReference {α : Type} : Client α → World → Except Crash (α × World)
  | .done r, w => .ok (r, w)
  | .readAccount a next, w => (next (getAccountOptional w.state a)).onReference w
  | .readStorage a k next, w => (next (getStorage w.state a k)).onReference w
  | .readOriginal a k next, w =>
    match getStorageOriginal w.state a k with
    | .error c => .error c
    | .ok v => (next v).onReference w
  | .readTransient a k next, w => (next (getTransientStorage w.transient a k)).onReference w
  | .setAccount a acc next, w => next.onReference { w with state := Verif.setAccount w.state a acc }
  | .setStorage a k v next, w =>
    match Verif.setStorage w.state a k v with
    | .error c => .error c
    | .ok s => next.onReference { w with state := s }
  | .destroyStorage a next, w => next.onReference { w with state := Verif.destroyStorage w.state a }
  | .markCreated a next, w => next.onReference { w with state := markAccountCreated w.state a }
  | .setTransient a k v next, w => next.onReference { w with transient := setTransientStorage w.transient a k v }
  | .begin_ next, w => next.onReference (beginTransaction w)
  | .commit next, w =>
    match commitTransaction w with
    | .error c => .error c
    | .ok w' => next.onReference w'
  | .rollback next, w =>
    match rollbackTransaction w with
    | .error c => .error c
    | .ok w' => next.onReference w'

/-- Run a client on the optimized state. -/
def Client.onOptimized {α : Type} : Client α → Opt.OptWorld → Except Crash (α × Opt.OptWorld)
  | .done r, w => .ok (r, w)
  | .readAccount a next, w => (next (Opt.getAccountOptional w.state a)).onOptimized w
  | .readStorage a k next, w => (next (Opt.getStorage w.state a k)).onOptimized w
  | .readOriginal a k next, w => (next (Opt.getStorageOriginal w.state a k)).onOptimized w
  | .readTransient a k next, w => (next (getTransientStorage w.transient a k)).onOptimized w
  | .setAccount a acc next, w => next.onOptimized { w with state := Opt.setAccount w.state a acc }
  | .setStorage a k v next, w => next.onOptimized { w with state := Opt.setStorage w.state a k v }
  | .destroyStorage a next, w => next.onOptimized { w with state := Opt.destroyStorage w.state a }
  | .markCreated a next, w => next.onOptimized { w with state := Opt.markAccountCreated w.state a }
  | .setTransient a k v next, w => next.onOptimized { w with transient := setTransientStorage w.transient a k v }
  | .begin_ next, w =>
    match Opt.beginTransaction w with
    | .error c => .error c
    | .ok w' => next.onOptimized w'
  | .commit next, w =>
    match Opt.commitTransaction w with
    | .error c => .error c
    | .ok w' => next.onOptimized w'
  | .rollback next, w =>
    match Opt.rollbackTransaction w with
    | .error c => .error c
    | .ok w' => next.onOptimized w'

/-- The two kinds of call that matter to `Client.Careful`. -/
inductive Touch where
  | write (a : Address)
  | destroy (a : Address)

/-- The client never destroys the storage of an address, writes to it and destroys it again in one outermost
transaction. `h` lists the writes and destructions since the outermost transaction began, the newest first, whether
they were rolled back or not. Outside transactions everything is allowed. -/
def Client.Careful {α : Type} : Client α → World → List Touch → Prop
  | .done _, _, _ => True
  | .readAccount a next, w, h => (next (getAccountOptional w.state a)).Careful w h
  | .readStorage a k next, w, h => (next (getStorage w.state a k)).Careful w h
  | .readOriginal a k next, w, h => ∀ v, getStorageOriginal w.state a k = .ok v → (next v).Careful w h
  | .readTransient a k next, w, h => (next (getTransientStorage w.transient a k)).Careful w h
  | .setAccount a acc next, w, h => next.Careful { w with state := Verif.setAccount w.state a acc } h
  | .setStorage a k v next, w, h =>
    ∀ s, Verif.setStorage w.state a k v = .ok s → next.Careful { w with state := s } (.write a :: h)
  | .destroyStorage a next, w, h =>
    (w.state.snapshots ≠ [] → ¬ [Touch.write a, .destroy a].Sublist h) ∧
      next.Careful { w with state := Verif.destroyStorage w.state a } (.destroy a :: h)
  | .markCreated a next, w, h => next.Careful { w with state := markAccountCreated w.state a } h
  | .setTransient a k v next, w, h =>
    next.Careful { w with transient := setTransientStorage w.transient a k v } h
  | .begin_ next, w, h => next.Careful (beginTransaction w) (if w.state.snapshots = [] then [] else h)
  | .commit next, w, h => ∀ w', commitTransaction w = .ok w' → next.Careful w' h
  | .rollback next, w, h => ∀ w', rollbackTransaction w = .ok w' → next.Careful w' h

/-- The two states answer every read alike; `get_storage_original` is compared where the reference state answers
(outside transactions it raises). -/
def SameAnswers (w : World) (o : Opt.OptWorld) : Prop :=
  (∀ a, Opt.getAccountOptional o.state a = getAccountOptional w.state a) ∧
  (∀ a k, Opt.getStorage o.state a k = getStorage w.state a k) ∧
  (∀ a k v, getStorageOriginal w.state a k = .ok v → Opt.getStorageOriginal o.state a k = v) ∧
  o.transient = w.transient

/-- The database holds exactly the accounts and the storage of the reference state. -/
def DbHolds (db : Opt.Db) (s : State) : Prop :=
  (∀ a, db.account a = getAccountOptional s a) ∧ (∀ a k, db.storage a k = getStorage s a k)

end Verif
