import Verif.Model.State
/-!
Specification vocabulary for C01-C05: arbitrary well-nested sequences of calls to the public functions of
osaka/state.py, and what a client can observe of the stores.
-/
namespace Verif

/-- A call to one of the mutating functions of osaka/state.py (`modify_state` with an arbitrary callback included). -/
inductive StateOp where
  | setAccount (a : Address) (acc : Option Account)
  | setStorage (a : Address) (k v : Word)
  | destroyStorage (a : Address)
  | destroyAccount (a : Address)
  | markCreated (a : Address)
  | modify (a : Address) (f : Account → Except Crash Account)
  | moveEther (sender recipient : Address) (amount : Word)
  | setBalance (a : Address) (v : Word)
  | incrementNonce (a : Address)
  | setCode (a : Address) (code : Bytes)
  | setTransient (a : Address) (k v : Word)

/-- Put an updated state back into the world. -/
def World.withState (w : World) (s : State) : World := { w with state := s }

/-- Execute one call; a Python error stops everything. -/
def StateOp.exec : StateOp → World → Except Crash World
  | .setAccount a acc, w => .ok (w.withState (Verif.setAccount w.state a acc))
  | .setStorage a k v, w => (Verif.setStorage w.state a k v).map w.withState
  | .destroyStorage a, w => .ok (w.withState (Verif.destroyStorage w.state a))
  | .destroyAccount a, w => .ok (w.withState (Verif.destroyAccount w.state a))
  | .markCreated a, w => .ok (w.withState (markAccountCreated w.state a))
  | .modify a f, w => (modifyState w.state a f).map w.withState
  | .moveEther x y v, w => (Verif.moveEther w.state x y v).map w.withState
  | .setBalance a v, w => .ok (w.withState (setAccountBalance w.state a v))
  | .incrementNonce a, w => .ok (w.withState (Verif.incrementNonce w.state a))
  | .setCode a c, w => .ok (w.withState (Verif.setCode w.state a c))
  | .setTransient a k v, w => .ok { w with transient := setTransientStorage w.transient a k v }

/-- Well-nested sequences: single calls, and blocks `begin_transaction; body; commit_transaction` or
`begin_transaction; body; rollback_transaction`, to any depth and length. -/
inductive Prog where
  | done
  | op (o : StateOp) (rest : Prog)
  | committed (body rest : Prog)
  | rolledBack (body rest : Prog)

/-- Run a well-nested sequence. -/
def Prog.exec : Prog → World → Except Crash World
  | .done, w => .ok w
  | .op o rest, w =>
    match o.exec w with
    | .error c => .error c
    | .ok w' => rest.exec w'
  | .committed body rest, w =>
    match body.exec (beginTransaction w) with
    | .error c => .error c
    | .ok w1 =>
      match commitTransaction w1 with
      | .error c => .error c
      | .ok w2 => rest.exec w2
  | .rolledBack body rest, w =>
    match body.exec (beginTransaction w) with
    | .error c => .error c
    | .ok w1 =>
      match rollbackTransaction w1 with
      | .error c => .error c
      | .ok w2 => rest.exec w2

/-- The addresses a sequence marks as created, wherever in the nesting the call is made. -/
def Prog.marks : Prog → List Address
  | .done => []
  | .op (.markCreated a) rest => a :: rest.marks
  | .op _ rest => rest.marks
  | .committed body rest => body.marks ++ rest.marks
  | .rolledBack body rest => body.marks ++ rest.marks

/-- Two worlds answer every read alike. -/
def SameReads (w w' : World) : Prop :=
  (∀ a, getAccountOptional w.state a = getAccountOptional w'.state a) ∧
  (∀ a k, getStorage w.state a k = getStorage w'.state a k) ∧
  (∀ a k, getTransientStorage w.transient a k = getTransientStorage w'.transient a k)

/-- Two pairs of stores that hold the same, an account that does not exist counting as an empty one. -/
def SameValues (w w' : World) : Prop :=
  (∀ a, getAccount w.state a = getAccount w'.state a) ∧
  (∀ a k, getStorage w.state a k = getStorage w'.state a k) ∧
  (∀ a k, getTransientStorage w.transient a k = getTransientStorage w'.transient a k)

/-- What code that may change nothing leaves behind: every account, slot and transient slot holds the same. Since paris every read is
alike; before, an account that does not exist may have come into existence, empty, by being called. -/
structure StaticReads (w w' : World) : Prop where
  fork : w.state.fork = w'.state.fork
  values : SameValues w w'
  reads : w'.state.fork.since .paris = true → SameReads w w'

/-- Nesting level of the two stores. -/
def nesting (w : World) : Nat × Nat := (w.state.snapshots.length, w.transient.snapshots.length)

end Verif
