import Verif.Model.Interpreter
/-! What a message given to `process_message_call` looks like. -/
namespace Verif.Spec

/-- A message as `prepare_message` (osaka/utils/message.py:27-90) and the system transactions build it, and a world
between transactions: nothing to roll back to, nothing created. There are no enclosing frames. Calls have the code of the account they are sent to. -/
structure TopMessage (msg : Message) (w : World) : Prop where
  depth : msg.depth = 0
  static : msg.isStatic = false
  snapshots : w.state.snapshots = [] ∧ w.transient.snapshots = []
  created : w.state.createdAccounts = []
  call : ∀ t, msg.target = some t →
    msg.currentTarget = t ∧ msg.codeAddress = some t ∧ msg.code = (getAccount w.state t).code
  parents : msg.parentsToDelete = []

/-- The refund, the message and the state after the authorizations of the transaction were applied
(osaka/vm/interpreter.py:121-127); they are applied by calls only, and since prague. -/
def authorized (E : Env) (msg : Message) (w : World) : Except Crash (Word × Message × State) :=
  match msg.target with
  | none => .ok (0, msg, w.state)
  | some _ =>
    if w.state.fork.since .prague = true ∧ E.tx.authorizations ≠ [] then setDelegation E msg w.state else .ok (0, msg, w.state)

/-- A creation at an address that is taken. -/
def Collides (msg : Message) (w : World) : Prop :=
  msg.target = none ∧ (accountHasCodeOrNonce w.state msg.currentTarget = true ∨
    accountHasStorage w.state msg.currentTarget = true)

/-- The accounts touched by a top-level message: those of its frame, and the target of a call if it is empty at the end. -/
def topTouched (msg : Message) (w' : World) (child : Evm) : List Address :=
  match msg.target with
  | none => child.touchedAccounts
  | some t => touchedIfEmpty w'.state t child.touchedAccounts

end Verif.Spec
