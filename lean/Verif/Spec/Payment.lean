import Verif.Spec.TxOutcome
import Verif.Spec.ForkRules
/-! The account book of a transaction that runs no code, or whose code fails. -/
namespace Verif.Spec

/-- What changes from `s` to `s'` when `sender` hands `moved` wei to `recipient` (nobody, if none is given) in a transaction that is
charged for `used` units of gas: nothing but this. -/
structure Booked (B : BlockEnv) (tx : Transaction) (sender : Address) (recipient : Option Address) (moved used : Nat) (s s' : State) :
    Prop where
  /-- The sender pays the amount, the gas and the blobs; the recipient gets the amount, the producer of the block the tip. They may be
  the same account. -/
  balance : ∀ a, (getAccount s' a).balance.toNat + (if a = sender then moved + used * price B.baseFeePerGas tx + blobFee s.fork B tx else 0) =
    (getAccount s a).balance.toNat + (if recipient = some a then moved else 0) + (if a = B.coinbase then used * tip B.baseFeePerGas tx else 0)
  nonce : ∀ a, (getAccount s' a).nonce = (getAccount s a).nonce + (if a = sender then 1 else 0)
  code : ∀ a, (getAccount s' a).code = (getAccount s a).code
  /-- (An account that is empty in the end may have been deleted, with what was stored under its address.) -/
  storage : ∀ a k, getAccount s' a ≠ emptyAccount → getStorage s' a k = getStorage s a k

/-- Calling `a` in a transaction runs no code: there is none and `a` is no precompiled contract; or `a` delegates (EIP-7702) to an
account without code, or to a precompiled contract, which is not run then. -/
def Inert (s : State) (a : Address) : Prop :=
  match delegateOf s a with
  | none => (getAccount s a).code = [] ∧ ¬ HasPrecompile s.fork a.toNat
  | some d => (getAccount s d).code = [] ∨ HasPrecompile s.fork d.toNat

end Verif.Spec
