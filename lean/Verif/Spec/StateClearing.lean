import Verif.Model.State
/-! What EIP-161 forbids: accounts that exist although there is nothing in them. -/
namespace Verif.Spec

/-- The account exists, with nonce 0, balance 0 and no code. -/
def Hollow (s : State) (a : Address) : Prop :=
  ∃ acc, getAccountOptional s a = some acc ∧ acc.nonce = 0 ∧ acc.balance = 0 ∧ acc.code = []

end Verif.Spec
