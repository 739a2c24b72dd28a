import Verif.Model.Fork
namespace Verif.Spec

/-- The amount of a withdrawal in Wei; the field is in Gwei. -/
@[irreducible] def wei (w : Withdrawal) : Nat := 1000000000 * w.amount.toNat

/-- The Wei credited to an account by a list of withdrawals. -/
def credited (ws : List Withdrawal) (a : Address) : Nat :=
  match ws with
  | [] => 0
  | w :: r => (if w.address = a then wei w else 0) + credited r a

/-- What a list of withdrawals does to the accounts of a state. -/
structure Credited (s s' : State) (ws : List Withdrawal) : Prop where
  balances : ∀ a, (getAccount s' a).balance.toNat = (getAccount s a).balance.toNat + credited ws a
  nonces : ∀ a, (getAccount s' a).nonce = (getAccount s a).nonce
  codes : ∀ a, (getAccount s' a).code = (getAccount s a).code
  others : ∀ a, (∀ w ∈ ws, w.address ≠ a) →
    getAccountOptional s' a = getAccountOptional s a ∧ ∀ k, getStorage s' a k = getStorage s a k
  storage : ∀ a, getAccount s a ≠ emptyAccount → ∀ k, getStorage s' a k = getStorage s a k
  transient : s'.snapshots = s.snapshots ∧ s'.createdAccounts = s.createdAccounts

end Verif.Spec
