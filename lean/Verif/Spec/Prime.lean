import Mathlib.Data.Nat.Prime.Defs
/-! The largest prime below a bound. -/
namespace Verif.Spec

/-- `p` is the largest prime number below `n`. -/
def LargestPrimeBelow (p n : Nat) : Prop := Nat.Prime p ∧ p < n ∧ ∀ q, Nat.Prime q → q < n → q ≤ p

end Verif.Spec
