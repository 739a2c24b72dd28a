import Verif.Spec.Header
/-! The truncated exponential series of EIP-4844 `fake_exponential`. -/
namespace Verif.Spec

/-- Term number `i` of the series for `factor * e ^ (numerator / denominator)`, scaled by the denominator and rounded
down at every step. -/
def expTerm (factor numerator denominator : Nat) : Nat → Nat
  | 0 => factor * denominator
  | i + 1 => expTerm factor numerator denominator i * numerator / (denominator * (i + 1))

/-- The sum of the first `k` terms. -/
def expSum (factor numerator denominator : Nat) : Nat → Nat
  | 0 => 0
  | k + 1 => expSum factor numerator denominator k + expTerm factor numerator denominator k

end Verif.Spec
