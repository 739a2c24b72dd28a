import Verif.Lemmas.Blob
import Verif.Lemmas.Header
import Verif.Lemmas.SampleBlock
/-! C32: blob pricing. -/
namespace Verif
open Spec

/-- C32: for every factor, numerator and positive denominator the exponential ends, and it is the sum of the series up
to (any index from) its first zero term, divided by the denominator. -/
theorem C32_exponential (factor numerator denominator : Nat) (hd : 0 < denominator) :
    (∃ k, expTerm factor numerator denominator k = 0) ∧
    ∀ k, expTerm factor numerator denominator k = 0 →
      taylorExponential factor numerator denominator = some (expSum factor numerator denominator k / denominator) := by
  obtain ⟨k, hk, h⟩ := taylor_eq factor numerator denominator hd
  refine ⟨⟨k, hk⟩, fun k' hk' => ?_⟩
  rw [h]
  rcases Nat.le_total k k' with hle | hle
  · rw [← Nat.add_sub_cancel' hle, expSum_stable hk]
  · rw [← Nat.add_sub_cancel' hle, expSum_stable hk']

/-- C32: the loop of the exponential ends by itself: more fuel than the model grants makes no difference. -/
theorem C32_fuel (factor numerator denominator : Nat) (hd : 0 < denominator) (extra : Nat) :
    (taylorLoop numerator denominator (taylorFuel factor numerator denominator + extra) 1 0 (factor * denominator)).isSome := by
  rw [Option.isSome_iff_ne_none]; exact taylorLoop_fuel factor numerator denominator hd extra

/-- C32: it is at least the factor, and grows with the numerator. -/
theorem C32_lower_bound_monotone (factor n n' denominator : Nat) (hd : 0 < denominator) (hn : n ≤ n') :
    ∃ r r', taylorExponential factor n denominator = some r ∧ taylorExponential factor n' denominator = some r' ∧
      factor ≤ r ∧ r ≤ r' := by
  obtain ⟨k, hk, h⟩ := taylor_eq factor n denominator hd
  obtain ⟨k', hk', h'⟩ := taylor_eq factor n' denominator hd
  refine ⟨_, _, h, h', ?_, ?_⟩
  · apply (Nat.le_div_iff_mul_le hd).mpr
    have := expSum_stable hk 1
    have h2 := expSum_le factor n denominator 1 k
    rw [Nat.add_comm 1 k, this] at h2
    simpa [expSum, expTerm] using h2
  · apply Nat.div_le_div_right
    rw [← expSum_stable hk k', ← expSum_stable hk' k, Nat.add_comm k' k]
    exact expSum_mono factor denominator hn _

example : taylorExponential 1 20000000 5007716 = some 54 := by decide +kernel

/-- C32: in every fork the price of blob gas is at least 1 and does not fall when the excess grows. -/
theorem C32_price (f : Fork) (e e' : U64) (h : e.toNat ≤ e'.toNat) :
    1 ≤ calculateBlobGasPrice f e ∧ calculateBlobGasPrice f e ≤ calculateBlobGasPrice f e' := by
  obtain ⟨r, r', h1, h2, h3, h4⟩ := C32_lower_bound_monotone MIN_BLOB_GASPRICE e.toNat e'.toNat (blobBaseFeeUpdateFraction f)
    (by unfold blobBaseFeeUpdateFraction; split <;> decide) h
  unfold calculateBlobGasPrice
  rw [h1, h2]
  exact ⟨h3, h4⟩

/-- C32: the price of blob gas is the exponential of the excess, in units of 5007716 since prague and of 3338477 in cancun: the sum of
the series, up to any zero term, divided by the unit. -/
theorem C32_price_exact (f : Fork) (e : U64) :
    let unit := if f.since .prague then 5007716 else 3338477
    (∃ k, expTerm 1 e.toNat unit k = 0) ∧
    ∀ k, expTerm 1 e.toNat unit k = 0 → calculateBlobGasPrice f e = expSum 1 e.toNat unit k / unit := by
  intro unit
  have hu : blobBaseFeeUpdateFraction f = unit := rfl
  obtain ⟨h1, h2⟩ := C32_exponential 1 e.toNat unit (by show 0 < ite _ _ _; split <;> decide)
  refine ⟨h1, fun k hk => ?_⟩
  unfold calculateBlobGasPrice
  rw [hu, show MIN_BLOB_GASPRICE = 1 from rfl, h2 k hk]; rfl

example : expTerm 1 20000000 5007716 28 = 0 := by decide +kernel
example : calculateBlobGasPrice .prague 20000000 = 54 ∧ calculateBlobGasPrice .cancun 20000000 = 399 := by decide +kernel

/-- C32: the excess follows the update rule and nothing underflows. (It can only overflow 64 bits.) -/
theorem C32_excess_rule (f pf : Fork) (parent : Header) (h : pf = f → BlobGasInRange parent) :
    calculateExcessBlobGas f (decide (pf = f)) parent = .ok (requiredExcessBlobGas f pf parent) := excess_eq h

example : BlobGasInRange { sampleParent with excessBlobGas := 5000000, blobGasUsed := 1179648 } := by
  unfold BlobGasInRange; decide

/-- C32: what the rule means: below the target there is no excess; otherwise the excess loses at most the target and
never gains more than the blob gas used. Since prague the target is 6 blobs and a block has at most 9; in cancun the numbers are
3 and 6. -/
theorem C32_excess_bounds (f : Fork) (price excess used baseFee : Nat) :
    let next := nextExcessBlobGas f price excess used baseFee
    let target := if f.since .prague then 786432 else 393216
    let most := if f.since .prague then 1179648 else 786432
    (excess + used < target → next = 0) ∧ next ≤ excess + used ∧
    (used ≤ most → excess ≤ next + target ∧ next ≤ excess + 393216) := by
  have ho : f.since .osaka = true → f.since .prague = true := by cases f <;> decide
  intro next target most
  simp only [next, target, most, nextExcessBlobGas]
  by_cases hp : f.since .prague = true
  · simp only [hp, if_true]
    refine ⟨fun h => if_pos (by omega), ?_, fun h => ?_⟩
    · repeat' split
      all_goals omega
    · repeat' split
      all_goals omega
  · have h2 : ¬ f.since .osaka = true := fun h => hp (ho h)
    simp only [hp, h2, false_and, if_false, Bool.false_eq_true]
    refine ⟨fun h => if_pos (by omega), ?_, fun h => ?_⟩
    · repeat' split
      all_goals omega
    · repeat' split
      all_goals omega

end Verif
