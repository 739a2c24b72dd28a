import Verif.Spec.Blob
/-! The loop of `taylor_exponential`. -/
namespace Verif
open Spec

theorem expTerm_step {n d i q a : Nat} (hd : 0 < d) (hn : n < q * d) (hi : 1 ≤ i) : a * n / (d * i) ≤ a * q / i := by
  rw [← Nat.div_div_eq_div_mul]
  apply Nat.div_le_div_right
  calc a * n / d ≤ a * (q * d) / d := Nat.div_le_div_right (Nat.mul_le_mul_left _ (Nat.le_of_lt hn))
    _ = a * q := by rw [← Nat.mul_assoc, Nat.mul_div_cancel _ hd]

theorem taylorLoop_halving {n d q : Nat} (hd : 0 < d) (hn : n < q * d) (k : Nat) :
    ∀ fuel i out acc, 2 * q ≤ i → acc < 2 ^ k → k + 1 ≤ fuel → taylorLoop n d fuel i out acc ≠ none := by
  have hq : 0 < q := Nat.pos_of_ne_zero fun h => by subst h; simp at hn
  induction k with
  | zero =>
    intro fuel i out acc _ ha hf
    obtain ⟨f, rfl⟩ : ∃ f, fuel = f + 1 := ⟨fuel - 1, by omega⟩
    have : acc = 0 := by simpa using ha
    subst this
    rw [taylorLoop, if_neg (by omega)]; simp
  | succ k ih =>
    intro fuel i out acc hi ha hf
    obtain ⟨f, rfl⟩ : ∃ f, fuel = f + 1 := ⟨fuel - 1, by omega⟩
    rw [taylorLoop]
    by_cases h0 : acc > 0
    · rw [if_pos h0]
      refine ih f (i + 1) _ _ (by omega) ?_ (by omega)
      calc acc * n / (d * i) ≤ acc * q / i := expTerm_step hd hn (by omega)
        _ ≤ acc * q / (2 * q) := Nat.div_le_div_left hi (by omega)
        _ = acc / 2 := by rw [Nat.mul_comm 2 q, Nat.mul_comm acc q, Nat.mul_div_mul_left _ _ hq]
        _ < 2 ^ k := by rw [Nat.pow_succ] at ha; omega
    · rw [if_neg h0]; simp

theorem taylorLoop_growing {n d q : Nat} (hd : 0 < d) (hn : n < q * d) (k m : Nat) :
    ∀ fuel i out acc, 1 ≤ i → 2 * q ≤ i + k → acc * q ^ k < 2 ^ m → k + m + 1 ≤ fuel → taylorLoop n d fuel i out acc ≠ none := by
  induction k with
  | zero =>
    intro fuel i out acc _ h2 ha hf
    exact taylorLoop_halving hd hn m fuel i out acc (by omega) (by simpa using ha) (by omega)
  | succ k ih =>
    intro fuel i out acc h1 h2 ha hf
    obtain ⟨f, rfl⟩ : ∃ f, fuel = f + 1 := ⟨fuel - 1, by omega⟩
    rw [taylorLoop]
    by_cases h0 : acc > 0
    · rw [if_pos h0]
      refine ih f (i + 1) _ _ (by omega) (by omega) ?_ (by omega)
      have : acc * n / (d * i) ≤ acc * q := Nat.le_trans (expTerm_step hd hn h1) (Nat.div_le_self _ _)
      calc acc * n / (d * i) * q ^ k ≤ acc * q * q ^ k := Nat.mul_le_mul_right _ this
        _ = acc * q ^ (k + 1) := by rw [Nat.pow_succ, Nat.mul_assoc, Nat.mul_comm q]
        _ < 2 ^ m := ha
    · rw [if_neg h0]; simp

theorem lt_two_pow_log2 (n : Nat) : n < 2 ^ (Nat.log2 n + 1) := Nat.lt_log2_self

/-- The granted fuel suffices. -/
theorem taylorLoop_fuel (factor n d : Nat) (hd : 0 < d) (extra : Nat) :
    taylorLoop n d (taylorFuel factor n d + extra) 1 0 (factor * d) ≠ none := by
  have hn : n < (n / d + 1) * d := by
    have := Nat.lt_div_mul_add hd (a := n); rw [Nat.add_mul]; omega
  unfold taylorFuel
  dsimp only
  generalize n / d + 1 = q at *
  refine taylorLoop_growing hd hn (2 * q) (Nat.log2 (factor * d) + 1 + 2 * q * (Nat.log2 q + 1)) _ 1 0 _ (Nat.le_refl _)
    (by omega) ?_ (by omega)
  rw [Nat.pow_add]
  have h1 := lt_two_pow_log2 (factor * d)
  have h2 : q ^ (2 * q) ≤ 2 ^ (2 * q * (Nat.log2 q + 1)) := by
    rw [Nat.mul_comm (2 * q), Nat.pow_mul 2]
    exact Nat.pow_le_pow_left (Nat.le_of_lt (lt_two_pow_log2 q)) _
  exact Nat.lt_of_lt_of_le (Nat.mul_lt_mul_of_pos_right h1 (Nat.pow_pos (Nat.pos_of_ne_zero fun h => by subst h; simp at hn)))
    (Nat.mul_le_mul_left _ h2)

/-- What the loop computes. -/
theorem taylorLoop_sum (f n d : Nat) : ∀ fuel i r, taylorLoop n d fuel (i + 1) (expSum f n d i) (expTerm f n d i) = some r →
    ∃ k, expTerm f n d k = 0 ∧ r = expSum f n d k := by
  intro fuel
  induction fuel with
  | zero => intro i r h; cases h
  | succ fuel ih =>
    intro i r h
    rw [taylorLoop] at h
    by_cases h0 : expTerm f n d i > 0
    · rw [if_pos h0] at h
      exact ih (i + 1) r h
    · rw [if_neg h0] at h
      exact ⟨i, by omega, (Option.some.inj h).symm⟩

theorem expTerm_zero {f n d k : Nat} (h : expTerm f n d k = 0) (j : Nat) : expTerm f n d (k + j) = 0 := by
  induction j with
  | zero => exact h
  | succ j ih => rw [← Nat.add_assoc, expTerm, ih, Nat.zero_mul, Nat.zero_div]

theorem expSum_stable {f n d k : Nat} (h : expTerm f n d k = 0) (j : Nat) : expSum f n d (k + j) = expSum f n d k := by
  induction j with
  | zero => rfl
  | succ j ih => rw [← Nat.add_assoc, expSum, ih, expTerm_zero h j]; rfl

theorem expTerm_mono (f : Nat) {n n' : Nat} (d : Nat) (h : n ≤ n') (i : Nat) : expTerm f n d i ≤ expTerm f n' d i := by
  induction i with
  | zero => exact Nat.le_refl _
  | succ i ih => exact Nat.div_le_div_right (Nat.mul_le_mul ih h)

theorem expSum_mono (f : Nat) {n n' : Nat} (d : Nat) (h : n ≤ n') (k : Nat) : expSum f n d k ≤ expSum f n' d k := by
  induction k with
  | zero => exact Nat.le_refl _
  | succ k ih => exact Nat.add_le_add ih (expTerm_mono f d h k)

theorem expSum_le (f n d k j : Nat) : expSum f n d k ≤ expSum f n d (k + j) := by
  induction j with
  | zero => exact Nat.le_refl _
  | succ j ih => exact Nat.le_trans ih (Nat.le_add_right _ _)

theorem taylor_eq (f n d : Nat) (hd : 0 < d) :
    ∃ k, expTerm f n d k = 0 ∧ taylorExponential f n d = some (expSum f n d k / d) := by
  unfold taylorExponential
  rw [if_neg (by omega)]
  match h : taylorLoop n d (taylorFuel f n d) 1 0 (f * d) with
  | none => exact absurd h (taylorLoop_fuel f n d hd 0)
  | some r =>
    obtain ⟨k, hk, rfl⟩ := taylorLoop_sum f n d _ 0 r h
    exact ⟨k, hk, rfl⟩

end Verif
