import Verif.Model.Ethash
import Verif.Lemmas.Numeric
import Verif.Lemmas.Memory
import Verif.Lemmas.Blob
import Verif.Spec.Prime
/-! C51: the sizes of the ethash cache and dataset. C52: numeric helpers. -/
namespace Verif
open Spec Ethash

/-- **C52.** `ceil32` is the least multiple of 32 that is at least its argument. -/
theorem C52_ceil32 (n : Nat) : 32 ∣ ceil32 n ∧ n ≤ ceil32 n ∧ ∀ m, 32 ∣ m → n ≤ m → ceil32 n ≤ m := by
  unfold ceil32
  dsimp only
  split <;> refine ⟨by omega, by omega, fun m h1 h2 => by omega⟩

/-- **C52.** `get_sign` is the signum. -/
theorem C52_sign (x : Int) : getSign x = x.sign := by
  unfold getSign
  rcases Int.lt_trichotomy x 0 with h | h | h
  · rw [if_pos h, Int.sign_eq_neg_one_of_neg h]
  · subst h; rfl
  · rw [if_neg (by omega), if_neg (by omega), Int.sign_eq_one_of_pos h]

/-- **C52.** `is_prime` recognises exactly the primes. -/
theorem C52_prime (n : Nat) : isPrime n = true ↔ Nat.Prime n := isPrime_iff n

/-- **C52.** The conversions between bytes and 32-bit numbers are inverse to each other (for whole groups of four bytes). -/
theorem C52_words (ws : List U32) : leWords (leWordsToBytes ws) = ws ∧ (leWordsToBytes ws).length = 4 * ws.length :=
  ⟨leWords_leWordsToBytes ws, leWordsToBytes_length ws⟩

/-- **C52.** The same in the other direction. -/
theorem C52_bytes (b : Bytes) (h : 4 ∣ b.length) : leWordsToBytes (leWords b) = b ∧ 4 * (leWords b).length = b.length := by
  obtain ⟨n, hn⟩ := h
  exact ⟨leWordsToBytes_leWords n b hn, by rw [leWords_length n b hn, hn]⟩

example : (4 : Nat) ∣ ([8, 0, 0, 0, 255, 1, 0, 2] : Bytes).length ∧
    leWords [8, 0, 0, 0, 255, 1, 0, 2] = [8, 33554943] := by decide

private theorem sum_mul_left {α : Type} (c : Nat) (f : α → Nat) (l : List α) : c * (l.map f).sum = (l.map fun x => c * f x).sum := by
  induction l with
  | nil => rfl
  | cons a r ih => simp only [List.map_cons, List.sum_cons, Nat.mul_add, ih]

/-- **C52.** The number made of a sequence of 32-bit numbers is the sum of their values, the `i`-th times `2 ^ (32 i)`. -/
theorem C52_number (ws : List U32) :
    leWordsToNat ws = ((List.range ws.length).map fun i => 2 ^ (32 * i) * (ws.getD i 0).toNat).sum := by
  induction ws with
  | nil => rfl
  | cons w r ih =>
    rw [leWordsToNat_cons, ih, List.length_cons, List.range_succ_eq_map, List.map_cons, List.sum_cons, List.map_map]
    rw [sum_mul_left]
    refine congrArg₂ (· + ·) (by simp) (congrArg List.sum (List.map_congr_left fun i _ => ?_))
    simp only [Function.comp, List.getD_cons_succ]
    rw [← Nat.mul_assoc, ← Nat.pow_add, Nat.mul_succ, Nat.add_comm 32]

example : leWordsToNat [5, 7, 1] = 5 + 7 * 2 ^ 32 + 2 ^ 64 := by decide +kernel

/-- **C52.** Different sequences of the same length give different numbers. -/
theorem C52_number_injective (ws vs : List U32) (hl : ws.length = vs.length) (h : leWordsToNat ws = leWordsToNat vs) :
    ws = vs := by
  induction ws generalizing vs with
  | nil => exact (List.eq_nil_of_length_eq_zero hl.symm).symm
  | cons w r ih =>
    match vs, hl with
    | v :: s, hl =>
      rw [leWordsToNat_cons, leWordsToNat_cons] at h
      have h1 := w.isLt; have h2 := v.isLt
      have e1 : w = v := BitVec.eq_of_toNat_eq (by omega)
      rw [e1, ih s (by simpa using hl) (by omega)]

/-- **C52.** The exponential is the truncated series divided by the denominator (see C32 for `expTerm`, `expSum`). -/
theorem C52_exponential (factor numerator denominator : Nat) (hd : 0 < denominator) :
    ∃ k, expTerm factor numerator denominator k = 0 ∧
      taylorExponential factor numerator denominator = some (expSum factor numerator denominator k / denominator) :=
  taylor_eq factor numerator denominator hd

private theorem shrink_odd (unit : Nat) (hu : 0 < unit) : ∀ k steps, 1 ≤ k → k < steps →
    ∃ p, shrink unit steps (unit * (2 * k + 1)) = some (unit * p) ∧ LargestPrimeBelow p (2 * k + 2) := by
  intro k
  induction k with
  | zero => omega
  | succ k ih =>
    intro steps _ hs
    match steps, hs with
    | steps + 1, hs =>
      unfold shrink
      rw [Nat.mul_div_cancel_left _ hu]
      by_cases hp : isPrime (2 * (k + 1) + 1) = true
      · rw [if_pos hp]
        exact ⟨_, rfl, (isPrime_iff _).mp hp, by omega, fun q _ hq => by omega⟩
      · rw [if_neg hp]
        have hk : 1 ≤ k := by
          rcases Nat.eq_zero_or_pos k with h0 | h0
          · subst h0; exact absurd (by decide +kernel) hp
          · exact h0
        have e : unit * (2 * (k + 1) + 1) - 2 * unit = unit * (2 * k + 1) := by
          rw [Nat.mul_comm 2 unit, ← Nat.mul_sub]; congr 1
        rw [if_neg (by rw [Nat.mul_comm 2 unit]; exact Nat.not_lt.mpr (Nat.mul_le_mul_left _ (by omega))), e]
        obtain ⟨p, h1, h2, h3, h4⟩ := ih steps hk (by omega)
        refine ⟨p, h1, h2, by omega, fun q hq hlt => ?_⟩
        apply h4 q hq
        have ne1 : q ≠ 2 * (k + 1) + 1 := fun h => hp ((isPrime_iff _).mpr (h ▸ hq))
        have ne2 : q ≠ 2 * k + 2 := by
          intro h
          have := (Nat.prime_dvd_prime_iff_eq Nat.prime_two hq).mp ⟨k + 1, by omega⟩
          omega
        omega

/-- **C51.** For every block the cache size is 64 times the largest prime below the linearly growing number of rows; in
particular the search for it ends. -/
theorem C51_cache (blockNumber : Nat) :
    ∃ p, cacheSize blockNumber = some (64 * p) ∧ LargestPrimeBelow p ((2 ^ 24 + 2 ^ 17 * (blockNumber / 30000)) / 64) := by
  have hL : (2 ^ 24 + 2 ^ 17 * (blockNumber / 30000)) / 64 = 2 * (2 ^ 17 + 2 ^ 10 * (blockNumber / 30000) - 1) + 2 := by omega
  obtain ⟨p, h1, h2⟩ := shrink_odd 64 (by decide) (2 ^ 17 + 2 ^ 10 * (blockNumber / 30000) - 1)
    (2 ^ 24 + 2 ^ 17 * (blockNumber / 30000) - 64) (by omega) (by omega)
  refine ⟨p, ?_, by rw [hL]; exact h2⟩
  have e : 64 * (2 * (2 ^ 17 + 2 ^ 10 * (blockNumber / 30000) - 1) + 1) = 2 ^ 24 + 2 ^ 17 * (blockNumber / 30000) - 64 := by omega
  rw [e] at h1
  exact h1

/-- **C51.** The dataset size is 128 times the largest prime below the linearly growing number of rows. -/
theorem C51_dataset (blockNumber : Nat) :
    ∃ p, datasetSize blockNumber = some (128 * p) ∧ LargestPrimeBelow p ((2 ^ 30 + 2 ^ 23 * (blockNumber / 30000)) / 128) := by
  have hL : (2 ^ 30 + 2 ^ 23 * (blockNumber / 30000)) / 128 = 2 * (2 ^ 22 + 2 ^ 15 * (blockNumber / 30000) - 1) + 2 := by omega
  obtain ⟨p, h1, h2⟩ := shrink_odd 128 (by decide) (2 ^ 22 + 2 ^ 15 * (blockNumber / 30000) - 1)
    (2 ^ 30 + 2 ^ 23 * (blockNumber / 30000) - 128) (by omega) (by omega)
  refine ⟨p, ?_, by rw [hL]; exact h2⟩
  have e : 128 * (2 * (2 ^ 22 + 2 ^ 15 * (blockNumber / 30000) - 1) + 1) = 2 ^ 30 + 2 ^ 23 * (blockNumber / 30000) - 128 := by omega
  rw [e] at h1
  exact h1

/-- **C51.** More steps than the model grants to the search make no difference. -/
theorem C51_steps (unit size steps extra : Nat) (r : Nat) (h : shrink unit steps size = some r) :
    shrink unit (steps + extra) size = some r := by
  induction steps generalizing size with
  | zero => simp [shrink] at h
  | succ n ih =>
    rw [Nat.add_right_comm]
    unfold shrink at h ⊢
    split
    · rename_i hp; rwa [if_pos hp] at h
    · rename_i hp
      rw [if_neg hp] at h
      split
      · rename_i hl; rwa [if_pos hl] at h
      · rename_i hl; rw [if_neg hl] at h; exact ih _ h

/-- **C51.** Both sizes are the same for all blocks of an epoch (30000 blocks) and never shrink. -/
theorem C51_monotone (m n : Nat) (h : m / 30000 ≤ n / 30000) :
    ∃ c c' d d', cacheSize m = some c ∧ cacheSize n = some c' ∧ datasetSize m = some d ∧ datasetSize n = some d' ∧
      c ≤ c' ∧ d ≤ d' ∧ (m / 30000 = n / 30000 → c = c' ∧ d = d') := by
  obtain ⟨p, h1, hp1, hp2, hp3⟩ := C51_cache m
  obtain ⟨p', h1', hp1', hp2', hp3'⟩ := C51_cache n
  obtain ⟨q, h2, hq1, hq2, hq3⟩ := C51_dataset m
  obtain ⟨q', h2', hq1', hq2', hq3'⟩ := C51_dataset n
  refine ⟨_, _, _, _, h1, h1', h2, h2', ?_, ?_, fun e => ?_⟩
  · have := hp3' p hp1 (Nat.lt_of_lt_of_le hp2 (by omega)); omega
  · have := hq3' q hq1 (Nat.lt_of_lt_of_le hq2 (by omega)); omega
  · have e1 : cacheSize m = cacheSize n := by unfold cacheSize epoch EPOCH_SIZE; rw [e]
    have e2 : datasetSize m = datasetSize n := by unfold datasetSize epoch EPOCH_SIZE; rw [e]
    rw [h1, h1'] at e1; rw [h2, h2'] at e2
    exact ⟨Option.some.inj e1, Option.some.inj e2⟩

/-- The published sizes of the first two epochs. -/
example : cacheSize 0 = some 16776896 ∧ cacheSize 29999 = some 16776896 ∧ cacheSize 30000 = some 16907456 ∧
    datasetSize 0 = some 1073739904 ∧ datasetSize 30000 = some 1082130304 := by decide +kernel

end Verif
