import Verif.Model.Pow
import Verif.Spec.Difficulty
/-! C46: the block difficulty of the proof-of-work forks. -/
namespace Verif
open Pow Spec

/-- Which rule each fork has. -/
def difficultyRule : PowFork → DifficultyRule
  | .frontier => .original
  | .homestead | .daoFork | .tangerineWhistle | .spuriousDragon => .eip2
  | _ => .eip100

/-- By how many blocks each fork delays the bomb. -/
def bombDelays : PowFork → Nat
  | .frontier | .homestead | .daoFork | .tangerineWhistle | .spuriousDragon => 0
  | .byzantium => 3000000
  | .constantinople | .istanbul => 5000000
  | .muirGlacier | .berlin => 9000000
  | .london => 9700000
  | .arrowGlacier => 10700000
  | .grayGlacier => 11400000

private theorem fdiv_eq (a : Int) : Int.fdiv a 100000 = a / 100000 := Int.fdiv_eq_ediv_of_nonneg _ (by omega)

theorem bombTerm_early (F : PowFork) (n : Nat) (h : n < bombDelay F + 200000) : bombTerm F n = 0 := by
  unfold bombTerm
  dsimp only
  rw [fdiv_eq, if_neg (by omega)]

theorem bombTerm_late (F : PowFork) (n k : Nat) (h1 : bombDelay F + 200000 + 100000 * k ≤ n)
    (h2 : n < bombDelay F + 200000 + 100000 * k + 100000) : bombTerm F n = (2 ^ k : Nat) := by
  unfold bombTerm
  dsimp only
  rw [fdiv_eq, if_pos (by omega)]
  rw [show ((n : Int) - bombDelay F) / 100000 - 2 = k by omega]
  simp

private theorem delays_eq (F : PowFork) : bombDelays F = bombDelay F := by cases F <;> rfl

theorem bombTerm_spec (F : PowFork) (n : Nat) : ∃ b : Nat, bombTerm F n = b ∧ bomb (bombDelays F) n b := by
  rw [delays_eq]
  by_cases h : n < bombDelay F + 200000
  · exact ⟨0, bombTerm_early F n h, fun _ => rfl, fun k h1 _ => absurd h1 (by omega)⟩
  · let k := (n - (bombDelay F + 200000)) / 100000
    refine ⟨2 ^ k, bombTerm_late F n k (by omega) (by omega), fun h' => absurd h' h, fun k' h1 h2 => ?_⟩
    rw [show k' = k by omega]

/-- **C46.** The difficulty of a block mined after its parent is exactly the documented one: the parent's, moved by the number of
steps the rule of the fork gives for the seconds passed, plus the bomb as delayed by the fork, and no less than 131072.
(In frontier the parent's timestamp must be at most 2^256 - 14, or the addition of 13 overflows.) -/
theorem C46_difficulty (F : PowFork) (n : Nat) (ts pts : Word) (p : Nat) (om : Bool) (h : pts < ts)
    (hf : F = .frontier → pts.toNat + 13 < 2 ^ 256) :
    ∃ (k : Int) (b d : Nat), steps (difficultyRule F) (ts.toNat - pts.toNat) om k ∧ bomb (bombDelays F) n b ∧
      (d : Int) = max (p + k * (p / 2048 : Nat) + b) 131072 ∧
      calculateBlockDifficulty F n ts pts p om = some d := by
  have hlt : pts.toNat < ts.toNat := h
  obtain ⟨b, hb, hs⟩ := bombTerm_spec F n
  by_cases e : F = .frontier
  · have hov := hf e
    subst e
    by_cases h13 : ts.toNat < pts.toNat + 13
    · refine ⟨1, b, (max ((p : Int) + 1 * (p / 2048 : Nat) + b) 131072).toNat, ⟨fun _ => rfl, fun h => absurd h (by omega)⟩, hs, by omega, ?_⟩
      unfold calculateBlockDifficulty
      dsimp only
      rw [if_pos rfl, if_neg (by omega), if_pos h13, hb, Int.one_mul]
      rfl
    · refine ⟨-1, b, (max ((p : Int) + (-1) * (p / 2048 : Nat) + b) 131072).toNat, ⟨fun h => absurd h (by omega), fun _ => rfl⟩, hs, by omega, ?_⟩
      unfold calculateBlockDifficulty
      dsimp only
      rw [if_pos rfl, if_neg (by omega), if_neg h13, hb, Int.neg_mul, Int.one_mul, ← Int.sub_eq_add_neg]
      rfl
  · generalize hel : ts.toNat - pts.toNat = el
    by_cases h100 : eip100 F = true
    · have hr : difficultyRule F = .eip100 := by cases F <;> first | rfl | (exfalso; revert h100; decide)
      let k : Int := max ((if om then 2 else 1) - (el / 9 : Nat)) (-99)
      refine ⟨k, b, (max ((p : Int) + k * (p / 2048 : Nat) + b) 131072).toNat, ?_, hs, by omega, ?_⟩
      · rw [hr]
        intro periods h1 h2
        show _ ∧ _
        have : el / 9 = periods := by omega
        simp only [k, this]
        cases om <;> constructor <;> intro h3 <;> simp at h3 ⊢ <;> omega
      · unfold calculateBlockDifficulty
        dsimp only
        rw [if_neg e, if_neg (by omega), hel, if_pos h100, hb, Int.mul_comm]
        rfl
    · have hr : difficultyRule F = .eip2 := by cases F <;> first | rfl | (exfalso; revert h100; decide) | exact absurd rfl e
      let k : Int := max (1 - (el / 10 : Nat)) (-99)
      refine ⟨k, b, (max ((p : Int) + k * (p / 2048 : Nat) + b) 131072).toNat, ?_, hs, by omega, ?_⟩
      · rw [hr]
        intro periods h1 h2
        have : el / 10 = periods := by omega
        simp only [k, this]
        constructor <;> intro h3 <;> omega
      · unfold calculateBlockDifficulty
        dsimp only
        rw [if_neg e, if_neg (by omega), hel, if_neg h100, hb, Int.mul_comm]
        rfl

/-- What is computed, when something is. -/
private theorem difficulty_form {F : PowFork} {n : Nat} {ts pts : Word} {p : Nat} {om : Bool} {d : Nat}
    (h : calculateBlockDifficulty F n ts pts p om = some d) :
    ∃ k : Int, -99 ≤ k ∧ k ≤ 2 ∧ (d : Int) = max (p + k * (p / 2048 : Nat) + bombTerm F n) 131072 := by
  unfold calculateBlockDifficulty at h
  dsimp only at h
  by_cases e : F = .frontier
  · rw [if_pos e] at h
    split at h
    · cases h
    · split at h
      · exact ⟨1, by omega, by omega, by have := Option.some.inj h; unfold MINIMUM_DIFFICULTY at this; omega⟩
      · exact ⟨-1, by omega, by omega, by have := Option.some.inj h; unfold MINIMUM_DIFFICULTY at this; omega⟩
  · rw [if_neg e] at h
    split at h
    · cases h
    · have := Option.some.inj h
      unfold MINIMUM_DIFFICULTY at this
      rw [Int.mul_comm] at this
      generalize hk : (if eip100 F then max ((if om then 2 else 1) - (((ts.toNat - pts.toNat) / 9 : Nat) : Int)) (-99)
        else max (1 - (((ts.toNat - pts.toNat) / 10 : Nat) : Int)) (-99)) = k at this
      have hb : -99 ≤ k ∧ k ≤ 2 := by
        rw [← hk]
        cases eip100 F <;> cases om <;> simp <;> omega
      refine ⟨k, hb.1, hb.2, ?_⟩
      generalize k * ((p / 2048 : Nat) : Int) = x at this ⊢
      omega

/-- **C46.** Whatever the inputs, a computed difficulty is at least 131072. -/
theorem C46_minimum (F : PowFork) (n : Nat) (ts pts : Word) (p : Nat) (om : Bool) (d : Nat)
    (h : calculateBlockDifficulty F n ts pts p om = some d) : 131072 ≤ d := by
  obtain ⟨k, -, -, e⟩ := difficulty_form h
  omega

/-- **C46.** Before the bomb goes off, the difficulty leaves the parent's by at most two 2048ths upwards and ninety-nine 2048ths
downwards (so it keeps at least 95 hundredths of it), except to reach the minimum. -/
theorem C46_distance (F : PowFork) (n : Nat) (ts pts : Word) (p : Nat) (om : Bool) (d : Nat)
    (h : calculateBlockDifficulty F n ts pts p om = some d) (hn : n < bombDelays F + 200000) :
    d ≤ max (p + 2 * (p / 2048)) 131072 ∧ p ≤ d + 99 * (p / 2048) ∧ 95 * p ≤ 100 * d := by
  obtain ⟨k, h1, h2, e⟩ := difficulty_form h
  rw [bombTerm_early F n (by rw [← delays_eq]; exact hn)] at e
  have u : k * (p / 2048 : Nat) ≤ 2 * (p / 2048 : Nat) := Int.mul_le_mul_of_nonneg_right h2 (by omega)
  have l : -99 * (p / 2048 : Nat) ≤ k * (p / 2048 : Nat) := Int.mul_le_mul_of_nonneg_right h1 (by omega)
  generalize k * ((p / 2048 : Nat) : Int) = x at e u l
  omega

/-- **C46.** A block mined later does not get a higher difficulty: with the same parent and number, the difficulty never rises
with the timestamp. -/
theorem C46_monotone (F : PowFork) (n : Nat) (ts ts' pts : Word) (p : Nat) (om : Bool) (d d' : Nat) (h : ts ≤ ts')
    (hd : calculateBlockDifficulty F n ts pts p om = some d) (hd' : calculateBlockDifficulty F n ts' pts p om = some d') :
    d' ≤ d := by
  have hle : ts.toNat ≤ ts'.toNat := h
  unfold calculateBlockDifficulty at hd hd'
  dsimp only at hd hd'
  generalize bombTerm F n = b at hd hd'
  by_cases e : F = .frontier
  · rw [if_pos e] at hd hd'
    split at hd
    · cases hd
    · rw [if_neg (by assumption)] at hd'
      have h1 := Option.some.inj hd
      have h2 := Option.some.inj hd'
      split at h1 <;> split at h2 <;> omega
  · rw [if_neg e] at hd hd'
    split at hd
    · cases hd
    · split at hd'
      · cases hd'
      · have h1 := Option.some.inj hd
        have h2 := Option.some.inj hd'
        have key : ∀ k k' : Int, k' ≤ k → ((p / 2048 : Nat) : Int) * k' ≤ (p / 2048 : Nat) * k := fun k k' hk =>
          Int.mul_le_mul_of_nonneg_left hk (by omega)
        by_cases h100 : eip100 F = true
        · rw [if_pos h100] at h1 h2
          have := key (max ((if om then 2 else 1) - ((ts.toNat - pts.toNat) / 9 : Nat)) (-99))
            (max ((if om then 2 else 1) - ((ts'.toNat - pts.toNat) / 9 : Nat)) (-99)) (by split <;> omega)
          omega
        · rw [if_neg h100] at h1 h2
          have := key (max (1 - ((ts.toNat - pts.toNat) / 10 : Nat)) (-99)) (max (1 - ((ts'.toNat - pts.toNat) / 10 : Nat)) (-99)) (by omega)
          omega

/-- **C46.** A later fork never has a larger bomb: each delay only postpones it. -/
theorem C46_delays (F G : PowFork) (n b c : Nat) (h : bombDelays F ≤ bombDelays G) (hF : bomb (bombDelays F) n b)
    (hG : bomb (bombDelays G) n c) : c ≤ b := by
  by_cases h1 : n < bombDelays G + 200000
  · rw [hG.1 h1]; exact Nat.zero_le _
  · have h2 : c = 2 ^ ((n - (bombDelays G + 200000)) / 100000) := hG.2 _ (by omega) (by omega)
    have h3 : b = 2 ^ ((n - (bombDelays F + 200000)) / 100000) := hF.2 _ (by omega) (by omega)
    rw [h2, h3]
    exact Nat.pow_le_pow_right (by omega) (by omega)

/-- The specification has exactly one reading: the number of steps and the bomb are determined. -/
example (delay n b c : Nat) (h1 : bomb delay n b) (h2 : bomb delay n c) : b = c := by
  by_cases h : n < delay + 200000
  · rw [h1.1 h, h2.1 h]
  · rw [h1.2 ((n - (delay + 200000)) / 100000) (by omega) (by omega), h2.2 ((n - (delay + 200000)) / 100000) (by omega) (by omega)]

/-- Frontier block 1 (the genesis block has difficulty 17179869184 and timestamp 0), and a gray glacier block
13 seconds after a parent with ommers. -/
example : calculateBlockDifficulty .frontier 1 1438269988 0 17179869184 false = some 17171480576 ∧
    calculateBlockDifficulty .grayGlacier 15050000 1655000013 1655000000 14000000000000000 true = some (14000000000000000 + 6835937500000 + 2 ^ 34) ∧
    calculateBlockDifficulty .homestead 1150001 100 85 131072 false = some 131584 := by decide +kernel

end Verif
