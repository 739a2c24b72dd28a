import Verif.Spec.Arith
import Verif.Lemmas.AccessRun
import Verif.Lemmas.Bytes
import Mathlib.Tactic.Ring
/-! The value computations of the arithmetic instructions agree with their specification. -/
namespace Verif
open Spec

theorem word_zero_iff (y : Word) : y = 0 ↔ y.toNat = 0 := by
  rw [← BitVec.toNat_inj]; rfl

theorem div_eq (x y : Word) : divVal x y = if y.toNat = 0 then 0 else word (x.toNat / y.toNat) := by
  unfold divVal
  simp only [word_zero_iff]
  split
  · rfl
  · apply BitVec.eq_of_toNat_eq
    rw [BitVec.toNat_udiv, word, BitVec.toNat_ofNat, Nat.mod_eq_of_lt]
    exact Nat.lt_of_le_of_lt (Nat.div_le_self _ _) x.isLt

theorem mod_eq (x y : Word) : modVal x y = if y.toNat = 0 then 0 else word (x.toNat % y.toNat) := by
  unfold modVal
  simp only [word_zero_iff]
  split
  · rfl
  · apply BitVec.eq_of_toNat_eq
    have h : x.toNat % y.toNat < 2 ^ 256 := Nat.lt_of_le_of_lt (Nat.mod_le _ _) x.isLt
    rw [BitVec.toNat_umod, word, BitVec.toNat_ofNat, Nat.mod_eq_of_lt h]

theorem toInt_zero_iff (y : Word) : y.toInt = 0 ↔ y.toNat = 0 := by
  rw [BitVec.toInt_eq_toNat_cond]
  have := y.isLt
  split <;> omega

theorem sign_tdiv (a b : Int) (hb : b ≠ 0) : getSign (a * b) * ((a.natAbs / b.natAbs : Nat) : Int) = a.tdiv b := by
  rcases Int.natAbs_eq a with ha | ha <;> rcases Int.natAbs_eq b with hb' | hb' <;>
    generalize a.natAbs = p at * <;> generalize b.natAbs = q at * <;> subst ha <;> subst hb' <;>
    (have hq : q ≠ 0 := by rintro rfl; simp at hb)
  all_goals
    simp only [Int.neg_tdiv, Int.tdiv_neg, Int.neg_neg, ← Int.ofNat_tdiv, Int.neg_mul, Int.mul_neg]
    by_cases hp : p = 0
    · subst hp; simp
    · have : 0 < (p : Int) * q := Int.mul_pos (by omega) (by omega)
      unfold getSign
      first
        | rw [if_neg (by omega), if_neg (by omega)]; simp
        | rw [if_pos (by omega)]; simp

theorem sdiv_eq (x y : Word) : sdivVal x y = if y.toNat = 0 then 0 else signed (x.toInt.tdiv y.toInt) := by
  unfold sdivVal
  simp only [toInt_zero_iff]
  by_cases hy : y.toNat = 0
  · simp only [hy, if_true]; rfl
  · simp only [hy, if_false]
    split
    · rename_i h
      rw [h.1, h.2, signed]
      decide
    · rw [sign_tdiv _ _ (fun h => hy ((toInt_zero_iff y).mp h))]; rfl

theorem sign_tmod (a b : Int) : getSign a * ((a.natAbs % b.natAbs : Nat) : Int) = a.tmod b := by
  rcases Int.natAbs_eq a with ha | ha <;> rcases Int.natAbs_eq b with hb' | hb' <;>
    generalize a.natAbs = p at * <;> generalize b.natAbs = q at * <;> subst ha <;> subst hb'
  all_goals
    simp only [Int.neg_tmod, Int.tmod_neg, ← Int.ofNat_tmod]
    by_cases hp : p = 0
    · subst hp; simp
    · unfold getSign
      first
        | rw [if_neg (by omega), if_neg (by omega)]; simp
        | rw [if_pos (by omega)]; simp

theorem smod_eq (x y : Word) : smodVal x y = if y.toNat = 0 then 0 else signed (x.toInt.tmod y.toInt) := by
  unfold smodVal
  simp only [toInt_zero_iff]
  by_cases hy : y.toNat = 0
  · simp only [hy, if_true]; rfl
  · simp only [hy, if_false]; rw [sign_tmod]; rfl

theorem exp_eq (x y : Word) : expVal x y = word (x.toNat ^ y.toNat) := by
  unfold expVal powMod word
  apply BitVec.eq_of_toNat_eq
  rw [BitVec.toNat_ofNat, BitVec.toNat_ofNat, Nat.mod_mod]

theorem expBytes_eq (n : Nat) : (bitLength n + 7) / 8 = bytesOf n := by
  unfold bitLength bytesOf; split <;> omega

theorem byte_eq (i x : Word) : byteVal i x = if i.toNat < 32 then word (x.toNat / 256 ^ (31 - i.toNat) % 256) else 0 := by
  unfold byteVal
  by_cases h : i.toNat < 32
  · have h32 : ¬ i ≥ 32 := by rw [ge_iff_le, BitVec.le_def]; show ¬ 32 ≤ i.toNat; omega
    rw [if_pos h, if_neg h32]
    have hs : (((31 : Word) - i) * 8).toNat = 8 * (31 - i.toNat) := by
      have h1 : ((31 : Word) - i).toNat = 31 - i.toNat := by
        rw [BitVec.toNat_sub]; show (2 ^ 256 - i.toNat + 31) % 2 ^ 256 = _; omega
      rw [BitVec.toNat_mul, h1]
      show (31 - i.toNat) * 8 % 2 ^ 256 = _
      omega
    apply BitVec.eq_of_toNat_eq
    show (x >>> (((31 : Word) - i) * 8) &&& 0xFF).toNat = _
    rw [BitVec.toNat_and, BitVec.ushiftRight_eq', BitVec.toNat_ushiftRight, hs, word, BitVec.toNat_ofNat]
    show x.toNat >>> (8 * (31 - i.toNat)) &&& 255 = _
    rw [show (255 : Nat) = 2 ^ 8 - 1 by rfl, Nat.and_two_pow_sub_one_eq_mod, Nat.shiftRight_eq_div_pow, Nat.pow_mul]
    have : (2:Nat)^8 = 256 := rfl
    rw [this]
    omega
  · rw [if_neg h, if_pos (show i ≥ 32 by rw [ge_iff_le, BitVec.le_def]; show 32 ≤ i.toNat; omega)]

theorem pow_dvd_big {a s : Nat} (h : 256 ≤ s) : 2 ^ 256 ∣ a * 2 ^ s :=
  Nat.dvd_mul_left_of_dvd (Nat.pow_dvd_pow 2 h) a

theorem shl_eq (s x : Word) : shlVal s x = word (x.toNat * 2 ^ s.toNat) := by
  unfold shlVal word
  apply BitVec.eq_of_toNat_eq
  split
  · rw [Nat.and_two_pow_sub_one_eq_mod, Nat.shiftLeft_eq, BitVec.toNat_ofNat, BitVec.toNat_ofNat, Nat.mod_mod]
  · rw [BitVec.toNat_ofNat, Nat.mod_eq_zero_of_dvd (pow_dvd_big (by omega))]; rfl

theorem shr_eq (s x : Word) : shrVal s x = word (x.toNat / 2 ^ s.toNat) := by
  unfold shrVal word
  apply BitVec.eq_of_toNat_eq
  have hlt : x.toNat / 2 ^ s.toNat < 2 ^ 256 := Nat.lt_of_le_of_lt (Nat.div_le_self _ _) x.isLt
  rw [BitVec.toNat_ofNat, Nat.mod_eq_of_lt hlt]
  split
  · rw [BitVec.ushiftRight_eq', BitVec.toNat_ushiftRight, Nat.shiftRight_eq_div_pow]
  · rename_i h
    have hs : 256 ≤ s.toNat := by rw [BitVec.lt_def] at h; simp at h; exact h
    rw [Nat.div_eq_of_lt (Nat.lt_of_lt_of_le x.isLt (Nat.pow_le_pow_right (by omega) hs))]; rfl

theorem sar_eq (s x : Word) : sarVal s x = signed (Int.fdiv x.toInt (2 ^ s.toNat)) := by
  unfold sarVal
  have hpos : (0 : Int) ≤ 2 ^ s.toNat := Int.le_of_lt (Int.pow_pos (by omega))
  rw [Int.fdiv_eq_ediv_of_nonneg _ hpos]
  simp only
  split
  · rw [Int.shiftRight_eq_div_pow, signed]; norm_cast
  · rename_i h
    have h256 : (2 : Int) ^ 256 ≤ 2 ^ s.toNat := by
      have : (2 : Nat) ^ 256 ≤ 2 ^ s.toNat := Nat.pow_le_pow_right (by omega) (by omega)
      exact_mod_cast this
    have hlo := BitVec.le_toInt x
    have hhi := BitVec.toInt_lt (x := x)
    generalize (2 : Int) ^ s.toNat = p at *
    norm_num at hlo hhi h256
    split
    · rw [Int.ediv_eq_zero_of_lt (by omega) (by omega)]; rfl
    · have : x.toInt / p = -1 := by
        rw [Int.ediv_eq_iff_of_pos (by omega)]; constructor <;> omega
      rw [this]; rfl

theorem clz_eq (x : Word) : clzVal x = word (if x.toNat = 0 then 256 else 255 - Nat.log2 x.toNat) := by
  unfold clzVal bitLength word
  apply BitVec.eq_of_toNat_eq
  split
  · rename_i h; simp
  · rename_i h
    have : Nat.log2 x.toNat < 256 := (Nat.log2_lt h).mpr x.isLt
    rw [BitVec.toNat_sub, BitVec.toNat_ofNat, BitVec.toNat_ofNat, BitVec.toNat_ofNat]
    omega

theorem shiftRight7 (b : UInt8) : b >>> 7 = 0 ↔ b.toNat < 128 := by
  rw [← UInt8.toNat_inj, UInt8.toNat_shiftRight]
  show b.toNat >>> 7 = 0 ↔ _
  rw [Nat.shiftRight_eq_div_pow]
  omega

theorem fromBE_ones (k : Nat) : fromBE (List.replicate k 0xFF) + 1 = 256 ^ k := by
  induction k with
  | zero => rfl
  | succ k ih =>
    rw [List.replicate_succ, fromBE_cons, List.length_replicate, Nat.pow_succ]
    rw [show (0xFF : UInt8).toNat = 255 from rfl]
    omega

theorem signextend_eq (b x : Word) : signextendVal b x =
    if b.toNat < 31 then signed (Int.bmod x.toNat (2 ^ (8 * (b.toNat + 1)))) else x := by
  unfold signextendVal
  by_cases hb : b.toNat < 32
  swap
  · have h1 : b > 31 := by rw [gt_iff_lt, BitVec.lt_def]; show 31 < b.toNat; omega
    rw [if_pos h1, if_neg (by omega)]
  have h1 : ¬ b > 31 := by rw [gt_iff_lt, BitVec.lt_def]; show ¬ 31 < b.toNat; omega
  rw [if_neg h1]
  have hv : (wordBytes x).drop (31 - b.toNat) = toBE (b.toNat + 1) x.toNat := by
    rw [wordBytes, show (32 : Nat) = (b.toNat + 1) + (31 - b.toNat) by omega, toBE_drop]
  simp only [hv]
  rw [toBE_head]
  simp only [← toBE_head]
  generalize hn : b.toNat = n at *
  have hp : ∀ k, 2 ^ (8 * k) = 256 ^ k := fun k => by rw [Nat.pow_mul]
  have hm : 256 ^ (n + 1) = 256 ^ n * 256 := Nat.pow_succ ..
  have hpos : 0 < 256 ^ n := Nat.pow_pos (by omega)
  have hy : x.toNat % 256 ^ (n + 1) = x.toNat % 256 ^ n + 256 ^ n * (x.toNat / 256 ^ n % 256) := by
    rw [hm, Nat.mod_mul]
  have hlow : x.toNat % 256 ^ n < 256 ^ n := Nat.mod_lt _ hpos
  have hhd : (UInt8.ofNat (x.toNat / 256 ^ n)).toNat = x.toNat / 256 ^ n % 256 := by simp
  have hiff : UInt8.ofNat (x.toNat / 256 ^ n) >>> 7 = 0 ↔ 2 * (x.toNat % 256 ^ (n + 1)) < 256 ^ (n + 1) := by
    rw [shiftRight7, hhd, hy, hm]
    generalize x.toNat / 256 ^ n % 256 = h
    constructor
    · intro hh
      have : 256 ^ n * h ≤ 256 ^ n * 127 := Nat.mul_le_mul_left _ (by omega)
      omega
    · intro hh
      by_contra hc
      have : 256 ^ n * 128 ≤ 256 ^ n * h := Nat.mul_le_mul_left _ (by omega)
      omega
  have hb' : Int.bmod x.toNat (2 ^ (8 * (n + 1))) =
      if UInt8.ofNat (x.toNat / 256 ^ n) >>> 7 = 0 then ((x.toNat % 256 ^ (n + 1) : Nat) : Int)
      else ((x.toNat % 256 ^ (n + 1) : Nat) : Int) - ((256 ^ (n + 1) : Nat) : Int) := by
    rw [hp, Int.bmod_def]
    simp only [hiff, ← Int.natCast_mod]
    have : 256 ^ (n + 1) % 2 = 0 := by rw [hm]; omega
    split <;> split <;> omega
  have hpre : fromBE (List.replicate (32 - (n + 1)) 0xFF ++ toBE (n + 1) x.toNat) + 256 ^ (n + 1)
      = 2 ^ 256 + x.toNat % 256 ^ (n + 1) := by
    rw [fromBE_append, fromBE_toBE, toBE_length]
    have h2 := fromBE_ones (32 - (n + 1))
    have h3 : 256 ^ (32 - (n + 1)) * 256 ^ (n + 1) = 2 ^ 256 := by
      rw [← Nat.pow_add, show 32 - (n + 1) + (n + 1) = 32 by omega]; rfl
    rw [← h2, Nat.add_mul, Nat.one_mul] at h3
    omega
  have key : ∀ a : Nat, ∀ i : Int, (∃ c : Int, (a : Int) = i + 2 ^ 256 * c) → BitVec.ofNat 256 a = BitVec.ofInt 256 i := by
    rintro a i ⟨c, hc⟩
    apply BitVec.eq_of_toInt_eq
    rw [← BitVec.ofInt_natCast, BitVec.toInt_ofInt, BitVec.toInt_ofInt, hc]
    exact Int.add_mul_bmod_self_left i (2 ^ 256) c
  have hR : (if n < 31 then signed (Int.bmod x.toNat (2 ^ (8 * (n + 1)))) else x)
      = BitVec.ofInt 256 (if UInt8.ofNat (x.toNat / 256 ^ n) >>> 7 = 0 then ((x.toNat % 256 ^ (n + 1) : Nat) : Int)
      else ((x.toNat % 256 ^ (n + 1) : Nat) : Int) - ((256 ^ (n + 1) : Nat) : Int)) := by
    by_cases h31 : n < 31
    · rw [if_pos h31, hb']; rfl
    · have : n = 31 := by omega
      subst this
      rw [if_neg h31]
      have hx : x.toNat % 256 ^ 32 = x.toNat := Nat.mod_eq_of_lt x.isLt
      rw [show (31 + 1 : Nat) = 32 by rfl, hx]
      have hxx : x = BitVec.ofNat 256 x.toNat := by simp
      conv_lhs => rw [hxx]
      split
      · exact key _ _ ⟨0, by omega⟩
      · exact key _ _ ⟨1, by norm_num⟩
  rw [hR]
  split
  · rw [fromBE_toBE]; exact key _ _ ⟨0, by omega⟩
  · refine key _ _ ⟨1, ?_⟩
    have : (2 : Int) ^ 256 = ((2 ^ 256 : Nat) : Int) := by norm_num
    rw [this]
    omega

theorem addmod_eq (x y n : Word) : addmodVal x y n = if n.toNat = 0 then 0 else word ((x.toNat + y.toNat) % n.toNat) := by
  unfold addmodVal; simp only [word_zero_iff]; rfl
theorem mulmod_eq (x y n : Word) : mulmodVal x y n = if n.toNat = 0 then 0 else word ((x.toNat * y.toNat) % n.toNat) := by
  unfold mulmodVal; simp only [word_zero_iff]; rfl
theorem bool_eq (p : Prop) [Decidable p] : boolWord (decide p) = flag p := by
  unfold boolWord flag; simp
theorem add_eq (x y : Word) : x + y = word (x.toNat + y.toNat) := by
  apply BitVec.eq_of_toNat_eq; rw [BitVec.toNat_add, word, BitVec.toNat_ofNat]
theorem mul_eq (x y : Word) : x * y = word (x.toNat * y.toNat) := by
  apply BitVec.eq_of_toNat_eq; rw [BitVec.toNat_mul, word, BitVec.toNat_ofNat]
theorem sub_eq (x y : Word) : x - y = signed ((x.toNat : Int) - y.toNat) := by
  apply BitVec.eq_of_toNat_eq
  rw [BitVec.toNat_sub, signed, BitVec.toNat_ofInt]
  have := x.isLt; have := y.isLt
  norm_num at *
  omega
theorem not_eq (x : Word) : ~~~x = word (2 ^ 256 - 1 - x.toNat) := by
  apply BitVec.eq_of_toNat_eq
  have := x.isLt
  rw [BitVec.toNat_not, word, BitVec.toNat_ofNat, Nat.mod_eq_of_lt (by omega)]
theorem and_eq (x y : Word) : x &&& y = word (x.toNat &&& y.toNat) := by
  apply BitVec.eq_of_toNat_eq
  rw [word, BitVec.toNat_ofNat, ← BitVec.toNat_and, Nat.mod_eq_of_lt (x &&& y).isLt]
theorem or_eq (x y : Word) : x ||| y = word (x.toNat ||| y.toNat) := by
  apply BitVec.eq_of_toNat_eq
  rw [word, BitVec.toNat_ofNat, ← BitVec.toNat_or, Nat.mod_eq_of_lt (x ||| y).isLt]
theorem xor_eq (x y : Word) : x ^^^ y = word (x.toNat ^^^ y.toNat) := by
  apply BitVec.eq_of_toNat_eq
  rw [word, BitVec.toNat_ofNat, ← BitVec.toNat_xor, Nat.mod_eq_of_lt (x ^^^ y).isLt]

end Verif
