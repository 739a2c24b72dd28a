import Verif.Model.Numeric
import Verif.Lemmas.Bytes
import Mathlib.Data.Nat.Prime.Defs
import Mathlib.Data.Nat.Prime.Basic
/-! Little-endian conversions and primality. -/
namespace Verif

theorem isPrime_iff (n : Nat) : isPrime n = true ↔ Nat.Prime n := by
  unfold isPrime
  rw [Nat.prime_def_le_sqrt]
  by_cases h : n ≤ 1
  · rw [if_pos h]; simp; omega
  · rw [if_neg h]
    simp only [List.all_eq_true, List.mem_range'_1, bne_iff_ne, ne_eq, Nat.dvd_iff_mod_eq_zero]
    constructor
    · exact fun hx => ⟨by omega, fun m h2 hm => hx m ⟨h2, by omega⟩⟩
    · exact fun hx x hr => hx.2 x hr.1 (by omega)

theorem fromLE_lt : ∀ b : Bytes, fromLE b < 256 ^ b.length
  | [] => by simp [fromLE]
  | c :: r => by
    have := fromLE_lt r
    have := c.toNat_lt
    simp only [fromLE, List.length_cons, Nat.pow_succ]; omega

theorem toLE_length : ∀ n x, (toLE n x).length = n
  | 0, _ => rfl
  | n + 1, x => by simp [toLE, toLE_length n]

theorem fromLE_toLE : ∀ n x, fromLE (toLE n x) = x % 256 ^ n
  | 0, x => by simp [fromLE, toLE, Nat.mod_one]
  | n + 1, x => by
    simp only [toLE, fromLE, fromLE_toLE n, Nat.pow_succ, Nat.mul_comm _ 256]
    rw [Nat.mod_mul]
    congr 1

theorem toLE_fromLE : ∀ b : Bytes, toLE b.length (fromLE b) = b
  | [] => rfl
  | c :: r => by
    have hc := c.toNat_lt
    simp only [List.length_cons, fromLE, toLE]
    have h1 : (c.toNat + 256 * fromLE r) / 256 = fromLE r := by omega
    rw [h1, toLE_fromLE r]
    congr 1
    apply UInt8.toNat.inj
    simp

theorem fromLE_append : ∀ a b : Bytes, fromLE (a ++ b) = fromLE a + 256 ^ a.length * fromLE b
  | [], b => by simp [fromLE]
  | c :: r, b => by
    simp only [List.cons_append, fromLE, fromLE_append r b, List.length_cons, Nat.pow_succ]
    rw [Nat.mul_add, Nat.mul_comm (256 ^ r.length) 256, Nat.mul_assoc]; omega

theorem leWordsToBytes_length (ws : List U32) : (leWordsToBytes ws).length = 4 * ws.length := by
  induction ws with
  | nil => rfl
  | cons w r ih =>
    simp only [leWordsToBytes, List.flatMap_cons, List.length_append, toLE_length, List.length_cons] at *
    omega

theorem leWords_cons (w : U32) (b : Bytes) : leWords (toLE 4 w.toNat ++ b) = w :: leWords b := by
  have hf := fromLE_toLE 4 w.toNat
  have hw := w.isLt
  rw [Nat.mod_eq_of_lt (by simpa using hw)] at hf
  simp only [toLE, List.cons_append, List.nil_append, leWords] at hf ⊢
  rw [hf, BitVec.ofNat_toNat, BitVec.setWidth_eq]

theorem leWords_leWordsToBytes (ws : List U32) : leWords (leWordsToBytes ws) = ws := by
  induction ws with
  | nil => rfl
  | cons w r ih =>
    simp only [leWordsToBytes, List.flatMap_cons] at *
    rw [leWords_cons, ih]

theorem leWordsToBytes_leWords : ∀ (n : Nat) (b : Bytes), b.length = 4 * n → leWordsToBytes (leWords b) = b
  | 0, b, h => by
    have : b = [] := List.eq_nil_of_length_eq_zero (by omega)
    subst this; rfl
  | n + 1, b, h => by
    match b, h with
    | a :: b :: c :: d :: r, h =>
      have hr : r.length = 4 * n := by simp at h; omega
      have ih := leWordsToBytes_leWords n r hr
      have e := toLE_fromLE [a, b, c, d]
      have hl := fromLE_lt [a, b, c, d]
      simp only [leWordsToBytes, leWords, List.flatMap_cons] at ih ⊢
      rw [ih, BitVec.toNat_ofNat, Nat.mod_eq_of_lt (by simpa using hl)]
      simp only [List.length_cons, List.length_nil, Nat.zero_add] at e
      rw [e]; rfl

theorem leWords_length : ∀ (n : Nat) (b : Bytes), b.length = 4 * n → (leWords b).length = n := by
  intro n b h
  have := leWordsToBytes_length (leWords b)
  rw [leWordsToBytes_leWords n b h] at this
  omega

theorem leWordsToNat_lt (ws : List U32) : leWordsToNat ws < 2 ^ (32 * ws.length) := by
  have := fromLE_lt (leWordsToBytes ws)
  rw [leWordsToBytes_length] at this
  rw [show 2 ^ (32 * ws.length) = 256 ^ (4 * ws.length) from by
    rw [show (256 : Nat) = 2 ^ 8 from rfl, ← Nat.pow_mul]; congr 1; omega]
  exact this

theorem leWordsToNat_cons (w : U32) (ws : List U32) : leWordsToNat (w :: ws) = w.toNat + 2 ^ 32 * leWordsToNat ws := by
  have hw := w.isLt
  simp only [leWordsToNat, leWordsToBytes, List.flatMap_cons, fromLE_append, fromLE_toLE, toLE_length]
  rw [Nat.mod_eq_of_lt (by simpa using hw), show (256 : Nat) ^ 4 = 2 ^ 32 from rfl]

end Verif
