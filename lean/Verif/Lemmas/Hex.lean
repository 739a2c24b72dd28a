import Verif.Model.Hex
import Verif.Lemmas.Bytes
import Verif.Lemmas.Memory
import Verif.Spec.Numerals
/-! Lemmas on hexadecimal strings. -/
namespace Verif
open Spec Hex

theorem hasHexPrefix_iff (s : Str) : hasHexPrefix s = true ↔ ∃ t, s = '0' :: 'x' :: t := by
  unfold hasHexPrefix
  match s with
  | [] => simp
  | [a] => simp [List.isPrefixOf]
  | a :: b :: r =>
    simp only [List.isPrefixOf, Bool.and_true, Bool.and_eq_true, beq_iff_eq, List.cons.injEq]
    constructor
    · rintro ⟨rfl, rfl⟩; exact ⟨r, rfl, rfl, rfl⟩
    · rintro ⟨t, rfl, rfl, -⟩; exact ⟨rfl, rfl⟩

theorem removeHexPrefix_body {s t : Str} (h : Body s t) : removeHexPrefix s = t := by
  unfold removeHexPrefix
  rcases h with rfl | ⟨rfl, h⟩
  · rfl
  · rw [if_neg]
    rw [hasHexPrefix_iff]
    rintro ⟨r, e⟩; exact h r e

theorem digit_eq (c : Char) : digit c = if digitValue c < 16 then some (digitValue c) else none := by
  by_cases hc : c.toNat < 128
  · have h : ∀ n : Fin 128, digit (Char.ofNat n) = if digitValue (Char.ofNat n) < 16 then some (digitValue (Char.ofNat n)) else none := by
      decide +kernel
    have := h ⟨c.toNat, hc⟩
    simpa only [Char.ofNat_toNat] using this
  · have hv : digitValue c = 16 := by
      have hle : ∀ d : Char, d.toNat < 128 → ¬ c ≤ d := fun d hd h => by
        have : c.toNat ≤ d.toNat := h
        omega
      unfold digitValue
      rw [if_neg fun h => hle '9' (by decide) h.2, if_neg fun h => hle 'f' (by decide) h.2, if_neg fun h => hle 'F' (by decide) h.2]
    have hl : c.toLower = c := by
      unfold Char.toLower
      rw [dif_neg]
      intro h
      have : c.toNat ≤ 90 := h.2
      omega
    rw [hv, if_neg (by decide)]
    unfold digit
    rw [hl, List.idxOf?_eq_none_iff]
    intro hm
    have : ∀ d ∈ alphabet, d.toNat < 128 := by decide
    exact hc (this c hm)

theorem digits_eq {base : Nat} (hb : base ≤ 16) (s : Str) :
    digits base s = if Numeral base s then some (s.map digitValue) else none := by
  induction s with
  | nil => rw [if_pos (show Numeral base [] from fun _ h => by cases h)]; rfl
  | cons c r ih =>
    rw [digits, digit_eq, ih]
    by_cases hc : digitValue c < base
    · rw [if_pos (show digitValue c < 16 by omega)]
      by_cases hr : Numeral base r
      · rw [if_pos hr, if_pos (show Numeral base (c :: r) from fun x hx => (List.mem_cons.mp hx).elim (fun e => e ▸ hc) (hr x))]
        dsimp only
        rw [if_pos hc]; rfl
      · rw [if_neg hr, if_neg (fun h : Numeral base (c :: r) => hr fun x hx => h x (List.mem_cons_of_mem _ hx))]
    · rw [if_neg (fun h : Numeral base (c :: r) => hc (h c List.mem_cons_self))]
      split <;> rename_i h1 h2
      · split at h1 <;> cases h1
        rw [if_neg hc]
      · rfl

theorem horner (base : Nat) (s : Str) : ∀ n, (s.map digitValue).foldl (fun n d => n * base + d) n = n * base ^ s.length + numeralValue base s := by
  induction s with
  | nil => intro n; simp [numeralValue]
  | cons c r ih =>
    intro n
    rw [List.map_cons, List.foldl_cons, ih, List.length_cons, numeralValue, Nat.pow_succ, Nat.add_mul, Nat.mul_assoc, Nat.mul_comm base]
    omega

theorem int_iff {base : Nat} (hb : base ≤ 16) (s : Str) (n : Nat) : Hex.int base s = some n ↔ s ≠ [] ∧ Numeral base s ∧ n = numeralValue base s := by
  unfold Hex.int
  rw [digits_eq hb]
  by_cases hn : Numeral base s
  · rw [if_pos hn]
    match s with
    | [] => simp
    | c :: r =>
      dsimp only
      rw [horner, Nat.zero_mul, Nat.zero_add]
      constructor
      · intro h; cases h; exact ⟨by simp, hn, rfl⟩
      · rintro ⟨-, -, rfl⟩; rfl
  · rw [if_neg hn]
    match s with
    | [] => simp
    | c :: r =>
      constructor
      · intro h; cases h
      · rintro ⟨-, h, -⟩; exact absurd h hn

theorem bounded_iff (bits : Nat) (o : Option Nat) (n : Nat) : bounded bits o = some n ↔ o = some n ∧ n < 2 ^ bits := by
  unfold bounded
  match o with
  | none => simp
  | some m =>
    dsimp only
    constructor
    · intro h; split at h <;> cases h; exact ⟨rfl, ‹_›⟩
    · rintro ⟨h, h2⟩; cases h; rw [if_pos h2]

theorem fixed_iff (n : Nat) (o : Option Bytes) (b : Bytes) : fixed n o = some b ↔ o = some b ∧ b.length = n := by
  unfold fixed
  match o with
  | none => simp
  | some m =>
    dsimp only
    constructor
    · intro h; split at h <;> cases h; exact ⟨rfl, ‹_›⟩
    · rintro ⟨h, h2⟩; cases h; rw [if_pos h2]

theorem numeral_lt {base : Nat} {s : Str} (h : Numeral base s) : numeralValue base s < base ^ s.length := by
  induction s with
  | nil => exact Nat.one_pos
  | cons c r ih =>
    have h1 := ih fun x hx => h x (List.mem_cons_of_mem _ hx)
    have h2 := h c List.mem_cons_self
    rw [numeralValue, List.length_cons, Nat.pow_succ]
    have : digitValue c * base ^ r.length + base ^ r.length ≤ base ^ r.length * base := by
      rw [← Nat.succ_mul, Nat.mul_comm]; exact Nat.mul_le_mul_left _ h2
    omega

theorem fromHex_iff : ∀ (s : Str) (b : Bytes), fromHex s = some b ↔ Numeral 16 s ∧ s.length = 2 * b.length ∧ fromBE b = numeralValue 16 s
  | [], b => by
    rw [fromHex]
    constructor
    · intro h; cases h; exact ⟨(fun _ h => by cases h), rfl, rfl⟩
    · rintro ⟨-, h, -⟩
      have : b = [] := List.length_eq_zero_iff.mp (by rw [List.length_nil] at h; omega)
      rw [this]
  | [c], b => by
    rw [fromHex]
    constructor
    · intro h; cases h
    · rintro ⟨-, h, -⟩; rw [List.length_singleton] at h; omega
  | x :: y :: r, b => by
    have ih := fromHex_iff r
    have hnum : Numeral 16 (x :: y :: r) ↔ digitValue x < 16 ∧ digitValue y < 16 ∧ Numeral 16 r := by
      unfold Numeral; simp only [List.mem_cons, forall_eq_or_imp]
    rw [fromHex, digit_eq, digit_eq, hnum]
    by_cases hx : digitValue x < 16
    · by_cases hy : digitValue y < 16
      · rw [if_pos hx, if_pos hy]
        have hb : (UInt8.ofNat (16 * digitValue x + digitValue y)).toNat = 16 * digitValue x + digitValue y := by
          rw [UInt8.toNat_ofNat']; exact Nat.mod_eq_of_lt (by omega)
        have hlen : ∀ l : Bytes, r.length = 2 * l.length → numeralValue 16 (x :: y :: r) =
            (16 * digitValue x + digitValue y) * 256 ^ l.length + numeralValue 16 r := by
          intro l hl
          simp only [numeralValue, List.length_cons]
          rw [hl, Nat.pow_succ, Nat.pow_mul, show 16 ^ 2 = 256 from rfl, Nat.add_mul, Nat.mul_assoc 16, Nat.mul_comm (256 ^ l.length) 16,
            ← Nat.mul_assoc, Nat.mul_comm (digitValue x) 16, Nat.mul_assoc]
          omega
        match hr : fromHex r with
        | some l =>
          obtain ⟨i1, i2, i3⟩ := (ih l).mp hr
          dsimp only
          constructor
          · intro h; cases h
            refine ⟨⟨hx, hy, i1⟩, by simp only [List.length_cons]; omega, ?_⟩
            rw [fromBE_cons, hb, i3, hlen l i2]
          · rintro ⟨-, h2, h3⟩
            have e := hlen l i2
            rw [e, ← i3, ← hb, ← fromBE_cons] at h3
            have h4 : b.length = (UInt8.ofNat (16 * digitValue x + digitValue y) :: l).length := by
              simp only [List.length_cons] at h2 ⊢; omega
            rw [← toBE_fromBE b, h3, h4, toBE_fromBE]
        | none =>
          constructor
          · intro h; cases h
          · rintro ⟨⟨-, -, i1⟩, h2, -⟩
            have hl : r.length = 2 * (b.length - 1) := by simp only [List.length_cons] at h2; omega
            have := (ih (toBE (b.length - 1) (numeralValue 16 r))).mpr ⟨i1, by rw [toBE_length]; exact hl, by
              rw [fromBE_toBE]
              have := numeral_lt i1
              rw [hl, Nat.pow_mul] at this
              exact Nat.mod_eq_of_lt this⟩
            rw [hr] at this; cases this
      · rw [if_neg hy]
        constructor
        · intro h; split at h <;> simp_all
        · rintro ⟨⟨-, h, -⟩, -⟩; exact absurd h hy
    · rw [if_neg hx]
      constructor
      · intro h; cases h
      · rintro ⟨⟨h, -⟩, -⟩; exact absurd h hx

theorem exact_iff (n : Nat) (t : Str) (b : Bytes) :
    fixed n (fromHex t) = some b ↔ Numeral 16 t ∧ t.length = 2 * n ∧ b = toBE n (numeralValue 16 t) := by
  rw [fixed_iff, fromHex_iff]
  constructor
  · rintro ⟨⟨h1, h2, h3⟩, h4⟩; exact ⟨h1, by omega, by rw [← h3, ← h4]; exact (toBE_fromBE b).symm⟩
  · rintro ⟨h1, h2, rfl⟩
    refine ⟨⟨h1, by rw [toBE_length]; exact h2, ?_⟩, toBE_length n _⟩
    rw [fromBE_toBE]
    have := numeral_lt h1
    rw [h2, Nat.pow_mul] at this
    exact Nat.mod_eq_of_lt this

theorem padded_iff (n : Nat) (t : Str) (b : Bytes) :
    fixed n (fromHex (rjust (2 * n) t)) = some b ↔ Numeral 16 t ∧ t.length ≤ 2 * n ∧ b = toBE n (numeralValue 16 t) := by
  have hz : ∀ k, numeralValue 16 (List.replicate k '0' ++ t) = numeralValue 16 t ∧ (Numeral 16 (List.replicate k '0' ++ t) ↔ Numeral 16 t) := by
    intro k
    induction k with
    | zero => exact ⟨rfl, Iff.rfl⟩
    | succ k ih =>
      rw [List.replicate_succ, List.cons_append]
      refine ⟨?_, ?_⟩
      · rw [numeralValue, ih.1, show digitValue '0' = 0 from by decide]; omega
      · rw [← ih.2]
        unfold Numeral
        simp only [List.mem_cons, forall_eq_or_imp, show digitValue '0' < 16 from by decide, true_and]
  rw [fixed_iff, fromHex_iff]
  unfold rjust
  rw [(hz _).1, (hz _).2, List.length_append, List.length_replicate]
  constructor
  · rintro ⟨⟨h1, h2, h3⟩, h4⟩
    exact ⟨h1, by omega, by rw [← h3, ← h4]; exact (toBE_fromBE b).symm⟩
  · rintro ⟨h1, h2, rfl⟩
    refine ⟨⟨h1, by rw [toBE_length]; omega, ?_⟩, toBE_length n _⟩
    rw [fromBE_toBE]
    have h3 := numeral_lt h1
    have h4 : 16 ^ t.length ≤ 16 ^ (2 * n) := Nat.pow_le_pow_right (by decide) h2
    rw [Nat.pow_mul] at h4
    exact Nat.mod_eq_of_lt (Nat.lt_of_lt_of_le h3 h4)

end Verif
