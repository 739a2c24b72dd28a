import Verif.Lemmas.Hex
/-! Property C76: the conversions from hexadecimal strings. -/
namespace Verif.Props
open Verif Verif.Spec Hex

/-- **C76**, `hex_to_bytes`: the digits after an optional `0x`, two for each byte, in big-endian order. -/
theorem C76_bytes {s t : Str} (ht : Body s t) (b : Bytes) :
    hexToBytes s = some b ↔ Numeral 16 t ∧ t.length = 2 * b.length ∧ fromBE b = numeralValue 16 t := by
  unfold hexToBytes; rw [removeHexPrefix_body ht]; exact fromHex_iff t b

/-- **C76**, `hex_to_bytes8`, `hex_to_bytes32`, `hex_to_bytes256` and `hex_to_address`: the number the digits denote, if there are not
too many of them. -/
theorem C76_padded {s t : Str} (ht : Body s t) (b : Bytes) :
    (hexToBytes8 s = some b ↔ Numeral 16 t ∧ t.length ≤ 16 ∧ b = toBE 8 (numeralValue 16 t)) ∧
    (hexToBytes32 s = some b ↔ Numeral 16 t ∧ t.length ≤ 64 ∧ b = toBE 32 (numeralValue 16 t)) ∧
    (hexToBytes256 s = some b ↔ Numeral 16 t ∧ t.length ≤ 512 ∧ b = toBE 256 (numeralValue 16 t)) ∧
    (hexToAddress s = some b ↔ Numeral 16 t ∧ t.length ≤ 40 ∧ b = toBE 20 (numeralValue 16 t)) := by
  unfold hexToBytes8 hexToBytes32 hexToBytes256 hexToAddress
  rw [removeHexPrefix_body ht]
  exact ⟨padded_iff 8 t b, padded_iff 32 t b, padded_iff 256 t b, padded_iff 20 t b⟩

/-- **C76**, `hex_to_hash` and `hex_to_root`: exactly 64 digits. -/
theorem C76_hash {s t : Str} (ht : Body s t) (b : Bytes) :
    hexToHash s = some b ↔ Numeral 16 t ∧ t.length = 64 ∧ b = toBE 32 (numeralValue 16 t) := by
  unfold hexToHash
  rw [removeHexPrefix_body ht]; exact exact_iff 32 t b

/-- **C76**, `hex_to_uint`: the number, of any size, if there is a digit at all. -/
theorem C76_uint {s t : Str} (ht : Body s t) (n : Nat) : hexToUint s = some n ↔ t ≠ [] ∧ Numeral 16 t ∧ n = numeralValue 16 t := by
  unfold hexToUint; rw [removeHexPrefix_body ht]; exact int_iff (by decide) t n

/-- **C76**, `hex_to_u8`, `hex_to_u64` and `hex_to_u256`: the number, if it is within the range of the type. -/
theorem C76_bounded {s t : Str} (ht : Body s t) (n : Nat) :
    (hexToU8 s = some n ↔ t ≠ [] ∧ Numeral 16 t ∧ n = numeralValue 16 t ∧ n < 2 ^ 8) ∧
    (hexToU64 s = some n ↔ t ≠ [] ∧ Numeral 16 t ∧ n = numeralValue 16 t ∧ n < 2 ^ 64) ∧
    (hexToU256 s = some n ↔ t ≠ [] ∧ Numeral 16 t ∧ n = numeralValue 16 t ∧ n < 2 ^ 256) := by
  unfold hexToU8 hexToU64 hexToU256
  rw [removeHexPrefix_body ht]
  refine ⟨?_, ?_, ?_⟩ <;> rw [bounded_iff, int_iff (by decide)] <;> simp only [and_assoc]

/-- **C76**, `hex_or_base_10_str_to_u256`: hexadecimal behind `0x`, decimal without it. -/
theorem C76_either (s : Str) (n : Nat) :
    hexOrBase10StrToU256 s = some n ↔ n < 2 ^ 256 ∧
      ((∃ t, s = '0' :: 'x' :: t ∧ t ≠ [] ∧ Numeral 16 t ∧ n = numeralValue 16 t) ∨
       ((∀ t, s ≠ '0' :: 'x' :: t) ∧ s ≠ [] ∧ Numeral 10 s ∧ n = numeralValue 10 s)) := by
  unfold hexOrBase10StrToU256
  by_cases h : ∃ t, s = '0' :: 'x' :: t
  · obtain ⟨t, rfl⟩ := h
    rw [if_pos ((hasHexPrefix_iff _).mpr ⟨t, rfl⟩), (C76_bounded (.inl rfl) n).2.2]
    constructor
    · rintro ⟨a, b, c, d⟩; exact ⟨d, .inl ⟨t, rfl, a, b, c⟩⟩
    · rintro ⟨d, ⟨t', e, a, b, c⟩ | ⟨h, -⟩⟩
      · cases e; exact ⟨a, b, c, d⟩
      · exact absurd rfl (h t)
  · have h' : ∀ t, s ≠ '0' :: 'x' :: t := fun t e => h ⟨t, e⟩
    rw [if_neg (by rw [hasHexPrefix_iff]; exact h), bounded_iff, int_iff (by decide)]
    constructor
    · rintro ⟨⟨a, b, c⟩, d⟩; exact ⟨d, .inr ⟨h', a, b, c⟩⟩
    · rintro ⟨d, ⟨t, e, -⟩ | ⟨-, a, b, c⟩⟩
      · exact absurd e (h' t)
      · exact ⟨⟨a, b, c⟩, d⟩

/-- The usual way to print bytes. -/
def printed : Bytes → Str
  | [] => []
  | b :: r => Nat.digitChar (b.toNat / 16) :: Nat.digitChar (b.toNat % 16) :: printed r

/-- **C76.** What was printed is read back, with and without the prefix. -/
theorem C76_round_trip (b : Bytes) : hexToBytes ('0' :: 'x' :: printed b) = some b ∧ hexToBytes (printed b) = some b := by
  have hd : ∀ x : UInt8, digitValue (Nat.digitChar (x.toNat / 16)) = x.toNat / 16 ∧
      digitValue (Nat.digitChar (x.toNat % 16)) = x.toNat % 16 ∧ Nat.digitChar (x.toNat % 16) ≠ 'x' := by
    intro x
    have h16 : ∀ i : Fin 16, digitValue (Nat.digitChar i) = i ∧ Nat.digitChar i ≠ 'x' := by decide +kernel
    have hx := x.toNat_lt
    exact ⟨(h16 ⟨x.toNat / 16, by omega⟩).1, h16 ⟨x.toNat % 16, by omega⟩⟩
  have h : Numeral 16 (printed b) ∧ (printed b).length = 2 * b.length ∧ fromBE b = numeralValue 16 (printed b) := by
    induction b with
    | nil => exact ⟨(fun _ h => by cases h), rfl, rfl⟩
    | cons x r ih =>
      obtain ⟨i1, i2, i3⟩ := ih
      obtain ⟨d1, d2, -⟩ := hd x
      have hx := x.toNat_lt
      refine ⟨?_, by show (printed r).length + 1 + 1 = 2 * (r.length + 1); omega, ?_⟩
      · intro c hc
        rcases List.mem_cons.mp hc with rfl | hc
        · rw [d1]; omega
        · rcases List.mem_cons.mp hc with rfl | hc
          · rw [d2]; omega
          · exact i1 c hc
      · rw [fromBE_cons, i3]
        show _ = digitValue _ * 16 ^ ((printed r).length + 1) + (digitValue _ * 16 ^ (printed r).length + numeralValue 16 (printed r))
        rw [d1, d2, i2, Nat.pow_succ, Nat.pow_mul, show 16 ^ 2 = 256 from rfl]
        have hm : (x.toNat / 16) * (256 ^ r.length * 16) + x.toNat % 16 * 256 ^ r.length = x.toNat * 256 ^ r.length := by
          rw [Nat.mul_comm (256 ^ r.length) 16, ← Nat.mul_assoc, ← Nat.add_mul]
          congr 1; omega
        omega
  refine ⟨(C76_bytes (.inl rfl) b).mpr h, (C76_bytes (.inr ⟨rfl, ?_⟩) b).mpr h⟩
  intro t e
  match b with
  | [] => cases e
  | x :: r =>
    simp only [printed, List.cons.injEq] at e
    exact (hd x).2.2 e.2.1

example : hexToAddress "0x1F".toList = some (toBE 20 31) ∧ hexToUint "ff".toList = some 255 ∧ hexToU8 "0x100".toList = none ∧
    hexOrBase10StrToU256 "0x10".toList = some 16 ∧ hexOrBase10StrToU256 "10".toList = some 10 ∧ hexToBytes "0xabc".toList = none ∧
    hexToBytes32 "1".toList = some (toBE 32 1) ∧ hexToHash "1".toList = none := by
  refine ⟨?_, ?_, ?_, ?_, ?_, ?_, ?_, ?_⟩ <;> decide +kernel
example : Body "0x1F".toList "1F".toList ∧ Body "ff".toList "ff".toList ∧ Numeral 16 "1F".toList ∧ numeralValue 16 "1F".toList = 31 :=
  ⟨.inl rfl, .inr ⟨rfl, fun _ h => by cases h⟩, by decide, by decide⟩

end Verif.Props
