import Verif.Lemmas.Rlp
/-! RLP: the decoder accepts only canonical encodings. -/
namespace Verif
namespace Rlp

theorem u8_of_toNat {x : UInt8} {n : Nat} (h : x.toNat = n) : UInt8.ofNat n = x := by
  rw [← h]; exact UInt8.ofNat_toNat

/-- A payload with a written length was prefixed with exactly the minimal length. -/
theorem longPayload_canonical {k : Nat} {rest p : Bytes} (hk : k ≤ 8) (h : longPayload k rest = some p) :
    56 ≤ p.length ∧ p.length < 2 ^ 64 ∧ byteLength p.length = k ∧ ∃ t, rest = natBytes p.length ++ (p ++ t) := by
  unfold longPayload at h
  by_cases h1 : rest.length < k
  · rw [if_pos h1] at h; exact absurd h (by simp)
  rw [if_neg h1] at h
  simp only at h
  by_cases h2 : (rest.take k).head? = some 0
  · rw [if_pos h2] at h; exact absurd h (by simp)
  rw [if_neg h2] at h
  by_cases h3 : fromBE (rest.take k) < 56
  · rw [if_pos h3] at h; exact absurd h (by simp)
  rw [if_neg h3] at h
  by_cases h4 : rest.length < k + fromBE (rest.take k)
  · rw [if_pos h4] at h; exact absurd h (by simp)
  rw [if_neg h4] at h
  have hp := Option.some.inj h
  have hl : (rest.take k).length = k := by rw [List.length_take]; omega
  have hlen : p.length = fromBE (rest.take k) := by rw [← hp, List.length_take, List.length_drop]; omega
  have hn := natBytes_fromBE h2
  have hlt : fromBE (rest.take k) < 256 ^ k := by
    have := fromBE_lt (rest.take k); rwa [hl] at this
  have h64 : 256 ^ k ≤ 2 ^ 64 := by
    have : 256 ^ k ≤ 256 ^ 8 := Nat.pow_le_pow_right (by omega) hk
    omega
  refine ⟨by omega, by omega, ?_, (rest.drop k).drop p.length, ?_⟩
  · rw [hlen, ← natBytes_length, hn, hl]
  · rw [hlen, hn, ← hp, List.take_append_drop, List.take_append_drop]

/-- The short form, after the length check. -/
theorem shortBytes {n : Nat} {raw b t c : Bytes} (hlen : raw.length = n) (hn : n < 2 ^ 64)
    (hjoin : c = lengthPrefix 0x80 n ++ raw ++ t)
    (h : (match raw with | [x] => if x < 0x80 then none else some raw | _ => some raw) = some b) :
    b.length < 2 ^ 64 ∧ ∃ t, c = encodeBytes b ++ t := by
  subst hlen
  match raw, h with
  | [], h =>
    have hb := Option.some.inj h; subst hb
    exact ⟨hn, _, hjoin⟩
  | [x], h =>
    simp only at h
    by_cases hx : x < 0x80
    · rw [if_pos hx] at h; exact absurd h (by simp)
    rw [if_neg hx] at h
    have hb := Option.some.inj h; subst hb
    refine ⟨hn, t, ?_⟩
    rw [hjoin]
    simp only [encodeBytes, hx, if_false, List.length_singleton]
  | x :: y :: r, h =>
    have hb := Option.some.inj h; subst hb
    exact ⟨hn, _, hjoin⟩

/-- An accepted string was its encoding, followed by ignored bytes. -/
theorem decodeToBytes_canonical {first : UInt8} {rest b : Bytes} (hf : first ≤ 0xbf) (h : decodeToBytes first rest = some b) :
    b.length < 2 ^ 64 ∧ ∃ t, first :: rest = encodeBytes b ++ t := by
  rw [UInt8.le_iff_toNat_le, show (0xbf : UInt8).toNat = 191 from rfl] at hf
  unfold decodeToBytes at h
  by_cases h1 : rest = [] ∧ first < 0x80
  · rw [if_pos h1] at h
    have hb := Option.some.inj h
    subst hb
    refine ⟨by simp, [], ?_⟩
    simp only [encodeBytes, h1.2, if_true, h1.1, List.append_nil]
  rw [if_neg h1] at h
  by_cases h2 : first ≤ 0xb7
  · rw [if_pos h2] at h
    by_cases h3 : first < 0x80
    · rw [if_pos h3] at h; exact absurd h (by simp)
    rw [if_neg h3] at h
    simp only at h
    by_cases h4 : rest.length < first.toNat - 0x80
    · rw [if_pos h4] at h; exact absurd h (by simp)
    rw [if_neg h4] at h
    rw [UInt8.le_iff_toNat_le, show (0xb7 : UInt8).toNat = 183 from rfl] at h2
    rw [UInt8.lt_iff_toNat_lt, show (0x80 : UInt8).toNat = 128 from rfl] at h3
    have hlen : (rest.take (first.toNat - 0x80)).length = first.toNat - 0x80 := by rw [List.length_take]; omega
    have hpre : lengthPrefix 0x80 (first.toNat - 0x80) = [first] := by
      unfold lengthPrefix
      rw [if_pos (by omega), u8_of_toNat (x := first) (by omega)]
    have hjoin : first :: rest =
        lengthPrefix 0x80 (first.toNat - 0x80) ++ rest.take (first.toNat - 0x80) ++ rest.drop (first.toNat - 0x80) := by
      rw [hpre, List.append_assoc, List.take_append_drop]; rfl
    have hn : first.toNat - 0x80 < 2 ^ 64 := by omega
    obtain ⟨n, hn'⟩ : ∃ n, n = first.toNat - 0x80 := ⟨_, rfl⟩
    rw [← hn'] at h hlen hjoin hn
    obtain ⟨raw, hr⟩ : ∃ raw, raw = rest.take n := ⟨_, rfl⟩
    rw [← hr] at h hlen hjoin
    exact shortBytes hlen hn hjoin h
  · rw [if_neg h2] at h
    rw [UInt8.le_iff_toNat_le, show (0xb7 : UInt8).toNat = 183 from rfl] at h2
    obtain ⟨a, b', c, t, ht⟩ := longPayload_canonical (by omega) h
    refine ⟨b', t, ?_⟩
    have henc : encodeBytes b = lengthPrefix 0x80 b.length ++ b := by
      match b, a with
      | _ :: _ :: _, _ => rfl
      | [_], a => simp at a
      | [], a => simp at a
    rw [henc]
    unfold lengthPrefix
    rw [if_neg (by omega)]
    simp only [natBytes_length, c]
    rw [u8_of_toNat (x := first) (by omega), ht, List.cons_append, List.cons_append, List.append_assoc]

/-- The payload of an accepted list was prefixed with its minimal length. -/
theorem sequencePayload_canonical {first : UInt8} {rest p : Bytes} (hf : ¬ first ≤ 0xbf) (h : sequencePayload first rest = some p) :
    p.length < 2 ^ 64 ∧ ∃ t, first :: rest = lengthPrefix 0xc0 p.length ++ p ++ t := by
  rw [UInt8.le_iff_toNat_le, show (0xbf : UInt8).toNat = 191 from rfl] at hf
  have h256 : first.toNat < 256 := first.toNat_lt
  unfold sequencePayload at h
  by_cases h2 : first ≤ 0xf7
  · rw [if_pos h2] at h
    simp only at h
    by_cases h4 : rest.length < first.toNat - 0xc0
    · rw [if_pos h4] at h; exact absurd h (by simp)
    rw [if_neg h4] at h
    rw [UInt8.le_iff_toNat_le, show (0xf7 : UInt8).toNat = 247 from rfl] at h2
    have hp := Option.some.inj h
    have hlen : p.length = first.toNat - 0xc0 := by rw [← hp, List.length_take]; omega
    refine ⟨by omega, rest.drop (first.toNat - 0xc0), ?_⟩
    rw [hlen]
    unfold lengthPrefix
    rw [if_pos (by omega), u8_of_toNat (x := first) (by omega), ← hp, List.append_assoc, List.take_append_drop]; rfl
  · rw [if_neg h2] at h
    rw [UInt8.le_iff_toNat_le, show (0xf7 : UInt8).toNat = 247 from rfl] at h2
    obtain ⟨a, b', c, t, ht⟩ := longPayload_canonical (by omega) h
    refine ⟨b', t, ?_⟩
    unfold lengthPrefix
    rw [if_neg (by omega)]
    simp only [natBytes_length, c]
    rw [u8_of_toNat (x := first) (by omega), ht, List.cons_append, List.cons_append, List.append_assoc]

/-- What the decoder accepts starts with the encoding of the result; what it accepts as a joined list is its encoding. -/
theorem decodeF_canonical : ∀ fuel,
    (∀ b x, decodeF fuel b = some x → Small x ∧ ∃ t, b = encode x ++ t) ∧
    (∀ b l, decodeJoinedF fuel b = some l → SmallAll l ∧ b = encodeSeq l)
  | 0 => ⟨fun b x h => by simp [decodeF] at h, fun b l h => by simp [decodeJoinedF] at h⟩
  | fuel + 1 => by
    obtain ⟨ih1, ih2⟩ := decodeF_canonical fuel
    refine ⟨fun b x h => ?_, fun b l h => ?_⟩
    · match b, h with
      | [], h => simp [decodeF] at h
      | first :: rest, h =>
        rw [decodeF] at h
        by_cases hf : first ≤ 0xbf
        · rw [if_pos hf] at h
          cases hd : decodeToBytes first rest with
          | none => rw [hd] at h; simp at h
          | some s =>
            rw [hd] at h
            have hx := Option.some.inj h; subst hx
            have := decodeToBytes_canonical hf hd
            rw [Small, encode]; exact this
        · rw [if_neg hf] at h
          cases hd : sequencePayload first rest with
          | none => rw [hd] at h; simp at h
          | some p =>
            rw [hd] at h
            simp only at h
            cases hj : decodeJoinedF fuel p with
            | none => rw [hj] at h; simp at h
            | some l =>
              rw [hj] at h
              have hx := Option.some.inj h; subst hx
              obtain ⟨hs, hp⟩ := ih2 _ _ hj
              obtain ⟨hl, t, ht⟩ := sequencePayload_canonical hf hd
              rw [hp] at hl ht
              rw [Small, encode]; exact ⟨⟨hl, hs⟩, t, ht⟩
    · match b, h with
      | [], h =>
        rw [decodeJoinedF] at h
        have hx := Option.some.inj h; subst hx
        exact ⟨by rw [SmallAll]; trivial, by rw [encodeSeq]⟩
      | c :: r, h =>
        rw [decodeJoinedF.eq_3 _ _ (by simp)] at h
        generalize c :: r = b at h
        cases hn : decodeItemLength b with
        | none => rw [hn] at h; simp at h
        | some n =>
          rw [hn] at h
          simp only at h
          by_cases hlt : b.length < n
          · rw [if_pos hlt] at h; simp at h
          rw [if_neg hlt] at h
          cases hx : decodeF fuel (b.take n) with
          | none => rw [hx] at h; simp at h
          | some x =>
            rw [hx] at h
            simp only at h
            cases hl : decodeJoinedF fuel (b.drop n) with
            | none => rw [hl] at h; simp at h
            | some l' =>
              rw [hl] at h
              have he := Option.some.inj h; subst he
              obtain ⟨sx, t, ht⟩ := ih1 _ _ hx
              obtain ⟨sl, hl'⟩ := ih2 _ _ hl
              have hb : b = encode x ++ (t ++ b.drop n) := by
                rw [← List.append_assoc, ← ht, List.take_append_drop]
              have hi := encode_item x (t ++ b.drop n) sx
              rw [← hb, hn] at hi
              have hni := Option.some.inj hi
              have htl : t.length = 0 := by
                have := congrArg List.length ht
                rw [List.length_take, List.length_append] at this
                omega
              have ht0 := List.length_eq_zero_iff.mp htl
              refine ⟨by rw [SmallAll]; exact ⟨sx, sl⟩, ?_⟩
              rw [encodeSeq, ← hl', hb, ht0, List.nil_append]
              congr 1
              rw [← List.append_assoc, hni] at *
              simp

end Rlp
end Verif
