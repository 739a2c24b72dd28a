import Verif.Model.RlpDecode
import Verif.Lemmas.Bytes
/-! RLP: decoding an encoding gives the item back. -/
namespace Verif
namespace Rlp

mutual
/-- No string or list payload reaches 2^64 bytes (beyond that the length of the length no longer fits the format). -/
def Small : Rlp → Prop
  | .bytes b => b.length < 2 ^ 64
  | .list l => (encodeSeq l).length < 2 ^ 64 ∧ SmallAll l
/-- Every item is small. -/
def SmallAll : List Rlp → Prop
  | [] => True
  | x :: r => Small x ∧ SmallAll r
end

theorem smallAll_iff (l : List Rlp) : SmallAll l ↔ ∀ x ∈ l, Small x := by
  induction l with
  | nil => simp [SmallAll]
  | cons x r ih => rw [SmallAll, ih]; simp

theorem byteLength_small {n : Nat} (h : n < 2 ^ 64) : byteLength n ≤ 8 := by
  rcases Nat.eq_zero_or_pos n with rfl | hp
  · simp [byteLength]
  · have h2 := (byteLength_spec n).2 (by omega)
    have : 256 ^ (byteLength n - 1) < 256 ^ 8 := Nat.lt_of_le_of_lt h2 (by omega)
    have := (Nat.pow_lt_pow_iff_right (a := 256) (by omega)).mp this
    omega

theorem byteLength_pos {n : Nat} (h : n ≠ 0) : 1 ≤ byteLength n := by
  unfold byteLength; rw [if_neg h]; omega

theorem longPayload_ok {n : Nat} {data : Bytes} (t : Bytes) (hd : data.length = n) (h56 : 56 ≤ n) :
    longPayload (byteLength n) (natBytes n ++ (data ++ t)) = some data := by
  have hl := natBytes_length n
  have htake : (natBytes n ++ (data ++ t)).take (byteLength n) = natBytes n := by
    rw [← hl, List.take_left]
  unfold longPayload
  rw [if_neg (by rw [List.length_append, hl]; omega)]
  simp only [htake, if_neg (natBytes_head n), fromBE_natBytes]
  rw [if_neg (by omega), if_neg (by rw [List.length_append, List.length_append, hl, hd]; omega),
    show (natBytes n ++ (data ++ t)).drop (byteLength n) = data ++ t by rw [← hl, List.drop_left],
    show (data ++ t).take n = data by rw [← hd, List.take_left]]

theorem longItemLength_ok {n : Nat} (t : Bytes) :
    longItemLength (byteLength n) (natBytes n ++ t) = some (1 + byteLength n + n) := by
  have hl := natBytes_length n
  have htake : (natBytes n ++ t).take (byteLength n) = natBytes n := by rw [← hl, List.take_left]
  unfold longItemLength
  rw [if_neg (by rw [List.length_append, hl]; omega)]
  simp only [htake, if_neg (natBytes_head n), fromBE_natBytes]

theorem u8_val {n : Nat} (h : n < 256) : (UInt8.ofNat n).toNat = n := by
  simp only [UInt8.toNat_ofNat']; omega
theorem u8_le {n : Nat} (h : n < 256) (k : UInt8) : (UInt8.ofNat n ≤ k) ↔ n ≤ k.toNat := by
  rw [UInt8.le_iff_toNat_le, u8_val h]
theorem u8_lt {n : Nat} (h : n < 256) (k : UInt8) : (UInt8.ofNat n < k) ↔ n < k.toNat := by
  rw [UInt8.lt_iff_toNat_lt, u8_val h]

/-- Encoded strings decode, and their length is found, whatever follows. -/
theorem encodeBytes_item (b t : Bytes) (h : b.length < 2 ^ 64) :
    decodeItemLength (encodeBytes b ++ t) = some (encodeBytes b).length := by
  have hc : (∃ x, b = [x] ∧ x < 0x80) ∨ encodeBytes b = lengthPrefix 0x80 b.length ++ b := by
    match b with
    | [] => right; rfl
    | [x] => by_cases hx : x < 0x80
             · exact .inl ⟨x, rfl, hx⟩
             · right; simp only [encodeBytes, hx, if_false]; rfl
    | _ :: _ :: _ => right; rfl
  rcases hc with ⟨x, rfl, hx⟩ | he
  · simp only [encodeBytes, hx, if_true, List.singleton_append, decodeItemLength, List.length_singleton]
  · rw [he]
    unfold lengthPrefix
    by_cases h56 : b.length < 56
    · rw [if_pos h56]
      simp only [List.cons_append, List.nil_append, decodeItemLength, u8_lt (show 0x80 + b.length < 256 by omega),
        u8_le (show 0x80 + b.length < 256 by omega), u8_val (show 0x80 + b.length < 256 by omega)]
      rw [if_neg (by have : (0x80 : UInt8).toNat = 128 := rfl; omega),
        if_pos (by have : (0xb7 : UInt8).toNat = 183 := rfl; omega)]
      simp only [List.length_cons]; exact congrArg some (by omega)
    · rw [if_neg h56]
      have h8 := byteLength_small h
      have h1 := byteLength_pos (show b.length ≠ 0 by omega)
      have hb : 0x80 + 55 + byteLength b.length < 256 := by omega
      simp only [natBytes_length, List.cons_append, decodeItemLength, u8_lt hb, u8_le hb, u8_val hb]
      rw [if_neg (by have : (0x80 : UInt8).toNat = 128 := rfl; omega),
        if_neg (by have : (0xb7 : UInt8).toNat = 183 := rfl; omega),
        if_pos (by have : (0xbf : UInt8).toNat = 191 := rfl; omega),
        show 0x80 + 55 + byteLength b.length - 0xb7 = byteLength b.length by omega, List.append_assoc, longItemLength_ok]
      simp only [List.length_cons, List.length_append, natBytes_length]; exact congrArg some (by omega)

theorem encodeBytes_decode (b : Bytes) (h : b.length < 2 ^ 64) :
    ∃ first rest, encodeBytes b = first :: rest ∧ first ≤ 0xbf ∧ decodeToBytes first rest = some b := by
  have hc : (∃ x, b = [x] ∧ x < 0x80) ∨ ((∀ x, b = [x] → ¬ x < 0x80) ∧ encodeBytes b = lengthPrefix 0x80 b.length ++ b) := by
    match b with
    | [] => right; exact ⟨by simp, rfl⟩
    | [x] => by_cases hx : x < 0x80
             · exact .inl ⟨x, rfl, hx⟩
             · right; exact ⟨by rintro y ⟨⟩; exact hx, by simp only [encodeBytes, hx, if_false]; rfl⟩
    | _ :: _ :: _ => right; exact ⟨by simp, rfl⟩
  rcases hc with ⟨x, rfl, hx⟩ | ⟨hx, he⟩
  · refine ⟨x, [], by simp only [encodeBytes, hx, if_true], ?_, by simp only [decodeToBytes, hx, and_self, if_true]⟩
    rw [UInt8.le_iff_toNat_le]; rw [UInt8.lt_iff_toNat_lt] at hx
    exact Nat.le_trans (Nat.le_of_lt hx) (by decide)
  · rw [he]
    unfold lengthPrefix
    by_cases h56 : b.length < 56
    · rw [if_pos h56]
      have hb : 0x80 + b.length < 256 := by omega
      refine ⟨UInt8.ofNat (0x80 + b.length), b, rfl, ?_, ?_⟩
      · rw [u8_le hb]; have : (0xbf : UInt8).toNat = 191 := rfl; omega
      · simp only [decodeToBytes, u8_lt hb, u8_le hb, u8_val hb]
        rw [if_neg (by have : (0x80 : UInt8).toNat = 128 := rfl; omega),
          if_pos (by have : (0xb7 : UInt8).toNat = 183 := rfl; omega),
          if_neg (by have : (0x80 : UInt8).toNat = 128 := rfl; omega),
          show 0x80 + b.length - 0x80 = b.length by omega, if_neg (by omega), List.take_length]
        match b with
        | [] => rfl
        | [x] => simp only [if_neg (hx x rfl)]
        | _ :: _ :: _ => rfl
    · rw [if_neg h56]
      have h8 := byteLength_small h
      have h1 := byteLength_pos (show b.length ≠ 0 by omega)
      have hb : 0x80 + 55 + byteLength b.length < 256 := by omega
      refine ⟨_, _, rfl, ?_, ?_⟩
      · rw [natBytes_length, u8_le hb]; have : (0xbf : UInt8).toNat = 191 := rfl; omega
      · simp only [natBytes_length, decodeToBytes, u8_lt hb, u8_le hb, u8_val hb]
        rw [if_neg (by have : (0x80 : UInt8).toNat = 128 := rfl; omega),
          if_neg (by have : (0xb7 : UInt8).toNat = 183 := rfl; omega),
          show 0x80 + 55 + byteLength b.length - 0xb7 = byteLength b.length by omega]
        have := longPayload_ok (data := b) [] rfl (by omega)
        rwa [List.append_nil] at this

theorem encodeList_item (body t : Bytes) (h : body.length < 2 ^ 64) :
    decodeItemLength (lengthPrefix 0xc0 body.length ++ body ++ t) = some (lengthPrefix 0xc0 body.length ++ body).length := by
  unfold lengthPrefix
  by_cases h56 : body.length < 56
  · rw [if_pos h56]
    have hb : 0xc0 + body.length < 256 := by omega
    simp only [List.cons_append, List.nil_append, decodeItemLength, u8_lt hb, u8_le hb, u8_val hb]
    rw [if_neg (by have : (0x80 : UInt8).toNat = 128 := rfl; omega),
      if_neg (by have : (0xb7 : UInt8).toNat = 183 := rfl; omega),
      if_neg (by have : (0xbf : UInt8).toNat = 191 := rfl; omega),
      if_pos (by have : (0xf7 : UInt8).toNat = 247 := rfl; omega)]
    simp only [List.length_cons]; exact congrArg some (by omega)
  · rw [if_neg h56]
    have h8 := byteLength_small h
    have h1 := byteLength_pos (show body.length ≠ 0 by omega)
    have hb : 0xc0 + 55 + byteLength body.length < 256 := by omega
    simp only [natBytes_length, List.cons_append, decodeItemLength, u8_lt hb, u8_le hb, u8_val hb]
    rw [if_neg (by have : (0x80 : UInt8).toNat = 128 := rfl; omega),
      if_neg (by have : (0xb7 : UInt8).toNat = 183 := rfl; omega),
      if_neg (by have : (0xbf : UInt8).toNat = 191 := rfl; omega),
      if_neg (by have : (0xf7 : UInt8).toNat = 247 := rfl; omega),
      show 0xc0 + 55 + byteLength body.length - 0xf7 = byteLength body.length by omega, List.append_assoc, longItemLength_ok]
    simp only [List.length_cons, List.length_append, natBytes_length]; exact congrArg some (by omega)

theorem encodeList_decode (body : Bytes) (h : body.length < 2 ^ 64) :
    ∃ first rest, lengthPrefix 0xc0 body.length ++ body = first :: rest ∧ ¬ first ≤ 0xbf ∧
      sequencePayload first rest = some body := by
  unfold lengthPrefix
  by_cases h56 : body.length < 56
  · rw [if_pos h56]
    have hb : 0xc0 + body.length < 256 := by omega
    refine ⟨UInt8.ofNat (0xc0 + body.length), body, rfl, ?_, ?_⟩
    · rw [u8_le hb]; have : (0xbf : UInt8).toNat = 191 := rfl; omega
    · simp only [sequencePayload, u8_le hb, u8_val hb]
      rw [if_pos (by have : (0xf7 : UInt8).toNat = 247 := rfl; omega),
        show 0xc0 + body.length - 0xc0 = body.length by omega, if_neg (by omega), List.take_length]
  · rw [if_neg h56]
    have h8 := byteLength_small h
    have h1 := byteLength_pos (show body.length ≠ 0 by omega)
    have hb : 0xc0 + 55 + byteLength body.length < 256 := by omega
    refine ⟨_, _, rfl, ?_, ?_⟩
    · rw [natBytes_length, u8_le hb]; have : (0xbf : UInt8).toNat = 191 := rfl; omega
    · simp only [natBytes_length, sequencePayload, u8_le hb, u8_val hb]
      rw [if_neg (by have : (0xf7 : UInt8).toNat = 247 := rfl; omega),
        show 0xc0 + 55 + byteLength body.length - 0xf7 = byteLength body.length by omega]
      have := longPayload_ok (data := body) [] rfl (by omega)
      rwa [List.append_nil] at this

theorem encode_item (x : Rlp) (t : Bytes) (h : Small x) : decodeItemLength (encode x ++ t) = some (encode x).length := by
  cases x with
  | bytes b => simp only [encode]; rw [Small] at h; exact encodeBytes_item b t h
  | list l => rw [encode]; rw [Small] at h; exact encodeList_item _ t h.1

theorem encode_pos (x : Rlp) : 1 ≤ (encode x).length := by
  cases x with
  | bytes b =>
    simp only [encode]
    match b with
    | [] => decide
    | [x] => by_cases hx : x < 0x80 <;> simp [encodeBytes, hx]
    | _ :: _ :: _ => simp only [encodeBytes, List.length_append, List.length_cons]; omega
  | list l =>
    rw [encode]
    simp only [List.length_append, lengthPrefix]
    split <;> simp <;> omega

mutual
theorem decodeF_encode : ∀ (x : Rlp) (fuel : Nat), Small x → 2 * (encode x).length + 1 ≤ fuel → decodeF fuel (encode x) = some x
  | .bytes b, fuel, h, hf => by
    rw [Small] at h
    simp only [encode] at hf ⊢
    obtain ⟨first, rest, h1, h2, h3⟩ := encodeBytes_decode b h
    obtain ⟨f, rfl⟩ : ∃ f, fuel = f + 1 := ⟨fuel - 1, by omega⟩
    rw [h1, decodeF, if_pos h2, h3]; rfl
  | .list l, fuel, h, hf => by
    rw [Small] at h
    rw [encode] at hf ⊢
    obtain ⟨first, rest, h1, h2, h3⟩ := encodeList_decode (encodeSeq l) h.1
    obtain ⟨f, rfl⟩ : ∃ f, fuel = f + 1 := ⟨fuel - 1, by omega⟩
    have hlen : (encodeSeq l).length + 1 ≤ (lengthPrefix 0xc0 (encodeSeq l).length ++ encodeSeq l).length := by
      rw [List.length_append]; unfold lengthPrefix; split <;> simp <;> omega
    simp only [h1] at hf hlen ⊢
    rw [decodeF, if_neg h2, h3]
    simp only
    rw [decodeJoinedF_encode l f h.2 (by omega)]; rfl
theorem decodeJoinedF_encode : ∀ (l : List Rlp) (fuel : Nat), SmallAll l → 2 * (encodeSeq l).length + 2 ≤ fuel →
    decodeJoinedF fuel (encodeSeq l) = some l
  | [], fuel, _, hf => by
    obtain ⟨f, rfl⟩ : ∃ f, fuel = f + 1 := ⟨fuel - 1, by omega⟩
    rw [encodeSeq, decodeJoinedF]
  | x :: r, fuel, h, hf => by
    rw [SmallAll] at h
    rw [encodeSeq] at hf ⊢
    obtain ⟨f, rfl⟩ : ∃ f, fuel = f + 1 := ⟨fuel - 1, by omega⟩
    have hpos := encode_pos x
    obtain ⟨c, e, he⟩ : ∃ c e, encode x ++ encodeSeq r = c :: e := by
      match hx : encode x ++ encodeSeq r with
      | [] => rw [← List.length_eq_zero_iff, List.length_append] at hx; omega
      | c :: e => exact ⟨c, e, rfl⟩
    rw [he, decodeJoinedF, ← he, encode_item x _ h.1]
    · simp only
      rw [List.length_append] at hf
      rw [if_neg (by rw [List.length_append]; omega), List.take_left, List.drop_left,
        decodeF_encode x f h.1 (by omega)]
      simp only
      rw [decodeJoinedF_encode r f h.2 (by omega)]; rfl
    · simp
end

theorem decode_encode (x : Rlp) (h : Small x) : decode (encode x) = some x :=
  decodeF_encode x _ h (Nat.le_refl _)

theorem encode_inj {x y : Rlp} (hx : Small x) (hy : Small y) (h : encode x = encode y) : x = y := by
  have h1 := decode_encode x hx
  rw [h, decode_encode y hy] at h1
  exact (Option.some.inj h1).symm

end Rlp
end Verif
namespace Verif
namespace Rlp

theorem encodeBytes_length (b : Bytes) : b.length ≤ (encodeBytes b).length := by
  match b with
  | [] => exact Nat.zero_le _
  | [x] => by_cases hx : x < 0x80 <;> simp [encodeBytes, hx]
  | _ :: _ :: _ => simp only [encodeBytes, List.length_append]; omega

mutual
theorem small_of_length : ∀ x : Rlp, (encode x).length < 2 ^ 64 → Small x
  | .bytes b, h => by
    rw [Small]; simp only [encode] at h; exact Nat.lt_of_le_of_lt (encodeBytes_length b) h
  | .list l, h => by
    rw [encode] at h
    rw [List.length_append] at h
    have h' : (encodeSeq l).length < 2 ^ 64 := by omega
    rw [Small]; exact ⟨h', smallAll_of_length l h'⟩
theorem smallAll_of_length : ∀ l : List Rlp, (encodeSeq l).length < 2 ^ 64 → SmallAll l
  | [], _ => by rw [SmallAll]; trivial
  | x :: r, h => by
    rw [encodeSeq] at h
    rw [List.length_append] at h
    rw [SmallAll]; exact ⟨small_of_length x (by omega), smallAll_of_length r (by omega)⟩
end

/-- No encoding is a proper prefix of another. -/
theorem encode_prefix {x y : Rlp} {s t : Bytes} (hx : Small x) (hy : Small y) (h : encode x ++ s = encode y ++ t) :
    x = y ∧ s = t := by
  have h1 := encode_item x s hx
  rw [h, encode_item y t hy] at h1
  have hl := Option.some.inj h1
  have h2 := congrArg (List.take (encode x).length) h
  rw [List.take_left, ← hl, List.take_left] at h2
  have h3 := encode_inj hx hy h2
  subst h3
  exact ⟨rfl, List.append_cancel_left h⟩

theorem longPayload_length {k : Nat} {rest p : Bytes} (h : longPayload k rest = some p) : p.length ≤ rest.length := by
  unfold longPayload at h
  by_cases h1 : rest.length < k
  · simp [h1] at h
  · simp only [h1, if_false] at h
    by_cases h2 : (rest.take k).head? = some 0
    · simp [h2] at h
    · simp only [h2, if_false] at h
      split at h
      · simp at h
      · split at h
        · simp at h
        · have := Option.some.inj h; subst this; rw [List.length_take, List.length_drop]; omega

theorem sequencePayload_length {first : UInt8} {rest p : Bytes} (h : sequencePayload first rest = some p) :
    p.length ≤ rest.length := by
  unfold sequencePayload at h
  split at h
  · simp only at h
    split at h
    · simp at h
    · have := Option.some.inj h; subst this; rw [List.length_take]; omega
  · exact longPayload_length h

theorem decodeItemLength_pos {b : Bytes} {n : Nat} (h : decodeItemLength b = some n) : 1 ≤ n := by
  cases b with
  | nil => simp [decodeItemLength] at h
  | cons c r =>
    have hl : ∀ k, longItemLength k r = some n → 1 ≤ n := by
      intro k hk
      unfold longItemLength at hk
      split at hk
      · simp at hk
      · simp only at hk
        split at hk
        · simp at hk
        · have := Option.some.inj hk; omega
    simp only [decodeItemLength] at h
    split at h
    · have := Option.some.inj h; omega
    · split at h
      · have := Option.some.inj h; omega
      · split at h
        · exact hl _ h
        · split at h
          · have := Option.some.inj h; omega
          · exact hl _ h

theorem decodeF_fuel (f : Nat) :
    (∀ g b, 2 * List.length b + 1 ≤ f → 2 * List.length b + 1 ≤ g → decodeF f b = decodeF g b) ∧
    (∀ g b, 2 * List.length b + 2 ≤ f → 2 * List.length b + 2 ≤ g → decodeJoinedF f b = decodeJoinedF g b) := by
  induction f with
  | zero => exact ⟨fun _ _ h => by omega, fun _ _ h => by omega⟩
  | succ f ih =>
    refine ⟨fun g b hf hg => ?_, fun g b hf hg => ?_⟩
    · obtain ⟨g, rfl⟩ : ∃ g', g = g' + 1 := ⟨g - 1, by omega⟩
      cases b with
      | nil => rw [decodeF, decodeF]
      | cons c r =>
        rw [List.length_cons] at hf hg
        rw [decodeF, decodeF]
        split
        · rfl
        · match hp : sequencePayload c r with
          | none => rfl
          | some p =>
            have := sequencePayload_length hp
            simp only
            rw [ih.2 g p (by omega) (by omega)]
    · obtain ⟨g, rfl⟩ : ∃ g', g = g' + 1 := ⟨g - 1, by omega⟩
      cases b with
      | nil => rw [decodeJoinedF, decodeJoinedF]
      | cons c r =>
        rw [decodeJoinedF, decodeJoinedF]
        · match hp : decodeItemLength (c :: r) with
          | none => rfl
          | some n =>
            have hn := decodeItemLength_pos hp
            simp only
            split
            · rfl
            · have hl1 : ((c :: r).take n).length ≤ (c :: r).length := by rw [List.length_take]; omega
              have hl2 : ((c :: r).drop n).length + 1 ≤ (c :: r).length := by
                rw [List.length_drop]; simp only [List.length_cons] at *; omega
              rw [ih.1 g _ (by omega) (by omega), ih.2 g ((c :: r).drop n) (by omega) (by omega)]
        · simp
        · simp

end Rlp
end Verif
