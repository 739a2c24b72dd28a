import Verif.Lemmas.Rlp
import Verif.Lemmas.Bytes
/-! Lengths of RLP encodings. -/
namespace Verif

theorem byteLength_le {n k : Nat} (h : n < 256 ^ k) : byteLength n ≤ k := by
  rcases Nat.lt_or_ge k (byteLength n) with hlt | hge
  · exfalso
    have h0 : n ≠ 0 := fun h0 => by subst h0; simp [byteLength] at hlt
    have h2 := (byteLength_spec n).2 h0
    have h3 : 256 ^ k ≤ 256 ^ (byteLength n - 1) := Nat.pow_le_pow_right (by omega) (by omega)
    omega
  · exact hge

theorem lengthPrefix_length (o : Nat) {n : Nat} (h : n < 2 ^ 64) : (Rlp.lengthPrefix o n).length ≤ 9 := by
  unfold Rlp.lengthPrefix
  split
  · simp
  · have : byteLength n ≤ 8 := byteLength_le (by omega)
    simp only [List.length_cons, natBytes_length]; omega

theorem encodeBytes_le (b : Bytes) (h : b.length < 2 ^ 64) : (Rlp.encode (.bytes b)).length ≤ b.length + 9 := by
  have hp := lengthPrefix_length 0x80 h
  rw [Rlp.encode, Rlp.encodeBytes.eq_def]
  split
  · split
    · simp
    · rw [List.length_append]
      have := lengthPrefix_length 0x80 (n := 1) (by decide)
      simp only [List.length_singleton]; omega
  · rw [List.length_append]; omega

theorem encodeList_le (l : List Rlp) (h : (Rlp.encodeSeq l).length < 2 ^ 64) :
    (Rlp.encode (.list l)).length ≤ (Rlp.encodeSeq l).length + 9 := by
  have hp := lengthPrefix_length 0xc0 h
  rw [Rlp.encode, List.length_append]; omega

theorem encode_word (w : Word) : (Rlp.encode (.bytes (wordBytes w))).length = 33 := by
  have hl := wordBytes_length w
  rw [Rlp.encode, Rlp.encodeBytes.eq_def]
  split
  · rename_i heq; rw [heq] at hl; simp at hl
  · rw [List.length_append, hl, Rlp.lengthPrefix, if_pos (by decide)]; rfl

end Verif
