import Verif.Lemmas.Bloom
import Verif.Props.C37_C39
/-! C33: the logs bloom. -/
namespace Verif
open Spec

/-- C33: a bit of the bloom is set exactly if it is one of the three bits of an address or topic of the logs: there are
no false negatives, and no bits from elsewhere. -/
theorem C33_bits (C : Crypto) (logs : List Log) (i : Nat) :
    (logsBloom C logs).getLsbD i = true ↔
      ∃ l ∈ logs, ∃ e ∈ addressBytes l.address :: l.topics.map wordBytes, ∃ j < 3,
        i = (C.keccak256 e).toNat / 2 ^ (240 - 16 * j) % 2048 := testBit_logsBloom C logs i

/-- C33: the bloom of a concatenation is the union of the blooms. -/
theorem C33_append (C : Crypto) (a b : List Log) : logsBloom C (a ++ b) = logsBloom C a ||| logsBloom C b := by
  apply BitVec.eq_of_getLsbD_eq
  intro i _
  rw [BitVec.getLsbD_or, Bool.eq_iff_iff, Bool.or_eq_true, testBit_logsBloom, testBit_logsBloom, testBit_logsBloom]
  unfold BloomBit
  constructor
  · rintro ⟨l, hl, h⟩
    rcases List.mem_append.mp hl with hl | hl
    · exact .inl ⟨l, hl, h⟩
    · exact .inr ⟨l, hl, h⟩
  · rintro (⟨l, hl, h⟩ | ⟨l, hl, h⟩)
    · exact ⟨l, List.mem_append.mpr (.inl hl), h⟩
    · exact ⟨l, List.mem_append.mpr (.inr hl), h⟩

/-- C33: the bloom does not depend on the order or number of repetitions of the logs. -/
theorem C33_order (C : Crypto) (a b : List Log) (h : ∀ l, l ∈ a ↔ l ∈ b) : logsBloom C a = logsBloom C b := by
  apply BitVec.eq_of_getLsbD_eq
  intro i _
  rw [Bool.eq_iff_iff, testBit_logsBloom, testBit_logsBloom]
  unfold BloomBit
  simp only [h]

/-- C33: the bytes of the bloom are 256, so it is the whole array and nothing is cut off. -/
theorem C33_bytes (C : Crypto) (logs : List Log) :
    (logsBloomBytes C logs).length = 256 ∧ (logsBloom C logs).toNat = fromBE (logsBloomBytes C logs) := by
  have hl : (logsBloomBytes C logs).length = 256 := by rw [logsBloomBytes_eq, addAll_length, List.length_replicate]
  refine ⟨hl, ?_⟩
  have := fromBE_lt (logsBloomBytes C logs)
  rw [hl] at this
  unfold logsBloom
  rw [BitVec.toNat_ofNat]
  refine Nat.mod_eq_of_lt (Nat.lt_of_lt_of_eq this ?_)
  show (2 ^ 8) ^ 256 = _
  rw [← Nat.pow_mul]

/-- A concrete bloom: an address whose hash (here, its number shifted into the top bytes) has the pairs 1, 2, 3. -/
example : (logsBloom { sampleCrypto with keccak256 := fun b => BitVec.ofNat 256 (fromBE b) <<< 208 } [⟨0x000100020003, [], []⟩]) =
    (1#2048 <<< 1) ||| (1#2048 <<< 2) ||| (1#2048 <<< 3) := by decide +kernel

end Verif
