import Verif.Spec.Bloom
import Verif.Lemmas.Bytes
/-! Bits of the bloom filter. -/
namespace Verif
open Spec

theorem testBit_fromBE (b : Bytes) (i : Nat) :
    (fromBE b).testBit i = ((b[b.length - 1 - i / 8]?.getD 0).toNat.testBit (i % 8) && decide (i < 8 * b.length)) := by
  induction b with
  | nil => simp [fromBE]
  | cons c r ih =>
    have hp : (256 : Nat) ^ r.length = 2 ^ (8 * r.length) := by rw [show (256 : Nat) = 2 ^ 8 by rfl, ← Nat.pow_mul]
    have hlt := fromBE_lt r
    rw [hp] at hlt
    rw [fromBE_cons, hp, Nat.mul_comm, Nat.testBit_two_pow_mul_add _ hlt]
    by_cases h : i < 8 * r.length
    · rw [if_pos h, ih]
      have e : (c :: r).length - 1 - i / 8 = (r.length - 1 - i / 8) + 1 := by rw [List.length_cons]; omega
      rw [e, List.getElem?_cons_succ, decide_eq_true h, decide_eq_true (by rw [List.length_cons]; omega)]
    · rw [if_neg h]
      by_cases h2 : i < 8 * (c :: r).length
      · rw [List.length_cons] at h2
        have e : (c :: r).length - 1 - i / 8 = 0 := by rw [List.length_cons]; omega
        rw [e, List.getElem?_cons_zero, decide_eq_true (by rw [List.length_cons]; omega), Bool.and_true, Option.getD_some]
        congr 1; omega
      · rw [decide_eq_false h2, Bool.and_false]
        apply Nat.testBit_lt_two_pow
        have := c.toNat_lt
        rw [List.length_cons] at h2
        calc c.toNat < 2 ^ 8 := this
          _ ≤ 2 ^ (i - 8 * r.length) := Nat.pow_le_pow_right (by decide) (by omega)

theorem setBloomBit_length (b : Bytes) (n : Nat) : (setBloomBit b n).length = b.length := by
  unfold setBloomBit; rw [List.length_modify]

theorem testBit_setBloomBit (b : Bytes) (hb : b.length = 256) (n : Nat) (hn : n < 2048) (i : Nat) :
    (fromBE (setBloomBit b n)).testBit i = ((fromBE b).testBit i || decide (i = n)) := by
  rw [testBit_fromBE, testBit_fromBE, setBloomBit_length, hb]
  by_cases hi : i < 8 * 256
  · rw [decide_eq_true hi, Bool.and_true, Bool.and_true]
    unfold setBloomBit
    dsimp only
    rw [List.getElem?_modify]
    obtain ⟨c, hc⟩ : ∃ c, b[256 - 1 - i / 8]? = some c := ⟨_, List.getElem?_eq_getElem (by omega)⟩
    rw [hc]
    simp only [Option.map_eq_map, Option.map_some, Option.getD_some]
    by_cases hk : (2047 - n) / 8 = 256 - 1 - i / 8
    · rw [if_pos hk, UInt8.toNat_or, Nat.testBit_or]
      congr 1
      have e : (UInt8.ofNat (1 <<< (7 - (2047 - n) % 8))).toNat = 1 <<< (n % 8) := by
        rw [show 7 - (2047 - n) % 8 = n % 8 by omega]
        have h8 : n % 8 < 8 := by omega
        generalize n % 8 = m at h8
        rw [UInt8.toNat_ofNat']
        apply Nat.mod_eq_of_lt
        rw [Nat.one_shiftLeft]
        exact Nat.pow_lt_pow_right (by decide) h8
      rw [e, Nat.one_shiftLeft, Nat.testBit_two_pow]
      apply decide_eq_decide.mpr
      omega
    · rw [if_neg hk, decide_eq_false (by omega : ¬ i = n), Bool.or_false]
  · rw [decide_eq_false hi, decide_eq_false (by omega : ¬ i = n)]; simp

theorem fromBE_slice_two (hash : Word) (j : Nat) (hj : j < 3) :
    fromBE (slice (wordBytes hash) (2 * j) (2 * j + 2)) = hash.toNat / 2 ^ (240 - 16 * j) % 65536 := by
  unfold slice wordBytes
  have e : 32 = (30 - 2 * j) + 1 + 1 + 2 * j := by omega
  rw [e, toBE_drop, toBE_head, toBE_head, Nat.add_sub_cancel_left]
  simp only [List.take_succ_cons, List.take_zero, fromBE_cons, List.length_cons, List.length_nil, fromBE_nil, UInt8.toNat_ofNat']
  have e2 : (256 : Nat) ^ (30 - 2 * j) = 2 ^ (240 - 16 * j) := by
    rw [show (256 : Nat) = 2 ^ 8 by rfl, ← Nat.pow_mul]; congr 1; omega
  rw [Nat.pow_succ, ← Nat.div_div_eq_div_mul, e2]
  generalize hash.toNat / 2 ^ (240 - 16 * j) = y
  omega

theorem bloomBit_eq (hash : Word) (j : Nat) (hj : j < 3) : bloomBit hash (2 * j) = bloomBitOf hash j := by
  unfold bloomBit bloomBitOf
  have e : (0x07FF : Nat) = 2 ^ 11 - 1 := rfl
  rw [e, Nat.and_two_pow_sub_one_eq_mod, fromBE_slice_two hash j hj]
  generalize hash.toNat / 2 ^ (240 - 16 * j) = y
  omega

theorem addToBloom_length (C : Crypto) (b e : Bytes) : (addToBloom C b e).length = b.length := by
  simp only [addToBloom, List.foldl, setBloomBit_length]

theorem testBit_addToBloom (C : Crypto) (b e : Bytes) (hb : b.length = 256) (i : Nat) :
    (fromBE (addToBloom C b e)).testBit i = true ↔
      (fromBE b).testBit i = true ∨ ∃ j < 3, i = bloomBitOf (C.keccak256 e) j := by
  have hlt : ∀ j < 3, bloomBit (C.keccak256 e) (2 * j) < 2048 := fun j hj => by
    rw [bloomBit_eq _ _ hj]; exact Nat.mod_lt _ (by decide)
  have h0 := hlt 0 (by decide); have h1 := hlt 1 (by decide); have h2 := hlt 2 (by decide)
  simp only [addToBloom, List.foldl]
  rw [testBit_setBloomBit _ (by simp only [setBloomBit_length, hb]) _ h2,
    testBit_setBloomBit _ (by simp only [setBloomBit_length, hb]) _ h1, testBit_setBloomBit _ hb _ h0]
  have e0 := bloomBit_eq (C.keccak256 e) 0 (by decide)
  have e1 := bloomBit_eq (C.keccak256 e) 1 (by decide)
  have e2 := bloomBit_eq (C.keccak256 e) 2 (by decide)
  simp only [Nat.mul_zero, Nat.mul_one, Nat.reduceMul] at e0 e1 e2
  rw [e0, e1, e2]
  simp only [Bool.or_eq_true, decide_eq_true_eq]
  constructor
  · rintro (((h | h) | h) | h)
    · exact .inl h
    · exact .inr ⟨0, by decide, h⟩
    · exact .inr ⟨1, by decide, h⟩
    · exact .inr ⟨2, by decide, h⟩
  · rintro (h | ⟨j, hj, h⟩)
    · exact .inl (.inl (.inl h))
    · match j, hj with
      | 0, _ => exact .inl (.inl (.inr h))
      | 1, _ => exact .inl (.inr h)
      | 2, _ => exact .inr h

theorem addAll_length (C : Crypto) (es : List Bytes) (b : Bytes) : (es.foldl (addToBloom C) b).length = b.length := by
  induction es generalizing b with
  | nil => rfl
  | cons e r ih => rw [List.foldl_cons, ih, addToBloom_length]

theorem testBit_addAll (C : Crypto) (es : List Bytes) (b : Bytes) (hb : b.length = 256) (i : Nat) :
    (fromBE (es.foldl (addToBloom C) b)).testBit i = true ↔
      (fromBE b).testBit i = true ∨ ∃ e ∈ es, ∃ j < 3, i = bloomBitOf (C.keccak256 e) j := by
  induction es generalizing b with
  | nil => simp
  | cons e r ih =>
    rw [List.foldl_cons, ih _ (by rw [addToBloom_length, hb]), testBit_addToBloom C b e hb, or_assoc]
    simp only [List.mem_cons, exists_eq_or_imp]

theorem logsBloomBytes_eq (C : Crypto) (logs : List Log) :
    logsBloomBytes C logs = (logs.flatMap logEntries).foldl (addToBloom C) (List.replicate 256 0) := by
  unfold logsBloomBytes
  generalize List.replicate 256 (0 : UInt8) = b
  induction logs generalizing b with
  | nil => rfl
  | cons l r ih => rw [List.foldl_cons, ih, List.flatMap_cons, List.foldl_append, logEntries, List.foldl_cons, List.foldl_map]

theorem testBit_logsBloom (C : Crypto) (logs : List Log) (i : Nat) :
    (logsBloom C logs).getLsbD i = true ↔ BloomBit C logs i := by
  unfold logsBloom BloomBit
  rw [BitVec.getLsbD_ofNat, Bool.and_eq_true, decide_eq_true_eq, logsBloomBytes_eq,
    testBit_addAll C _ _ List.length_replicate, fromBE_replicate_zero]
  simp only [Nat.zero_testBit, Bool.false_eq_true, false_or, List.mem_flatMap]
  constructor
  · rintro ⟨_, e, ⟨l, hl, he⟩, j, hj, h⟩
    exact ⟨l, hl, e, he, j, hj, h⟩
  · rintro ⟨l, hl, e, he, j, hj, h⟩
    exact ⟨by rw [h]; exact Nat.mod_lt _ (by decide), e, ⟨l, hl, he⟩, j, hj, h⟩

end Verif
