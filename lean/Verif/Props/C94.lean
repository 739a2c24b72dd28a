import Verif.Lemmas.EthashSpec
import Verif.Lemmas.SamplePow
/-! C94: the proof-of-work function is Ethash, as `Verif.Spec.Ethash` defines it. -/
namespace Verif
open Spec Ethash Pow

private theorem unique {p q n : Nat} (hp : LargestPrimeBelow p n) (hq : LargestPrimeBelow q n) : p = q :=
  Nat.le_antisymm (hq.2.2 p hp.1 hp.2.1) (hp.2.2 q hq.1 hq.2.1)

private theorem cache_of (K : Hashes) (n : Nat) (hn : n / 30000 ≤ 2000000) {p : Nat}
    (hp : LargestPrimeBelow p ((2 ^ 24 + 2 ^ 17 * (n / 30000)) / 64)) :
    0 < p ∧ p < 2 ^ 32 ∧ generateCache K n = some (cacheOf p (Spec.Ethash.cacheRow K p (Spec.Ethash.seedOf K n))) := by
  obtain ⟨p', h1, h2⟩ := C51_cache n
  obtain rfl := unique h2 hp
  have hpos := hp.1.pos
  have hlt := hp.2.1
  refine ⟨hpos, by omega, ?_⟩
  have key := generateCache_eq K n _ h1 (by omega) (by omega)
  rw [show 64 * p' / 64 = p' from by omega, (C57_seed K n).1] at key
  exact key

/-- **C94.** The cache of a block has as many rows as the largest prime below `2^18 + 2^11 * epoch`; each is what the
specification says, split into 16 words. -/
theorem C94_cache (K : Hashes) (n : Nat) (hn : n / 30000 ≤ 2000000) {p : Nat}
    (hp : LargestPrimeBelow p ((2 ^ 24 + 2 ^ 17 * (n / 30000)) / 64)) :
    ∃ cache, generateCache K n = some cache ∧ cache.length = p ∧
      ∀ i, i < p → cache[i]? = some ((List.range 16).map (Spec.Ethash.word (Spec.Ethash.cacheRow K p (Spec.Ethash.seedOf K n) i))) := by
  obtain ⟨-, -, h⟩ := cache_of K n hn hp
  refine ⟨_, h, by simp [cacheOf], fun i hi => ?_⟩
  rw [cacheOf, List.getElem?_map, List.getElem?_range hi]
  rfl

/-- **C94.** Every item that can be computed from the cache of a block is the item of the specification. -/
theorem C94_item (K : Hashes) (n : Nat) (hn : n / 30000 ≤ 2000000) {p : Nat}
    (hp : LargestPrimeBelow p ((2 ^ 24 + 2 ^ 17 * (n / 30000)) / 64)) {cache : List (List U32)} (hc : generateCache K n = some cache)
    {index : Nat} (hi : index < 2 ^ 512) :
    generateDatasetItem K cache index = some (Spec.Ethash.itemOf K n p index) := by
  obtain ⟨h0, h1, h⟩ := cache_of K n hn hp
  obtain rfl := Option.some.inj (h.symm.trans hc)
  exact generateDatasetItem_eq K h0 h1 _ (stirred_length K p _ _) hi

private theorem small {q e : Nat} (he : e < 65000) (hq : LargestPrimeBelow q ((2 ^ 30 + 2 ^ 23 * e) / 128)) :
    0 < q ∧ 128 * q < 2 ^ 39 + 2 ^ 38 := ⟨hq.1.pos, by have := hq.2.1; omega⟩

/-- **C94.** The dataset of a block is the list of the items of the specification, two for each page; the number of pages is the
largest prime below `2^23 + 2^16 * epoch`. -/
theorem C94_dataset (K : Hashes) (n : Nat) (hn : n / 30000 < 65000) {p q : Nat}
    (hp : LargestPrimeBelow p ((2 ^ 24 + 2 ^ 17 * (n / 30000)) / 64)) (hq : LargestPrimeBelow q ((2 ^ 30 + 2 ^ 23 * (n / 30000)) / 128)) :
    generateDataset K n = some ((List.range (2 * q)).map (Spec.Ethash.itemOf K n p)) := by
  obtain ⟨h0, h1, h⟩ := cache_of K n (by omega) hp
  obtain ⟨q', d1, d2⟩ := C51_dataset n
  obtain rfl := unique d2 hq
  have hb := small hn hq
  have hbound : 2 * q' < 2 ^ 512 := Nat.lt_of_lt_of_le (m := 2 ^ 40) (by omega) (Nat.pow_le_pow_right (by omega) (by omega))
  unfold generateDataset HASH_BYTES
  simp only [d1, h, Option.bind_eq_bind, Option.bind_some]
  rw [show 128 * q' / 64 = 2 * q' from by omega]
  refine mapM_range _ _ _ fun i hi => ?_
  have hi := List.mem_range.mp hi
  exact C94_item K n (by omega) hp h (by omega)

/-- **C94.** For every block below number 1 950 000 000, every header hash and every nonce: `hashimoto_light`, with the cache and
the dataset size of the block, returns the mix digest and the result of the specification. -/
theorem C94_light (K : Hashes) (n : Nat) (hn : n / 30000 < 65000) {p q : Nat}
    (hp : LargestPrimeBelow p ((2 ^ 24 + 2 ^ 17 * (n / 30000)) / 64)) (hq : LargestPrimeBelow q ((2 ^ 30 + 2 ^ 23 * (n / 30000)) / 128))
    (headerHash nonce : Bytes) :
    ∃ cache size, generateCache K n = some cache ∧ datasetSize n = some size ∧
      hashimotoLight K headerHash nonce cache size = some (Spec.Ethash.digest K headerHash nonce q (Spec.Ethash.itemOf K n p),
        Spec.Ethash.result K headerHash nonce q (Spec.Ethash.itemOf K n p)) := by
  obtain ⟨-, -, h⟩ := cache_of K n (by omega) hp
  obtain ⟨q', d1, d2⟩ := C51_dataset n
  obtain rfl := unique d2 hq
  have hb := small hn hq
  have hlt : 128 * q' < 2 ^ 39 := by have := hq.2.1; omega
  refine ⟨_, _, h, d1, ?_⟩
  have key := hashimoto_eq K headerHash nonce (size := 128 * q') (by omega) hlt
    (fun index => do return leWords (← generateDatasetItem K (cacheOf p (Spec.Ethash.cacheRow K p (Spec.Ethash.seedOf K n))) index))
    (Spec.Ethash.itemOf K n p) (fun i hi => by
      have hbound : i < 2 ^ 512 := Nat.lt_of_lt_of_le (m := 2 ^ 40) (by omega) (Nat.pow_le_pow_right (by omega) (by omega))
      rw [C94_item K n (by omega) hp h hbound]
      exact congrArg some (leWords_eq 16 _ (Hashes.h512_length K _)))
  rw [show 128 * q' / 128 = q' from by omega] at key
  exact key

/-- **C94.** What the check of the seal of a header accepts: the mix digest of the header is the one of Ethash, and the result of
Ethash, read as a number, times the difficulty is at most `2^256`. -/
theorem C94_seal (K : Hashes) (h : PowHeader) (hd : h.difficulty ≠ 0) (hn : h.number / 30000 < 65000) {p q : Nat}
    (hp : LargestPrimeBelow p ((2 ^ 24 + 2 ^ 17 * (h.number / 30000)) / 64))
    (hq : LargestPrimeBelow q ((2 ^ 30 + 2 ^ 23 * (h.number / 30000)) / 128)) :
    validateProofOfWork K h = .ok () ↔
      Spec.Ethash.digest K (headerHashForPow K h) (toBE 8 h.nonce.toNat) q (Spec.Ethash.itemOf K h.number p) = toBE 32 h.mixDigest.toNat ∧
      fromBE (Spec.Ethash.result K (headerHashForPow K h) (toBE 8 h.nonce.toNat) q (Spec.Ethash.itemOf K h.number p)) * h.difficulty ≤
        2 ^ 256 := by
  obtain ⟨cache, size, e1, e2, e3⟩ := C94_light K h.number hn hp hq (headerHashForPow K h) (toBE 8 h.nonce.toNat)
  rw [validateProofOfWork_iff K h hd]
  constructor
  · rintro ⟨c, s, r, h1, h2, h3, h4⟩
    obtain rfl := Option.some.inj (e1.symm.trans h1)
    obtain rfl := Option.some.inj (e2.symm.trans h2)
    obtain ⟨h5, h6⟩ := Prod.mk.inj (Option.some.inj (e3.symm.trans h3))
    exact ⟨h5, by rw [h6]; exact h4⟩
  · rintro ⟨h5, h6⟩
    exact ⟨cache, size, _, e1, e2, by rw [e3, h5], h6⟩

/-- The two primes exist for every block. -/
example (n : Nat) : (∃ p, LargestPrimeBelow p ((2 ^ 24 + 2 ^ 17 * (n / 30000)) / 64)) ∧
    ∃ q, LargestPrimeBelow q ((2 ^ 30 + 2 ^ 23 * (n / 30000)) / 128) :=
  ⟨(C51_cache n).imp fun _ h => h.2, (C51_dataset n).imp fun _ h => h.2⟩

/-- A header whose seal is accepted, and so has the digest of the specification. -/
example {p q : Nat} (hp : LargestPrimeBelow p ((2 ^ 24 + 2 ^ 17 * (powOne.number / 30000)) / 64))
    (hq : LargestPrimeBelow q ((2 ^ 30 + 2 ^ 23 * (powOne.number / 30000)) / 128)) :
    Spec.Ethash.digest sampleK (headerHashForPow sampleK powOne) (toBE 8 powOne.nonce.toNat) q (Spec.Ethash.itemOf sampleK powOne.number p) =
      toBE 32 powOne.mixDigest.toNat :=
  ((C94_seal sampleK powOne (by decide) (by decide) hp hq).mp
    ((validateProofOfWork_iff sampleK powOne (by decide)).mpr powOne_rules.proofOfWork)).1

end Verif
