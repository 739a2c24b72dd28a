import Verif.Lemmas.Ethash
import Verif.Props.C51_C52
/-! C57: ethash. Verifying with the small cache gives the same answer as mining with the full dataset. -/
namespace Verif
open Spec Ethash

/-- **C57.** `fnv` multiplies by the FNV prime and combines by exclusive or, in 32 bits, whatever the sizes of its arguments. -/
theorem C57_fnv (a b : Nat) : fnv a b = BitVec.ofNat 32 a * 16777619#32 ^^^ BitVec.ofNat 32 b := by
  apply BitVec.eq_of_toNat_eq
  unfold fnv
  have h32 : ∀ x : Nat, x &&& 0xffffffff = x % 2 ^ 32 := fun x => Nat.and_two_pow_sub_one_eq_mod x 32
  rw [h32, BitVec.toNat_ofNat, BitVec.toNat_xor, BitVec.toNat_mul, BitVec.toNat_ofNat, BitVec.toNat_ofNat, BitVec.toNat_ofNat,
    Nat.mod_mod, Nat.xor_mod_two_pow]
  generalize (2 : Nat) ^ 32 = m
  rw [Nat.mul_mod]

/-- **C57.** `fnv` loses nothing: with either argument fixed, the result determines the other 32-bit argument. -/
theorem C57_fnv_injective (a a' b b' : U32) :
    (fnv a.toNat b.toNat = fnv a'.toNat b.toNat → a = a') ∧ (fnv a.toNat b.toNat = fnv a.toNat b'.toNat → b = b') := by
  simp only [C57_fnv, BitVec.ofNat_toNat, BitVec.setWidth_eq]
  constructor
  · intro h
    have h := congrArg (· ^^^ b) h
    simp only [BitVec.xor_assoc, BitVec.xor_self, BitVec.xor_zero] at h
    have h := congrArg (· * 899433627#32) h
    simp only [BitVec.mul_assoc] at h
    rwa [show 16777619#32 * 899433627#32 = 1#32 from by decide, BitVec.mul_one, BitVec.mul_one] at h
  · intro h
    have h := congrArg (a * 16777619#32 ^^^ ·) h
    simpa only [← BitVec.xor_assoc, BitVec.xor_self, BitVec.zero_xor] using h

/-- **C57.** The seed of a block is the all-zero string hashed once for each epoch before it. -/
theorem C57_seed (K : Hashes) (n : Nat) :
    generateSeed K n = K.h256^[n / 30000] (List.replicate 32 0) ∧ (generateSeed K n).length = 32 := by
  have e : ∀ (k : Nat) (s : Bytes), seedLoop K k s = K.h256^[k] s := by
    intro k
    induction k with
    | zero => intro s; rfl
    | succ k ih => intro s; exact ih _
  have h1 := e (n / 30000) (List.replicate 32 0)
  refine ⟨h1, ?_⟩
  rw [show generateSeed K n = _ from h1]
  cases n / 30000 with
  | zero => rfl
  | succ k => rw [Function.iterate_succ_apply']; exact Hashes.h256_length K _

private theorem cache_rows (n : Nat) (hn : n / 30000 ≤ 2000000) :
    ∃ p, cacheSize n = some (64 * p) ∧ 0 < p ∧ p < 2 ^ 32 := by
  obtain ⟨p, h1, h2, h3, -⟩ := C51_cache n
  exact ⟨p, h1, h2.pos, by omega⟩

/-- **C57.** For every block up to number 60 000 000 000 the cache is generated without an exception; it has one row of 16
numbers for each 64 bytes of `cache_size`. -/
theorem C57_cache (K : Hashes) (n : Nat) (hn : n / 30000 ≤ 2000000) :
    ∃ size cache, cacheSize n = some size ∧ generateCache K n = some cache ∧ 64 * cache.length = size ∧
      ∀ row ∈ cache, row.length = 16 := by
  obtain ⟨p, h1, h2, h3⟩ := cache_rows n hn
  obtain ⟨cache, e, hl, hc⟩ := generateCache_ok K n _ h1 (by omega) (by omega)
  exact ⟨_, cache, h1, e, by omega, hc.rows⟩

/-- **C57.** For every block below number 1 950 000 000 (65000 epochs) the dataset is generated without an exception; it has one
64-byte item for each 64 bytes of `dataset_size`, each being what `generate_dataset_item` computes from the cache. -/
theorem C57_dataset (K : Hashes) (n : Nat) (hn : n / 30000 < 65000) :
    ∃ size cache dataset, datasetSize n = some size ∧ generateCache K n = some cache ∧ generateDataset K n = some dataset ∧
      64 * dataset.length = size ∧ (∀ item ∈ dataset, item.length = 64) ∧
      ∀ i, i < dataset.length → dataset[i]? = generateDatasetItem K cache i := by
  obtain ⟨p, h1, h2, h3⟩ := cache_rows n (by omega)
  obtain ⟨cache, e, hl, hc⟩ := generateCache_ok K n _ h1 (by omega) (by omega)
  obtain ⟨q, d1, d2, d3, -⟩ := C51_dataset n
  have hq : 128 * q / 64 = 2 * q := by omega
  have hbound : 2 * q < 2 ^ 512 := Nat.lt_of_lt_of_le (m := 2 ^ 40) (by omega) (Nat.pow_le_pow_right (by omega) (by omega))
  obtain ⟨ds, m1, m2, m3⟩ := mapM_some (fun index => generateDatasetItem K cache index) (fun item => item.length = 64)
    (List.range (128 * q / HASH_BYTES)) (fun i hi => by
      have : i < 128 * q / 64 := List.mem_range.mp hi
      exact generateDatasetItem_ok K hc (by omega))
  have hlen : ds.length = 2 * q := by rw [m2, List.length_range]; exact hq
  refine ⟨128 * q, cache, ds, d1, e, ?_, by omega, m3, fun i hi => ?_⟩
  · unfold generateDataset
    simp only [d1, e, Option.bind_eq_bind, Option.bind_some]
    exact m1
  · exact mapM_get _ _ _ m1 i i (by rw [List.getElem?_range]; rw [m2, List.length_range] at hi; exact hi)

/-- **C57.** `hashimoto` only looks at items of the dataset: two ways of fetching that agree on the items below
`dataset_size / 64` give the same digest and result. -/
theorem C57_in_range (K : Hashes) (headerHash nonce : Bytes) (size : Nat) (f g : Nat → Option (List U32))
    (h : ∀ i, i < size / 64 → f i = g i) : hashimoto K headerHash nonce size f = hashimoto K headerHash nonce size g := by
  have e : ∀ (head : U32) (l : List Nat) (mix : List U32),
      l.foldlM (accessStep (size / 128) head f) mix = l.foldlM (accessStep (size / 128) head g) mix := fun head l mix =>
    foldlM_congr (fun _ => True) _ _ _ _ trivial fun s i _ _ =>
      ⟨accessStep_congr _ _ f g (fun i hi => h i (by omega)) s i, fun _ _ => trivial⟩
  unfold hashimoto
  simp only [e]

/-- **C57.** If items are fetched successfully, `hashimoto` raises no exception; the mix digest and the result have 32 bytes. -/
theorem C57_total (K : Hashes) (headerHash nonce : Bytes) (size : Nat) (f : Nat → Option (List U32))
    (h0 : 128 ≤ size) (h1 : size < 2 ^ 39) (h : ∀ i, i < size / 64 → ∃ r, f i = some r ∧ r.length = 16) :
    ∃ digest result, hashimoto K headerHash nonce size f = some (digest, result) ∧ digest.length = 32 ∧ result.length = 32 := by
  obtain ⟨mix, e, hm⟩ := foldlM_inv (fun m : List U32 => m.length = 32)
    (accessStep (size / 128) (BitVec.ofNat 32 (fromLE ((K.h512 (headerHash ++ nonce.reverse)).take 4))) f)
    (List.range HASHIMOTO_ACCESSES)
    ((List.replicate (MIX_BYTES / HASH_BYTES) (leWords (K.h512 (headerHash ++ nonce.reverse)))).flatten)
    (by
      have := leWords_length 16 _ (Hashes.h512_length K (headerHash ++ nonce.reverse))
      show (List.flatten [_, _]).length = 32
      simp [this])
    (fun s i _ hs => accessStep_ok (by omega) (by omega) _ f (fun i hi => h i (by omega)) hs i)
  obtain ⟨c, ec, hc⟩ := compress_ok 8 mix hm
  refine ⟨leWordsToBytes c, K.h256 (K.h512 (headerHash ++ nonce.reverse) ++ leWordsToBytes c), ?_, by rw [leWordsToBytes_length, hc], Hashes.h256_length K _⟩
  unfold hashimoto
  simp only [e, ec, Option.bind_eq_bind, Option.bind_some]
  rfl

/-- **C57.** Verification agrees with mining: for every block below number 1 950 000 000, every header hash and nonce,
`hashimoto_light` with the cache and `hashimoto` reading the full dataset both succeed and return the same digest and result. -/
theorem C57_light_full (K : Hashes) (n : Nat) (hn : n / 30000 < 65000) (headerHash nonce : Bytes) :
    ∃ size cache dataset digest result,
      datasetSize n = some size ∧ generateCache K n = some cache ∧ generateDataset K n = some dataset ∧
      hashimotoLight K headerHash nonce cache size = some (digest, result) ∧
      hashimoto K headerHash nonce size (fun i => (dataset[i]?).map leWords) = some (digest, result) ∧
      digest.length = 32 ∧ result.length = 32 := by
  obtain ⟨size, cache, ds, h1, h2, h3, h4, h5, h6⟩ := C57_dataset K n hn
  obtain ⟨q, d1, d2, d3, -⟩ := C51_dataset n
  have hs : size = 128 * q := by rw [h1] at d1; exact Option.some.inj d1
  have hq := d2.pos
  obtain ⟨digest, result, e, l1, l2⟩ := C57_total K headerHash nonce size (fun i => (ds[i]?).map leWords) (by omega) (by omega)
    (fun i hi => by
      have hl : i < ds.length := by omega
      rw [List.getElem?_eq_getElem hl]
      exact ⟨_, rfl, leWords_length 16 _ (h5 _ (List.getElem_mem _))⟩)
  refine ⟨size, cache, ds, digest, result, h1, h2, h3, ?_, e, l1, l2⟩
  rw [← e]
  refine C57_in_range K headerHash nonce size _ _ fun i hi => ?_
  rw [h6 i (by omega)]
  cases generateDatasetItem K cache i <;> rfl

example : (12965000 : Nat) / 30000 < 65000 := by decide

end Verif
