import Verif.Model.Ethash
import Verif.Lemmas.Numeric
import Verif.Lemmas.Memory
/-! Totality of the parts of ethash. -/
namespace Verif.Ethash
open Verif

theorem foldlM_inv {σ ι : Type} (P : σ → Prop) (f : σ → ι → Option σ) : ∀ (l : List ι) (s : σ), P s →
    (∀ s, ∀ i ∈ l, P s → ∃ s', f s i = some s' ∧ P s') → ∃ s', l.foldlM f s = some s' ∧ P s'
  | [], s, h, _ => ⟨s, rfl, h⟩
  | i :: r, s, h, hf => by
    obtain ⟨s1, e1, h1⟩ := hf s i (by simp) h
    obtain ⟨s2, e2, h2⟩ := foldlM_inv P f r s1 h1 fun s j hj => hf s j (by simp [hj])
    exact ⟨s2, by rw [List.foldlM_cons, e1]; exact e2, h2⟩

theorem foldlM_congr {σ ι : Type} (P : σ → Prop) (f g : σ → ι → Option σ) : ∀ (l : List ι) (s : σ), P s →
    (∀ s, ∀ i ∈ l, P s → f s i = g s i ∧ ∀ s', f s i = some s' → P s') → l.foldlM f s = l.foldlM g s
  | [], _, _, _ => rfl
  | i :: r, s, h, hf => by
    obtain ⟨e, hp⟩ := hf s i (by simp) h
    rw [List.foldlM_cons, List.foldlM_cons, ← e]
    cases hs : f s i with
    | none => rfl
    | some s1 => exact foldlM_congr P f g r s1 (hp s1 hs) fun s j hj => hf s j (by simp [hj])

theorem mapM_some {ι β : Type} (f : ι → Option β) (Q : β → Prop) : ∀ l : List ι, (∀ i ∈ l, ∃ b, f i = some b ∧ Q b) →
    ∃ r, l.mapM f = some r ∧ r.length = l.length ∧ ∀ b ∈ r, Q b
  | [], _ => ⟨[], by simp⟩
  | i :: l, h => by
    obtain ⟨b, e, q⟩ := h i (by simp)
    obtain ⟨r, er, hl, hq⟩ := mapM_some f Q l fun j hj => h j (by simp [hj])
    refine ⟨b :: r, by rw [List.mapM_cons, e, er]; rfl, by simp [hl], fun c hc => ?_⟩
    rcases List.mem_cons.mp hc with rfl | hc
    · exact q
    · exact hq c hc

theorem mapM_get {ι β : Type} (f : ι → Option β) : ∀ (l : List ι) (r : List β), l.mapM f = some r → ∀ (k : Nat) (i : ι), l[k]? = some i →
    r[k]? = f i
  | [], _, _, k, i, hi => by simp at hi
  | a :: l, r, h, k, i, hi => by
    rw [List.mapM_cons] at h
    obtain ⟨b, e, h⟩ := Option.bind_eq_some_iff.mp h
    obtain ⟨r', e', h⟩ := Option.bind_eq_some_iff.mp h
    cases h
    cases k with
    | zero => simp at hi; subst hi; simp [e]
    | succ k => simpa using mapM_get f l r' e' k i (by simpa using hi)

theorem Hashes.h512_length (K : Hashes) (b : Bytes) : (K.h512 b).length = 64 := toBE_length _ _
theorem Hashes.h256_length (K : Hashes) (b : Bytes) : (K.h256 b).length = 32 := toBE_length _ _

theorem fillCache_ok (K : Hashes) (seed : Bytes) (n : Nat) (hn : 0 < n) :
    ∃ c, fillCache K seed n = some c ∧ c.length = n ∧ ∀ x ∈ c, x.length = 64 := by
  suffices h : ∀ m, ∃ c, (List.range' 1 m).foldlM (fun cache index => do
      let previous ← cache[index - 1]?
      return cache ++ [K.h512 previous]) [K.h512 seed] = some c ∧ c.length = m + 1 ∧ ∀ x ∈ c, x.length = 64 by
    obtain ⟨c, h1, h2, h3⟩ := h (n - 1)
    exact ⟨c, h1, by omega, h3⟩
  intro m
  induction m with
  | zero => exact ⟨_, rfl, rfl, by simp [Hashes.h512_length]⟩
  | succ m ih =>
    obtain ⟨c, h1, h2, h3⟩ := ih
    rw [List.range'_concat, List.foldlM_append, h1]
    have hl : 1 + 1 * m - 1 < c.length := by omega
    refine ⟨c ++ [K.h512 c[1 + 1 * m - 1]], ?_, by simp [h2], ?_⟩
    · simp only [Option.bind_eq_bind, Option.bind_some, List.foldlM_cons, List.foldlM_nil]
      simp only [List.getElem?_eq_getElem hl]
      rfl
    · intro x hx
      rcases List.mem_append.mp hx with hx | hx
      · exact h3 x hx
      · rw [List.mem_singleton.mp hx, Hashes.h512_length]

/-- A cache whose entries have 64 bytes. -/
def Filled (n : Nat) (c : List Bytes) : Prop := c.length = n ∧ ∀ x ∈ c, x.length = 64

theorem memoStep_ok (K : Hashes) {n : Nat} (hn : 0 < n) (hn' : n < 2 ^ 32) {c : List Bytes} (hc : Filled n c) {i : Nat} (hi : i < n) :
    ∃ c', memoStep K n c i = some c' ∧ Filled n c' := by
  have l1 : (i + n - 1) % n < c.length := by rw [hc.1]; exact Nat.mod_lt _ hn
  have l2 : i < c.length := by rw [hc.1]; exact hi
  have l3 : fromLE (c[i].take 4) % n < c.length := by rw [hc.1]; exact Nat.mod_lt _ hn
  unfold memoStep
  rw [List.getElem?_eq_getElem l1, List.getElem?_eq_getElem l2]
  simp only [Option.bind_eq_bind, Option.bind_some]
  rw [if_neg (by omega), List.getElem?_eq_getElem l3]
  refine ⟨_, rfl, by simp [hc.1], fun x hx => ?_⟩
  rcases List.mem_or_eq_of_mem_set hx with hx | hx
  · exact hc.2 x hx
  · rw [hx, Hashes.h512_length]

/-- What `generate_cache` returns: at least one row and fewer than `2^32`, of 16 numbers each. -/
structure CacheOK (cache : List (List U32)) : Prop where
  pos : 0 < cache.length
  small : cache.length < 2 ^ 32
  rows : ∀ r ∈ cache, r.length = 16

theorem generateCache_ok (K : Hashes) (b size : Nat) (hs : cacheSize b = some size) (h0 : 0 < size / 64) (h1 : size / 64 < 2 ^ 32) :
    ∃ cache, generateCache K b = some cache ∧ cache.length = size / 64 ∧ CacheOK cache := by
  obtain ⟨c, e1, l1, r1⟩ := fillCache_ok K (generateSeed K b) (size / 64) h0
  obtain ⟨c', e2, h2⟩ := foldlM_inv (Filled (size / 64)) (fun cache (_ : Nat) =>
    (List.range (size / 64)).foldlM (memoStep K (size / 64)) cache) (List.range CACHE_ROUNDS) c ⟨l1, r1⟩
    (fun s _ _ hs => foldlM_inv (Filled (size / 64)) _ _ s hs fun s i hi hs => memoStep_ok K h0 h1 hs (List.mem_range.mp hi))
  refine ⟨c'.map leWords, ?_, by simp [h2.1], ⟨by simp [h2.1]; omega, by simp [h2.1]; omega, ?_⟩⟩
  · unfold generateCache HASH_BYTES
    simp only [hs, e1, e2, Option.bind_eq_bind, Option.bind_some]
    rfl
  · intro r hr
    obtain ⟨x, hx, rfl⟩ := List.mem_map.mp hr
    exact leWords_length 16 x (h2.2 x hx)

theorem fnvHash_ok (mix data : List U32) (h : mix.length ≤ data.length) :
    ∃ r, fnvHash mix data = some r ∧ r.length = mix.length := by
  obtain ⟨r, h1, h2, -⟩ := mapM_some (fun i => do return fnv (← mix[i]?).toNat (← data[i]?).toNat) (fun _ : U32 => True)
    (List.range mix.length) (fun i hi => by
      have := List.mem_range.mp hi
      rw [List.getElem?_eq_getElem this, List.getElem?_eq_getElem (by omega)]
      exact ⟨_, rfl, trivial⟩)
  exact ⟨r, h1, by simpa using h2⟩

theorem parentStep_ok {cache : List (List U32)} (hc : CacheOK cache) (index : Nat) {mix : List U32} (hm : mix.length = 16) (j : Nat) :
    ∃ mix', parentStep cache index mix j = some mix' ∧ mix'.length = 16 := by
  have l1 : j % 16 < mix.length := by omega
  unfold parentStep
  rw [List.getElem?_eq_getElem l1]
  simp only [Option.bind_eq_bind, Option.bind_some]
  have hp := hc.pos; have hs := hc.small
  rw [if_neg (by omega)]
  generalize (fnv (index ^^^ j) mix[j % 16].toNat).toNat = x
  have l2 : x % cache.length < cache.length := Nat.mod_lt _ hp
  rw [List.getElem?_eq_getElem l2]
  simp only [Option.bind_some]
  obtain ⟨r, h1, h2⟩ := fnvHash_ok mix cache[x % cache.length] (by rw [hc.rows _ (List.getElem_mem _)]; omega)
  exact ⟨r, h1, by omega⟩

theorem generateDatasetItem_ok (K : Hashes) {cache : List (List U32)} (hc : CacheOK cache) {index : Nat} (hi : index < 2 ^ 512) :
    ∃ item, generateDatasetItem K cache index = some item ∧ item.length = 64 := by
  have l1 : index % cache.length < cache.length := Nat.mod_lt _ hc.pos
  have hx : leWordsToNat cache[index % cache.length] ^^^ index < 2 ^ 512 := by
    refine Nat.xor_lt_two_pow ?_ hi
    have := leWordsToNat_lt cache[index % cache.length]
    rwa [hc.rows _ (List.getElem_mem _)] at this
  obtain ⟨mix, h1, h2⟩ := foldlM_inv (fun m : List U32 => m.length = 16) (parentStep cache index) (List.range DATASET_PARENTS)
    (leWords (K.h512 (toLE 64 (leWordsToNat cache[index % cache.length] ^^^ index))))
    (leWords_length 16 _ (Hashes.h512_length K _)) (fun s j _ hs => parentStep_ok hc index hs j)
  refine ⟨K.h512 (leWordsToBytes mix), ?_, Hashes.h512_length K _⟩
  unfold generateDatasetItem
  rw [if_neg (by have := hc.pos; omega), List.getElem?_eq_getElem l1]
  simp only [Option.bind_eq_bind, Option.bind_some]
  rw [if_neg (by omega)]
  simp only [h1, Option.bind_some]
  rw [if_neg (by rw [leWordsToBytes_length, h2]; simp)]
  rfl

/-- Two ways of fetching items that agree below `2 * rows` give the same accesses. -/
theorem accessStep_congr (rows : Nat) (head : U32) (f g : Nat → Option (List U32)) (h : ∀ i, i < 2 * rows → f i = g i)
    (mix : List U32) (i : Nat) : accessStep rows head f mix i = accessStep rows head g mix i := by
  unfold accessStep
  split
  · rfl
  · cases mix[i % mix.length]? with
    | none => rfl
    | some word =>
      simp only [Option.bind_eq_bind, Option.bind_some]
      split
      · rfl
      · rename_i hr
        have hlt : (fnv (BitVec.ofNat 32 i ^^^ head).toNat word.toNat).toNat % rows < rows := Nat.mod_lt _ (by omega)
        generalize (fnv (BitVec.ofNat 32 i ^^^ head).toNat word.toNat).toNat % rows = parent at hlt
        congr 1
        refine foldlM_congr (fun _ => True) _ _ _ _ trivial fun s j hj _ => ⟨?_, fun _ _ => trivial⟩
        have : j < 2 := List.mem_range.mp hj
        rw [h _ (by omega)]

theorem accessStep_ok {rows : Nat} (h0 : 0 < rows) (h1 : rows < 2 ^ 32) (head : U32) (f : Nat → Option (List U32))
    (h : ∀ i, i < 2 * rows → ∃ r, f i = some r ∧ r.length = 16) {mix : List U32} (hm : mix.length = 32) (i : Nat) :
    ∃ mix', accessStep rows head f mix i = some mix' ∧ mix'.length = 32 := by
  unfold accessStep
  have l1 : i % mix.length < mix.length := Nat.mod_lt _ (by omega)
  rw [if_neg (by omega), List.getElem?_eq_getElem l1]
  simp only [Option.bind_eq_bind, Option.bind_some]
  rw [if_neg (by omega)]
  have hlt : (fnv (BitVec.ofNat 32 i ^^^ head).toNat mix[i % mix.length].toNat).toNat % rows < rows := Nat.mod_lt _ (by omega)
  generalize (fnv (BitVec.ofNat 32 i ^^^ head).toNat mix[i % mix.length].toNat).toNat % rows = parent at hlt
  obtain ⟨a, ea, la⟩ := h (2 * parent + 0) (by omega)
  obtain ⟨b, eb, lb⟩ := h (2 * parent + 1) (by omega)
  have e : (List.range (MIX_BYTES / HASH_BYTES)).foldlM (fun newData j => (f (2 * parent + j)).bind fun x => pure (newData ++ x)) [] =
      some ([] ++ a ++ b) := by
    show (List.foldlM _ [] [0, 1]) = _
    simp only [List.foldlM_cons, List.foldlM_nil, ea, eb]
    rfl
  rw [e]
  simp only [Option.bind_some]
  obtain ⟨r, h2, h3⟩ := fnvHash_ok mix ([] ++ a ++ b) (by simp [la, lb, hm])
  exact ⟨r, h2, by omega⟩

theorem compress_ok : ∀ (n : Nat) (l : List U32), l.length = 4 * n → ∃ r, compress l = some r ∧ r.length = n
  | 0, l, h => by
    have : l = [] := List.eq_nil_of_length_eq_zero (by omega)
    subst this; exact ⟨[], rfl, rfl⟩
  | n + 1, l, h => by
    match l, h with
    | a :: b :: c :: d :: r, h =>
      obtain ⟨s, e, hl⟩ := compress_ok n r (by simp at h; omega)
      exact ⟨_, by simp only [compress, e]; rfl, by simp [hl]⟩

end Verif.Ethash
