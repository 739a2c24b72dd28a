import Verif.Lemmas.PatriciaInj
import Verif.Lemmas.RootState
import Verif.Lemmas.ImportTotal
import Verif.Props.C27
import Verif.Props.C40
/-! The roots of the tries of transactions, receipts and withdrawals. -/
namespace Verif
open Spec Verif.Props

/-- A trie that stores optional values under plain keys. -/
structure Plain {V : Type} (t : Trie Bytes (Option V)) : Prop where
  plain : t.secured = false
  absent : t.default = none
  wf : t.WF

theorem Plain.empty {V : Type} : Plain (⟨false, none, Dict.empty⟩ : Trie Bytes (Option V)) :=
  ⟨rfl, rfl, fun k v h => by simp at h⟩

theorem Plain.set {V : Type} [DecidableEq V] {t : Trie Bytes (Option V)} (h : Plain t) (k : Bytes) (v : Option V) : Plain (trieSet t k v) :=
  ⟨(trieSet_secured _ _ _).trans h.plain, by rw [trieSet_default]; exact h.absent, trieSet_wf h.wf _ _⟩

theorem Plain.get {V : Type} {t : Trie Bytes (Option V)} (h : Plain t) {k : Bytes} {v : V} :
    trieGet t k = some v ↔ (k, some v) ∈ t.data.entries := by
  rw [Dict.mem_iff]
  unfold trieGet
  rw [h.absent]
  match t.data.get? k with
  | none => simp
  | some x => simp

theorem Plain.stored {V : Type} {t : Trie Bytes (Option V)} (h : Plain t) {k : Bytes} {o : Option V} (he : (k, o) ∈ t.data.entries) :
    ∃ v, o = some v := by
  match o with
  | some v => exact ⟨v, rfl⟩
  | none => exact absurd h.absent.symm (h.wf k none ((Dict.mem_iff _ _ _).mp he))

theorem indexEntries_nodup {vs : List Bytes} (h : vs.length < 2 ^ 64) : ((indexEntries vs).map Prod.fst).Nodup := by
  unfold indexEntries
  rw [List.map_map]
  have : ((fun e : Bytes × Bytes => e.1) ∘ fun p : Bytes × Nat => (Rlp.encode (.ofNat p.2), p.1)) = indexKey ∘ Prod.snd := rfl
  show (vs.zipIdx.map (indexKey ∘ Prod.snd)).Nodup
  rw [← List.map_map, List.zipIdx_map_snd]
  rw [List.nodup_iff_pairwise_ne, List.pairwise_map]
  refine (List.pairwise_lt_range' (s := 0) (n := vs.length)).imp_of_mem fun {i j} hi hj hij he => ?_
  rw [List.mem_range'_1] at hi hj
  have := indexKey_inj (by omega) (by omega) he
  omega

theorem mem_indexEntries {vs : List Bytes} {k v : Bytes} : (k, v) ∈ indexEntries vs ↔ ∃ j, vs[j]? = some v ∧ k = indexKey j := by
  unfold indexEntries
  rw [List.mem_map]
  constructor
  · rintro ⟨⟨x, j⟩, hm, he⟩
    obtain ⟨e1, e2⟩ := Prod.mk.inj he
    dsimp only at e1 e2
    subst e2
    exact ⟨j, List.mem_zipIdx_iff_getElem?.mp hm, e1.symm⟩
  · rintro ⟨j, hj, rfl⟩
    exact ⟨(v, j), List.mem_zipIdx_iff_getElem?.mpr hj, rfl⟩

theorem indexRoot_aux {V : Type} {C : Crypto} {enc : V → Bytes} {t : Trie Bytes (Option V)} {xs : List V} (h : Plain t)
    (hl : xs.length < 2 ^ 64) (hin : ∀ (j : Nat) (x : V), xs[j]? = some x → trieGet t (indexKey j) = some x)
    (hout : ∀ k, (∀ j, j < xs.length → k ≠ indexKey j) → trieGet t k = none) {g : Option V → Bytes} (hg : ∀ v, g (some v) = enc v) :
    trieRoot C false (t.data.entries.map fun e => (e.1, g e.2)) = trieRoot C false (indexEntries (xs.map enc)) := by
  have hn : ((t.data.entries.map fun e => (e.1, g e.2)).map Prod.fst).Nodup := by
    rw [List.map_map]; exact t.data.nodup
  have hn' := indexEntries_nodup (vs := xs.map enc) (by rw [List.length_map]; exact hl)
  refine trieRoot_perm (trieKeys_nodup hn (by intro x hx; simp at hx)) ?_
  rw [List.perm_ext_iff_of_nodup (nodup_of_keys hn) (nodup_of_keys hn')]
  rintro ⟨k, v⟩
  rw [mem_indexEntries, List.mem_map]
  constructor
  · rintro ⟨⟨k', o⟩, hm, he⟩
    obtain ⟨x, rfl⟩ := h.stored hm
    obtain ⟨e1, e2⟩ := Prod.mk.inj he
    dsimp only at e1 e2
    rw [hg] at e2
    subst e1 e2
    have hg := h.get.mpr hm
    have hj : ∃ j, j < xs.length ∧ k' = indexKey j := Classical.byContradiction fun hx => by
      rw [hout k' fun j hj he => hx ⟨j, hj, he⟩] at hg; cases hg
    obtain ⟨j, hj, rfl⟩ := hj
    refine ⟨j, ?_, rfl⟩
    have := hin j xs[j] (List.getElem?_eq_getElem hj)
    rw [this] at hg
    cases hg
    rw [List.getElem?_map, List.getElem?_eq_getElem hj]; rfl
  · rintro ⟨j, hj, rfl⟩
    rw [List.getElem?_map, Option.map_eq_some_iff] at hj
    obtain ⟨x, hx, rfl⟩ := hj
    exact ⟨(indexKey j, some x), h.get.mp (hin j x hx), by rw [hg]⟩

/-- The root of a trie that holds the values of a list under their positions. -/
theorem indexRoot_eq {V : Type} {C : Crypto} {enc : V → Bytes} {t : Trie Bytes (Option V)} {xs : List V} (h : Plain t)
    (hl : xs.length < 2 ^ 64) (hin : ∀ (j : Nat) (x : V), xs[j]? = some x → trieGet t (indexKey j) = some x)
    (hout : ∀ k, (∀ j, j < xs.length → k ≠ indexKey j) → trieGet t k = none) :
    indexTrieRoot C enc t = trieRoot C false (indexEntries (xs.map enc)) := by
  unfold indexTrieRoot
  rw [h.plain]
  exact indexRoot_aux (g := fun o => match o with | none => [] | some v => enc v) h hl hin hout (fun _ => rfl)

theorem transactions_plain {C : Crypto} {B : BlockEnv} (txs : List (LegacyTx ⊕ Bytes)) : ∀ {b b' : BlockState} {i : Nat},
    processTransactions C B b i txs = .ok b' → Plain b.out.transactionsTrie → Plain b.out.receiptsTrie →
    Plain b'.out.transactionsTrie ∧ Plain b'.out.receiptsTrie ∧ b'.out.withdrawalsTrie = b.out.withdrawalsTrie := by
  induction txs with
  | nil => intro b b' i h h1 h2; cases h; exact ⟨h1, h2, rfl⟩
  | cons t r ih =>
    intro b b' i h h1 h2
    obtain ⟨tx, b1, -, hp, hr⟩ := processTransactions_cons h
    obtain ⟨sender, msg, o, w, s1, s2, hran⟩ := processTransaction_ok.mp hp
    have e : b1.out = outAfter C b.state.fork b.out tx i o (statusOf C (finalDeletions s2 o) o.error) := by rw [hran.result]
    obtain ⟨g1, g2, g3⟩ := ih hr (by rw [e]; exact h1.set _ _) (by rw [e]; exact h2.set _ _)
    exact ⟨g1, g2, g3.trans (by rw [e]; rfl)⟩

theorem requests_tries {C : Crypto} {B : BlockEnv} {b b' : BlockState} (h : processGeneralPurposeRequests C B b = .ok b') :
    b'.out.transactionsTrie = b.out.transactionsTrie ∧ b'.out.receiptsTrie = b.out.receiptsTrie ∧
    b'.out.withdrawalsTrie = b.out.withdrawalsTrie := by
  have ha : ∀ (o : BlockOutput) t d, (appendRequest o t d).transactionsTrie = o.transactionsTrie ∧
      (appendRequest o t d).receiptsTrie = o.receiptsTrie ∧ (appendRequest o t d).withdrawalsTrie = o.withdrawalsTrie := by
    intro o t d; unfold appendRequest; split <;> exact ⟨rfl, rfl, rfl⟩
  unfold processGeneralPurposeRequests at h
  split at h
  · cases h
  · dsimp only at h
    split at h
    · cases h
    · split at h
      · cases h
      · cases h
        refine ⟨?_, ?_, ?_⟩ <;> simp only [ha]

theorem withdrawals_trie (ws : List Withdrawal) : ∀ {b b' : BlockState} {i : Nat}, b.state.fork.since .paris = true →
    processWithdrawalsFrom b i ws = .ok b' → Plain b.out.withdrawalsTrie → i + ws.length < 2 ^ 64 →
    Plain b'.out.withdrawalsTrie ∧
    (∀ (j : Nat) (w : Withdrawal), ws[j]? = some w → trieGet b'.out.withdrawalsTrie (indexKey (i + j)) = some (Rlp.encode (.ofWithdrawal w))) ∧
    ∀ k, (∀ j, j < ws.length → k ≠ indexKey (i + j)) → trieGet b'.out.withdrawalsTrie k = trieGet b.out.withdrawalsTrie k := by
  induction ws with
  | nil => intro b b' i _ h hp _; cases h; exact ⟨hp, fun j w h => by simp at h, fun _ _ => rfl⟩
  | cons w r ih =>
    intro b b' i hpar h hp hl
    rw [processWithdrawalsFrom_cons _ hpar] at h
    split at h
    · rw [List.length_cons] at hl
      obtain ⟨g1, g2, g3⟩ := ih (by rw [credit_fork]; exact hpar) h (hp.set _ _) (by omega)
      refine ⟨g1, fun j x hj => ?_, fun k hk => ?_⟩
      · match j with
        | 0 =>
          cases hj
          rw [Nat.add_zero, g3 _ fun j hj he => ?_]
          · show trieGet (trieSet _ _ _) _ = _
            rw [trieGet_trieSet, if_pos rfl]
          · have := indexKey_inj (by omega) (by omega) he
            omega
        | j + 1 =>
          rw [show i + (j + 1) = i + 1 + j by omega]
          exact g2 j x hj
      · rw [g3 k fun j hj => ?_]
        · show trieGet (trieSet _ _ _) _ = _
          have h0 : k ≠ indexKey i := by have := hk 0 (by simp); rwa [Nat.add_zero] at this
          rw [trieGet_trieSet, if_neg (Ne.symm h0)]
        · have := hk (j + 1) (by rw [List.length_cons]; omega)
          rwa [show i + (j + 1) = i + 1 + j by omega] at this
    · cases h

theorem encode_pos (x : Rlp) : 1 ≤ (Rlp.encode x).length := by
  cases x with
  | bytes b =>
    rw [Rlp.encode, Rlp.encodeBytes.eq_def]
    split
    · split <;> simp
    · unfold Rlp.lengthPrefix; split <;> simp
  | list l => rw [Rlp.encode]; unfold Rlp.lengthPrefix; dsimp only; split <;> simp

theorem encodeSeq_count (l : List Rlp) : l.length ≤ (Rlp.encodeSeq l).length := by
  induction l with
  | nil => simp
  | cons x r ih =>
    have := encode_pos x
    rw [Rlp.encodeSeq, List.length_append, List.length_cons]; omega

theorem encode_count (l : List Rlp) : l.length ≤ (Rlp.encode (.list l)).length := by
  have := encodeSeq_count l
  rw [Rlp.encode, List.length_append]; omega

theorem count_le {α : Type} {l : List α} {g : α → Rlp} {m : List Rlp} {n : Nat} (hm : .list (l.map g) ∈ m)
    (h : (Rlp.encode (.list m)).length ≤ n) : l.length ≤ n := by
  have h1 := encode_count (l.map g)
  have h2 := encode_mem hm
  rw [List.length_map] at h1
  omega

theorem block_counts {b : Block} (h : (Rlp.encode (.ofBlock .osaka b)).length ≤ MAX_RLP_BLOCK_SIZE) :
    b.transactions.length < 2 ^ 64 ∧ b.withdrawals.length < 2 ^ 64 := by
  have e : MAX_RLP_BLOCK_SIZE < 2 ^ 64 := by decide
  exact ⟨Nat.lt_of_le_of_lt (count_le (List.mem_cons_of_mem _ List.mem_cons_self) h) e,
    Nat.lt_of_le_of_lt (count_le (List.mem_cons_of_mem _ (List.mem_cons_of_mem _ (List.mem_cons_of_mem _ List.mem_cons_self))) h) e⟩

theorem authorizations_small (l : List Rlp) : ∀ au : List Authorization, l.mapM Rlp.asAuthorization = some au → ∀ a ∈ au, a.yParity < 256 := by
  induction l with
  | nil => intro au h a ha; cases h; cases ha
  | cons x r ih =>
    intro au h a ha
    rw [List.mapM_cons] at h
    obtain ⟨y, hy, h⟩ := Option.bind_eq_some_iff.mp h
    obtain ⟨ys, hys, h⟩ := Option.bind_eq_some_iff.mp h
    cases h
    rcases List.mem_cons.mp ha with rfl | ha
    · unfold Rlp.asAuthorization at hy
      split at hy
      · iterate 3 obtain ⟨_, -, hy⟩ := Option.bind_eq_some_iff.mp hy
        obtain ⟨p, hp, hy⟩ := Option.bind_eq_some_iff.mp hy
        iterate 2 obtain ⟨_, -, hy⟩ := Option.bind_eq_some_iff.mp hy
        have he := Option.some.inj hy
        rw [← he]
        unfold Rlp.asFixed at hp
        obtain ⟨bs, -, hp⟩ := Option.bind_eq_some_iff.mp hp
        split at hp
        · rename_i hl
          cases hp
          have := fromBE_lt bs
          exact Nat.lt_of_lt_of_le this (Nat.le_trans (Nat.pow_le_pow_right (by omega) hl) (by decide))
        · cases hp
      · cases hy
    · exact ih ys hys a ha

theorem decode_wellTyped {t : LegacyTx ⊕ Bytes} {f : Fork} {tx : Transaction} (h : decodeTransaction f t = .ok tx) : WellTyped tx := by
  replace h := decode_later h
  cases t with
  | inl x => cases h; trivial
  | inr x =>
    cases x with
    | nil => simp [decodeTransaction] at h
    | cons b r =>
      have hb : ¬ ¬ Fork.since .osaka (txTypeFirstFork b) = true := by
        unfold txTypeFirstFork; (repeat' split) <;> decide
      simp only [decodeTransaction] at h
      rw [if_neg hb] at h
      cases tx with
      | legacy u => trivial
      | accessList u => trivial
      | feeMarket u => trivial
      | blob u =>
        have key : (Rlp.decode r).bind Rlp.asBlobTx = some u := by
          by_cases h1 : b = 1
          · subst h1
            cases h5 : (Rlp.decode r).bind Rlp.asAccessListTx <;> simp [h5] at h
          · by_cases h2 : b = 2
            · subst h2
              cases h5 : (Rlp.decode r).bind Rlp.asFeeMarketTx <;> simp [h5] at h
            · by_cases h3 : b = 3
              · subst h3
                cases h5 : (Rlp.decode r).bind Rlp.asBlobTx with
                | none => simp [h5] at h
                | some v => simp [h5] at h; rw [h]
              · by_cases h4 : b = 4
                · subst h4
                  cases h5 : (Rlp.decode r).bind Rlp.asSetCodeTx <;> simp [h5] at h
                · simp [h1, h2, h3, h4] at h
        obtain ⟨y, -, ht⟩ := Option.bind_eq_some_iff.mp key
        unfold Rlp.asBlobTx at ht
        split at ht
        · iterate 14 obtain ⟨_, -, ht⟩ := Option.bind_eq_some_iff.mp ht
          have he := Option.some.inj ht
          rw [← he]
          exact fun h => by cases h
        · cases ht
      | setCode u =>
        have key : (Rlp.decode r).bind Rlp.asSetCodeTx = some u := by
          by_cases h1 : b = 1
          · subst h1
            cases h5 : (Rlp.decode r).bind Rlp.asAccessListTx <;> simp [h5] at h
          · by_cases h2 : b = 2
            · subst h2
              cases h5 : (Rlp.decode r).bind Rlp.asFeeMarketTx <;> simp [h5] at h
            · by_cases h3 : b = 3
              · subst h3
                cases h5 : (Rlp.decode r).bind Rlp.asBlobTx <;> simp [h5] at h
              · by_cases h4 : b = 4
                · subst h4
                  cases h5 : (Rlp.decode r).bind Rlp.asSetCodeTx with
                  | none => simp [h5] at h
                  | some v => simp [h5] at h; rw [h]
                · simp [h1, h2, h3, h4] at h
        obtain ⟨y, -, ht⟩ := Option.bind_eq_some_iff.mp key
        unfold Rlp.asSetCodeTx at ht
        split at ht
        · iterate 9 obtain ⟨_, -, ht⟩ := Option.bind_eq_some_iff.mp ht
          obtain ⟨au, hau, ht⟩ := Option.bind_eq_some_iff.mp ht
          iterate 3 obtain ⟨_, -, ht⟩ := Option.bind_eq_some_iff.mp ht
          have he := Option.some.inj ht
          rw [← he]
          refine ⟨fun h => (by cases h), fun a ha => ?_⟩
          unfold Rlp.asTuple at hau
          obtain ⟨l, -, hm⟩ := Option.bind_eq_some_iff.mp hau
          exact authorizations_small l au hm a ha
        · cases ht

end Verif
