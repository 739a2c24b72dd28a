import Verif.Lemmas.BodyTotal
import Verif.Lemmas.Header
import Verif.Props.C32
/-! No internal errors: importing a block. -/
namespace Verif
open Spec Verif.Props

/-! ### Roots -/

theorem indexRoot_total {V : Type} (C : Crypto) (enc : V → Bytes) (t : Trie Bytes (Option V)) (h : Stored enc t) :
    ∃ r, indexTrieRoot C enc t = .ok r := by
  unfold indexTrieRoot
  refine trieRoot_total C _ _ fun e he => ?_
  obtain ⟨p, hp, rfl⟩ := List.mem_map.mp he
  obtain ⟨x, hx, hne⟩ := h p.1 p.2 ((Dict.mem_iff _ _ _).mp hp)
  dsimp only
  rw [hx]; exact hne

theorem commitments_total (C : Crypto) (b : BlockState) (h : Idle b.state) (ho : AllStored b.out) : ∃ k, commitments C b = .ok k := by
  obtain ⟨r1, h1⟩ := stateRoot_total C b.state h
  obtain ⟨r2, h2⟩ := indexRoot_total C _ _ ho.transactions
  obtain ⟨r3, h3⟩ := indexRoot_total C _ _ ho.receipts
  obtain ⟨r4, h4⟩ := indexRoot_total C _ _ ho.withdrawals
  unfold commitments
  rw [h1, h2, h3, h4]
  exact ⟨_, rfl⟩

/-! ### A transaction is not larger than its encoding -/

mutual
/-- The number of items of a structure. -/
def Rlp.items : Rlp → Nat
  | .bytes _ => 1
  | .list l => 1 + Rlp.itemsAll l
/-- The number of items of a list of structures. -/
def Rlp.itemsAll : List Rlp → Nat
  | [] => 0
  | x :: l => Rlp.items x + Rlp.itemsAll l
end

theorem Rlp.items_le (f : Nat) :
    (∀ b x, Rlp.decodeF f b = some x → Rlp.items x ≤ b.length) ∧ (∀ b l, Rlp.decodeJoinedF f b = some l → Rlp.itemsAll l ≤ b.length) := by
  induction f with
  | zero => exact ⟨fun b x h => by simp [Rlp.decodeF] at h, fun b l h => by simp [Rlp.decodeJoinedF] at h⟩
  | succ f ih =>
    refine ⟨fun b x h => ?_, fun b l h => ?_⟩
    · cases b with
      | nil => simp [Rlp.decodeF] at h
      | cons c r =>
        rw [Rlp.decodeF] at h
        split at h
        · obtain ⟨y, -, rfl⟩ := Option.map_eq_some_iff.mp h
          rw [Rlp.items, List.length_cons]; omega
        · match hp : Rlp.sequencePayload c r with
          | none => rw [hp] at h; cases h
          | some p =>
            rw [hp] at h
            obtain ⟨y, hy, rfl⟩ := Option.map_eq_some_iff.mp h
            have h1 := ih.2 p y hy
            have h2 := Rlp.sequencePayload_length hp
            rw [Rlp.items, List.length_cons]; omega
    · cases b with
      | nil =>
        rw [Rlp.decodeJoinedF] at h
        cases h; simp [Rlp.itemsAll]
      | cons c r =>
        rw [Rlp.decodeJoinedF] at h
        · match hp : Rlp.decodeItemLength (c :: r) with
          | none => rw [hp] at h; cases h
          | some n =>
            rw [hp] at h
            dsimp only at h
            split at h
            · cases h
            · rename_i hn
              match hx : Rlp.decodeF f ((c :: r).take n) with
              | none => rw [hx] at h; cases h
              | some x =>
                rw [hx] at h
                obtain ⟨y, hy, rfl⟩ := Option.map_eq_some_iff.mp h
                have h1 := ih.1 _ x hx
                have h2 := ih.2 _ y hy
                rw [List.length_take] at h1
                rw [List.length_drop] at h2
                rw [Rlp.itemsAll]; omega
        · simp

theorem itemsAll_length (l : List Rlp) : l.length ≤ Rlp.itemsAll l := by
  induction l with
  | nil => exact Nat.zero_le _
  | cons x r ih =>
    have : 1 ≤ Rlp.items x := by cases x <;> rw [Rlp.items] <;> omega
    rw [Rlp.itemsAll, List.length_cons]; omega

theorem mapM_length {α β : Type} (f : α → Option β) : ∀ (l : List α) (r : List β), l.mapM f = some r → r.length = l.length := by
  intro l
  induction l with
  | nil => intro r h; simp at h; subst h; rfl
  | cons x t ih =>
    intro r h
    rw [List.mapM_cons] at h
    match hx : f x with
    | none => rw [hx] at h; cases h
    | some y =>
      rw [hx] at h
      match ht : t.mapM f with
      | none => rw [ht] at h; cases h
      | some z =>
        rw [ht] at h
        have : r = y :: z := (Option.some.inj h).symm
        rw [this, List.length_cons, List.length_cons, ih z ht]

theorem blobHashes_le {f : Fork} {x : Bytes} {t : BlobTx} (h : decodeTransaction f (.inr x) = .ok (.blob t)) :
    t.blobVersionedHashes.length ≤ x.length := by
  have h := decode_later h
  cases x with
  | nil => simp [decodeTransaction] at h
  | cons b r =>
    have key : (Rlp.decode r).bind Rlp.asBlobTx = some t := by
      have hb : ¬ ¬ Fork.since .osaka (txTypeFirstFork b) = true := by
        unfold txTypeFirstFork; (repeat' split) <;> decide
      simp only [decodeTransaction] at h
      rw [if_neg hb] at h
      by_cases h1 : b = 1
      · simp only [h1, if_true] at h
        cases h2 : (Rlp.decode r).bind Rlp.asAccessListTx <;> simp [h2] at h
      · by_cases h2 : b = 2
        · simp only [h2] at h
          cases h3 : (Rlp.decode r).bind Rlp.asFeeMarketTx <;> simp [h3] at h
        · by_cases h3 : b = 3
          · simp only [h3] at h
            cases h4 : (Rlp.decode r).bind Rlp.asBlobTx with
            | none => simp [h4] at h
            | some u => simp [h4] at h; rw [h]
          · by_cases h4 : b = 4
            · simp only [h4] at h
              cases h5 : (Rlp.decode r).bind Rlp.asSetCodeTx <;> simp [h5] at h
            · simp [h1, h2, h3, h4] at h
    obtain ⟨y, hy, ht⟩ := Option.bind_eq_some_iff.mp key
    have h1 := (Rlp.items_le _).1 r y hy
    unfold Rlp.asBlobTx at ht
    split at ht
    · rename_i c n pf mf g tt v d al bf bh yp rr ss
      iterate 10 obtain ⟨_, -, ht⟩ := Option.bind_eq_some_iff.mp ht
      obtain ⟨hs, hbh, ht⟩ := Option.bind_eq_some_iff.mp ht
      iterate 3 obtain ⟨_, -, ht⟩ := Option.bind_eq_some_iff.mp ht
      have he := Option.some.inj ht
      rw [← he]
      show hs.length ≤ _
      unfold Rlp.asTuple at hbh
      obtain ⟨l, hl, hm⟩ := Option.bind_eq_some_iff.mp hbh
      have hbl : bh = .list l := by cases bh with
        | bytes _ => cases hl
        | list m => rw [Option.some.inj hl]
      rw [mapM_length _ _ _ hm]
      have := itemsAll_length l
      rw [hbl] at h1
      simp only [Rlp.items, Rlp.itemsAll, List.length_cons] at h1 ⊢
      omega
    · cases ht

theorem encodeSeq_mem {x : Rlp} {l : List Rlp} (h : x ∈ l) : (Rlp.encode x).length ≤ (Rlp.encodeSeq l).length := by
  induction l with
  | nil => cases h
  | cons y r ih =>
    rw [Rlp.encodeSeq, List.length_append]
    rcases List.mem_cons.mp h with rfl | h
    · omega
    · have := ih h; omega

theorem encode_mem {x : Rlp} {l : List Rlp} (h : x ∈ l) : (Rlp.encode x).length ≤ (Rlp.encode (.list l)).length := by
  have := encodeSeq_mem h
  rw [Rlp.encode.eq_def (.list l)]
  simp only [List.length_append]; omega

theorem tx_encoding {x : Bytes} {txs : List (LegacyTx ⊕ Bytes)} (ht : .inr x ∈ txs) (g : LegacyTx ⊕ Bytes → Rlp) (hg : g (.inr x) = .bytes x)
    {a c : Rlp} {d : List Rlp} {n : Nat} (h : (Rlp.encode (.list ([a, .list (txs.map g), c] ++ d))).length ≤ n) : (Rlp.encode (.bytes x)).length ≤ n := by
  have h1 := encode_mem (x := .bytes x) (l := txs.map g) (List.mem_map.mpr ⟨_, ht, hg⟩)
  have h2 := encode_mem (x := .list (txs.map g)) (l := [a, .list (txs.map g), c] ++ d) (List.mem_cons_of_mem _ List.mem_cons_self)
  exact Nat.le_trans h1 (Nat.le_trans h2 h)

theorem block_blobs {f : Fork} {b : Block} (h : (Rlp.encode (.ofBlock f b)).length ≤ 2 ^ 47 - 1) :
    ∀ t ∈ b.transactions, ∀ tx, decodeTransaction f t = .ok tx → blobGas tx < 2 ^ 64 := by
  intro t ht tx hd
  cases tx with
  | blob u =>
    cases t with
    | inl x => simp [decodeTransaction] at hd
    | inr x =>
      have h1 := blobHashes_le hd
      have h2 : x.length ≤ (Rlp.encode (.bytes x)).length := by rw [Rlp.encode]; exact Rlp.encodeBytes_length x
      have h3 := tx_encoding ht _ rfl h
      show blobGas (.blob u) < 2 ^ 64
      have e2 : blobGas (.blob u) = 131072 * u.blobVersionedHashes.length := rfl
      rw [e2]
      omega
  | _ => exact (show (0 : Nat) < 2 ^ 64 by decide)

/-! ### Blocks -/

theorem hashes_length {C : Crypto} {chain : BlockChain} {p : ChainBlock} (hp : chain.blocks.getLast? = some p) :
    (getLast256BlockHashes C chain).length = min 255 chain.blocks.length + 1 := by
  unfold getLast256BlockHashes
  dsimp only
  have hne : chain.blocks ≠ [] := fun h => by rw [h] at hp; cases hp
  have h1 : 0 < chain.blocks.length := List.length_pos_iff.mpr hne
  have h2 := lastN_length 255 chain.blocks
  split
  · rename_i heq
    have : lastN 255 chain.blocks = [] := by simpa using heq
    rw [this] at h2; simp at h2; omega
  · rw [List.length_append, List.length_map, h2]; rfl

theorem price_large (f : Fork) : ¬ calculateBlobGasPrice f (1073741824 : U64) < 2 ^ 256 := by cases f <;> decide +kernel

theorem excess_small {f : Fork} {e : U64} (h : calculateBlobGasPrice f e < 2 ^ 256) : e.toNat < 2 ^ 30 := by
  rcases Nat.lt_or_ge e.toNat (2 ^ 30) with h1 | h1
  · exact h1
  · have := (C32_price f (1073741824 : U64) e h1).2
    exact absurd (Nat.lt_of_le_of_lt this h) (price_large f)

/-- After an import the chain is as before, up to the new block; a failure is a refusal, or the overflow
of MODEXP, and leaves the blocks alone. -/
structure ImportResult (chain : BlockChain) (r : Except (BlockExn × BlockChain) BlockChain) : Prop where
  ok : ∀ chain', r = .ok chain' → ChainFits chain' ∧ chain'.state.fork = chain.state.fork
  error : ∀ e chain', r = .error (e, chain') → (Refused e ∨ Tolerated chain.state.fork e) ∧ chain'.blocks = chain.blocks

theorem ImportResult.refuse {chain c : BlockChain} {e : BlockExn} (h : Refused e ∨ Tolerated chain.state.fork e) (hc : c.blocks = chain.blocks) :
    ImportResult chain (.error (e, c)) :=
  ⟨fun _ h => (by cases h), fun _ _ h' => (by cases h'; exact ⟨h, hc⟩)⟩

theorem import_run {C : Crypto} {chain : BlockChain} {b : Block} (hf : chain.state.fork.since .paris = true) (hs : Idle chain.state) (hS : StateFits chain.state)
    {p : ChainBlock} (hp : chain.blocks.getLast? = some p) (hr : p.fork.since .cancun = true → BlobGasInRange p.block.header)
    (hl : p.block.header.number ≤ chain.blocks.length ∨ 255 ≤ chain.blocks.length) (hh : HeaderFits chain.state.fork b.header)
    (hz : chain.state.fork.since .osaka = false → (Rlp.encode (.ofBlock chain.state.fork b)).length < 2 ^ 47)
    (hsup : supply chain.state + withdrawn chain.state.fork b.withdrawals < supplyLimit chain.state.fork) :
    ImportResult chain (stateTransition C chain b) := by
  have hlen := hashes_length (C := C) hp
  unfold stateTransition
  by_cases h1 : chain.state.fork.since .osaka = true ∧ (Rlp.encode (.ofBlock chain.state.fork b)).length > MAX_RLP_BLOCK_SIZE
  · rw [if_pos h1]; exact .refuse (.inl (.inl (.inl rfl))) rfl
  rw [if_neg h1]
  have hsize : (Rlp.encode (.ofBlock chain.state.fork b)).length ≤ 2 ^ 47 - 1 := by
    by_cases ho : chain.state.fork.since .osaka = true
    · have e : MAX_RLP_BLOCK_SIZE = 8388608 := by decide
      have : ¬ (Rlp.encode (.ofBlock chain.state.fork b)).length > MAX_RLP_BLOCK_SIZE := fun h => h1 ⟨ho, h⟩
      omega
    · have := hz (by simpa using ho); omega
  match hv : validateHeader C chain b.header with
  | .error e' => exact .refuse (.inl (.inl (.inl (validateHeader_error hp hr hv)))) rfl
  | .ok () =>
    dsimp only
    by_cases h2 : b.ommers ≠ []
    · rw [if_pos h2]; exact .refuse (.inl (.inl (.inl rfl))) rfl
    rw [if_neg h2]
    have hnum : b.header.number = p.block.header.number + 1 := by
      obtain ⟨q, hq, v⟩ := validateHeader_ok hv
      rw [hp] at hq; cases hq; exact v.number
    have hn : 1 ≤ (blockEnvOf C chain b.header).number := by
      show 1 ≤ b.header.number
      rw [hnum]; exact Nat.le_add_left _ _
    have hashes : min 256 b.header.number ≤ (getLast256BlockHashes C chain).length := by rw [hlen]; omega
    have hB : BlockFits chain.state.fork (blockEnvOf C chain b.header) :=
      ⟨hh.number, hh.gasLimit, hh.baseFee, hh.blobPrice, by dsimp only [blockEnvOf]; exact hashes, by
        obtain ⟨q, hq, v⟩ := validateHeader_ok hv
        show b.header.difficulty < 2 ^ 256
        rw [v.difficulty]; decide⟩
    have hb := body_total (C := C) (txs := b.transactions) hB (since_later hf rfl) hn hs hS hsup (block_blobs hsize)
    match hq : applyBody C (blockEnvOf C chain b.header) chain.state b.transactions b.withdrawals with
    | .error (e', b') =>
      rw [hq] at hb
      exact .refuse hb rfl
    | .ok b' =>
      rw [hq] at hb
      dsimp only at hb ⊢
      obtain ⟨i1, i2, i3, i4, i5⟩ := hb
      obtain ⟨k, hk⟩ := commitments_total C b' i1 i2
      rw [hk]
      dsimp only
      iterate 8
        split
        · exact .refuse (.inl (.inl (.inl rfl))) rfl
      rename_i hblob _
      refine ⟨fun c hc => ?_, fun _ _ h => by cases h⟩
      have hc := (Except.ok.inj hc).symm
      subst hc
      refine ⟨⟨⟨⟨chain.state.fork, b⟩, ?_, fun hcan => ?_, ?_⟩, (by show b'.state.fork.since .paris = true; rw [i5]; exact hf), i1, i3⟩, i5⟩
      · show (if _ then _ else _ : List ChainBlock).getLast? = _
        split
        · unfold lastN
          rw [List.getLast?_drop, if_neg (by simp only [List.length_append, List.length_singleton]; omega)]
          simp
        · simp
      · have := excess_small hh.blobPrice
        have hbl : b'.out.blobGasUsed = b.header.blobGasUsed.toNat := Decidable.not_not.mp fun h => hblob ⟨hcan, h⟩
        have i4 := i4 hcan
        have hm : maxBlobs chain.state.fork ≤ 9 := by unfold maxBlobs; (repeat' split) <;> decide
        unfold BlobGasInRange
        show b.header.excessBlobGas.toNat + b.header.blobGasUsed.toNat < 2 ^ 64 ∧ b.header.blobGasUsed.toNat * 3 < 2 ^ 64
        omega
      · show b.header.number ≤ (if _ then _ else _ : List ChainBlock).length ∨ 255 ≤ (if _ then _ else _ : List ChainBlock).length
        split
        · rename_i h255
          rw [List.length_append, List.length_singleton] at h255
          right; rw [lastN_length, List.length_append, List.length_singleton]; omega
        · rename_i h255
          rw [List.length_append, List.length_singleton]; omega

theorem import_total {C : Crypto} {chain : BlockChain} {b : Block} (hc : ChainFits chain)
    (hh : HeaderFits chain.state.fork b.header)
    (hz : chain.state.fork.since .osaka = false → (Rlp.encode (.ofBlock chain.state.fork b)).length < 2 ^ 47)
    (hsup : supply chain.state + withdrawn chain.state.fork b.withdrawals < supplyLimit chain.state.fork) :
    ImportResult chain (stateTransition C chain b) :=
  hc.last.elim fun _ h => import_run hc.fork hc.idle hc.fits h.1 h.2.1 h.2.2 hh hz hsup

end Verif
