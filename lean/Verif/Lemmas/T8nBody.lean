import Verif.Lemmas.T8n
import Verif.Spec.T8n
/-! Lemmas: the transition tool and the import of a block. -/
namespace Verif.T8n
open Verif Spec Verif.Props Verif.Pow Ethash

/-! ### The environment -/

theorem hashBack_eq {C : Crypto} {chain : BlockChain} {i : Nat} (h : i < 256) : (getLast256BlockHashes C chain).reverse[i]? = hashBack C chain i := by
  unfold getLast256BlockHashes
  dsimp only
  have hl : (lastN 255 chain.blocks).getLast? = chain.blocks.getLast? := by
    unfold lastN
    by_cases h0 : chain.blocks = []
    · rw [h0]; rfl
    · have := List.length_pos_iff.mpr h0
      rw [List.getLast?_drop, if_neg (by omega)]
  have hr : ∀ j, j < 255 → (lastN 255 chain.blocks).reverse[j]? = chain.blocks.reverse[j]? := by
    intro j hj
    unfold lastN
    rw [List.reverse_drop, List.getElem?_take]
    split
    · rfl
    · rw [List.getElem?_eq_none (by rw [List.length_reverse]; omega)]
  match hb : (lastN 255 chain.blocks).getLast? with
  | none =>
    have e := List.getLast?_eq_none_iff.mp (hl ▸ hb)
    cases i with
    | zero => simp [hashBack, e]
    | succ j => simp [hashBack, e]
  | some p =>
    dsimp only
    rw [List.reverse_append, List.reverse_singleton, List.singleton_append]
    cases i with
    | zero => simp [hashBack, ← hl, hb]
    | succ j =>
      rw [List.getElem?_cons_succ, ← List.map_reverse, List.getElem?_map, hr j (by omega)]
      rfl

theorem mapM_id_some (l : List Word) : (l.map some).mapM id = some l := by
  induction l with
  | nil => rfl
  | cons x r ih => rw [List.map_cons, List.mapM_cons, ih]; rfl

/-- The hashes that the tool reads are the last ones of a list. -/
theorem readHashes_eq {l : List Word} {d : EnvData} {n : Nat} (hn : d.currentNumber = n)
    (hd : ∀ i, i < min 256 n → d.blockHashes (n - 1 - i) = l.reverse[i]?) (hl : min 256 n ≤ l.length) :
    ∃ pre hs, l = pre ++ hs ∧ hs.length = min 256 n ∧ readBlockHashes d = hs.map some := by
  refine ⟨l.take (l.length - min 256 n), l.drop (l.length - min 256 n), (List.take_append_drop _ _).symm, by rw [List.length_drop]; omega, ?_⟩
  apply List.ext_getElem?
  intro i
  unfold readBlockHashes
  dsimp only
  rw [hn, List.getElem?_map, List.getElem?_map, List.getElem?_drop]
  by_cases hi : i < min 256 n
  · rw [List.getElem?_range hi, Option.map_some]
    have h2 := hd (min 256 n - 1 - i) (by omega)
    have e : n - 1 - (min 256 n - 1 - i) = n - min 256 n + i := by omega
    rw [e, List.getElem?_reverse (by omega)] at h2
    rw [h2]
    have e2 : l.length - 1 - (min 256 n - 1 - i) = l.length - min 256 n + i := by omega
    rw [e2]
    have h3 : l.length - min 256 n + i < l.length := by omega
    rw [List.getElem?_eq_getElem h3]
    rfl
  · rw [List.getElem?_eq_none (l := List.range _) (by rw [List.length_range]; omega), List.getElem?_eq_none (by omega)]
    rfl

/-- The hashes that the tool reads are the last ones of the chain. -/
theorem readBlockHashes_eq {C : Crypto} {chain : BlockChain} {b : Block} {d : EnvData} (hd : Describes C chain b d)
    (hl : min 256 b.header.number ≤ (getLast256BlockHashes C chain).length) :
    ∃ pre hs, getLast256BlockHashes C chain = pre ++ hs ∧ hs.length = min 256 b.header.number ∧ readBlockHashes d = hs.map some :=
  readHashes_eq hd.number (fun i hi => (hd.hashes i hi).trans (hashBack_eq (by omega)).symm) hl

theorem powFork_paris {f : Fork} (h : f.since .paris = true) : powFork f = none := by
  revert h; cases f <;> decide

theorem readBaseFee_eq {C : Crypto} {chain : BlockChain} {b : Block} {d : EnvData} (hf : chain.state.fork.since .paris = true)
    (hd : Describes C chain b d) (hv : validateHeader C chain b.header = .ok ()) : readBaseFeePerGas chain.state.fork d = .ok (some b.header.baseFeePerGas) := by
  have hL : chain.state.fork.since .london = true := since_later hf rfl
  unfold readBaseFeePerGas
  rw [if_neg (by rw [hL]; decide)]
  rcases hd.baseFee with h | ⟨h, p, hp, h1, h2, h3⟩
  · rw [h]
  · rw [h, h1, h2, h3]
    dsimp only
    obtain ⟨q, hq, v⟩ := validateHeader_ok hv
    rw [hp] at hq; cases hq
    rw [hd.gasLimit, calculateBaseFee_eq v.gasLimit]
    dsimp only
    rw [← v.baseFee]

/-- The tool computes the excess blob gas as the fork does, for a parent of the same fork. -/
theorem readExcess_eq {f : Fork} {d : EnvData} {p : Header} (hc : f.since .cancun = true) (h0 : d.currentExcessBlobGas = none)
    (h1 : d.parentExcessBlobGas = some p.excessBlobGas) (h2 : d.parentBlobGasUsed = some p.blobGasUsed)
    (h3 : d.parentBaseFee = some p.baseFeePerGas) {n : Nat} (h : calculateExcessBlobGas f true p = .ok n) :
    readExcessBlobGas f d = .ok (some (BitVec.ofNat 64 n)) := by
  unfold readExcessBlobGas
  unfold calculateExcessBlobGas toU64 at h
  rw [if_neg (by rw [hc]; decide), h0, h1, h2, h3]
  simp only [if_true, Option.getD_some, BitVec.ofNat_toNat, BitVec.setWidth_eq] at h ⊢
  by_cases k1 : p.excessBlobGas.toNat + p.blobGasUsed.toNat < 2 ^ 64
  · rw [if_neg (by omega)]
    rw [if_pos k1] at h
    dsimp only at h
    split at h
    · rename_i g; rw [if_pos g]; cases h; rfl
    · rename_i g
      rw [if_neg g]
      split at h
      · rename_i g; rw [if_pos g]; cases h; rfl
      · rename_i g
        rw [if_neg g]
        split at h
        · rename_i g
          rw [if_pos g]
          split at h
          · cases h
          · rename_i q hq
            split at hq
            · rename_i k2
              cases hq
              rw [if_neg (by omega)]
              split at h
              · rename_i k3
                cases h
                rw [if_neg (by omega)]
              · cases h
            · cases hq
        · rename_i g; rw [if_neg g]; cases h; rfl
  · rw [if_neg k1] at h; cases h

theorem readExcessBlobGas_eq {C : Crypto} {chain : BlockChain} {b : Block} {d : EnvData} (hc : chain.state.fork.since .cancun = true)
    (hd : Describes C chain b d) (hr : ∀ p, chain.blocks.getLast? = some p → p.fork.since .cancun = true → BlobGasInRange p.block.header)
    (hv : validateHeader C chain b.header = .ok ()) :
    readExcessBlobGas chain.state.fork d = .ok (some b.header.excessBlobGas) := by
  obtain ⟨p, hp, v⟩ := validateHeader_ok hv
  have he := v.excessBlobGas hc
  rcases hd.excess hc with h | ⟨h, q, hq, hx⟩
  · unfold readExcessBlobGas
    rw [if_neg (by rw [hc]; decide), h]
  · rw [hp] at hq; cases hq
    rcases hx with ⟨hf, h1, h2, h3⟩ | ⟨hf, h1, h2⟩
    · have hq := excess_eq (f := chain.state.fork) (pf := p.fork) (p := p.block.header) (fun _ => hr p hp (by rw [hf]; exact hc))
      rw [decide_eq_true hf] at hq
      rw [readExcess_eq hc h h1 h2 h3 hq, ← he, BitVec.ofNat_toNat, BitVec.setWidth_eq]
    · unfold readExcessBlobGas
      rw [if_neg (by rw [hc]; decide), h, h1, h2]
      unfold requiredExcessBlobGas at he
      rw [if_neg hf] at he
      have e0 : b.header.excessBlobGas = 0 := BitVec.eq_of_toNat_eq he
      rw [e0]
      have ht : 0 < targetBlobGasPerBlock chain.state.fork := by unfold targetBlobGasPerBlock; (repeat' split) <;> decide
      have z : (0 : U64).toNat + (0 : U64).toNat = 0 := rfl
      dsimp only [Option.getD_none]
      rw [z, if_neg (by decide), if_pos ht]

/-- The environment that the tool makes is that of the block, with the hashes that can be read. -/
theorem blockEnvironment_eq {C : Crypto} {chain : BlockChain} {b : Block} {d : EnvData} (hf : chain.state.fork.since .paris = true)
    (hd : Describes C chain b d) (hr : ∀ p, chain.blocks.getLast? = some p → p.fork.since .cancun = true → BlobGasInRange p.block.header)
    (hv : validateHeader C chain b.header = .ok ()) (hl : min 256 b.header.number ≤ (getLast256BlockHashes C chain).length) :
    ∃ pre hs, (blockEnvOf C chain b.header).blockHashes = pre ++ hs ∧ min 256 (blockEnvOf C chain b.header).number ≤ hs.length ∧
      blockEnvironment C chain.state.fork chain.chainId d = .ok (some ((blockEnvOf C chain b.header).withHashes hs)) := by
  obtain ⟨pre, hs, e1, e2, e3⟩ := readBlockHashes_eq hd hl
  refine ⟨pre, hs, by dsimp only [blockEnvOf]; exact e1, by dsimp only [blockEnvOf]; exact Nat.le_of_eq e2.symm, ?_⟩
  obtain ⟨p, hp, v⟩ := validateHeader_ok hv
  unfold blockEnvironment
  have hdiff : readBlockDifficulty C chain.state.fork d = .ok none := by
    unfold readBlockDifficulty; rw [powFork_paris hf]
  rw [hdiff, readBaseFee_eq hf hd hv, e3, mapM_id_some]
  dsimp only
  have hx : ∃ x, readExcessBlobGas chain.state.fork d = .ok x ∧ x.getD 0 = b.header.excessBlobGas := by
    by_cases hc : chain.state.fork.since .cancun = true
    · exact ⟨_, readExcessBlobGas_eq hc hd hr hv, rfl⟩
    · refine ⟨none, ?_, (hd.absent (by simpa using hc)).1.symm⟩
      unfold readExcessBlobGas; rw [if_pos hc]
  obtain ⟨x, hx, hx'⟩ := hx
  rw [hx]
  have hbr : (if chain.state.fork.since .cancun = true then d.parentBeaconBlockRoot else 0) = b.header.parentBeaconBlockRoot := by
    by_cases hc : chain.state.fork.since .cancun = true
    · rw [if_pos hc]; exact hd.beacon hc
    · rw [if_neg hc]; exact (hd.absent (by simpa using hc)).2.symm
  dsimp only [Option.map_some, Option.getD_some, Option.getD_none]
  rw [hx', hbr, if_pos hf, hd.gasLimit, hd.coinbase, hd.number, hd.timestamp, hd.random]
  unfold BlockEnv.withHashes blockEnvOf
  rw [v.difficulty]

/-! ### The run -/

theorem commute_early {C : Crypto} {B : BlockEnv} {s : State} (h : s.fork.since .prague = false) (hq : ∀ s1, storeBeaconRoot C B s = .ok s1 → s1.fork = s.fork) :
    CallsCommute C B s := by
  have h0 : ∀ s1 : State, s1.fork = s.fork → storeParentHash C B s1 = .ok s1 := by
    intro s1 e
    unfold storeParentHash
    rw [e, h]; rfl
  intro s'
  constructor
  · rintro ⟨s1, h1, h2⟩
    rw [h0 s1 (hq s1 h1)] at h2
    cases h2
    exact ⟨s, h0 s rfl, h1⟩
  · rintro ⟨s1, h1, h2⟩
    rw [h0 s rfl] at h1
    cases h1
    exact ⟨s', h2, h0 s' (hq s' h2)⟩

theorem payReward_paris {s : State} {r : Option Int} {cb : Address} {om : List Ommer} (h : s.fork.since .paris = true) : payReward r s cb om = .ok s := by
  unfold payReward; rw [powFork_paris h]

/-- Receipts can be reported. -/
theorem receipts_total {C : Crypto} {out : BlockOutput} : ∀ (keys : List Bytes), (∀ k ∈ keys, k ∈ out.receiptKeys) → Readable out → Paired out →
    ∃ l, receiptsFromOutput C out keys = .ok l ∧ l.length = keys.length := by
  intro keys
  induction keys with
  | nil => intro _ _ _; exact ⟨[], rfl, rfl⟩
  | cons k r ih =>
    intro hk h1 h2
    obtain ⟨l, hl, hlen⟩ := ih (fun k' hk' => hk k' (List.mem_cons_of_mem _ hk')) h1 h2
    obtain ⟨x, rc, g1, g2⟩ := h1 k (hk k List.mem_cons_self)
    have g3 := h2 k (hk k List.mem_cons_self)
    rw [receiptsFromOutput, g1]
    match hg : trieGet out.transactionsTrie k with
    | none => exact absurd hg g3
    | some t =>
      dsimp only
      rw [g2]
      dsimp only
      rw [hl]
      exact ⟨_, rfl, by rw [List.length_cons, List.length_cons, hlen]⟩

/-- What is left of the receipts when the block is done. -/
structure Reportable (b : BlockState) : Prop where
  readable : Readable b.out
  paired : Paired b.out

theorem Reportable.of_eq {b b' : BlockState} (h : Reportable b) (h1 : b'.out.transactionsTrie = b.out.transactionsTrie)
    (h2 : b'.out.receiptsTrie = b.out.receiptsTrie) (h3 : b'.out.receiptKeys = b.out.receiptKeys) : Reportable b' :=
  ⟨by unfold Readable; rw [h2, h3]; exact h.readable, by unfold Paired; rw [h1, h3]; exact h.paired⟩

theorem empty_inv {B : BlockEnv} {s : State} (hs : Quiet s) (hS : StateFits s) : ToolInv B ⟨s, BlockOutput.empty⟩ :=
  ⟨⟨hs, hS, ⟨Nat.zero_le _, fun _ => Nat.zero_le _⟩, fun k v h => by simp [BlockOutput.empty] at h, fun k v h => by simp [BlockOutput.empty] at h,
    fun k v h => by simp [BlockOutput.empty] at h⟩, fun k hk => by simp [BlockOutput.empty] at hk, fun k hk => by simp [BlockOutput.empty] at hk⟩

theorem update_ok {C : Crypto} {B : BlockEnv} {p : Progress} {k : Commitments} {x : Bool} (hk : commitments C p.b = .ok k) (hr : Reportable p.b) :
    ∃ r, update C B p x = .ok r ∧ r.gasUsed = p.b.out.blockGasUsed ∧ r.txRoot = k.transactionsRoot ∧ r.receiptRoot = k.receiptRoot ∧ r.bloom = k.bloom ∧
      r.stateRoot = k.stateRoot ∧ r.baseFee = (if p.b.state.fork.since .london then some B.baseFeePerGas else none) ∧
      r.withdrawalsRoot = (if p.b.state.fork.since .shanghai then some k.withdrawalsRoot else none) ∧
      r.excessBlobGas = (if p.b.state.fork.since .cancun then some B.excessBlobGas else none) ∧
      r.requestsHash = (if p.b.state.fork.since .prague then some k.requestsHash else none) ∧ r.rejected = p.rejected.map Prod.fst ∧ r.blockException = x ∧
      r.receipts.length = p.b.out.receiptKeys.length := by
  obtain ⟨l, hl, hlen⟩ := receipts_total (C := C) (out := p.b.out) p.b.out.receiptKeys (fun _ h => h) hr.readable hr.paired
  unfold update
  rw [hk, hl]
  exact ⟨_, rfl, rfl, rfl, rfl, rfl, rfl, rfl, rfl, rfl, rfl, rfl, rfl, hlen⟩

/-- What `update` says, whenever it succeeds. -/
theorem update_inv {C : Crypto} {B : BlockEnv} {p : Progress} {r : Result} {x : Bool} (h : update C B p x = .ok r) :
    ∃ k, commitments C p.b = .ok k ∧ r.gasUsed = p.b.out.blockGasUsed ∧ r.txRoot = k.transactionsRoot ∧ r.receiptRoot = k.receiptRoot ∧ r.bloom = k.bloom ∧
      r.stateRoot = k.stateRoot ∧ 
      r.withdrawalsRoot = (if p.b.state.fork.since .shanghai then some k.withdrawalsRoot else none) ∧
      r.requestsHash = (if p.b.state.fork.since .prague then some k.requestsHash else none) ∧ r.rejected = p.rejected.map Prod.fst ∧ r.blockException = x := by
  unfold update at h
  match hk : commitments C p.b with
  | .error c => rw [hk] at h; cases h
  | .ok k =>
    rw [hk] at h
    dsimp only at h
    match hl : receiptsFromOutput C p.b.out p.b.out.receiptKeys with
    | .error c => rw [hl] at h; cases h
    | .ok l =>
      rw [hl] at h
      dsimp only at h
      cases h
      exact ⟨k, rfl, rfl, rfl, rfl, rfl, rfl, rfl, rfl, rfl, rfl⟩

end Verif.T8n
