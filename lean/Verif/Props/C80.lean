import Verif.Lemmas.T8nMined
import Verif.Props.C26
import Verif.Props.C78
/-!
Property C80: the transition tool `t8n` and the import of blocks agree, and rejected transactions leave no trace in the results of
the tool.

`Describes`, `DescribesMined`, `Reports`, `ReportsMined`, `AllAccepted`, `CallsCommute`, `Inputs` and `allTransactions` are in `Verif/Spec/T8n.lean`;
`ChainFits`, `HeaderFits`, `BlockFits`, `StateFits` in `Verif/Spec/TxSane.lean`; `PowChainFits` and `MinedFits` in `Verif/Spec/MinedSane.lean`; `Includable` in
`Verif/Spec/TxRules.lean`.
-/
namespace Verif.Props
open Verif Verif.Spec Verif.T8n Verif.Pow Ethash

/-- The environment of the next block, and what is known of it. -/
theorem tool_env {C : Crypto} {chain : BlockChain} {b : Block} {d : EnvData} (hc : ChainFits chain) (hh : HeaderFits chain.state.fork b.header)
    (hd : Describes C chain b d) (hv : validateHeader C chain b.header = .ok ()) :
    1 ≤ (blockEnvOf C chain b.header).number ∧ BlockFits chain.state.fork (blockEnvOf C chain b.header) ∧
    ∃ pre hs, (blockEnvOf C chain b.header).blockHashes = pre ++ hs ∧ min 256 (blockEnvOf C chain b.header).number ≤ hs.length ∧
      blockEnvironment C chain.state.fork chain.chainId d = .ok (some ((blockEnvOf C chain b.header).withHashes hs)) := by
  obtain ⟨p, hp, hr, hl⟩ := hc.last
  have hlen := hashes_length (C := C) hp
  obtain ⟨q, hq, v⟩ := validateHeader_ok hv
  have hnum : b.header.number = p.block.header.number + 1 := by
    rw [hp] at hq; cases hq; exact v.number
  have hashes : min 256 b.header.number ≤ (getLast256BlockHashes C chain).length := by rw [hlen]; omega
  refine ⟨?_, ⟨hh.number, hh.gasLimit, hh.baseFee, hh.blobPrice, by dsimp only [blockEnvOf]; exact hashes, ?_⟩, ?_⟩
  · show 1 ≤ b.header.number
    rw [hnum]; exact Nat.le_add_left _ _
  · show b.header.difficulty < 2 ^ 256
    rw [v.difficulty]; decide
  · exact blockEnvironment_eq hc.fork hd (fun x hx => by rw [hp] at hx; cases hx; exact hr) hv hashes

theorem tool_calls {C : Crypto} {B : BlockEnv} {s : State} (hB : BlockFits s.fork B) (hs : Idle s) (hS : StateFits s)
    (ho : s.fork.since .prague = true → CallsCommute C B s) : CallsCommute C B s := by
  by_cases h : s.fork.since .prague = true
  · exact ho h
  · exact commute_early (by simpa using h) fun s1 h1 => beacon_fork hB hs hS h1

/-- **C80.** What can be imported is accepted by the tool: when a block is imported, the tool, given the parent's values and the transactions
of the block, rejects none, arrives at the same state and reports what the header says. For every fork with proof of stake. Since prague the tool makes the two
system calls at the start of a block in the other order, which here must not matter (see `C80_order`). -/
theorem C80_import {C : Crypto} {chain chain' : BlockChain} {b : Block} {d : EnvData} (hc : ChainFits chain) (hh : HeaderFits chain.state.fork b.header)
    (hz : chain.state.fork.since .osaka = false → (Rlp.encode (.ofBlock chain.state.fork b)).length < 2 ^ 47)
    (hd : Describes C chain b d)
    (ho : chain.state.fork.since .prague = true → CallsCommute C (blockEnvOf C chain b.header) chain.state)
    (h : stateTransition C chain b = .ok chain') :
    ∃ B r, blockEnvironment C chain.state.fork chain.chainId d = .ok (some B) ∧ unreadTxs chain.state.fork 0 b.transactions = [] ∧
      (∀ reward, runBlockchainTest C B reward d.ommers d.withdrawals chain.state (readTxs chain.state.fork 0 b.transactions) = .ok (chain'.state, r)) ∧
      Reports chain.state.fork r b.header ∧ AllAccepted r := by
  have hsize : (Rlp.encode (.ofBlock chain.state.fork b)).length ≤ 2 ^ 47 - 1 := by
    by_cases ho : chain.state.fork.since .osaka = true
    · have e : MAX_RLP_BLOCK_SIZE = 8388608 := by decide
      have : ¬ (Rlp.encode (.ofBlock chain.state.fork b)).length > MAX_RLP_BLOCK_SIZE := fun hx => by
        unfold stateTransition at h
        rw [if_pos ⟨ho, hx⟩] at h; cases h
      omega
    · have := hz (by simpa using ho); omega
  obtain ⟨hv, -, -, -, bs, k, hb, hst, hk, g1, g2, g3, g4, g5, g6, -, g8⟩ := stateTransition_ok h
  obtain ⟨hn, hB, pre, hs, e1, e2, e3⟩ := tool_env hc hh hd hv
  have hcc := tool_calls hB hc.idle hc.fits ho
  have hgiven : Given chain.state.fork (readTxs chain.state.fork 0 b.transactions) := readTxs_given _ 0 (block_blobs hsize)
  have hbody : ∀ reward, runBody C (blockEnvOf C chain b.header) reward d.ommers b.withdrawals chain.state (readTxs chain.state.fork 0 b.transactions) = .ok ⟨bs, []⟩ :=
    fun reward => (runBody_of_applyBody hc.fork hn hB hc.idle hc.fits hcc hb).1
  obtain ⟨hrep, hfk, -⟩ := runBody_reportable hc.fork hn hB hc.idle hc.fits hgiven (hbody none)
  obtain ⟨r, hu, u1, u2, u3, u4, u5, u6, u7, u8, u9, u10, u11, -⟩ := update_ok (B := blockEnvOf C chain b.header) (p := ⟨bs, []⟩) (x := false) hk hrep
  have hfk : bs.state.fork = chain.state.fork := hfk
  rw [hfk] at u6 u7 u8 u9
  refine ⟨_, r, e3, (runBody_of_applyBody (r := none) (om := []) hc.fork hn hB hc.idle hc.fits hcc hb).2, fun reward => ?_,
    ⟨u1.trans g1, u2.trans g2, u3.trans g4, u4.trans g5, u5.trans g3, ?_, ?_, ?_, ?_⟩, u10, u11⟩
  · rw [runTest_window hn e1 e2, runTest_withdrawals hd.withdrawals]
    unfold runBlockchainTest
    rw [hbody reward]
    dsimp only
    rw [hu, hst]
  · rw [u6, if_pos (since_later hc.fork rfl)]; rfl
  · rw [u7]
    by_cases hx : chain.state.fork.since .shanghai = true
    · rw [if_pos hx, if_pos hx, g6 hx]
    · rw [if_neg hx, if_neg hx]
  · rw [u8]; rfl
  · rw [u9]
    by_cases hx : chain.state.fork.since .prague = true
    · rw [if_pos hx, if_pos hx, g8 hx]
    · rw [if_neg hx, if_neg hx]

/-- **C80.** What the tool accepts can be imported: if the header of a block is valid and says what the tool reports - besides the blob gas, which the tool does not
report - and the block is not too large, then the import succeeds, with the state of the tool. -/
theorem C80_built {C : Crypto} {chain : BlockChain} {b : Block} {d : EnvData} {B : BlockEnv} {reward : Option Int} {s' : State} {r : Result}
    (hc : ChainFits chain) (hh : HeaderFits chain.state.fork b.header)
    (hz : (Rlp.encode (.ofBlock chain.state.fork b)).length ≤ if chain.state.fork.since .osaka then 8388608 else 2 ^ 47 - 1)
    (hd : Describes C chain b d)
    (ho : chain.state.fork.since .prague = true → CallsCommute C (blockEnvOf C chain b.header) chain.state)
    (hv : validateHeader C chain b.header = .ok ()) (hom : b.ommers = [])
    (hB : blockEnvironment C chain.state.fork chain.chainId d = .ok (some B)) (hur : unreadTxs chain.state.fork 0 b.transactions = [])
    (hrun : runBlockchainTest C B reward d.ommers d.withdrawals chain.state (readTxs chain.state.fork 0 b.transactions) = .ok (s', r))
    (hr : Reports chain.state.fork r b.header) (ha : AllAccepted r)
    (hg : chain.state.fork.since .cancun = true →
      b.header.blobGasUsed.toNat = ((readTxs chain.state.fork 0 b.transactions).map fun x => 131072 * x.2.blobHashes.length).sum) :
    ∃ chain', stateTransition C chain b = .ok chain' ∧ chain'.state = s' := by
  have hsize : (Rlp.encode (.ofBlock chain.state.fork b)).length ≤ 2 ^ 47 - 1 := by
    split at hz <;> omega
  obtain ⟨hn, hBf, pre, hs, e1, e2, e3⟩ := tool_env hc hh hd hv
  rw [hB] at e3
  cases e3
  have hcc := tool_calls hBf hc.idle hc.fits ho
  have hblobs := block_blobs hsize
  rw [runTest_window hn e1 e2, runTest_withdrawals hd.withdrawals] at hrun
  unfold runBlockchainTest at hrun
  match hq : runBody C (blockEnvOf C chain b.header) reward d.ommers b.withdrawals chain.state (readTxs chain.state.fork 0 b.transactions) with
  | .error (.fork .invalidBlock, q) =>
    rw [hq] at hrun
    dsimp only at hrun
    match hu : update C (blockEnvOf C chain b.header) q true with
    | .error e => rw [hu] at hrun; cases hrun
    | .ok r' =>
      rw [hu] at hrun
      cases hrun
      obtain ⟨-, -, -, -, -, -, -, -, -, -, h⟩ := update_inv hu
      rw [ha.exception] at h; cases h
  | .error (.fork (.invalidTx _), q) => rw [hq] at hrun; cases hrun
  | .error (.fork (.decode _), q) => rw [hq] at hrun; cases hrun
  | .error (.fork (.exn _), q) => rw [hq] at hrun; cases hrun
  | .error (.keyError, q) => rw [hq] at hrun; cases hrun
  | .error (.assertionError, q) => rw [hq] at hrun; cases hrun
  | .error (.attributeError, q) => rw [hq] at hrun; cases hrun
  | .error (.overflowError, q) => rw [hq] at hrun; cases hrun
  | .ok q =>
    rw [hq] at hrun
    dsimp only at hrun
    match hu : update C (blockEnvOf C chain b.header) q false with
    | .error e => rw [hu] at hrun; cases hrun
    | .ok r' =>
      rw [hu] at hrun
      cases hrun
      obtain ⟨k, hk, u1, u2, u3, u4, u5, u6, u7, u8, -⟩ := update_inv hu
      have hrej : q.rejected = [] := by
        have := ha.rejected
        rw [u8] at this
        exact List.map_eq_nil_iff.mp this
      have hbody := applyBody_of_runBody hc.fork hn hBf hc.idle hc.fits hcc hblobs hq hur hrej
      obtain ⟨-, hfk, -⟩ := runBody_reportable hc.fork hn hBf hc.idle hc.fits (readTxs_given _ 0 hblobs) hq
      rw [hfk] at u6 u7
      have hblob := body_blobs (fun s1 s2 h1 h2 => by
        have a1 := beacon_total (C := C) hBf hc.idle hc.fits
        rw [h1] at a1
        have a2 := parentHash_total (C := C) hn (by rw [a1.fork]; exact hBf) a1.idle a1.fits
        rw [h2] at a2
        exact a2.fork.trans a1.fork) hbody
      have hsz : ¬ (chain.state.fork.since .osaka = true ∧ (Rlp.encode (.ofBlock chain.state.fork b)).length > MAX_RLP_BLOCK_SIZE) := by
        rintro ⟨h1, h2⟩
        rw [if_pos h1] at hz
        have e : MAX_RLP_BLOCK_SIZE = 8388608 := by decide
        omega
      unfold stateTransition
      rw [if_neg hsz, hv]
      dsimp only
      rw [if_neg (fun h => h hom), hbody]
      dsimp only
      rw [hk]
      dsimp only
      have w6 : ¬ (chain.state.fork.since .shanghai = true ∧ k.withdrawalsRoot ≠ b.header.withdrawalsRoot) := by
        rintro ⟨h1, h2⟩
        rw [hr.withdrawalsRoot, if_pos h1, if_pos h1] at u6
        exact h2 (Option.some.inj u6).symm
      have w7 : ¬ (chain.state.fork.since .cancun = true ∧ q.b.out.blobGasUsed ≠ b.header.blobGasUsed.toNat) := by
        rintro ⟨h1, h2⟩
        exact h2 (hblob.trans (hg h1).symm)
      have w8 : ¬ (chain.state.fork.since .prague = true ∧ k.requestsHash ≠ b.header.requestsHash) := by
        rintro ⟨h1, h2⟩
        rw [hr.requestsHash, if_pos h1, if_pos h1] at u7
        exact h2 (Option.some.inj u7).symm
      rw [if_neg (fun h => h (u1.symm.trans hr.gasUsed)), if_neg (fun h => h (u2.symm.trans hr.txRoot)), if_neg (fun h => h (u5.symm.trans hr.stateRoot)),
        if_neg (fun h => h (u3.symm.trans hr.receiptRoot)), if_neg (fun h => h (u4.symm.trans hr.bloom)), if_neg w6, if_neg w7, if_neg w8]
      exact ⟨_, rfl, rfl⟩

theorem Inputs.given {f : Fork} {txs : List (Nat × Transaction)} (h : Inputs f txs) : Given f txs :=
  fun x hx => ⟨(h.known x hx).imp id fun h => since_later h rfl, h.blobs x hx⟩

/-- **C80.** Rejected transactions leave no trace: whatever the tool yields, it yields the same without the transactions that it rejects, at the same places - up to the list of
rejected transactions and the root of the transactions. In every fork, also if the block turns out to be invalid after the transactions. -/
theorem C80_rejected {C : Crypto} {B : BlockEnv} {reward : Option Int} {ommers : List Ommer} {ws : List Withdrawal} {s s' : State}
    {txs : List (Nat × Transaction)} {r : Result} (hn : 1 ≤ B.number) (hB : BlockFits s.fork B) (hs : Quiet s) (hS : StateFits s) (hi : Inputs s.fork txs)
    (h : runBlockchainTest C B reward ommers ws s txs = .ok (s', r)) :
    ∃ root, indexTrieRoot C encodeTxNode (allTransactions (txs.filter fun x => x.1 ∉ r.rejected)) = .ok root ∧
      runBlockchainTest C B reward ommers ws s (txs.filter fun x => x.1 ∉ r.rejected) = .ok (s', { r with txRoot := root, rejected := [] }) := by
  obtain ⟨q, x, s1, s2, p, s3, he, rfl, hu⟩ := ended_of_run hn hB hs hS (Inputs.given hi) h
  obtain ⟨k1, k2⟩ := ended_drop hB (Inputs.given hi) hi.places hi.small he
  have hrej : r.rejected = q.rejected.map Prod.fst := by
    obtain ⟨-, -, -, -, -, -, -, -, -, h, -⟩ := update_inv hu; exact h
  rw [hrej]
  obtain ⟨root, hroot⟩ := indexRoot_total C encodeTxNode (allTransactions (keep (q.rejected.map Prod.fst) txs))
    (stored_add _ _ fun k v hv => by simp [BlockOutput.empty] at hv)
  have hrun := run_of_ended k2 (update_withTxs k1 hroot hu)
  exact ⟨root, hroot, hrun⟩

/-- **C80.** A transaction is rejected exactly when the rules of inclusion are broken, at the state that the system calls and the transactions before it lead to. -/
theorem C80_rejected_iff {C : Crypto} {B : BlockEnv} {reward : Option Int} {ommers : List Ommer} {ws : List Withdrawal} {s s' : State}
    {before after : List (Nat × Transaction)} {i : Nat} {tx : Transaction} {r : Result} (hn : 1 ≤ B.number) (hB : BlockFits s.fork B) (hs : Quiet s)
    (hS : StateFits s) (hi : Inputs s.fork (before ++ (i, tx) :: after))
    (h : runBlockchainTest C B reward ommers ws s (before ++ (i, tx) :: after) = .ok (s', r)) :
    ∃ s1 s2 p, storeParentHash C B s = .ok s1 ∧ storeBeaconRoot C B s1 = .ok s2 ∧ runTxs C B ⟨⟨s2, BlockOutput.empty⟩, []⟩ before = .ok p ∧
      (i ∈ r.rejected ↔ ∀ sender, ¬ Includable C B p.b.state p.b.out.blockGasUsed p.b.out.blobGasUsed tx sender) := by
  obtain ⟨q, x, s1, s2, p, s3, he, rfl, hu⟩ := ended_of_run hn hB hs hS (Inputs.given hi) h
  have hrej : r.rejected = p.rejected.map Prod.fst := by
    obtain ⟨-, -, -, -, -, -, -, -, -, h, -⟩ := update_inv hu; rw [h, he.rejected]
  have hgb : Given s.fork before := fun y hy => Inputs.given hi y (List.mem_append_left _ hy)
  have hgx := Inputs.given hi (i, tx) (List.mem_append_right _ List.mem_cons_self)
  have htr := he.transactions
  rw [runTxs_append] at htr
  have htot := runTxs_total (C := C) hB before ⟨⟨s2, BlockOutput.empty⟩, []⟩ he.begun.fork (empty_inv he.begun.quiet he.begun.fits) hgb
  match hq : runTxs C B ⟨⟨s2, BlockOutput.empty⟩, []⟩ before with
  | .error e => rw [hq] at htr; cases htr
  | .ok p0 =>
    rw [hq] at htr htot
    dsimp only at htr
    obtain ⟨i1, i2, -, -, -⟩ := htot
    obtain ⟨l0, hl0, hm0⟩ := runTxs_rejected before _ _ hq
    have hp : (before.map Prod.fst ++ i :: after.map Prod.fst).Nodup := by
      have := hi.places; rw [List.map_append, List.map_cons] at this; exact this
    obtain ⟨-, hp2, hp3⟩ := List.nodup_append.mp hp
    have hnb : i ∉ before.map Prod.fst := fun hx => hp3 i hx i List.mem_cons_self rfl
    have hna : i ∉ after.map Prod.fst := (List.nodup_cons.mp hp2).1
    have hn0 : i ∉ l0.map Prod.fst := fun hx => by
      obtain ⟨y, hy, e⟩ := List.mem_map.mp hx
      exact hnb (e ▸ hm0 y hy)
    have hl0 : p0.rejected = l0 := hl0
    refine ⟨s1, s2, p0, he.history, he.roots, hq, ?_⟩
    rw [hrej]
    rcases runTxs_cons (C := C) (i := i) after (by rw [i2]; exact hB) i1 hgx.2 with ⟨b', h1, h2⟩ | ⟨e, -, h1, h2⟩ | ⟨e, b', -, h2⟩
    · rw [h2] at htr
      obtain ⟨l, hl, hm⟩ := runTxs_rejected after _ _ htr
      have hl : p.rejected = p0.rejected ++ l := hl
      rw [hl, hl0, List.map_append]
      obtain ⟨sender, msg, o, w, t1, t2, hran⟩ := processTransaction_ok.mp h1
      constructor
      · intro hx
        rcases List.mem_append.mp hx with hx | hx
        · exact absurd hx hn0
        · obtain ⟨y, hy, e⟩ := List.mem_map.mp hx
          exact absurd (e ▸ hm y hy) hna
      · intro hx; exact absurd hran.includable (hx sender)
    · rw [h2] at htr
      obtain ⟨l, hl, hm⟩ := runTxs_rejected after _ _ htr
      have hl : p.rejected = (p0.rejected ++ [(i, e)]) ++ l := hl
      rw [hl]
      exact ⟨fun _ => h1, fun _ => by simp⟩
    · rw [h2] at htr; cases htr

/-- **C80**, about the root of the transactions: it counts the rejected transactions as well. (A block made of the accepted ones has another root, see `C80_rejected`.) -/
theorem C80_tx_root {C : Crypto} {B : BlockEnv} {reward : Option Int} {ommers : List Ommer} {ws : List Withdrawal} {s s' : State}
    {txs : List (Nat × Transaction)} {r : Result} (hn : 1 ≤ B.number) (hB : BlockFits s.fork B) (hs : Quiet s) (hS : StateFits s) (hi : Inputs s.fork txs)
    (h : runBlockchainTest C B reward ommers ws s txs = .ok (s', r)) : indexTrieRoot C encodeTxNode (allTransactions txs) = .ok r.txRoot := by
  obtain ⟨q, x, s1, s2, p, s3, he, rfl, hu⟩ := ended_of_run hn hB hs hS (Inputs.given hi) h
  have htot := runTxs_total (C := C) hB txs ⟨⟨s2, BlockOutput.empty⟩, []⟩ he.begun.fork (empty_inv he.begun.quiet he.begun.fits) (Inputs.given hi)
  rw [he.transactions] at htot
  obtain ⟨-, -, -, -, ht⟩ := htot
  obtain ⟨k, hk, -, u2, -⟩ := update_inv hu
  have e : allTransactions txs = q.b.out.transactionsTrie := by rw [(ended_out he).1, ht]; rfl
  rw [e, u2]
  unfold commitments at hk
  match h1 : stateRoot C q.b.state with
  | .error c => rw [h1] at hk; cases hk
  | .ok a =>
    rw [h1] at hk
    match h2 : indexTrieRoot C encodeTxNode q.b.out.transactionsTrie with
    | .error c => rw [h2] at hk; cases hk
    | .ok t =>
      rw [h2] at hk
      match h3 : indexTrieRoot C encodeReceiptNode q.b.out.receiptsTrie with
      | .error c => rw [h3] at hk; cases hk
      | .ok t' =>
        rw [h3] at hk
        match h4 : indexTrieRoot C id q.b.out.withdrawalsTrie with
        | .error c => rw [h4] at hk; cases hk
        | .ok t'' => rw [h4] at hk; cases hk; rfl

/-- **C80**, for mined blocks without ommers: the same as `C80_import`. The hash function of the EVM and that of the headers agree on the empty list. -/
theorem C80_mined {C : Crypto} {K : Hashes} {F : PowFork} {c c' : PowChain Txs} {b : PowBlock Txs} {p : PowHeader} {d : EnvData}
    (hK : F.fork.since .byzantium = true → C.keccak256 (Rlp.encode (.list [])) = K.keccak256 (Rlp.encode (.list [])))
    (hc : PowChainFits F c) (hh : MinedFits F b.header) (hd : DescribesMined C K F c p b.header d) (ho : b.ommers = []) (hdo : d.ommers = [])
    (h : Pow.stateTransition K (evmExec C K) F c b = .ok c') :
    ∃ B r, blockEnvironment C F.fork c.chainId d = .ok (some B) ∧ unreadTxs F.fork 0 b.transactions = [] ∧
      runBlockchainTest C B none d.ommers d.withdrawals c.state (readTxs F.fork 0 b.transactions) = .ok (c'.state, r) ∧
      ReportsMined F r b.header ∧ AllAccepted r := by
  obtain ⟨q, hq, hl⟩ := hc.last
  have hp : q.header = p := by have := hd.parent; rw [hq] at this; exact Option.some.inj this
  have hnext := hd.next
  have hlen := powHashes_length (K := K) hq
  have hashes : min 256 b.header.number ≤ (lastBlockHashes K c.blocks).length := by rw [← hp] at hnext; omega
  obtain ⟨hv, -, -⟩ := powTransition_ok h
  have v := mined_parent hc.numbered hd.parent hnext hv
  obtain ⟨pre, hs, e1, e2, e3⟩ := environment_mined hd hK v hashes
  obtain ⟨r, k1, k2, k3, k4, k5, k6, k7, k8, k9, k10⟩ := mined_run (om := d.withdrawals) hc hh hashes ho h
  have hn : 1 ≤ (powEnvOf K c.chainId c.blocks b.header).number := by
    show 1 ≤ b.header.number
    rw [hnext]; exact Nat.le_add_left _ _
  refine ⟨_, r, e3, k2, ?_, ⟨k4, k5, k6, k7, k8, k9, ?_⟩, k3⟩
  · rw [runTest_window hn e1 e2, hdo]; exact k1
  · rw [k10]
    by_cases hL : F.fork.since .london = true
    · rw [if_pos hL]
      have hf := v.fees
      unfold PowFees at hf
      have : ∃ fee, b.header.baseFeePerGas = some fee := by
        cases F with
        | london =>
          by_cases hx : b.header.number = 12965000
          · exact ⟨_, hf.1 hx⟩
          · obtain ⟨-, _, -, h⟩ := hf.2 hx; exact ⟨_, h⟩
        | arrowGlacier => obtain ⟨-, _, -, h⟩ := hf; exact ⟨_, h⟩
        | grayGlacier => obtain ⟨-, _, -, h⟩ := hf; exact ⟨_, h⟩
        | _ => cases hL
      obtain ⟨fee, hfee⟩ := this
      rw [hfee]; rfl
    · rw [if_neg hL, hd.absent (by simpa using hL)]

/-- **C80**, about ommers: before paris the tool yields nothing when there are ommers, unless it is told to pay no rewards. -/
theorem C80_ommers {C : Crypto} {B : BlockEnv} {reward : Option Int} {o : Ommer} {ommers : List Ommer} {ws : List Withdrawal} {s : State}
    {txs : List (Nat × Transaction)} (hn : 1 ≤ B.number) (hB : BlockFits s.fork B) (hs : Quiet s) (hS : StateFits s) (hi : Inputs s.fork txs)
    (hf : s.fork.since .paris = false) (hr : reward ≠ some (-1)) :
    ∃ e, runBlockchainTest C B reward (o :: ommers) ws s txs = .error e := by
  match h : runBlockchainTest C B reward (o :: ommers) ws s txs with
  | .error e => exact ⟨e, rfl⟩
  | .ok (s', r) =>
    obtain ⟨q, x, s1, s2, p, s3, he, -, -⟩ := ended_of_run hn hB hs hS (Inputs.given hi) h
    have htot := runTxs_total (C := C) hB txs ⟨⟨s2, BlockOutput.empty⟩, []⟩ he.begun.fork (empty_inv he.begun.quiet he.begun.fits) (Inputs.given hi)
    rw [he.transactions] at htot
    obtain ⟨-, hfk, -, -, -⟩ := htot
    obtain ⟨e, s', h1, -⟩ := payReward_ommers (s := p.b.state) (cb := B.coinbase) (o := o) (om := ommers) (by rw [hfk]; exact hf) hr
    rw [he.reward] at h1; cases h1

/-! ### The order of the system calls -/

/-- The state of the sample block, but the contract of the beacon roots stores its caller in slot 0 (CALLER PUSH0 SSTORE STOP), and that of the block hashes calls
it. -/
def orderState : State :=
  setAccount (setAccount sampleState BEACON_ROOTS_ADDRESS (some ⟨1, 0, [0x33, 0x5f, 0x55, 0x00]⟩)) HISTORY_STORAGE_ADDRESS
    (some ⟨1, 0, [0x5f, 0x5f, 0x5f, 0x5f, 0x5f, 0x73] ++ toBE 20 BEACON_ROOTS_ADDRESS.toNat ++ [0x5a, 0xf1, 0x00]⟩)

/-- What counts in the result of the tool. -/
def toolOutcome : Except ToolExn (State × Result) → Option (List Nat × Bool × Word)
  | .ok (s, r) => some (r.rejected, r.blockException, getStorage s BEACON_ROOTS_ADDRESS 0)
  | .error _ => none

def bodyOutcome : Except (BlockExn × BlockState) BlockState → Option Word
  | .ok b => some (getStorage b.state BEACON_ROOTS_ADDRESS 0)
  | .error _ => none

theorem orderState_codes (a : Address) : (getAccount orderState a).code.length < 2 ^ 240 := by
  have h := sample_codes a
  unfold orderState getAccount
  rw [getAccountOptional_setAccount, getAccountOptional_setAccount]
  by_cases h1 : HISTORY_STORAGE_ADDRESS = a
  · rw [if_pos h1]; dsimp only; decide +kernel
  · rw [if_neg h1]
    by_cases h2 : BEACON_ROOTS_ADDRESS = a
    · rw [if_pos h2]; dsimp only; decide +kernel
    · rw [if_neg h2]
      exact Nat.lt_of_le_of_lt h (by decide)

/-- **C80**, why the order must not matter there: since prague `t8n` stores the parent hash before the beacon root, the import does it the other way round,
and the states differ if the two contracts interact. -/
theorem C80_order : ∃ (C : Crypto) (B : BlockEnv) (s s' : State) (r : Result) (b : BlockState), s.fork = .osaka ∧ Idle s ∧ BlockFits .osaka B ∧
    runBlockchainTest C B none [] [] s [] = .ok (s', r) ∧ AllAccepted r ∧ applyBody C B s [] [] = .ok b ∧
    getStorage s' BEACON_ROOTS_ADDRESS 0 ≠ getStorage b.state BEACON_ROOTS_ADDRESS 0 ∧ ¬ CallsCommute C B s := by
  have hidle : Idle orderState :=
    ⟨by decide, (sample_idle.wf.setAccount _ _).setAccount _ _, sample_idle.snapshots, sample_idle.created⟩
  have hB : BlockFits .osaka sampleBlockEnv := ⟨by decide, by decide, by decide, by decide +kernel, by decide +kernel, by decide⟩
  have h1 : toolOutcome (runBlockchainTest sampleCrypto sampleBlockEnv none [] [] orderState []) = some ([], false, 0xfffffffffffffffffffffffffffffffffffffffe) := by
    decide +kernel
  have h2 : bodyOutcome (applyBody sampleCrypto sampleBlockEnv orderState [] []) = some 0x0000F90827F1C53a10cb7A02335B175320002935 := by decide +kernel
  match k1 : runBlockchainTest sampleCrypto sampleBlockEnv none [] [] orderState [], k2 : applyBody sampleCrypto sampleBlockEnv orderState [] [] with
  | .error _, _ => rw [k1] at h1; cases h1
  | .ok _, .error _ => rw [k2] at h2; cases h2
  | .ok (s', r), .ok b =>
    rw [k1] at h1
    rw [k2] at h2
    have h1 := Option.some.inj h1
    have h2 := Option.some.inj h2
    have e1 : r.rejected = [] := congrArg Prod.fst h1
    have e2 : r.blockException = false := congrArg (fun x => x.2.1) h1
    have e3 : getStorage s' BEACON_ROOTS_ADDRESS 0 = _ := congrArg (fun x => x.2.2) h1
    have h2 : getStorage b.state BEACON_ROOTS_ADDRESS 0 = _ := h2
    have hne : getStorage s' BEACON_ROOTS_ADDRESS 0 ≠ getStorage b.state BEACON_ROOTS_ADDRESS 0 := by rw [e3, h2]; decide
    refine ⟨sampleCrypto, sampleBlockEnv, orderState, s', r, b, rfl, hidle, hB, k1, ⟨e1, e2⟩, k2, hne, fun hc => hne ?_⟩
    have hS : StateFits orderState := ⟨by decide +kernel, orderState_codes⟩
    have hrun := (runBody_of_applyBody (r := none) (om := []) rfl (by decide) hB hidle hS hc k2).1
    unfold runBlockchainTest at k1
    have hrun : runBody sampleCrypto sampleBlockEnv none [] [] orderState [] = .ok ⟨b, []⟩ := hrun
    rw [hrun] at k1
    dsimp only at k1
    match hu : update sampleCrypto sampleBlockEnv ⟨b, []⟩ false with
    | .error e => rw [hu] at k1; cases k1
    | .ok r' => rw [hu] at k1; cases k1; rfl

/-! ### Examples -/

/-- The input of the tool for the sample block. The base fee and the excess blob gas are left to the tool. -/
def sampleInput : EnvData :=
  { currentCoinbase := 99, currentGasLimit := 30000000, currentNumber := 1, currentTimestamp := 12, currentDifficulty := none, parentTimestamp := none,
    parentDifficulty := none, parentUncleHash := none, currentBaseFee := none, parentGasUsed := some 15000000, parentGasLimit := some 30000000,
    parentBaseFee := some 7, currentRandom := 0, blockHashes := fun n => if n = 0 then some (headerHash sampleCrypto .osaka sampleParent) else none,
    ommers := [], withdrawals := [⟨0, 1, 55, 4⟩], parentBeaconBlockRoot := 0, currentExcessBlobGas := none, parentExcessBlobGas := some 0,
    parentBlobGasUsed := some 0 }

theorem sample_describes : Describes sampleCrypto sampleChain sampleBlock sampleInput where
  coinbase := rfl
  gasLimit := rfl
  number := rfl
  timestamp := rfl
  random := rfl
  hashes := by
    intro i hi
    have : i = 0 := by
      have e : sampleBlock.header.number = 1 := rfl
      rw [e] at hi; omega
    subst this
    rfl
  baseFee := .inr ⟨rfl, _, rfl, rfl, rfl, rfl⟩
  withdrawals := fun _ => rfl
  beacon := fun _ => rfl
  excess := fun _ => .inr ⟨rfl, _, rfl, .inl ⟨rfl, rfl, rfl, rfl⟩⟩
  absent := fun h => by cases h

theorem sample_commute (B : BlockEnv) : CallsCommute sampleCrypto B sampleState :=
  halts_commute rfl sample_idle (.inr ⟨[], by decide +kernel⟩) (.inr ⟨[], by decide +kernel⟩)

theorem sample_chainFits : ChainFits sampleChain :=
  ⟨⟨_, rfl, fun _ => by unfold BlobGasInRange; decide, .inl (by decide)⟩, rfl, sample_idle, sample_stateFits⟩

/-- The sample block is accepted by the tool. -/
example : ∃ chain' B r, stateTransition sampleCrypto sampleChain sampleBlock = .ok chain' ∧
    blockEnvironment sampleCrypto .osaka 1 sampleInput = .ok (some B) ∧
    runBlockchainTest sampleCrypto B none [] [⟨0, 1, 55, 4⟩] sampleState (readTxs .osaka 0 [.inl sampleTx]) = .ok (chain'.state, r) ∧
    Reports .osaka r sampleBlock.header ∧ AllAccepted r := by
  have h := sample_runs
  match hs : stateTransition sampleCrypto sampleChain sampleBlock with
  | .error e => rw [hs] at h; cases h
  | .ok c =>
    obtain ⟨B, r, h1, -, h2, h3, h4⟩ := C80_import sample_chainFits ⟨by decide, by decide, by decide, by decide +kernel⟩ (fun h => by cases h) sample_describes
      (fun _ => sample_commute _) hs
    exact ⟨c, B, r, rfl, h1, h2 none, h3, h4⟩

/-- The hypotheses of `C80_built` are met. -/
example : ∃ B s' r, validateHeader sampleCrypto sampleChain sampleBlock.header = .ok () ∧ blockEnvironment sampleCrypto .osaka 1 sampleInput = .ok (some B) ∧
    runBlockchainTest sampleCrypto B none [] [⟨0, 1, 55, 4⟩] sampleState (readTxs .osaka 0 [.inl sampleTx]) = .ok (s', r) ∧
    Reports .osaka r sampleBlock.header ∧ AllAccepted r ∧ ∃ chain', stateTransition sampleCrypto sampleChain sampleBlock = .ok chain' ∧ chain'.state = s' := by
  have h := sample_runs
  match hs : stateTransition sampleCrypto sampleChain sampleBlock with
  | .error e => rw [hs] at h; cases h
  | .ok c =>
    obtain ⟨B, r, h1, hu, h2, h3, h4⟩ := C80_import sample_chainFits ⟨by decide, by decide, by decide, by decide +kernel⟩ (fun h => by cases h) sample_describes
      (fun _ => sample_commute _) hs
    have hv := (stateTransition_ok hs).1
    have := C80_built sample_chainFits ⟨by decide, by decide, by decide, by decide +kernel⟩ (by decide +kernel) sample_describes (fun _ => sample_commute _) hv rfl h1 hu
      (h2 none) h3 h4 (fun _ => by decide +kernel)
    rw [hs] at this
    exact ⟨B, c.state, r, hv, h1, h2 none, h3, h4, this⟩

/-- The same transaction twice: the second has a wrong nonce. -/
def twice : List (Nat × Transaction) := [(0, .legacy sampleTx), (1, .legacy sampleTx)]

example : 1 ≤ sampleBlockEnv.number ∧ BlockFits sampleState.fork sampleBlockEnv ∧ Quiet sampleState ∧ StateFits sampleState ∧ Inputs sampleState.fork twice :=
  ⟨by decide, ⟨by decide, by decide, by decide, by decide +kernel, by decide +kernel, by decide⟩, sample_idle.quiet, sample_stateFits,
    ⟨fun _ _ => .inr rfl, by decide, by decide, by decide⟩⟩

example : (match runBlockchainTest sampleCrypto sampleBlockEnv none [] [] sampleState twice with
    | .ok (s, r) => r.rejected == [1] && !r.blockException && getStorage s 88 1 == 7 && r.receipts.length == 1 && r.gasUsed == 43138
    | .error _ => false) = true := by decide +kernel

/-- The input of the tool for the sample block with proof of work; the difficulty is left to the tool. -/
def minedInput : EnvData :=
  { sampleInput with
    currentCoinbase := 0xa, currentGasLimit := 100000, currentTimestamp := 10, parentTimestamp := some 0, parentDifficulty := some 131072
    blockHashes := fun n => if n = 0 then some (powHash sampleK powEvmGenesis) else none }

theorem mined_describes : DescribesMined sampleCrypto sampleK .frontier powEvmChain powEvmGenesis powEvmBlock.header minedInput where
  parent := rfl
  next := rfl
  coinbase := rfl
  gasLimit := rfl
  number := rfl
  timestamp := rfl
  hashes := by
    intro i hi
    have : i = 0 := by
      have e : powEvmBlock.header.number = 1 := rfl
      rw [e] at hi; omega
    subst this
    rfl
  difficulty := .inr ⟨rfl, rfl, rfl, fun h => by cases h⟩
  baseFee := fun h => by cases h
  absent := fun _ => rfl

example : PowChainFits .frontier powEvmChain ∧ MinedFits .frontier powEvmBlock.header ∧
    DescribesMined sampleCrypto sampleK .frontier powEvmChain powEvmGenesis powEvmBlock.header minedInput ∧
    ∃ c' B r, blockEnvironment sampleCrypto .frontier 1 minedInput = .ok (some B) ∧
      runBlockchainTest sampleCrypto B none [] minedInput.withdrawals powEvmState (readTxs .frontier 0 [.inl sampleTx]) = .ok (c', r) ∧
      getStorage c' 88 1 = 7 ∧ ReportsMined .frontier r powEvmBlock.header ∧ AllAccepted r := by
  refine ⟨powEvm_fits, powEvm_block_fits.1, mined_describes, ?_⟩
  obtain ⟨s', h1, h2⟩ := seal_accepts (C := sampleCrypto) (g := powEvmGenesis) (h := powEvmHead) (txs := [.inl sampleTx]) (st := powEvmState) (n := 1) (cb := 0xa)
    (p := fun s => getStorage s 88 1 == 7 && (getAccount s 77).nonce == 1) powEvm_fields.1 powEvm_fields.2.1 powEvm_rules powEvm_ommers powEvm_runs
  simp only [Bool.and_eq_true, beq_iff_eq] at h2
  obtain ⟨B, r, k1, -, k2, k3, k4⟩ := C80_mined (C := sampleCrypto) (K := sampleK) (F := .frontier) (c := powEvmChain) (b := powEvmBlock) (d := minedInput)
    (fun h => by cases h) powEvm_fits powEvm_block_fits.1 mined_describes rfl rfl h1
  exact ⟨s', B, r, k1, k2, h2.1, k3, k4⟩

/-- With an ommer there is no result. -/
example : (match runBlockchainTest sampleCrypto sampleBlockEnv none [⟨5⟩] [] powEvmState twice with
    | .ok _ => false
    | .error e => e == .attributeError) = true ∧ Inputs powEvmState.fork twice ∧ BlockFits powEvmState.fork sampleBlockEnv ∧ Quiet powEvmState ∧ StateFits powEvmState :=
  ⟨by decide +kernel, ⟨fun x hx => .inl (by
      rcases List.mem_cons.mp hx with rfl | hx
      · exact ⟨_, rfl⟩
      · rw [List.mem_singleton.mp hx]; exact ⟨_, rfl⟩), by decide, by decide, by decide⟩,
    ⟨by decide, by decide, by decide, by decide +kernel, by decide +kernel, by decide⟩, powEvm_quiet, ⟨by decide +kernel, sample_stateFits.codes⟩⟩

end Verif.Props
