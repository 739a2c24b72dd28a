import Verif.Props.C80
import Verif.Props.C35_body
/-! C80, continued: the receipts that the transition tool reports. -/
namespace Verif.Props
open Verif Pow Ethash T8n Spec

/-- Receipts of included transactions are small. -/
theorem receipts_small {C : Crypto} {B : BlockEnv} {f : Fork} (hB : BlockFits f B) (hz : f.since .byzantium = true) : ∀ (txs : List (LegacyTx ⊕ Bytes)) {b b' : BlockState} {i : Nat},
    b.state.fork = f → processTransactions C B b i txs = .ok b' → i + txs.length < 2 ^ 64 → ∀ j, j < txs.length →
    ∃ tx r, trieGet b'.out.receiptsTrie (indexKey (i + j)) = some (encodeReceipt tx r) ∧ (Rlp.encode (.ofReceipt r)).length < 2 ^ 64
  | [], _, _, _, _, _, _, j, hj => absurd hj (Nat.not_lt_zero j)
  | t :: r, b, b', i, hf, h, hlen, j, hj => by
    rw [List.length_cons] at hlen hj
    obtain ⟨tx, b1, hdec, hp, hr⟩ := processTransactions_cons h
    obtain ⟨sender, msg, o, w, s1, s2, hran⟩ := processTransaction_ok.mp hp
    match j with
    | j + 1 =>
      obtain ⟨tx', rc, h1, h2⟩ := receipts_small hB hz r ((ran_fork hran).trans hf) hr (by omega) j (by omega)
      rw [show i + 1 + j = i + (j + 1) by omega] at h1
      exact ⟨tx', rc, h1, h2⟩
    | 0 =>
      obtain ⟨rs, q⟩ := C27_receipts r hr (by omega)
      have hother : ∀ j, j < r.length → indexKey i ≠ indexKey (i + 1 + j) := by
        intro j hj he
        have := indexKey_inj (by omega) (by omega) he
        omega
      have e1 : b1.out = outAfter C b.state.fork b.out tx i o (statusOf C (finalDeletions s2 o) o.error) := by rw [hran.result]
      rw [Nat.add_zero, (q.others _ hother).1, e1]
      have hfk : (finalDeletions s2 o).fork = b.state.fork := by
        have := ran_fork hran
        rw [hran.result] at this; exact this
      have hst : statusOf C (finalDeletions s2 o) o.error = .succeeded o.error.isNone := by
        unfold statusOf; rw [hfk, hf, if_pos hz]
      rw [← hf] at hB
      obtain ⟨b1, b2, b3, b4⟩ := hran.includable.bounds hB
      have hu := gasCharged_le o hran.includable.valid.floor
      have r1 := hran.includable.room
      have hl := top_logs hran.run
      have hmg : msg.gas ≤ tx.gas := by
        rw [(prepareMessage_ok hran.message).2.2.1]; exact Nat.sub_le _ _
      have hgl := Nat.lt_of_lt_of_le hB.gasLimit (gasLimitBound_le _)
      refine ⟨tx, ⟨statusOf C (finalDeletions s2 o) o.error, b.out.blockGasUsed + gasCharged b.state.fork tx o, logsBloom C o.logs, o.logs⟩, ?_, ?_⟩
      · show trieGet (trieSet b.out.receiptsTrie (indexKey i) _) (indexKey i) = _
        rw [trieGet_trieSet, if_pos rfl]; rfl
      · rw [hst]
        exact receipt_small _ rfl (show logsCost o.logs < 2 ^ 60 by omega) (show b.out.blockGasUsed + gasCharged b.state.fork tx o < 2 ^ 256 by omega)

/-- An encoded receipt that is like that of a small one is decoded. -/
theorem encoded_small {tx tx' : Transaction} {r r' : Receipt} {ok : Bool} (h : encodeReceipt tx r = encodeReceipt tx' r') (hs : r.status = .succeeded ok)
    (hl : (Rlp.encode (.ofReceipt r')).length < 2 ^ 64) : decodeReceipt (encodeReceipt tx r) = some r := by
  cases tx with
  | legacy t => rfl
  | _ =>
    refine C38_receipt _ _ hs ?_
    cases tx' with
    | legacy t' => cases h
    | _ =>
      have := congrArg (fun x : Receipt ⊕ Bytes => match x with | .inl _ => 0 | .inr b => b.length) h
      simp only [encodeReceipt, List.length_cons] at this
      omega

/-- What the tool reports of receipts that are in the tries. -/
theorem reported_receipts {C : Crypto} {out : BlockOutput} : ∀ (rs : List (Transaction × Receipt)) (i : Nat),
    (∀ j p, rs[j]? = some p → trieGet out.receiptsTrie (indexKey (i + j)) = some (encodeReceipt p.1 p.2) ∧
      trieGet out.transactionsTrie (indexKey (i + j)) = some (encodeTransaction p.1) ∧ decodeReceipt (encodeReceipt p.1 p.2) = some p.2) →
    receiptsFromOutput C out ((List.range rs.length).map fun j => indexKey (i + j)) =
      .ok (rs.map fun p => (getTransactionHash C (encodeTransaction p.1), p.2))
  | [], _, _ => rfl
  | p :: rs, i, h => by
    obtain ⟨h1, h2, h3⟩ := h 0 p rfl
    rw [Nat.add_zero] at h1 h2
    have e : (List.range (p :: rs).length).map (fun j => indexKey (i + j)) = indexKey i :: (List.range rs.length).map fun j => indexKey (i + 1 + j) := by
      rw [List.length_cons, List.range_succ_eq_map, List.map_cons, List.map_map, Nat.add_zero]
      refine congrArg (indexKey i :: ·) (List.map_congr_left fun j _ => ?_)
      show indexKey (i + (j + 1)) = _
      rw [show i + (j + 1) = i + 1 + j by omega]
    rw [e, receiptsFromOutput, h2, h1]
    dsimp only
    rw [h3]
    dsimp only
    rw [reported_receipts rs (i + 1) fun j p hj => by
      have := h (j + 1) p hj
      rwa [show i + (j + 1) = i + 1 + j by omega] at this]
    rfl

/-- **C80.** The receipts that the tool reports for a block that can be imported: one for each transaction, in order, under the hash of the transaction; they are those
of which the header has the root. The logs whose hash it reports are those of the receipts, and since prague it reports requests of which the header has the hash. (The hypotheses are those of `C80_import`.) -/
theorem C80_receipts {C : Crypto} {chain chain' : BlockChain} {b : Block} {d : EnvData} (hc : ChainFits chain) (hh : HeaderFits chain.state.fork b.header)
    (hz : chain.state.fork.since .osaka = false → (Rlp.encode (.ofBlock chain.state.fork b)).length < 2 ^ 47)
    (hd : Describes C chain b d)
    (ho : chain.state.fork.since .prague = true → CallsCommute C (blockEnvOf C chain b.header) chain.state)
    (h : stateTransition C chain b = .ok chain') {B : BlockEnv} (hB : blockEnvironment C chain.state.fork chain.chainId d = .ok (some B)) {reward : Option Int}
    {s' : State} {r : Result}
    (hr : runBlockchainTest C B reward d.ommers d.withdrawals chain.state (readTxs chain.state.fork 0 b.transactions) = .ok (s', r)) :
    ∃ rs : List (Transaction × Receipt), b.transactions.map (decodeTransaction chain.state.fork) = rs.map (fun p => .ok p.1) ∧
      trieRoot C false (indexEntries (rs.map fun p => receiptBytes p.1 p.2)) = .ok b.header.receiptRoot ∧
      (0 :: rs.map fun p => p.2.cumulativeGasUsed).Pairwise (· < ·) ∧
      r.receipts = rs.map (fun p => (C.keccak256 (wireBytes p.1), p.2)) ∧
      r.logsHash = C.keccak256 (Rlp.encode (.list ((rs.flatMap fun p => p.2.logs).map .ofLog))) ∧ r.difficulty = none ∧ r.blobGasUsed = none ∧
      (chain.state.fork.since .prague = false → r.requests = none) ∧
      (chain.state.fork.since .prague = true → ∃ l, r.requests = some l ∧ C.sha256 (l.flatMap fun q => wordBytes (C.sha256 q)) = b.header.requestsHash) := by
  have hsize : (Rlp.encode (.ofBlock chain.state.fork b)).length ≤ 2 ^ 47 - 1 := by
    by_cases ho : chain.state.fork.since .osaka = true
    · have e : MAX_RLP_BLOCK_SIZE = 8388608 := by decide
      have : ¬ (Rlp.encode (.ofBlock chain.state.fork b)).length > MAX_RLP_BLOCK_SIZE := fun hx => by
        unfold stateTransition at h
        rw [if_pos ⟨ho, hx⟩] at h; cases h
      omega
    · have := hz (by simpa using ho); omega
  have hlen : b.transactions.length < 2 ^ 64 :=
    Nat.lt_of_le_of_lt (count_le (List.mem_append_left _ (List.mem_cons_of_mem _ List.mem_cons_self)) hsize) (by decide)
  obtain ⟨bs, b3, s2, rs, hb, htx, hfk, e1, e2, e3, elogs, q, g1, -, g2, -, -, -⟩ := body_contents h hlen fun hsh => Nat.lt_of_le_of_lt
    (count_le (List.mem_append_right _ (by rw [if_pos hsh]; exact List.mem_cons_self)) hsize) (by decide)
  obtain ⟨hv, -, -, -, bs', k, hb', hst, hk, -, -, -, -, -, -, -, hreq⟩ := stateTransition_ok h
  rw [hb] at hb'
  cases hb'
  obtain ⟨hn, hB', pre, hs, w1, w2, w3⟩ := tool_env hc hh hd hv
  rw [hB] at w3
  have eB := Option.some.inj (Except.ok.inj w3)
  subst eB
  have hcc := tool_calls hB' hc.idle hc.fits ho
  have hbody := (runBody_of_applyBody (r := reward) (om := d.ommers) hc.fork hn hB' hc.idle hc.fits hcc hb).1
  rw [runTest_window hn w1 w2, runTest_withdrawals hd.withdrawals] at hr
  unfold runBlockchainTest at hr
  rw [hbody] at hr
  dsimp only at hr
  refine ⟨rs, g1, g2, q.cumulative, ?_⟩
  have hgiven : Given chain.state.fork (readTxs chain.state.fork 0 b.transactions) := readTxs_given _ 0 (block_blobs hsize)
  have hfork : bs.state.fork = chain.state.fork := (runBody_reportable hc.fork hn hB' hc.idle hc.fits hgiven hbody).2.1
  have hkr : k.requestsHash = computeRequestsHash C bs.out.requests := by
    have hk := hk
    unfold commitments at hk
    rw [except_bind_ok] at hk
    obtain ⟨x0, -, hk⟩ := hk
    rw [except_bind_ok] at hk
    obtain ⟨x1, -, hk⟩ := hk
    rw [except_bind_ok] at hk
    obtain ⟨x2, -, hk⟩ := hk
    rw [except_bind_ok] at hk
    obtain ⟨x3, -, hk⟩ := hk
    cases hk
    rfl
  have hbz : chain.state.fork.since .byzantium = true := since_later hc.fork rfl
  have hrep := reported_receipts (C := C) (out := bs.out) rs 0 fun j p hp => by
    have h2 := (List.getElem?_eq_some_iff.mp hp).1
    rw [q.length] at h2
    obtain ⟨-, hok, -, h3, h4⟩ := q.each j _ p (List.getElem?_eq_getElem h2) hp
    obtain ⟨ok, hok⟩ := hok hbz
    obtain ⟨tx, rc, h5, h6⟩ := receipts_small hB' hbz _ hfk htx (by omega) j h2
    rw [e1, e2]
    rw [h3] at h5
    exact ⟨h3, h4, encoded_small (Option.some.inj h5) hok h6⟩
  have hkeys : bs.out.receiptKeys = (List.range rs.length).map fun j => indexKey (0 + j) := by rw [e3, q.keys, q.length]; rfl
  unfold update at hr
  rw [hk, hkeys] at hr
  dsimp only at hr
  rw [hrep] at hr
  have := (Prod.mk.inj (Except.ok.inj hr)).2
  rw [← this]
  have hlogs : bs.out.blockLogs = rs.flatMap fun p => p.2.logs := by rw [elogs, q.logs]; rfl
  refine ⟨List.map_congr_left fun p _ => Prod.ext ?_ rfl, ?_, ?_, rfl, fun hp => ?_, fun hp => ⟨bs.out.requests, ?_, ?_⟩⟩
  · cases p.1 <;> rfl
  · dsimp only; rw [hlogs]
  · dsimp only; rw [hfork, if_pos hc.fork]
  · dsimp only; rw [hfork, hp]; rfl
  · dsimp only; rw [hfork, if_pos hp]
  · rw [← hreq hp, hkr]; rfl

/-- The sample block meets the hypotheses: the tool reports one receipt, of the transaction of the block. -/
example : ∃ B s' r, ∃ rs : List (Transaction × Receipt), blockEnvironment sampleCrypto .osaka 1 sampleInput = .ok (some B) ∧
    runBlockchainTest sampleCrypto B none sampleInput.ommers sampleInput.withdrawals sampleState (readTxs .osaka 0 sampleBlock.transactions) = .ok (s', r) ∧
    rs.length = 1 ∧ r.receipts = rs.map fun p => (sampleCrypto.keccak256 (wireBytes p.1), p.2) := by
  have h := sample_runs
  match hs : stateTransition sampleCrypto sampleChain sampleBlock with
  | .error e => rw [hs] at h; cases h
  | .ok c =>
    have hf : HeaderFits sampleChain.state.fork sampleBlock.header := ⟨by decide, by decide, by decide, by decide +kernel⟩
    obtain ⟨B, r, h1, -, h2, -⟩ := C80_import sample_chainFits hf (fun h => by cases h) sample_describes (fun _ => sample_commute _) hs
    obtain ⟨rs, g1, -, -, g2, -⟩ := C80_receipts sample_chainFits hf (fun h => by cases h) sample_describes (fun _ => sample_commute _) hs h1 (h2 none)
    refine ⟨B, c.state, r, rs, h1, h2 none, ?_, g2⟩
    have := congrArg List.length g1
    rw [List.length_map, List.length_map] at this
    exact this.symm

end Verif.Props
