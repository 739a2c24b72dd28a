import Verif.Lemmas.T8nBody
/-! Lemmas: a run of the transition tool against the body of a block. -/
namespace Verif.T8n
open Verif Spec Verif.Props Verif.Pow Ethash

variable {C : Crypto} {B : BlockEnv} {pre hs : List Word}

theorem runTxs_window (hB : B.blockHashes = pre ++ hs) (hl : min 256 B.number ≤ hs.length) :
    ∀ txs p, runTxs C (B.withHashes hs) p txs = runTxs C B p txs := by
  intro txs
  induction txs with
  | nil => intro p; rfl
  | cons x r ih =>
    obtain ⟨i, tx⟩ := x
    intro p
    simp only [runTxs, transaction_window hB hl, ih]

theorem runBody_window (hn : 1 ≤ B.number) (hB : B.blockHashes = pre ++ hs) (hl : min 256 B.number ≤ hs.length)
    (r : Option Int) (om : List Ommer) (ws : List Withdrawal) (s : State) (txs : List (Nat × Transaction)) :
    runBody C (B.withHashes hs) r om ws s txs = runBody C B r om ws s txs := by
  unfold runBody
  simp only [beacon_window hB hl, parentHash_window hn hB hl, runTxs_window hB hl, requests_window hB hl]
  rfl

theorem runTest_window (hn : 1 ≤ B.number) (hB : B.blockHashes = pre ++ hs) (hl : min 256 B.number ≤ hs.length)
    (r : Option Int) (om : List Ommer) (ws : List Withdrawal) (s : State) (txs : List (Nat × Transaction)) :
    runBlockchainTest C (B.withHashes hs) r om ws s txs = runBlockchainTest C B r om ws s txs := by
  unfold runBlockchainTest
  rw [runBody_window hn hB hl]
  rfl

theorem raised_ok {out : BlockOutput} {x : Except (BlockExn × State) State} {s : State} : raised out x = .ok s ↔ x = .ok s := by
  unfold raised
  match x with
  | .ok s => exact ⟨fun h => by cases h; rfl, fun h => by cases h; rfl⟩
  | .error (e, s) => exact ⟨fun h => (by cases h), fun h => (by cases h)⟩

theorem raisedAt_ok {rej : List (Nat × BlockExn)} {x : Except (BlockExn × BlockState) BlockState} {b : BlockState} :
    raisedAt rej x = .ok b ↔ x = .ok b := by
  unfold raisedAt
  match x with
  | .ok s => exact ⟨fun h => by cases h; rfl, fun h => by cases h; rfl⟩
  | .error (e, s) => exact ⟨fun h => (by cases h), fun h => (by cases h)⟩

/-- The steps of a run that raises nothing. -/
structure BodySteps (C : Crypto) (B : BlockEnv) (r : Option Int) (om : List Ommer) (ws : List Withdrawal) (s : State) (txs : List (Nat × Transaction))
    (q : Progress) (s1 s2 : State) (p : Progress) (s3 : State) (b4 : BlockState) : Prop where
  history : storeParentHash C B s = .ok s1
  roots : storeBeaconRoot C B s1 = .ok s2
  transactions : runTxs C B ⟨⟨s2, BlockOutput.empty⟩, []⟩ txs = .ok p
  reward : payReward r p.b.state B.coinbase om = .ok s3
  withdrawals : (if s.fork.since .shanghai then processWithdrawals { p.b with state := s3 } ws else .ok { p.b with state := s3 }) = .ok b4
  requests : (if s.fork.since .prague then processGeneralPurposeRequests C B b4 else .ok b4) = .ok q.b
  rejected : q.rejected = p.rejected

theorem runBody_ok {r : Option Int} {om : List Ommer} {ws : List Withdrawal} {s : State} {txs : List (Nat × Transaction)} {q : Progress} :
    runBody C B r om ws s txs = .ok q ↔ ∃ s1 s2 p s3 b4, BodySteps C B r om ws s txs q s1 s2 p s3 b4 := by
  constructor
  · intro h
    unfold runBody at h
    match h1 : raised BlockOutput.empty (storeParentHash C B s) with
    | .error e => rw [h1] at h; cases h
    | .ok s1 =>
      rw [h1] at h
      dsimp only at h
      match h2 : raised BlockOutput.empty (storeBeaconRoot C B s1) with
      | .error e => rw [h2] at h; cases h
      | .ok s2 =>
        rw [h2] at h
        dsimp only at h
        match h3 : runTxs C B ⟨⟨s2, BlockOutput.empty⟩, []⟩ txs with
        | .error e => rw [h3] at h; cases h
        | .ok p =>
          rw [h3] at h
          dsimp only at h
          match h4 : payReward r p.b.state B.coinbase om with
          | .error (e, s3) => rw [h4] at h; cases h
          | .ok s3 =>
            rw [h4] at h
            dsimp only at h
            match h5 : raisedAt p.rejected (if s.fork.since .shanghai = true then processWithdrawals { p.b with state := s3 } ws else .ok { p.b with state := s3 }) with
            | .error e => rw [h5] at h; cases h
            | .ok b4 =>
              rw [h5] at h
              dsimp only at h
              match h6 : raisedAt p.rejected (if s.fork.since .prague = true then processGeneralPurposeRequests C B b4 else .ok b4) with
              | .error e => rw [h6] at h; cases h
              | .ok b5 =>
                rw [h6] at h
                cases h
                exact ⟨s1, s2, p, s3, b4, raised_ok.mp h1, raised_ok.mp h2, h3, h4, raisedAt_ok.mp h5, raisedAt_ok.mp h6, rfl⟩
  · rintro ⟨s1, s2, p, s3, b4, h⟩
    unfold runBody
    rw [raised_ok.mpr h.history]
    dsimp only
    rw [raised_ok.mpr h.roots]
    dsimp only
    rw [h.transactions]
    dsimp only
    rw [h.reward]
    dsimp only
    rw [raisedAt_ok.mpr h.withdrawals]
    dsimp only
    rw [raisedAt_ok.mpr h.requests]
    dsimp only
    rw [← h.rejected]

/-- What is known at the start of the transactions. -/
theorem start_states {s s1 s2 : State} (hn : 1 ≤ B.number) (hB : BlockFits s.fork B) (hs : Idle s) (hS : StateFits s)
    (h1 : storeParentHash C B s = .ok s1) (h2 : storeBeaconRoot C B s1 = .ok s2) : Started s s2 := by
  have a1 := parentHash_total (C := C) hn hB hs hS
  rw [h1] at a1
  have a2 := beacon_total (C := C) (by rw [a1.fork]; exact hB) a1.idle a1.fits
  rw [h2] at a2
  exact ⟨a2.idle, a2.fits, Nat.le_trans a2.supply a1.supply, a2.fork.trans a1.fork⟩

theorem beacon_fork {s s1 : State} (hB : BlockFits s.fork B) (hs : Idle s) (hS : StateFits s) (h : storeBeaconRoot C B s = .ok s1) : s1.fork = s.fork := by
  have a1 := beacon_total (C := C) hB hs hS
  rw [h] at a1
  exact a1.fork

/-- A block that can be run is run by the tool in the same way. -/
theorem runBody_of_applyBody {s : State} {txs : List (LegacyTx ⊕ Bytes)} {ws : List Withdrawal} {b' : BlockState} {r : Option Int} {om : List Ommer}
    (hf : s.fork.since .paris = true) (hn : 1 ≤ B.number) (hB : BlockFits s.fork B) (hs : Idle s) (hS : StateFits s)
    (hc : CallsCommute C B s) (h : applyBody C B s txs ws = .ok b') :
    runBody C B r om ws s (readTxs s.fork 0 txs) = .ok ⟨b', []⟩ ∧ unreadTxs s.fork 0 txs = [] := by
  obtain ⟨s1, s2, b3, b4, g⟩ := applyBody_ok h
  obtain ⟨t1, k1, k2⟩ := (hc s2).mp ⟨s1, g.roots, g.history⟩
  have hst := start_states hn hB hs hS k1 k2
  obtain ⟨m1, m2⟩ := runTxs_of_block txs ⟨s2, BlockOutput.empty⟩ b3 0 hst.fork g.transactions []
  have hf3 : b3.state.fork = s.fork := by
    have : ∀ (txs : List (LegacyTx ⊕ Bytes)) (b b' : BlockState) (i : Nat), processTransactions C B b i txs = .ok b' → b'.state.fork = b.state.fork := by
      intro txs
      induction txs with
      | nil => intro b b' i h; cases h; rfl
      | cons t l ih =>
        intro b b' i h
        rw [processTransactions] at h
        split at h
        · cases h
        · split at h
          · cases h
          · rename_i b1 hb1
            obtain ⟨_, _, _, _, _, _, hr⟩ := processTransaction_ok.mp hb1
            exact (ih _ _ _ h).trans (ran_fork hr)
    exact (this _ _ _ _ g.transactions).trans hst.fork
  exact ⟨runBody_ok.mpr ⟨t1, s2, ⟨b3, []⟩, b3.state, b4, k1, k2, m1, payReward_paris (by rw [hf3]; exact hf), g.withdrawals, g.requests, rfl⟩, m2⟩

/-- What the tool runs without rejections is the body of a block. -/
theorem applyBody_of_runBody {s : State} {txs : List (LegacyTx ⊕ Bytes)} {ws : List Withdrawal} {q : Progress} {r : Option Int} {om : List Ommer}
    (hf : s.fork.since .paris = true) (hn : 1 ≤ B.number) (hB : BlockFits s.fork B) (hs : Idle s) (hS : StateFits s)
    (hc : CallsCommute C B s) (hg : ∀ t ∈ txs, ∀ tx, decodeTransaction s.fork t = .ok tx → blobGas tx < 2 ^ 64)
    (h : runBody C B r om ws s (readTxs s.fork 0 txs) = .ok q) (hu : unreadTxs s.fork 0 txs = []) (hr : q.rejected = []) :
    applyBody C B s txs ws = .ok q.b := by
  obtain ⟨s1, s2, p, s3, b4, g⟩ := runBody_ok.mp h
  obtain ⟨t1, k1, k2⟩ := (hc s2).mpr ⟨s1, g.history, g.roots⟩
  have hst := start_states hn hB hs hS g.history g.roots
  have htot := runTxs_total (C := C) hB (readTxs s.fork 0 txs) ⟨⟨s2, BlockOutput.empty⟩, []⟩ hst.fork (empty_inv hst.idle.quiet hst.fits) (readTxs_given txs 0 hg)
  rw [g.transactions] at htot
  obtain ⟨i1, i2, i3, i4, i5⟩ := htot
  have hrew := g.reward
  rw [payReward_paris (by rw [i2]; exact hf)] at hrew
  cases hrew
  have hp := block_of_runTxs txs ⟨s2, BlockOutput.empty⟩ p 0 [] hst.fork hu g.transactions (g.rejected ▸ hr)
  have h4 : (if s.fork.since .shanghai = true then processWithdrawals p.b ws else .ok p.b) = .ok b4 := g.withdrawals
  unfold applyBody
  dsimp only
  rw [k1]
  dsimp only
  rw [k2]
  dsimp only
  rw [hp]
  dsimp only
  rw [h4]
  exact g.requests

/-- After a run that raises nothing the receipts can be reported. -/
theorem runBody_reportable {s : State} {txs : List (Nat × Transaction)} {ws : List Withdrawal} {q : Progress} {r : Option Int} {om : List Ommer}
    (hf : s.fork.since .paris = true) (hn : 1 ≤ B.number) (hB : BlockFits s.fork B) (hs : Idle s) (hS : StateFits s) (hg : Given s.fork txs)
    (h : runBody C B r om ws s txs = .ok q) : Reportable q.b ∧ q.b.state.fork = s.fork ∧ q.b.out.transactionsTrie = allTransactions txs := by
  obtain ⟨s1, s2, p, s3, b4, g⟩ := runBody_ok.mp h
  have hst := start_states hn hB hs hS g.history g.roots
  have htot := runTxs_total (C := C) hB txs ⟨⟨s2, BlockOutput.empty⟩, []⟩ hst.fork (empty_inv hst.idle.quiet hst.fits) hg
  rw [g.transactions] at htot
  obtain ⟨i1, i2, i3, i4, i5⟩ := htot
  have hrew := g.reward
  rw [payReward_paris (by rw [i2]; exact hf)] at hrew
  cases hrew
  have h4 : (if s.fork.since .shanghai = true then processWithdrawals p.b ws else .ok p.b) = .ok b4 := g.withdrawals
  have idle : Idle p.b.state := i1.inv.quiet.idle (by rw [i2]; exact hs.fork)
  have r3 : Reportable p.b := ⟨i1.readable, i1.paired⟩
  have t3 : p.b.out.transactionsTrie = allTransactions txs := i5
  have r4 : Reportable b4 ∧ b4.state.fork = s.fork ∧ Idle b4.state ∧ b4.out.transactionsTrie = p.b.out.transactionsTrie := by
    by_cases sh : s.fork.since .shanghai = true
    · rw [if_pos sh] at h4
      have sh' : p.b.state.fork.since .shanghai = true := by rw [i2]; exact sh
      have e := (C40_credit sh' h4).2
      have e1 : b4.out.transactionsTrie = p.b.out.transactionsTrie := (congrArg BlockOutput.transactionsTrie e : _)
      exact ⟨r3.of_eq e1 (congrArg BlockOutput.receiptsTrie e : _) (congrArg BlockOutput.receiptKeys e : _),
        (withdrawals_fork ws (shanghai_paris sh') h4).trans i2, withdrawals_idle sh' h4 idle, e1⟩
    · rw [if_neg sh] at h4
      cases h4
      exact ⟨r3, i2, idle, rfl⟩
  have h5 := g.requests
  by_cases hpr : s.fork.since .prague = true
  · rw [if_pos hpr] at h5
    obtain ⟨k5, e5⟩ := requests_ok r4.2.2.1 h5
    have e1 : q.b.out.transactionsTrie = b4.out.transactionsTrie := (congrArg BlockOutput.transactionsTrie e5 : _)
    exact ⟨r4.1.of_eq e1 (congrArg BlockOutput.receiptsTrie e5 : _) (congrArg BlockOutput.receiptKeys e5 : _), k5.fork.trans r4.2.1,
      e1.trans (r4.2.2.2.trans t3)⟩
  · rw [if_neg hpr] at h5
    cases h5
    exact ⟨r4.1, r4.2.1, r4.2.2.2.trans t3⟩

end Verif.T8n
