import Verif.Props.C80
/-! Property C80, continued: the option for the reward, and state tests. -/
namespace Verif.Props
open Verif Verif.Spec Verif.Pow Ethash T8n

/-- **C80**, the option `--state.reward`, before paris and without ommers. If the tool yields a state without rewards (-1), then with a reward of `n`, which may be 0, it yields
that state with `n` more in the account of the coinbase, and the same gas, receipts and rejected transactions; unless the balance would reach 2^256. -/
theorem C80_reward {C : Crypto} {B : BlockEnv} {ws : List Withdrawal} {s s' : State} {txs : List (Nat × Transaction)} {r : Result} (hn : 1 ≤ B.number)
    (hB : BlockFits s.fork B) (hs : Quiet s) (hS : StateFits s) (hi : Inputs s.fork txs) (hf : s.fork.since .paris = false)
    (h : runBlockchainTest C B (some (-1)) [] ws s txs = .ok (s', r)) (n : Word) (hroom : (getAccount s' B.coinbase).balance.toNat + n.toNat < 2 ^ 256) :
    ∃ s2 r2, runBlockchainTest C B (some n.toNat) [] ws s txs = .ok (s2, r2) ∧
      (∀ a, getAccountOptional s2 a = if B.coinbase = a then some { getAccount s' a with balance := (getAccount s' a).balance + n } else getAccountOptional s' a) ∧
      (∀ a k, getStorage s2 a k = getStorage s' a k) ∧
      r2.gasUsed = r.gasUsed ∧ r2.txRoot = r.txRoot ∧ r2.receiptRoot = r.receiptRoot ∧ r2.bloom = r.bloom ∧ r2.rejected = r.rejected := by
  obtain ⟨q, x, s1, s2, p, s3, he, rfl, hu⟩ := ended_of_run hn hB hs hS (Inputs.given hi) h
  have htot := runTxs_total (C := C) hB txs ⟨⟨s2, BlockOutput.empty⟩, []⟩ he.begun.fork (empty_inv he.begun.quiet he.begun.fits) (Inputs.given hi)
  rw [he.transactions] at htot
  obtain ⟨hinv, hfork, -⟩ := htot
  have hsh : s.fork.since .shanghai = false := by revert hf; cases s.fork <;> decide
  have hpr : s.fork.since .prague = false := by revert hf; cases s.fork <;> decide
  obtain ⟨F, hF⟩ : ∃ F, powFork p.b.state.fork = some F := by
    rw [hfork]
    revert hf; cases s.fork <;> first | exact fun _ => ⟨_, rfl⟩ | (intro h; cases h)
  have hfin : ∀ b, finishBody C B s.fork ws b = .ok b := by
    intro b
    unfold finishBody
    rw [if_neg (by rw [hsh]; decide)]
    dsimp only
    rw [if_neg (by rw [hpr]; decide)]
  have h3 : s3 = p.b.state := by
    have := he.reward
    unfold payReward at this
    rw [hF] at this
    dsimp only at this
    rw [if_pos rfl] at this
    cases this; rfl
  have hq := he.finish
  rw [hfin, h3] at hq
  have hx : x = false := by
    cases x with
    | false => rfl
    | true => rw [if_pos rfl] at hq; cases hq
  subst hx
  rw [if_neg (by decide)] at hq
  have hqb : q.b = p.b := (Except.ok.inj hq).symm
  rw [hqb] at hroom ⊢
  have hpay : payReward (some n.toNat) p.b.state B.coinbase [] =
      .ok (setAccount p.b.state B.coinbase (some { getAccount p.b.state B.coinbase with balance := (getAccount p.b.state B.coinbase).balance + n })) := by
    unfold payReward
    rw [hF]
    dsimp only
    have hlt := n.isLt
    rw [if_neg (by omega), if_neg (by omega)]
    unfold payBlockRewards
    rw [show BitVec.ofInt 256 (n.toNat : Int) = n by rw [BitVec.ofInt_natCast, BitVec.ofNat_toNat, BitVec.setWidth_eq]]
    have hU : toU256 (n.toNat + ([] : List Ommer).length * (n.toNat / 32)) = .ok n := by
      unfold toU256
      simp [hlt]
    rw [hU]
    dsimp only
    rw [Dao.createEther_run hroom]
  obtain ⟨k, hk, u1, u2, u3, u4, -, -, -, u8, -⟩ := update_inv hu
  rw [hqb] at hk u1
  generalize hs' : setAccount p.b.state B.coinbase (some { getAccount p.b.state B.coinbase with
    balance := (getAccount p.b.state B.coinbase).balance + n }) = sp at hpay
  have hwf : sp.WF := by rw [← hs']; exact hinv.inv.quiet.wf.setAccount _ _
  have hsn : sp.snapshots = [] := by rw [← hs']; exact hinv.inv.quiet.snapshots
  obtain ⟨root, hroot⟩ := stateRoot_total_wf C sp hwf hsn
  have hk' : commitments C { p.b with state := sp } = .ok { k with stateRoot := root } := by
    unfold commitments at hk ⊢
    rw [hroot]
    obtain ⟨r0, e0⟩ := stateRoot_total_wf C p.b.state hinv.inv.quiet.wf hinv.inv.quiet.snapshots
    obtain ⟨r1, e1⟩ := indexRoot_total C encodeTxNode _ hinv.inv.stored.transactions
    obtain ⟨r2, e2⟩ := indexRoot_total C encodeReceiptNode _ hinv.inv.stored.receipts
    obtain ⟨r3, e3⟩ := indexRoot_total C id _ hinv.inv.stored.withdrawals
    rw [e0, e1, e2, e3] at hk
    dsimp only
    rw [e1, e2, e3]
    cases hk
    rfl
  obtain ⟨r2, hr2, v1, v2, v3, v4, -, -, -, -, -, v10, -⟩ := update_ok (C := C) (B := B) (p := ⟨{ p.b with state := sp }, p.rejected⟩) (x := false) hk'
    ⟨hinv.readable, hinv.paired⟩
  have hend : Ended C B (some n.toNat) [] ws s txs ⟨{ p.b with state := sp }, p.rejected⟩ false s1 s2 p sp :=
    ⟨he.history, he.roots, he.begun, he.transactions, hpay, hfin _, rfl⟩
  refine ⟨sp, r2, run_of_ended hend hr2, fun a => ?_, fun a k => ?_, v1.trans u1.symm, v2.trans u2.symm, v3.trans u3.symm, v4.trans u4.symm, ?_⟩
  · rw [← hs', getAccountOptional_setAccount]
    by_cases ha : B.coinbase = a
    · subst ha; rfl
    · rw [if_neg ha, if_neg ha]
  · rw [← hs']; rfl
  · rw [v10, u8, he.rejected]

theorem commitments_state {C : Crypto} {b : BlockState} {k : Commitments} (hk : commitments C b = .ok k) : stateRoot C b.state = .ok k.stateRoot := by
  unfold commitments at hk
  match e : stateRoot C b.state with
  | .error c => rw [e] at hk; cases hk
  | .ok v =>
    rw [e] at hk
    match e1 : indexTrieRoot C encodeTxNode b.out.transactionsTrie, e2 : indexTrieRoot C encodeReceiptNode b.out.receiptsTrie,
      e3 : indexTrieRoot C id b.out.withdrawalsTrie with
    | .error c, _, _ => rw [e1] at hk; cases hk
    | .ok _, .error c, _ => rw [e1, e2] at hk; cases hk
    | .ok _, .ok _, .error c => rw [e1, e2, e3] at hk; cases hk
    | .ok _, .ok _, .ok _ => rw [e1, e2, e3] at hk; cases hk; rfl

/-- **C80**, state tests: the tool runs the first transaction as the first of a block, and nothing else. It is reported as rejected, with the state as it was, exactly if it cannot be
included; otherwise the state is the one that `process_transaction` leaves, and its gas is reported. -/
theorem C80_state_test {C : Crypto} {B : BlockEnv} {s s' : State} {i : Nat} {tx : Transaction} {rest : List (Nat × Transaction)} {r : Result}
    (hB : BlockFits s.fork B) (hs : Quiet s) (hS : StateFits s) (hb : 131072 * tx.blobHashes.length < 2 ^ 64)
    (h : runStateTest C B s ((i, tx) :: rest) = .ok (s', r)) :
    (r.rejected = [] ∧ ∃ b, processTransaction C B ⟨s, BlockOutput.empty⟩ tx 0 = .ok b ∧ s' = b.state ∧ r.gasUsed = b.out.blockGasUsed ∧
      stateRoot C b.state = .ok r.stateRoot) ∨
    (r.rejected = [0] ∧ s' = s ∧ r.gasUsed = 0 ∧ stateRoot C s = .ok r.stateRoot ∧ ∀ sender, ¬ Includable C B s 0 0 tx sender) := by
  have hi : ToolInv B ⟨s, BlockOutput.empty⟩ := empty_inv hs hS
  have hroot := @commitments_state C
  unfold runStateTest at h
  dsimp only at h
  rcases runTxs_cons (C := C) (p := ⟨⟨s, BlockOutput.empty⟩, []⟩) (i := 0) (tx := tx) [] hB hi hb with ⟨b, h1, h2⟩ | ⟨e, -, h1, h2⟩ | ⟨e, b, -, h2⟩
  · rw [h2] at h
    rw [show runTxs C B ⟨b, []⟩ [] = .ok ⟨b, []⟩ from rfl] at h
    dsimp only at h
    split at h
    · cases h
    · rename_i r' hu
      cases h
      obtain ⟨k, hk, u1, -, -, -, u5, -, -, u8, -⟩ := update_inv hu
      exact .inl ⟨u8, b, h1, rfl, u1, by rw [u5]; exact hroot hk⟩
  · rw [h2] at h
    rw [show runTxs C B ⟨⟨s, recorded BlockOutput.empty tx 0⟩, [] ++ [(0, e)]⟩ [] = .ok ⟨⟨s, recorded BlockOutput.empty tx 0⟩, [(0, e)]⟩ from rfl] at h
    dsimp only at h
    split at h
    · cases h
    · rename_i r' hu
      cases h
      obtain ⟨k, hk, u1, -, -, -, u5, -, -, u8, -⟩ := update_inv hu
      exact .inr ⟨u8, rfl, u1, by rw [u5]; exact hroot hk, h1⟩
  · rw [h2] at h
    cases h

/-- The result can be written. -/
private theorem update_total {C : Crypto} {B : BlockEnv} {p : T8n.Progress} (x : Bool) (hi : ToolInv B p.b) : ∃ r, update C B p x = .ok r := by
  obtain ⟨r1, h1⟩ := stateRoot_total_wf C p.b.state hi.inv.quiet.wf hi.inv.quiet.snapshots
  obtain ⟨r2, h2⟩ := indexRoot_total C _ _ hi.inv.stored.transactions
  obtain ⟨r3, h3⟩ := indexRoot_total C _ _ hi.inv.stored.receipts
  obtain ⟨r4, h4⟩ := indexRoot_total C _ _ hi.inv.stored.withdrawals
  have hc : ∃ k, commitments C p.b = .ok k := by unfold commitments; rw [h1, h2, h3, h4]; exact ⟨_, rfl⟩
  obtain ⟨k, hk⟩ := hc
  obtain ⟨r, hr, -⟩ := update_ok (B := B) (x := x) hk ⟨hi.readable, hi.paired⟩
  exact ⟨r, hr⟩

/-- **C80**, state tests: the tool always finishes with a result, unless the precompile MODEXP overflows in the transaction (from byzantium to prague, C65). -/
theorem C80_state_total {C : Crypto} {B : BlockEnv} {s : State} {i : Nat} {tx : Transaction} {rest : List (Nat × Transaction)}
    (hB : BlockFits s.fork B) (hs : Quiet s) (hS : StateFits s) (hk : (∃ t, tx = .legacy t) ∨ s.fork.since .byzantium = true)
    (hb : 131072 * tx.blobHashes.length < 2 ^ 64) :
    (∃ s' r, runStateTest C B s ((i, tx) :: rest) = .ok (s', r)) ∨
    (∃ e b, OldModexp s.fork ∧ e = .exn (.crash .overflowError) ∧ processTransaction C B ⟨s, BlockOutput.empty⟩ tx 0 = .error (e, b) ∧
      runStateTest C B s ((i, tx) :: rest) = .error (.fork e)) := by
  have a := runTxs_total (C := C) hB [(0, tx)] ⟨⟨s, BlockOutput.empty⟩, []⟩ rfl (empty_inv hs hS)
    (fun x hx => by cases List.mem_singleton.mp hx; exact ⟨hk, hb⟩)
  unfold runStateTest
  dsimp only
  match h : runTxs C B ⟨⟨s, BlockOutput.empty⟩, []⟩ [(0, tx)] with
  | .error (e, p) =>
    rw [h] at a
    obtain ⟨x, rfl, hx⟩ := a
    unfold runTxs at h
    dsimp only at h
    match hp : processTransaction C B ⟨s, BlockOutput.empty⟩ tx 0 with
    | .ok b => rw [hp] at h; cases h
    | .error (y, b) =>
      rw [hp] at h
      dsimp only at h
      split at h
      · cases h
      · cases h
        exact .inr ⟨_, _, hx.1, hx.2, rfl, rfl⟩
  | .ok p =>
    rw [h] at a
    obtain ⟨r, hr⟩ := update_total (C := C) false a.1
    exact .inl ⟨p.b.state, r, by dsimp only; rw [hr]⟩

/-- **C80**, state tests without a transaction: the tool reports the state as it is. -/
theorem C80_state_none {C : Crypto} {B : BlockEnv} {s : State} (hs : Quiet s) (hS : StateFits s) :
    ∃ r, runStateTest C B s [] = .ok (s, r) ∧ stateRoot C s = .ok r.stateRoot ∧ r.gasUsed = 0 := by
  obtain ⟨r, hr⟩ := update_total (C := C) (p := ⟨⟨s, BlockOutput.empty⟩, []⟩) false (empty_inv (B := B) hs hS)
  obtain ⟨k, hk, u1, -, -, -, u5, -⟩ := update_inv hr
  refine ⟨r, ?_, by rw [u5]; exact commitments_state hk, u1⟩
  unfold runStateTest
  dsimp only
  rw [hr]

/-- The sample transaction meets the limits, and its fork has no MODEXP that overflows, so that there is a result. -/
example : ∃ s' r, runStateTest sampleCrypto sampleBlockEnv sampleState [(4, .legacy sampleTx)] = .ok (s', r) := by
  rcases C80_state_total (C := sampleCrypto) (B := sampleBlockEnv) (s := sampleState) (i := 4) (tx := .legacy sampleTx) (rest := [])
    ⟨by decide, by decide, by decide, by decide +kernel, by decide +kernel, by decide⟩ sample_idle.quiet sample_stateFits (.inl ⟨_, rfl⟩) (by decide) with h | ⟨-, -, h, -⟩
  · exact h
  · exact absurd h.2 (by decide)

/-- A state test of the sample transaction: it is run, and what it wrote is there. -/
example : (match runStateTest sampleCrypto sampleBlockEnv sampleState [(4, .legacy sampleTx)] with
    | .ok (s, r) => r.rejected == [] && getStorage s 88 1 == 7
    | .error _ => false) = true := by decide +kernel

def rewardRun (n : Int) : Option (Word × Word) :=
  match runBlockchainTest sampleCrypto sampleBlockEnv (some n) [] [] powEvmState [(0, .legacy sampleTx)] with
  | .ok (s, _) => some (getStorage s 88 1, (getAccount s sampleBlockEnv.coinbase).balance)
  | .error _ => none

/-- The sample transaction on a frontier state without a reward, with a reward of 0 and with one of 3. -/
example : (rewardRun (-1)).isSome = true ∧ rewardRun 0 = rewardRun (-1) ∧ (rewardRun 3 = (rewardRun (-1)).map fun x => (x.1, x.2 + 3)) ∧
    (rewardRun (-1)).map Prod.fst = some 7 ∧ powEvmState.fork.since .paris = false := by
  refine ⟨?_, ?_, ?_, ?_, ?_⟩ <;> decide +kernel

end Verif.Props
