import Verif.Props.C80_tool
/-! Property C80, continued: the transition tool finishes. -/
namespace Verif.Props
open Verif Verif.Spec Verif.Pow Ethash T8n

/-- A system call that makes a block invalid leaves a state at rest. -/
private theorem checked_err {C : Crypto} {B : BlockEnv} {s s' : State} {target : Address} (hB : BlockFits s.fork B) (hs : Idle s) (hS : StateFits s)
    (h : processCheckedSystemTransaction C B s target [] = .error (.invalidBlock, s')) : Idle s' := by
  unfold processCheckedSystemTransaction at h
  dsimp only at h
  by_cases hc : (getAccount s target).code.length = 0
  · rw [if_pos hc] at h; cases h; exact hs
  · rw [if_neg hc] at h
    rcases system_total (C := C) hB hs hS target [] (by decide) with ⟨-, s1, h1⟩ | ⟨o, s1, h1, h2, -⟩
    · rw [h1] at h; cases h
    · rw [h1] at h
      dsimp only at h
      split at h
      · cases h; exact h2.idle
      · cases h

/-- So do requests, and only the requests of the output are touched. -/
private theorem requests_err {C : Crypto} {B : BlockEnv} {b b' : BlockState} (hB : BlockFits b.state.fork B) (hs : Idle b.state) (hS : StateFits b.state)
    (h : processGeneralPurposeRequests C B b = .error (.invalidBlock, b')) : Idle b'.state ∧ { b'.out with requests := b.out.requests } = b.out := by
  have happ : ∀ (out : BlockOutput) t d rs, { appendRequest out t d with requests := rs } = { out with requests := rs } := by
    intro out t d rs; unfold appendRequest; split <;> rfl
  unfold processGeneralPurposeRequests at h
  match hp : parseDepositRequests b.out with
  | .error e => rw [hp] at h; cases h; exact ⟨hs, rfl⟩
  | .ok deposits =>
    rw [hp] at h
    dsimp only at h
    have h1 := checked_total (C := C) hB hs hS WITHDRAWAL_REQUEST_PREDEPLOY_ADDRESS
    match hq : processCheckedSystemTransaction C B b.state WITHDRAWAL_REQUEST_PREDEPLOY_ADDRESS [] with
    | .error (e, s) =>
      rw [hq] at h
      cases h
      exact ⟨checked_err hB hs hS hq, happ _ _ _ _⟩
    | .ok (o1, s1) =>
      rw [hq] at h h1
      dsimp only at h h1
      match hq2 : processCheckedSystemTransaction C B s1 CONSOLIDATION_REQUEST_PREDEPLOY_ADDRESS [] with
      | .error (e, s) =>
        rw [hq2] at h
        cases h
        refine ⟨checked_err (by rw [h1.1.fork]; exact hB) h1.1.idle h1.2 hq2, ?_⟩
        rw [happ, happ]
      | .ok (o2, s2) => rw [hq2] at h; cases h

private theorem update_of {C : Crypto} {B : BlockEnv} {b : BlockState} (x : Bool) (rej : List (Nat × BlockExn)) (hw : b.state.WF) (hn : b.state.snapshots = [])
    (hs : AllStored b.out) (hr : Reportable b) : ∃ r, update C B ⟨b, rej⟩ x = .ok r := by
  obtain ⟨r1, h1⟩ := stateRoot_total_wf C b.state hw hn
  obtain ⟨r2, h2⟩ := indexRoot_total C _ _ hs.transactions
  obtain ⟨r3, h3⟩ := indexRoot_total C _ _ hs.receipts
  obtain ⟨r4, h4⟩ := indexRoot_total C _ _ hs.withdrawals
  have hc : ∃ k, commitments C b = .ok k := by unfold commitments; rw [h1, h2, h3, h4]; exact ⟨_, rfl⟩
  obtain ⟨k, hk⟩ := hc
  obtain ⟨r, hr, -⟩ := update_ok (B := B) (p := ⟨b, rej⟩) (x := x) hk hr
  exact ⟨r, hr⟩

/-- The end of a block, after the transactions. -/
private theorem finish_total {C : Crypto} {B : BlockEnv} {b : BlockState} {ws : List Withdrawal} (hB : BlockFits b.state.fork B) (hp : b.state.fork.since .paris = true)
    (hb : ToolInv B b) (hsup : supply b.state + withdrawn b.state.fork ws < supplyLimit b.state.fork) (rej : List (Nat × BlockExn)) :
    (∃ b' x r, finishBody C B b.state.fork ws b = (if x then .error (.invalidBlock, b') else .ok b') ∧ update C B ⟨b', rej⟩ x = .ok r) ∨
    ∃ e b', Tolerated b.state.fork e ∧ finishBody C B b.state.fork ws b = .error (e, b') := by
  have hidle := hb.inv.quiet.idle (since_later hp rfl)
  obtain ⟨b4, h4, c4⟩ := credit_total (ws := ws) (⟨hidle, hb.inv.fits, hb.inv.within, hb.readable, hb.inv.stored⟩ : BodyInv B b) hsup
  have hpair : Paired b4.out := by
    by_cases sh : b.state.fork.since .shanghai = true
    · rw [if_pos sh] at h4
      have e := (C40_credit sh h4).2
      have e1 : b4.out.transactionsTrie = b.out.transactionsTrie := (congrArg BlockOutput.transactionsTrie e : _)
      have e3 : b4.out.receiptKeys = b.out.receiptKeys := (congrArg BlockOutput.receiptKeys e : _)
      unfold Paired
      rw [e1, e3]; exact hb.paired
    · rw [if_neg sh] at h4; cases h4; exact hb.paired
  have hrep : Reportable b4 := ⟨c4.readable, hpair⟩
  unfold finishBody
  rw [h4]
  dsimp only
  by_cases hpr : b.state.fork.since .prague = true
  · rw [if_pos hpr]
    have h5 := requests_total (C := C) (by rw [c4.fork]; exact hB) c4.idle c4.fits c4.readable
    have same : ∀ {b5 : BlockState}, { b5.out with requests := b4.out.requests } = b4.out → AllStored b5.out ∧ Reportable b5 := by
      intro b5 e5
      have e1 : b5.out.transactionsTrie = b4.out.transactionsTrie := (congrArg BlockOutput.transactionsTrie e5 : _)
      have e2 : b5.out.receiptsTrie = b4.out.receiptsTrie := (congrArg BlockOutput.receiptsTrie e5 : _)
      have e3 : b5.out.withdrawalsTrie = b4.out.withdrawalsTrie := (congrArg BlockOutput.withdrawalsTrie e5 : _)
      have e4 : b5.out.receiptKeys = b4.out.receiptKeys := (congrArg BlockOutput.receiptKeys e5 : _)
      exact ⟨⟨by rw [e1]; exact c4.stored.transactions, by rw [e2]; exact c4.stored.receipts, by rw [e3]; exact c4.stored.withdrawals⟩, hrep.of_eq e1 e2 e4⟩
    match hq : processGeneralPurposeRequests C B b4 with
    | .ok b5 =>
      obtain ⟨k5, e5⟩ := requests_ok c4.idle hq
      obtain ⟨m1, m2⟩ := same e5
      obtain ⟨r, hr⟩ := update_of (C := C) (B := B) false rej k5.idle.wf k5.idle.snapshots m1 m2
      exact .inl ⟨b5, false, r, rfl, hr⟩
    | .error (e, b5) =>
      rw [hq] at h5
      rcases h5 with rfl | h5
      · obtain ⟨k5, e5⟩ := requests_err (by rw [c4.fork]; exact hB) c4.idle c4.fits hq
        obtain ⟨m1, m2⟩ := same e5
        obtain ⟨r, hr⟩ := update_of (C := C) (B := B) true rej k5.wf k5.snapshots m1 m2
        exact .inl ⟨b5, true, r, rfl, hr⟩
      · exact .inr ⟨e, b5, c4.fork ▸ h5, rfl⟩
  · rw [if_neg hpr]
    obtain ⟨r, hr⟩ := update_of (C := C) (B := B) false rej c4.idle.wf c4.idle.snapshots c4.stored hrep
    exact .inl ⟨b4, false, r, rfl, hr⟩

/-- The rewards can be paid: there are none since paris or with `--state.reward -1`; otherwise there are no ommers (`C80_ommers`), and room for the reward. -/
def Payable (s : State) (reward : Option Int) (ommers : List Ommer) : Prop :=
  s.fork.since .paris = true ∨ reward = some (-1) ∨
    ommers = [] ∧ ∃ n : Nat, (reward = some (n : Int) ∨ reward = none ∧ 5000000000000000000 ≤ n) ∧ supply s + n < 2 ^ 256

private theorem payReward_total {s0 s : State} {reward : Option Int} {ommers : List Ommer} {cb : Address} (h : Payable s0 reward ommers) (hf : s.fork = s0.fork)
    (hsup : supply s ≤ supply s0) (hs : Quiet s) :
    ∃ s', payReward reward s cb ommers = .ok s' ∧ s'.WF ∧ s'.snapshots = [] ∧ s'.fork = s.fork ∧ (s.fork.since .paris = true → s' = s) := by
  by_cases hp : s.fork.since .paris = true
  · exact ⟨s, payReward_paris hp, hs.wf, hs.snapshots, rfl, fun _ => rfl⟩
  · rcases h with h | rfl | ⟨rfl, n, hn, hlt⟩
    · rw [hf] at hp; exact absurd h hp
    · obtain ⟨F, hF⟩ : ∃ F, powFork s.fork = some F := by
        revert hp; cases s.fork <;> first | exact fun _ => ⟨_, rfl⟩ | (intro h; exact absurd rfl h)
      refine ⟨s, ?_, hs.wf, hs.snapshots, rfl, fun _ => rfl⟩
      unfold payReward
      rw [hF]
      dsimp only
      rw [if_pos rfl]
    · obtain ⟨F, hF⟩ : ∃ F, powFork s.fork = some F := by
        revert hp; cases s.fork <;> first | exact fun _ => ⟨_, rfl⟩ | (intro h; exact absurd rfl h)
      have hbal := balance_le_supply hs.wf.main.1 cb
      have pay : ∀ v : Word, v.toNat ≤ n → ∃ s', payBlockRewards v s cb [] = .ok s' ∧ s'.WF ∧ s'.snapshots = [] ∧ s'.fork = s.fork := by
        intro v hv
        have hU : toU256 (v.toNat + ([] : List Ommer).length * (v.toNat / 32)) = .ok v := by
          unfold toU256
          simp [v.isLt]
        unfold payBlockRewards
        rw [hU]
        dsimp only
        rw [Dao.createEther_run (by omega)]
        exact ⟨_, rfl, hs.wf.setAccount _ _, hs.snapshots, rfl⟩
      unfold payReward
      rw [hF]
      dsimp only
      rcases hn with rfl | ⟨rfl, hn⟩
      · dsimp only
        rw [if_neg (by omega), if_neg (by omega)]
        obtain ⟨s', q1, q2, q3, q4⟩ := pay (BitVec.ofInt 256 (n : Int)) (by rw [BitVec.ofInt_natCast, BitVec.toNat_ofNat]; exact Nat.mod_le _ _)
        exact ⟨s', q1, q2, q3, q4, fun h => absurd h hp⟩
      · dsimp only
        obtain ⟨s', q1, q2, q3, q4⟩ := pay (blockReward F) (Nat.le_trans (by cases F <;> decide) hn)
        exact ⟨s', q1, q2, q3, q4, fun h => absurd h hp⟩

/-- **C80**: the transition tool always finishes with a result, whatever transactions it is given, unless the precompile MODEXP overflows (from byzantium to prague, C65). The
rewards have to be payable, and the withdrawals must not lead to more ether than is assumed of states. -/
theorem C80_total {C : Crypto} {B : BlockEnv} {reward : Option Int} {ommers : List Ommer} {ws : List Withdrawal} {s : State} {txs : List (Nat × Transaction)}
    (hn : 1 ≤ B.number) (hB : BlockFits s.fork B) (hs : Quiet s) (hS : StateFits s) (hi : Inputs s.fork txs)
    (hw : supply s + withdrawn s.fork ws < supplyLimit s.fork) (hp : Payable s reward ommers) :
    (∃ s' r, runBlockchainTest C B reward ommers ws s txs = .ok (s', r)) ∨
    (OldModexp s.fork ∧ runBlockchainTest C B reward ommers ws s txs = .error (.fork (.exn (.crash .overflowError)))) := by
  have bad : ∀ {e : BlockExn} {q : T8n.Progress}, Tolerated s.fork e → runBody C B reward ommers ws s txs = .error (.fork e, q) →
      OldModexp s.fork ∧ runBlockchainTest C B reward ommers ws s txs = .error (.fork (.exn (.crash .overflowError))) := by
    intro e q he hq
    obtain ⟨h1, rfl⟩ := he
    refine ⟨h1, ?_⟩
    unfold runBlockchainTest
    rw [hq]
  have a1 := begin_parent (C := C) hn hB hs hS
  match h1 : storeParentHash C B s with
  | .error (e, s1) =>
    rw [h1] at a1
    exact .inr (bad (q := ⟨⟨s1, BlockOutput.empty⟩, []⟩) a1 (by unfold runBody; rw [h1]; rfl))
  | .ok s1 =>
    rw [h1] at a1
    have a1 : Begun s s1 := a1
    have a2 := begin_beacon (C := C) (by rw [a1.fork]; exact hB) a1.quiet a1.fits
    match h2 : storeBeaconRoot C B s1 with
    | .error (e, s2) =>
      rw [h2] at a2
      exact .inr (bad (q := ⟨⟨s2, BlockOutput.empty⟩, []⟩) (a1.fork ▸ a2) (by unfold runBody; rw [raised_ok.mpr h1]; dsimp only; rw [h2]; rfl))
    | .ok s2 =>
      rw [h2] at a2
      have a2 : Begun s1 s2 := a2
      have b2 : Begun s s2 := ⟨a2.quiet, a2.fits, Nat.le_trans a2.supply a1.supply, a2.fork.trans a1.fork⟩
      have a3 := runTxs_total (C := C) hB txs ⟨⟨s2, BlockOutput.empty⟩, []⟩ b2.fork (empty_inv b2.quiet b2.fits) (Inputs.given hi)
      match h3 : runTxs C B ⟨⟨s2, BlockOutput.empty⟩, []⟩ txs with
      | .error (e, p) =>
        rw [h3] at a3
        obtain ⟨y, rfl, hy⟩ := a3
        exact .inr (bad (q := p) hy (by unfold runBody; rw [raised_ok.mpr h1]; dsimp only; rw [raised_ok.mpr h2]; dsimp only; rw [h3]))
      | .ok p =>
        rw [h3] at a3
        obtain ⟨i3, f3, l3, -⟩ := a3
        replace l3 : supply p.b.state ≤ supply s := Nat.le_trans l3 b2.supply
        obtain ⟨s3, h4, w3, n3, g3, same⟩ := payReward_total (cb := B.coinbase) hp f3 l3 i3.inv.quiet
        by_cases hparis : s.fork.since .paris = true
        · cases same (by rw [f3]; exact hparis)
          have hfin := runBody_finish (ws := ws) h1 h2 h3 h4
          rcases finish_total (C := C) (ws := ws) (by rw [f3]; exact hB) (by rw [f3]; exact hparis) i3 (by rw [f3]; omega) p.rejected with
            ⟨b', x, r, k1, k2⟩ | ⟨e, b', k1, k2⟩
          · rw [f3] at k1
            exact .inl ⟨b'.state, r, run_of_ended (q := ⟨b', p.rejected⟩) ⟨h1, h2, b2, h3, h4, k1, rfl⟩ k2⟩
          · rw [f3] at k1 k2
            refine .inr (bad (q := ⟨b', p.rejected⟩) k1 ?_)
            replace k2 : finishBody C B s.fork ws { p.b with state := p.b.state } = .error (e, b') := k2
            rw [hfin, k2]
        · have hsh : s.fork.since .shanghai = false := by revert hparis; cases s.fork <;> decide
          have hpr : s.fork.since .prague = false := by revert hparis; cases s.fork <;> decide
          have k1 : finishBody C B s.fork ws { p.b with state := s3 } = if false then .error (.invalidBlock, { p.b with state := s3 }) else .ok { p.b with state := s3 } := by
            unfold finishBody
            rw [if_neg (by rw [hsh]; decide)]
            dsimp only
            rw [if_neg (by rw [hpr]; decide)]
            rfl
          obtain ⟨r, hr⟩ := update_of (C := C) (B := B) (b := { p.b with state := s3 }) false p.rejected w3 n3 i3.inv.stored ⟨i3.readable, i3.paired⟩
          exact .inl ⟨s3, r, run_of_ended (q := ⟨{ p.b with state := s3 }, p.rejected⟩) ⟨h1, h2, b2, h3, h4, k1, rfl⟩ hr⟩

/-- The sample state and the block with the same transaction twice, with a withdrawal; and in frontier, with a reward. -/
example : (∃ s' r, runBlockchainTest sampleCrypto sampleBlockEnv none [⟨5⟩] [⟨0, 1, 55, 4⟩] sampleState twice = .ok (s', r)) ∧
    ∃ s' r, runBlockchainTest sampleCrypto sampleBlockEnv (some 3) [] [] powEvmState twice = .ok (s', r) := by
  have inp : ∀ f, Inputs f twice := fun f =>
    ⟨fun x hx => .inl (by rcases List.mem_cons.mp hx with rfl | hx; exact ⟨_, rfl⟩; cases List.mem_singleton.mp hx; exact ⟨_, rfl⟩), by decide, by decide, by decide⟩
  constructor
  · rcases C80_total (C := sampleCrypto) (B := sampleBlockEnv) (reward := none) (ommers := [⟨5⟩]) (ws := [⟨0, 1, 55, 4⟩]) (s := sampleState) (txs := twice) (by decide)
      ⟨by decide, by decide, by decide, by decide +kernel, by decide +kernel, by decide⟩ sample_idle.quiet sample_stateFits (inp _) (by decide +kernel) (.inl (by decide))
      with h | ⟨h, -⟩
    · exact h
    · exact absurd h.2 (by decide)
  · rcases C80_total (C := sampleCrypto) (B := sampleBlockEnv) (reward := some 3) (ommers := []) (ws := []) (s := powEvmState) (txs := twice) (by decide)
      ⟨by decide, by decide, by decide, by decide +kernel, by decide +kernel, by decide⟩ powEvm_quiet ⟨by decide +kernel, sample_stateFits.codes⟩ (inp _) (by decide +kernel)
      (.inr (.inr ⟨rfl, 3, .inl rfl, by decide +kernel⟩)) with h | ⟨h, -⟩
    · exact h
    · exact absurd h.1 (by decide)

end Verif.Props
