import Verif.Lemmas.Body
import Verif.Spec.Body
import Verif.Props.C23_replay
/-! Property C50: a block neither creates nor hides ether. `supply` is the sum of all balances. -/
namespace Verif.Props
open Verif Verif.Spec

/-- The base fees and the fees for blobs, which nobody gets. -/
def burntFees (f : Fork) (B : BlockEnv) (gasUsed blobGasUsed : Nat) : Nat :=
  gasUsed * B.baseFeePerGas + blobGasUsed * calculateBlobGasPrice f B.excessBlobGas

theorem txs_supply {C : Crypto} {B : BlockEnv} (txs : List (LegacyTx ⊕ Bytes)) : ∀ {b b' : BlockState} {i : Nat}, Idle b.state →
    processTransactions C B b i txs = .ok b' →
    ∃ outs, TxOutputs C B b i txs b' outs ∧ Idle b'.state ∧
      supply b'.state + burntFees b.state.fork B b'.out.blockGasUsed b'.out.blobGasUsed ≤
        supply b.state + burntFees b.state.fork B b.out.blockGasUsed b.out.blobGasUsed ∧
      ((∀ o ∈ outs, o.accountsToDelete = []) → supply b'.state + burntFees b.state.fork B b'.out.blockGasUsed b'.out.blobGasUsed =
        supply b.state + burntFees b.state.fork B b.out.blockGasUsed b.out.blobGasUsed) := by
  induction txs with
  | nil => intro b b' i hs h; cases h; exact ⟨[], .nil b i, hs, Nat.le_refl _, fun _ => rfl⟩
  | cons t r ih =>
    intro b b' i hs h
    obtain ⟨tx, b1, hdec, hp, hr⟩ := processTransactions_cons h
    obtain ⟨sender, msg, o, w, s1, s2, hran⟩ := processTransaction_ok.mp hp
    obtain ⟨h1, h2, h3⟩ := supply_of_ran hs hran
    obtain ⟨outs, q1, q2, q3, q4⟩ := ih h1 hr
    rw [ran_fork hran] at q3 q4
    have e : burntFees b.state.fork B b1.out.blockGasUsed b1.out.blobGasUsed = burntFees b.state.fork B b.out.blockGasUsed b.out.blobGasUsed +
        (gasCharged b.state.fork tx o * B.baseFeePerGas + blobFee b.state.fork B tx) := by
      rw [hran.result]
      show burntFees _ B (b.out.blockGasUsed + gasCharged b.state.fork tx o) (b.out.blobGasUsed + blobGas tx) = _
      unfold burntFees blobFee
      rw [Nat.add_mul, Nat.add_mul]
      omega
    refine ⟨o :: outs, .cons hdec hp (executed_of_ran hs.quiet hran) q1, q2, ?_, fun hd => ?_⟩
    · omega
    · have g1 := h3 (hd o List.mem_cons_self)
      have g2 := q4 fun x hx => hd x (List.mem_cons_of_mem _ hx)
      omega

theorem systemRun_of {C : Crypto} {B : BlockEnv} {s s' : State} {target : Address} {data : Bytes} {o : MessageCallOutput}
    (h : processSystemTransaction C B s target (getAccount s target).code data = .ok (o, s')) : SystemRun C B s target data o s' := by
  unfold processSystemTransaction at h
  split at h
  · cases h
  · rename_i out w hw
    cases h
    exact ⟨w, hw, rfl⟩

theorem checkedRun_of {C : Crypto} {B : BlockEnv} {s s' : State} {target : Address} {data : Bytes} {o : MessageCallOutput}
    (h : processCheckedSystemTransaction C B s target data = .ok (o, s')) : SystemRun C B s target data o s' := by
  unfold processCheckedSystemTransaction at h
  dsimp only at h
  split at h
  · cases h
  · split at h
    · cases h
    · rename_i out sx hrun
      split at h
      · cases h
      · cases h; exact systemRun_of hrun

theorem system_trace {c : Bool} {C : Crypto} {B : BlockEnv} {s s' : State} {target : Address} {data : Bytes} (hs : Idle s)
    (h : (c = true ∧ ∃ o, processUncheckedSystemTransaction C B s target data = .ok (o, s')) ∨ (c = false ∧ s' = s)) :
    ∃ outs, Spec.SystemCall c C B s target data s' outs ∧ Idle s' ∧ supply s' ≤ supply s ∧
      ((∀ o ∈ outs, o.accountsToDelete = []) → supply s' = supply s) := by
  rcases h with ⟨rfl, o, h⟩ | ⟨rfl, rfl⟩
  · obtain ⟨a1, a2⟩ := processSystem_ok hs h
    exact ⟨[o], ⟨o, systemRun_of h, rfl⟩, a1.idle, a1.supply, fun hd => a2 (hd o (by simp))⟩
  · exact ⟨[], ⟨rfl, rfl⟩, hs, Nat.le_refl _, fun _ => rfl⟩

theorem checked_supply {C : Crypto} {B : BlockEnv} {s s' : State} {target : Address} {o : MessageCallOutput} (hi : Idle s)
    (hc : processCheckedSystemTransaction C B s target [] = .ok (o, s')) : o.accountsToDelete = [] → supply s' = supply s := by
  unfold processCheckedSystemTransaction at hc
  dsimp only at hc
  split at hc
  · cases hc
  · split at hc
    · cases hc
    · rename_i out sx hrun
      split at hc
      · cases hc
      · cases hc; exact (processSystem_ok hi hrun).2

theorem body_trace {C : Crypto} {B : BlockEnv} {s : State} {txs : List (LegacyTx ⊕ Bytes)} {ws : List Withdrawal} {b' : BlockState}
    (hs : Idle s) (h : applyBody C B s txs ws = .ok b') :
    ∃ system txOuts, BlockTrace C B s txs ws b'.state system txOuts ∧ Idle b'.state ∧
      supply b'.state + burntFees s.fork B b'.out.blockGasUsed b'.out.blobGasUsed ≤ supply s + withdrawn s.fork ws ∧
      ((∀ o ∈ system ++ txOuts, o.accountsToDelete = []) →
        supply b'.state + burntFees s.fork B b'.out.blockGasUsed b'.out.blobGasUsed = supply s + withdrawn s.fork ws) := by
  obtain ⟨s1, s2, b3, b4, hr⟩ := applyBody_ok h
  obtain ⟨f1, f2, -, -⟩ := hr.forks
  obtain ⟨sys1, x1, i1, l1, e1⟩ := system_trace hs (storeBeaconRoot_ok hr.roots)
  obtain ⟨ph, hph, hh⟩ : ∃ ph, (s1.fork.since .prague = true → B.blockHashes.getLast? = some ph) ∧
      ((s1.fork.since .prague = true ∧ ∃ o, processUncheckedSystemTransaction C B s1 HISTORY_STORAGE_ADDRESS (wordBytes ph) = .ok (o, s2)) ∨
       (s1.fork.since .prague = false ∧ s2 = s1)) := by
    rcases storeParentHash_ok hr.history with ⟨hf, o, ph, h1, h2⟩ | ⟨hf, h2⟩
    · exact ⟨ph, fun _ => h1, .inl ⟨hf, o, h2⟩⟩
    · exact ⟨0, fun h => (by rw [hf] at h; cases h), .inr ⟨hf, h2⟩⟩
  obtain ⟨sys2, x2, i2, l2, e2⟩ := system_trace i1 hh
  rw [f1] at x2 hph
  obtain ⟨outs, t1, t2, t3, t4⟩ := txs_supply txs (b := ⟨s2, BlockOutput.empty⟩) i2 hr.transactions
  simp only [f2] at t3 t4
  have e0 : burntFees s.fork B 0 0 = 0 := by unfold burntFees; omega
  change _ ≤ supply s2 + burntFees s.fork B 0 0 at t3
  change _ → _ = supply s2 + burntFees s.fork B 0 0 at t4
  have q4 : Idle b4.state ∧ supply b4.state = supply b3.state + withdrawn s.fork ws ∧ b4.out.blockGasUsed = b3.out.blockGasUsed ∧
      b4.out.blobGasUsed = b3.out.blobGasUsed ∧ (if s.fork.since .shanghai then processWithdrawals b3 ws = .ok b4 else b4 = b3) := by
    rcases ite_ok hr.withdrawals with ⟨hf, hw⟩ | ⟨hf, hw⟩
    · have sh3 : b3.state.fork.since .shanghai = true := by rw [hr.forks.2.2.1]; exact hf
      have w4 := (C40_credit sh3 hw).2
      have y1 := congrArg BlockOutput.blockGasUsed w4
      have y2 := congrArg BlockOutput.blobGasUsed w4
      refine ⟨withdrawals_idle sh3 hw t2, ?_, y1, y2, ?_⟩
      · rw [(withdrawals_wf ws (shanghai_paris sh3) hw t2.wf).2]; unfold withdrawn; rw [if_pos hf]
      · rw [if_pos hf]; exact hw
    · have hf' : ¬ s.fork.since .shanghai = true := by simp [hf]
      subst hw
      refine ⟨t2, ?_, rfl, rfl, ?_⟩
      · unfold withdrawn; rw [if_neg hf']; rfl
      · rw [if_neg hf']
  obtain ⟨i4, w4, g4, bg4, hw4⟩ := q4
  have q5 : ∃ sys3, (if s.fork.since .prague then ∃ s5 o3 o4, sys3 = [o3, o4] ∧
        SystemRun C B b4.state withdrawalContract [] o3 s5 ∧ SystemRun C B s5 consolidationContract [] o4 b'.state ∧
        o3.error = none ∧ o4.error = none
      else b'.state = b4.state ∧ sys3 = []) ∧ Idle b'.state ∧ b'.out.blockGasUsed = b4.out.blockGasUsed ∧
      b'.out.blobGasUsed = b4.out.blobGasUsed ∧ supply b'.state ≤ supply b4.state ∧
      ((∀ o ∈ sys3, o.accountsToDelete = []) → supply b'.state = supply b4.state) := by
    rcases ite_ok hr.requests with ⟨hf, hq⟩ | ⟨hf, hq⟩
    · have hreq := requests_ok i4 hq
      unfold processGeneralPurposeRequests at hq
      split at hq
      · cases hq
      · dsimp only at hq
        split at hq
        · cases hq
        · rename_i o3 s5 h3
          split at hq
          · cases hq
          · rename_i o4 s6 h4
            have hst : s6 = b'.state := by cases hq; rfl
            subst hst
            have d1 := (processChecked_ok i4 h3).1
            have d2 := (processChecked_ok d1.idle h4).1
            have y1 := congrArg BlockOutput.blockGasUsed hreq.2
            have y2 := congrArg BlockOutput.blobGasUsed hreq.2
            refine ⟨[o3, o4], ?_, d2.idle, y1, y2,
              Nat.le_trans d2.supply d1.supply, fun hd => ?_⟩
            · rw [if_pos hf]; exact ⟨s5, o3, o4, rfl, checkedRun_of h3, checkedRun_of h4, (processChecked_ok i4 h3).2.2, (processChecked_ok d1.idle h4).2.2⟩
            · rw [checked_supply d1.idle h4 (hd o4 (by simp)), checked_supply i4 h3 (hd o3 (by simp))]
    · have hf' : ¬ s.fork.since .prague = true := by simp [hf]
      subst hq
      refine ⟨[], ?_, i4, rfl, rfl, Nat.le_refl _, fun _ => rfl⟩
      rw [if_neg hf']; exact ⟨rfl, rfl⟩
  obtain ⟨sys3, x3, i5, g5, bg5, l5, e5⟩ := q5
  refine ⟨sys1 ++ sys2 ++ sys3, outs, ⟨s1, s2, b3, b4, sys1, sys2, sys3, ph, rfl, x1, hph, x2, t1, hw4, x3⟩, i5, ?_, fun hd => ?_⟩
  · rw [g5, bg5, g4, bg4]; omega
  · rw [g5, bg5, g4, bg4]
    have k1 := e1 fun o ho => hd o (by simp [ho])
    have k2 := e2 fun o ho => hd o (by simp [ho])
    have k3 := e5 fun o ho => hd o (by simp [ho])
    have k5 := t4 fun o ho => hd o (List.mem_append_right _ ho)
    omega

/-- **C50.** Over a block, the total supply grows by at most the withdrawals less the base fees and blob fees of the block. -/
theorem C50_bound {C : Crypto} {B : BlockEnv} {s : State} {txs : List (LegacyTx ⊕ Bytes)} {ws : List Withdrawal} {b' : BlockState}
    (hs : Idle s) (h : applyBody C B s txs ws = .ok b') :
    supply b'.state + burntFees s.fork B b'.out.blockGasUsed b'.out.blobGasUsed ≤ supply s + withdrawn s.fork ws := by
  obtain ⟨_, _, -, -, h1, -⟩ := body_trace hs h
  exact h1

/-- **C50.** It grows by exactly that much if none of the executions in the block deletes an account. -/
theorem C50_exact {C : Crypto} {B : BlockEnv} {s : State} {txs : List (LegacyTx ⊕ Bytes)} {ws : List Withdrawal} {b' : BlockState}
    (hs : Idle s) (h : applyBody C B s txs ws = .ok b') :
    ∃ system txOuts, BlockTrace C B s txs ws b'.state system txOuts ∧
      ((∀ o ∈ system ++ txOuts, o.accountsToDelete = []) →
        supply b'.state + burntFees s.fork B b'.out.blockGasUsed b'.out.blobGasUsed = supply s + withdrawn s.fork ws) := by
  obtain ⟨sys, outs, h1, -, -, h2⟩ := body_trace hs h
  exact ⟨sys, outs, h1, h2⟩

/-- **C50**, for chains: the total supply never exceeds what it was plus all withdrawals, whatever forks are activated on the way. -/
theorem C50_chain {C : Crypto} {chain chain' : BlockChain} {bs : List ChainBlock} (hs : Idle chain.state) (h : Imports C chain bs chain') :
    supply chain'.state ≤ supply chain.state + (bs.map fun b => withdrawn b.fork b.block.withdrawals).sum := by
  induction h with
  | nil c => simp
  | cons hst t ih =>
    rename_i c mid c' b r
    obtain ⟨-, -, -, -, bst, k, hb, hst', -⟩ := stateTransition_ok hst
    have h1 := C50_bound hs hb
    have h2 := ih (by rw [hst']; exact (body_history hb).idle hs)
    rw [hst'] at h2
    rw [List.map_cons, List.sum_cons]
    dsimp only
    omega
  | upgrade f hf t ih => exact ih (applyFork_idle (since_later hf hs.fork) hs)

/-- The sample block: 43138 units of gas at a base fee of 7, and a withdrawal of 4 Gwei. -/
example : (match applyBody sampleCrypto (blockEnvOf sampleCrypto sampleChain sampleBlock.header) sampleState sampleBlock.transactions
      sampleBlock.withdrawals with
    | .ok b => b.out.blockGasUsed == 43138 && supply b.state + 43138 * 7 == supply sampleState + 4000000000
    | .error _ => false) = true := by decide +kernel

end Verif.Props
