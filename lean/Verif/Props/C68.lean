import Verif.Lemmas.SupplyEq
import Verif.Lemmas.SamplePowEvm
import Verif.Props.C50
/-! Property C68: the supply of ether along proof-of-work chains, from frontier on, and through the change to proof of stake. -/
namespace Verif.Props
open Verif Verif.Spec Pow Ethash Dao

theorem setFork_quiet {s : State} (f : Fork) (hq : Quiet s) : Quiet { s with fork := f } :=
  ⟨⟨hq.wf.main, hq.wf.storage, hq.wf.snaps⟩, hq.snapshots, hq.created⟩

/-- **C68.** A block of any proof-of-work fork issues at most the rewards for its miner and for the miners of its ommers, less the
base fee of the gas it uses. -/
theorem C68_block {C : Crypto} {K : Hashes} {F : PowFork} {c c' : PowChain Txs} {b : PowBlock Txs} (hq : Quiet c.state)
    (h : Pow.stateTransition K (evmExec C K) F c b = .ok c') :
    Quiet c'.state ∧ supply c'.state + burnt b ≤ supply c.state + issued F b := by
  obtain ⟨-, -, s, r, hrun, hpay, hg, -⟩ := powTransition_ok h
  obtain ⟨b1, hb, rfl, hgas, -⟩ := evmExec_ok hrun
  obtain ⟨q1, e1⟩ := txs_all _ (setFork_quiet F.fork hq) hb
  obtain ⟨m, e⟩ := payRewards_paid hpay
  refine ⟨moved_quiet m q1, ?_⟩
  have e2 := e q1.wf.sound
  have e3 : supply b1.state + b.header.gasUsed * b.header.baseFeePerGas.getD 0 ≤ supply c.state := by
    rw [← hg, hgas]
    have : supply b1.state + b1.out.blockGasUsed * (b.header.baseFeePerGas.getD 0) ≤ supply c.state + 0 * (b.header.baseFeePerGas.getD 0) := e1
    omega
  unfold burnt issued
  omega

theorem applyPowFork_quiet {F : PowFork} {c c' : PowChain Txs} (hq : Quiet c.state) (h : applyPowFork F c = .ok c') :
    Quiet c'.state ∧ c'.state.fork = F.fork ∧ c'.chainId = c.chainId ∧
      (∀ a, (getAccount c'.state a).nonce = (getAccount c.state a).nonce ∧ (getAccount c'.state a).code = (getAccount c.state a).code) ∧
      supply c'.state = supply c.state := by
  unfold applyPowFork at h
  split at h
  · split at h
    · cases h
    · rename_i s hs
      cases h
      obtain ⟨hm, he⟩ := moveAll_moved _ hs
      exact ⟨setFork_quiet _ (moved_quiet hm hq), rfl, rfl, hm.account, he hq.wf.sound⟩
  · cases h
    exact ⟨setFork_quiet _ hq, rfl, rfl, fun _ => ⟨rfl, rfl⟩, rfl⟩

theorem txs_supply_any {C : Crypto} {B : BlockEnv} (txs : List (LegacyTx ⊕ Bytes)) : ∀ {b b' : BlockState} {i : Nat}, Quiet b.state →
    processTransactions C B b i txs = .ok b' →
    ∃ outs, TxOutputs C B b i txs b' outs ∧ Quiet b'.state ∧
      supply b'.state + burntFees b.state.fork B b'.out.blockGasUsed b'.out.blobGasUsed ≤
        supply b.state + burntFees b.state.fork B b.out.blockGasUsed b.out.blobGasUsed ∧
      ((∀ o ∈ outs, o.accountsToDelete = []) → supply b'.state + burntFees b.state.fork B b'.out.blockGasUsed b'.out.blobGasUsed =
        supply b.state + burntFees b.state.fork B b.out.blockGasUsed b.out.blobGasUsed) := by
  induction txs with
  | nil => intro b b' i hs h; cases h; exact ⟨[], .nil b i, hs, Nat.le_refl _, fun _ => rfl⟩
  | cons t r ih =>
    intro b b' i hs h
    obtain ⟨tx, b1, hdec, hp, hr⟩ := processTransactions_cons h
    obtain ⟨sender, msg, o, w, s1, s2, hran⟩ := processTransaction_ok.mp hp
    obtain ⟨h1, h2⟩ := supply_all hs hran
    have h3 := supply_all_eq hs hran
    obtain ⟨outs, q1, q2, q3, q4⟩ := ih h1 hr
    rw [ran_fork hran] at q3 q4
    have e : burntFees b.state.fork B b1.out.blockGasUsed b1.out.blobGasUsed = burntFees b.state.fork B b.out.blockGasUsed b.out.blobGasUsed +
        (gasCharged b.state.fork tx o * B.baseFeePerGas + blobFee b.state.fork B tx) := by
      rw [hran.result]
      show burntFees _ B (b.out.blockGasUsed + gasCharged b.state.fork tx o) (b.out.blobGasUsed + blobGas tx) = _
      unfold burntFees blobFee
      rw [Nat.add_mul, Nat.add_mul]
      omega
    refine ⟨o :: outs, .cons hdec hp (executed_of_ran hs hran) q1, q2, ?_, fun hd => ?_⟩
    · omega
    · have g1 := h3 (hd o List.mem_cons_self)
      have g2 := q4 fun x hx => hd x (List.mem_cons_of_mem _ hx)
      omega

/-- **C68**, exactly that much if no transaction of the block deletes an account. In every fork. -/
theorem C68_exact {C : Crypto} {K : Hashes} {F : PowFork} {c c' : PowChain Txs} {b : PowBlock Txs} (hq : Quiet c.state)
    (h : Pow.stateTransition K (evmExec C K) F c b = .ok c') :
    ∃ b' outs, TxOutputs C (powEnvOf K c.chainId c.blocks b.header) ⟨{ c.state with fork := F.fork }, BlockOutput.empty⟩ 0 b.transactions b' outs ∧
      ((∀ o ∈ outs, o.accountsToDelete = []) → supply c'.state + burnt b = supply c.state + issued F b) := by
  obtain ⟨-, -, s, r, hrun, hpay, hg, -⟩ := powTransition_ok h
  obtain ⟨b1, hb, rfl, hgas, -⟩ := evmExec_ok hrun
  obtain ⟨outs, ho, q1, -, e1⟩ := txs_supply_any _ (setFork_quiet F.fork hq) hb
  obtain ⟨m, e⟩ := payRewards_paid hpay
  refine ⟨b1, outs, ho, fun hd => ?_⟩
  have e2 := e q1.wf.sound
  have e3 := e1 hd
  have hbl : b1.out.blobGasUsed = 0 := txs_blobless _ (by cases F <;> rfl) hb
  rw [hbl] at e3
  unfold burntFees at e3
  have e4 : supply b1.state + (b1.out.blockGasUsed * (b.header.baseFeePerGas.getD 0) + 0 * _) =
    supply c.state + (0 * (b.header.baseFeePerGas.getD 0) + 0 * _) := e3
  rw [← hgas, hg] at e4
  unfold burnt issued
  omega

/-- **C68**, for histories: from any state on, and whatever forks are activated on the way (including the irregular change of the
DAO fork), the supply is at most what it was plus the rewards of the blocks, less the base fees. -/
theorem C68_history {C : Crypto} {K : Hashes} {c c' : PowChain Txs} {bs : List (PowFork × PowBlock Txs)} (hq : Quiet c.state)
    (h : Mined C K c bs c') :
    Quiet c'.state ∧ supply c'.state + (bs.map fun b => burnt b.2).sum ≤ supply c.state + (bs.map fun b => issued b.1 b.2).sum := by
  induction h with
  | nil c => exact ⟨hq, Nat.le_refl _⟩
  | block hf h t ih =>
    obtain ⟨q, e⟩ := C68_block hq h
    obtain ⟨q', e'⟩ := ih q
    refine ⟨q', ?_⟩
    rw [List.map_cons, List.sum_cons, List.map_cons, List.sum_cons]
    dsimp only
    omega
  | fork F hf h t ih =>
    obtain ⟨q, -, -, -, e⟩ := applyPowFork_quiet hq h
    obtain ⟨q', e'⟩ := ih q
    exact ⟨q', by omega⟩

/-- **C68**, through the merge: a chain that starts in any proof-of-work fork, is mined, changes to proof of stake and goes on to any
later fork never holds more than at the start plus all rewards of blocks and all withdrawals. -/
theorem C68_merge {C : Crypto} {K : Hashes} {c c' : PowChain Txs} {bs : List (PowFork × PowBlock Txs)} {chain : BlockChain}
    {bs' : List ChainBlock} (hq : Quiet c.state) (h : Mined C K c bs c') (h' : Imports C (merge c') bs' chain) :
    supply chain.state ≤ supply c.state + (bs.map fun b => issued b.1 b.2).sum +
      (bs'.map fun b => withdrawn b.fork b.block.withdrawals).sum := by
  obtain ⟨q, e⟩ := C68_history hq h
  have hi : Idle (merge c').state := (setFork_quiet .paris q).idle rfl
  have := C50_chain hi h'
  have : supply (merge c').state = supply c'.state := rfl
  omega

/-- The sample frontier block, whose transaction runs code, issues five ether and burns nothing; the chain goes on to gray_glacier,
through the merge and to osaka. -/
example : Quiet powEvmChain.state ∧ issued .frontier powEvmBlock = 5 * 10 ^ 18 ∧ burnt powEvmBlock = 0 ∧
    ∃ c' chain, Mined sampleCrypto sampleK powEvmChain [(.frontier, powEvmBlock)] c' ∧ c'.state.fork = .grayGlacier ∧
      getStorage c'.state 88 1 = 7 ∧ Imports sampleCrypto (merge c') [] chain ∧ chain.state.fork = .osaka := by
  obtain ⟨c', h, hs, -⟩ := powEvm_mined_to .grayGlacier (by decide)
  refine ⟨powEvm_quiet, ?_, ?_, _, _, h.1, h.2, hs, .upgrade .osaka rfl (.nil _), rfl⟩
  · simp only [issued, powEvmBlock, List.map_nil, List.sum_nil, List.length_nil]; decide
  · simp only [burnt, powEvmBlock, sealHeader, powEvmHead, mkHeader]; decide

end Verif.Props
