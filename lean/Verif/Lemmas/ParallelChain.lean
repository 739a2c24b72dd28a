import Verif.Lemmas.ParallelBlock
import Verif.Model.T8n
/-! Block import, mining and the transition tool cannot tell alike states apart (for C85). -/
namespace Verif

/-- The same blocks and chain id, on alike states. -/
structure CSim (c c' : BlockChain) : Prop where
  blocks : c.blocks = c'.blocks
  state : SSim c.state c'.state
  chainId : c.chainId = c'.chainId

theorem SSim.setFork {s s' : State} (h : SSim s s') (f : Fork) : SSim { s with fork := f } { s' with fork := f } :=
  ⟨rfl, h.main, h.storage, h.snaps, h.created⟩

theorem beacon_fork {C : Crypto} {B : BlockEnv} {s s1 : State} (h : storeBeaconRoot C B s = .ok s1) : s1.fork = s.fork := by
  rcases storeBeaconRoot_ok h with ⟨-, o1, h1⟩ | ⟨-, h1⟩
  · exact processUnchecked_fork h1
  · rw [h1]

theorem parent_fork {C : Crypto} {B : BlockEnv} {s s1 : State} (h : storeParentHash C B s = .ok s1) : s1.fork = s.fork := by
  rcases storeParentHash_ok h with ⟨-, o1, ph, -, h1⟩ | ⟨-, h1⟩
  · exact processUnchecked_fork h1
  · rw [h1]

theorem applyBody_sim {C : Crypto} (B : BlockEnv) {s s' : State} (h : SSim s s') (hk : s.fork.since .byzantium = true ∨ CollisionFree C)
    (txs : List (LegacyTx ⊕ Bytes)) (ws : List Withdrawal) : XSim BSim BSim (applyBody C B s txs ws) (applyBody C B s' txs ws) := by
  unfold applyBody
  dsimp only
  have hm := beacon_sim C B h
  have hf : ∀ t, storeBeaconRoot C B s = .ok t → t.fork = s.fork := fun t => beacon_fork
  revert hm hf
  rcases storeBeaconRoot C B s with ⟨e, t⟩ | t <;> rcases storeBeaconRoot C B s' with ⟨e', t'⟩ | t' <;> intro hm hf
  · exact ⟨hm.1, ⟨hm.2, rfl⟩⟩
  · cases hm
  · cases hm
  · have h1 : SSim t t' := hm
    have f1 := hf t rfl
    dsimp only
    have hm := parent_sim C B h1
    have hf : ∀ u, storeParentHash C B t = .ok u → u.fork = t.fork := fun u => parent_fork
    revert hm hf
    rcases storeParentHash C B t with ⟨e, u⟩ | u <;> rcases storeParentHash C B t' with ⟨e', u'⟩ | u' <;> intro hm hf
    · exact ⟨hm.1, ⟨hm.2, rfl⟩⟩
    · cases hm
    · cases hm
    · have h2 : SSim u u' := hm
      have f2 := (hf u rfl).trans f1
      dsimp only
      have hm := processTransactions_sim (C := C) B txs (b := ⟨u, BlockOutput.empty⟩) (b' := ⟨u', BlockOutput.empty⟩) 0 ⟨h2, rfl⟩
        (by show u.fork.since _ = true ∨ _; rw [f2]; exact hk)
      revert hm
      rcases processTransactions C B ⟨u, BlockOutput.empty⟩ 0 txs with ⟨e, b⟩ | b <;>
        rcases processTransactions C B ⟨u', BlockOutput.empty⟩ 0 txs with ⟨e', b'⟩ | b' <;> intro hm
      · exact hm
      · cases hm
      · cases hm
      · have h3 : BSim b b' := hm.1
        dsimp only
        rw [h.fork]
        have hm : XSim (ε := BlockExn) BSim BSim (if s'.fork.since .shanghai then processWithdrawals b ws else .ok b)
            (if s'.fork.since .shanghai then processWithdrawals b' ws else .ok b') := by
          split
          · exact withdrawals_sim ws 0 h3
          · exact h3
        revert hm
        rcases (if s'.fork.since .shanghai then processWithdrawals b ws else .ok b) with ⟨e, x⟩ | x <;>
          rcases (if s'.fork.since .shanghai then processWithdrawals b' ws else .ok b') with ⟨e', x'⟩ | x' <;> intro hm
        · exact hm
        · cases hm
        · cases hm
        · have h4 : BSim x x' := hm
          dsimp only
          split
          · exact requests_sim C B h4
          · exact h4

theorem commitments_sim {C : Crypto} {b b' : BlockState} (h : BSim b b') (hk : b.state.snapshots = [] → KeysDiffer C b.state) :
    commitments C b = commitments C b' := by
  unfold commitments
  rw [h.state.root hk, h.out]

theorem xsim_ite {ε σ α : Type} {Q : σ → σ → Prop} {R : α → α → Prop} {p : Prop} [Decidable p] {a b a' b' : Except (ε × σ) α}
    (hp : p → XSim Q R a a') (hn : ¬ p → XSim Q R b b') : XSim Q R (if p then a else b) (if p then a' else b') := by
  by_cases h : p
  · rw [if_pos h, if_pos h]; exact hp h
  · rw [if_neg h, if_neg h]; exact hn h

/-- **Block import.** -/
theorem stateTransition_sim {C : Crypto} {c c' : BlockChain} (h : CSim c c') (hk : c.state.fork.since .byzantium = true ∨ CollisionFree C) (blk : Block)
    (hd : ∀ b, applyBody C (blockEnvOf C c blk.header) c.state blk.transactions blk.withdrawals = .ok b → KeysDiffer C b.state) :
    XSim CSim CSim (stateTransition C c blk) (stateTransition C c' blk) := by
  have hv : validateHeader C c blk.header = validateHeader C c' blk.header := by
    unfold validateHeader
    rw [h.state.fork, h.blocks]
  have hh : getLast256BlockHashes C c' = getLast256BlockHashes C c := by
    unfold getLast256BlockHashes
    rw [h.blocks]
  have he : blockEnvOf C c' blk.header = blockEnvOf C c blk.header := by
    unfold blockEnvOf
    rw [hh, h.chainId]
  unfold stateTransition
  rw [hv, he, ← h.state.fork]
  by_cases hz : c.state.fork.since .osaka = true ∧ (Rlp.encode (.ofBlock c.state.fork blk)).length > MAX_RLP_BLOCK_SIZE
  · rw [if_pos hz, if_pos hz]
    exact ⟨rfl, h⟩
  · rw [if_neg hz, if_neg hz]
    split
    · exact ⟨rfl, h⟩
    · split
      · exact ⟨rfl, h⟩
      · have hm := applyBody_sim (blockEnvOf C c blk.header) h.state hk blk.transactions blk.withdrawals
        revert hm hd
        generalize applyBody C (blockEnvOf C c blk.header) c.state blk.transactions blk.withdrawals = x,
          applyBody C (blockEnvOf C c blk.header) c'.state blk.transactions blk.withdrawals = x'
        rcases x with ⟨e, b⟩ | b <;> rcases x' with ⟨e', b'⟩ | b' <;> intro hd hm
        · exact ⟨hm.1, ⟨h.blocks, hm.2.state, h.chainId⟩⟩
        · cases hm
        · cases hm
        · have h4 : BSim b b' := hm
          have hs : CSim { c with state := b.state } { c' with state := b'.state } := ⟨h.blocks, h4.state, h.chainId⟩
          have hc := commitments_sim h4 fun _ => hd b rfl
          generalize hy : commitments C b = y at hc
          generalize hg : b.out.blockGasUsed = g
          generalize hq : b.out.blobGasUsed = q
          have hg' : b'.out.blockGasUsed = g := by rw [← h4.out]; exact hg
          have hq' : b'.out.blobGasUsed = q := by rw [← h4.out]; exact hq
          simp only [hy, ← hc, hg, hq, hg', hq']
          cases y with
          | error e => exact ⟨rfl, hs⟩
          | ok k =>
            simp only
            iterate 8 refine xsim_ite (fun _ => ⟨rfl, hs⟩) fun _ => ?_
            exact ⟨by simp only [h.blocks], h4.state, h.chainId⟩

end Verif

namespace Verif.Pow
open Verif Ethash Dao

theorem modify_sim {s s' : State} (h : SSim s s') (a : Address) (f : Account → Except Crash Account) :
    ESim SSim (Dao.modifyState s a f) (Dao.modifyState s' a f) := by
  unfold Dao.modifyState
  rw [h.account]
  split
  · exact rfl
  · exact h.setAccount _ _

theorem moveEther_sim {s s' : State} (h : SSim s s') (a b : Address) (n : Word) : ESim SSim (Dao.moveEther s a b n) (Dao.moveEther s' a b n) := by
  unfold Dao.moveEther
  have hm := modify_sim h a (reduceSenderBalance n)
  revert hm
  cases Dao.modifyState s a (reduceSenderBalance n) <;> cases Dao.modifyState s' a (reduceSenderBalance n) <;> intro hm
  · exact hm
  · cases hm
  · cases hm
  · exact modify_sim hm b _

theorem moveAll_sim (l : List Address) : ∀ {s s' : State}, SSim s s' → ESim SSim (moveAll s l) (moveAll s' l) := by
  induction l with
  | nil => exact fun h => h
  | cons a r ih =>
    intro s s' h
    unfold moveAll
    rw [h.account]
    dsimp only
    have hm := moveEther_sim h a DAO_RECOVERY (getAccount s' a).balance
    revert hm
    cases Dao.moveEther s a DAO_RECOVERY (getAccount s' a).balance <;> cases Dao.moveEther s' a DAO_RECOVERY (getAccount s' a).balance <;> intro hm
    · exact hm
    · cases hm
    · cases hm
    · exact ih hm

theorem payOmmers_sim (F : PowFork) (n : Nat) (l : List PowHeader) : ∀ {s s' : State}, SSim s s' → ESim SSim (payOmmers F n s l) (payOmmers F n s' l) := by
  induction l with
  | nil => exact fun h => h
  | cons o r ih =>
    intro s s' h
    unfold payOmmers
    split
    · exact rfl
    · split
      · exact rfl
      · split
        · exact rfl
        · rename_i p _
          have hm : ESim SSim (createEther s o.coinbase (p / 8)) (createEther s' o.coinbase (p / 8)) := modify_sim h _ _
          revert hm
          cases createEther s o.coinbase (p / 8) <;> cases createEther s' o.coinbase (p / 8) <;> intro hm
          · exact hm
          · cases hm
          · cases hm
          · exact ih hm

theorem payRewards_sim (F : PowFork) {s s' : State} (h : SSim s s') (n : Nat) (a : Address) (l : List PowHeader) :
    ESim SSim (payRewards F s n a l) (payRewards F s' n a l) := by
  unfold payRewards
  split
  · exact rfl
  · rename_i p _
    have hm : ESim SSim (createEther s a p) (createEther s' a p) := modify_sim h _ _
    revert hm
    cases createEther s a p <;> cases createEther s' a p <;> intro hm
    · exact hm
    · cases hm
    · cases hm
    · exact payOmmers_sim F n l hm

/-- The same blocks and chain id, on alike states. -/
structure PSim (c c' : PowChain Txs) : Prop where
  blocks : c.blocks = c'.blocks
  state : SSim c.state c'.state
  chainId : c.chainId = c'.chainId

theorem applyPowFork_sim (F : PowFork) {c c' : PowChain Txs} (h : PSim c c') : ESim PSim (applyPowFork F c) (applyPowFork F c') := by
  unfold applyPowFork
  split
  · have hm : ESim SSim (applyDao c.state) (applyDao c'.state) := moveAll_sim DAO_ACCOUNTS h.state
    revert hm
    cases applyDao c.state <;> cases applyDao c'.state <;> intro hm
    · exact hm
    · cases hm
    · cases hm
    · exact ⟨h.blocks, SSim.setFork hm _, h.chainId⟩
  · exact ⟨h.blocks, h.state.setFork _, h.chainId⟩

theorem merge_sim {c c' : PowChain Txs} (h : PSim c c') : CSim (merge c) (merge c') :=
  ⟨by unfold merge; rw [h.blocks], h.state.setFork _, h.chainId⟩

theorem run_sim {C : Crypto} {K : Hashes} (F : PowFork) (hk : F.fork.since .byzantium = true ∨ CollisionFree C) (id : U64)
    (blocks : List (PowBlock Txs)) (hd : PowHeader) (txs : Txs) {s s' : State} (h : SSim s s') :
    ESim (fun x y => SSim x.1 y.1 ∧ x.2 = y.2) ((evmExec C K).run F id blocks hd txs s) ((evmExec C K).run F id blocks hd txs s') := by
  unfold evmExec
  dsimp only
  have hm := processTransactions_sim (C := C) (powEnvOf K id blocks hd) txs (b := ⟨{ s with fork := F.fork }, BlockOutput.empty⟩)
    (b' := ⟨{ s' with fork := F.fork }, BlockOutput.empty⟩) 0 ⟨h.setFork _, rfl⟩ hk
  revert hm
  rcases processTransactions C (powEnvOf K id blocks hd) ⟨{ s with fork := F.fork }, BlockOutput.empty⟩ 0 txs with ⟨e, b⟩ | b <;>
    rcases processTransactions C (powEnvOf K id blocks hd) ⟨{ s' with fork := F.fork }, BlockOutput.empty⟩ 0 txs with ⟨e', b'⟩ | b' <;> intro hm
  · exact hm.1
  · cases hm
  · cases hm
  · obtain ⟨⟨h1, h2⟩, -⟩ := hm
    dsimp only
    rw [h2]
    split
    · exact ⟨h1, rfl⟩
    · exact rfl
    · exact rfl

/-- **Mined blocks.** -/
theorem powTransition_sim {C : Crypto} {K : Hashes} (F : PowFork) {c c' : PowChain Txs} (h : PSim c c')
    (hk : F.fork.since .byzantium = true ∨ CollisionFree C) (blk : PowBlock Txs)
    (hd : ∀ s r t, (evmExec C K).run F c.chainId c.blocks blk.header blk.transactions c.state = .ok (s, r) →
      payRewards F s blk.header.number blk.header.coinbase blk.ommers = .ok t → KeysDiffer C t) :
    ESim PSim (Pow.stateTransition K (evmExec C K) F c blk) (Pow.stateTransition K (evmExec C K) F c' blk) := by
  obtain ⟨blocks, s, id⟩ := c
  obtain ⟨blocks', s', id'⟩ := c'
  obtain ⟨h1, h2, h3⟩ := h
  dsimp only at h1 h2 h3 hd
  subst h1 h3
  unfold Pow.stateTransition
  dsimp only
  split
  · exact rfl
  · split
    · exact rfl
    · have hm := run_sim (C := C) (K := K) F hk id blocks blk.header blk.transactions h2
      revert hm hd
      rcases (evmExec C K).run F id blocks blk.header blk.transactions s with e | ⟨t, r⟩ <;>
        rcases (evmExec C K).run F id blocks blk.header blk.transactions s' with e' | ⟨t', r'⟩ <;> intro hd hm
      · exact hm
      · cases hm
      · cases hm
      · obtain ⟨h4, rfl⟩ := hm
        dsimp only at h4 ⊢
        have hm := payRewards_sim F h4 blk.header.number blk.header.coinbase blk.ommers
        have hd := hd t r
        revert hm hd
        cases payRewards F t blk.header.number blk.header.coinbase blk.ommers <;>
          cases payRewards F t' blk.header.number blk.header.coinbase blk.ommers <;> intro hm hd
        · cases hm; exact rfl
        · cases hm
        · cases hm
        · rename_i u u'
          have h5 : SSim u u' := hm
          have hr : (evmExec C K).stateRoot u = (evmExec C K).stateRoot u' := h5.root fun _ => hd u rfl rfl
          dsimp only
          rw [hr]
          split
          · exact rfl
          · repeat' first | exact rfl | split
            exact ⟨rfl, h5, rfl⟩

end Verif.Pow
