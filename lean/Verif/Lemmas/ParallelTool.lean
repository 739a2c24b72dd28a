import Verif.Lemmas.ParallelChain
import Verif.Lemmas.T8nDrop
/-! The transition tool cannot tell alike states apart (for C85). -/
namespace Verif.T8n
open Verif Spec Verif.Props Verif.Pow Ethash Dao

variable {C : Crypto} {B : BlockEnv}

structure GSim (p p' : Progress) : Prop where
  b : BSim p.b p'.b
  rejected : p.rejected = p'.rejected

theorem restore_sim {b b' s s' : State} (hb : SSim b b') (hs : SSim s s') : SSim (restoreState b s) (restoreState b' s') :=
  ⟨hs.fork, hb.main, hb.storage, hs.snaps, hs.created⟩

theorem runTxs_sim {f : Fork} (hB : BlockFits f B) (hk : f.since .byzantium = true ∨ CollisionFree C) :
    ∀ (txs : List (Nat × Transaction)) (p p' : Progress), p.b.state.fork = f → ToolInv B p.b → Given f txs → GSim p p' →
    XSim GSim GSim (runTxs C B p txs) (runTxs C B p' txs) := by
  intro txs
  induction txs with
  | nil => intro p p' _ _ _ h; exact h
  | cons x r ih =>
    obtain ⟨i, tx⟩ := x
    intro p p' hf hp hg h
    have hg' : Given f r := fun y hy => hg y (List.mem_cons_of_mem _ hy)
    have hx := hg (i, tx) List.mem_cons_self
    have hm := processTransaction_sim (C := C) B h.b (by rw [hf]; exact hk) tx i
    unfold runTxs
    match h1 : processTransaction C B p.b tx i, h2 : processTransaction C B p'.b tx i with
    | .ok b1, .error y => rw [h1, h2] at hm; cases hm
    | .error y, .ok b1 => rw [h1, h2] at hm; cases hm
    | .ok b1, .ok b2 =>
      rw [h1, h2] at hm
      obtain ⟨sender, msg, o, w, s1, s2, hr⟩ := processTransaction_ok.mp h1
      exact ih ⟨b1, p.rejected⟩ ⟨b2, p'.rejected⟩ ((ran_fork hr).trans hf) (tool_of_ran (by rw [hf]; exact hB) (by rw [hf]; exact hx.1) hp hr) hg'
        ⟨hm.1, h.rejected⟩
    | .error (e, b1), .error (e', b2) =>
      rw [h1, h2] at hm
      obtain ⟨rfl, hb⟩ := hm
      dsimp only
      refine xsim_ite (fun hc => ?_) fun _ => ⟨rfl, ⟨hb, h.rejected⟩⟩
      rcases rejected hp.inv.quiet (by rw [hf]; exact hB) hp.inv.fits hp.inv.within hx.2 h1 with ⟨-, rfl, -⟩ | ⟨ht, -⟩
      · exact ih _ _ hf (tool_recorded hp) hg' ⟨⟨restore_sim h.b.state hb.state, hb.out⟩, by rw [h.rejected]⟩
      · rw [caught_tolerated ht] at hc; cases hc

theorem payBlockRewards_sim {s s' : State} (h : SSim s s') (n : Word) (a : Address) (l : List Ommer) :
    XSim SSim SSim (payBlockRewards n s a l) (payBlockRewards n s' a l) := by
  unfold payBlockRewards
  split
  · exact ⟨rfl, h⟩
  · rename_i p _
    have hm : ESim SSim (createEther s a p) (createEther s' a p) := modify_sim h _ _
    revert hm
    cases createEther s a p <;> cases createEther s' a p <;> intro hm
    · cases hm; exact ⟨rfl, h⟩
    · cases hm
    · cases hm
    · cases l with
      | nil => exact hm
      | cons o r => exact ⟨rfl, hm⟩

theorem payReward_sim {s s' : State} (h : SSim s s') (r : Option Int) (a : Address) (l : List Ommer) :
    XSim SSim SSim (payReward r s a l) (payReward r s' a l) := by
  unfold payReward
  rw [h.fork]
  split
  · exact h
  · split
    · exact payBlockRewards_sim h _ _ _
    · refine xsim_ite (fun _ => h) fun _ => xsim_ite (fun _ => ⟨rfl, h⟩) fun _ => payBlockRewards_sim h _ _ _

theorem finishBody_sim (f : Fork) (ws : List Withdrawal) {b b' : BlockState} (h : BSim b b') :
    XSim BSim BSim (finishBody C B f ws b) (finishBody C B f ws b') := by
  unfold finishBody
  have hm : XSim (ε := BlockExn) BSim BSim (if f.since .shanghai then processWithdrawals b ws else .ok b)
      (if f.since .shanghai then processWithdrawals b' ws else .ok b') := by
    split
    · exact withdrawals_sim ws 0 h
    · exact h
  revert hm
  rcases (if f.since .shanghai then processWithdrawals b ws else .ok b) with ⟨e, x⟩ | x <;>
    rcases (if f.since .shanghai then processWithdrawals b' ws else .ok b') with ⟨e', x'⟩ | x' <;> intro hm
  · exact hm
  · cases hm
  · cases hm
  · have h4 : BSim x x' := hm
    dsimp only
    split
    · exact requests_sim C B h4
    · exact h4

theorem update_sim {q q' : Progress} (h : GSim q q') (hk : KeysDiffer C q.b.state) (x : Bool) : update C B q x = update C B q' x := by
  unfold update
  rw [commitments_sim h.b fun _ => hk, h.b.out, h.b.state.fork, h.rejected]

theorem ok_of_xsim {ε σ α : Type} {Q : σ → σ → Prop} {R : α → α → Prop} {x x' : Except (ε × σ) α} {a : α} (h : XSim Q R x x') (hx : x = .ok a) :
    ∃ a', x' = .ok a' ∧ R a a' := by
  subst hx
  cases x' with
  | ok a' => exact ⟨a', rfl, h⟩
  | error e => cases h

theorem error_of_xsim {ε σ α : Type} {Q : σ → σ → Prop} {R : α → α → Prop} {x x' : Except (ε × σ) α} {e : ε} {a : σ} (h : XSim Q R x x')
    (hx : x = .error (e, a)) : ∃ a', x' = .error (e, a') ∧ Q a a' := by
  subst hx
  cases x' with
  | ok a' => cases h
  | error e' => obtain ⟨e', a'⟩ := e'; obtain ⟨rfl, h⟩ := h; exact ⟨a', rfl, h⟩

/-- **The tool.** -/
theorem runBlockchainTest_sim {r : Option Int} {om : List Ommer} {ws : List Withdrawal} {s s' t : State} {txs : List (Nat × Transaction)} {res : Result}
    (hn : 1 ≤ B.number) (hB : BlockFits s.fork B) (hs : Quiet s) (hS : StateFits s) (hg : Given s.fork txs)
    (hk : s.fork.since .byzantium = true ∨ CollisionFree C) (h : runBlockchainTest C B r om ws s txs = .ok (t, res)) (hd : KeysDiffer C t) (hsim : SSim s s') :
    ∃ t', runBlockchainTest C B r om ws s' txs = .ok (t', res) ∧ SSim t t' := by
  obtain ⟨q, x, s1, s2, p, s3, he, rfl, hu⟩ := ended_of_run hn hB hs hS hg h
  obtain ⟨s1', h1, k1⟩ := ok_of_xsim (parent_sim C B hsim) he.history
  obtain ⟨s2', h2, k2⟩ := ok_of_xsim (beacon_sim C B k1) he.roots
  have hsim2 := runTxs_sim (C := C) hB hk txs ⟨⟨s2, BlockOutput.empty⟩, []⟩ ⟨⟨s2', BlockOutput.empty⟩, []⟩ he.begun.fork
    (empty_inv he.begun.quiet he.begun.fits) hg ⟨⟨k2, rfl⟩, rfl⟩
  obtain ⟨p', h3, k3⟩ := ok_of_xsim hsim2 he.transactions
  obtain ⟨s3', h4, k4⟩ := ok_of_xsim (payReward_sim k3.b.state r B.coinbase om) he.reward
  have hfs := finishBody_sim (C := C) (B := B) s.fork ws (b := { p.b with state := s3 }) (b' := { p'.b with state := s3' }) ⟨k4, k3.b.out⟩
  have hfin := runBody_finish (ws := ws) h1 h2 h3 h4
  have hrun := he.finish
  rw [← hsim.fork] at hfin
  cases x with
  | true =>
    rw [if_pos rfl] at hrun
    obtain ⟨b', h5, k5⟩ := error_of_xsim hfs hrun
    have hu' := update_sim (C := C) (B := B) (q := q) (q' := ⟨b', p'.rejected⟩) ⟨k5, he.rejected.trans k3.rejected⟩ hd true
    rw [h5] at hfin
    refine ⟨b'.state, ?_, k5.state⟩
    unfold runBlockchainTest
    rw [hfin]
    dsimp only
    rw [← hu', hu]
  | false =>
    rw [if_neg (by decide)] at hrun
    obtain ⟨b', h5, k5⟩ := ok_of_xsim hfs hrun
    have hu' := update_sim (C := C) (B := B) (q := q) (q' := ⟨b', p'.rejected⟩) ⟨k5, he.rejected.trans k3.rejected⟩ hd false
    rw [h5] at hfin
    refine ⟨b'.state, ?_, k5.state⟩
    unfold runBlockchainTest
    rw [hfin]
    dsimp only
    rw [← hu', hu]

end Verif.T8n
