import Verif.Lemmas.AllForks
/-! In every fork: an execution that schedules no account for deletion keeps the total of all balances. -/
namespace Verif

theorem selfdestruct_supplyEq {s s' : State} {self b : Address} (h : selfdestructState s self b = .ok s')
    (hd : s.mainTrie.default = none) (hk : selfdestructDeletes s self = false) : supply s' = supply s := by
  unfold selfdestructState at h
  by_cases hf : s.fork.since .cancun = true
  · simp only [hf, if_true] at h
    split at h
    · cases h
    · rename_i s1 hm
      have hsn := moveEther_snaps hm
      have hc : self ∉ s1.createdAccounts := by rw [hsn.2]; simpa [selfdestructDeletes, hf] using hk
      rw [if_neg hc] at h
      cases h
      exact supply_moveEther hd hm
  · simp [selfdestructDeletes, hf] at hk

theorem supply_modify {s : State} (hd : s.mainTrie.default = none) (a : Address) (f : Account → Account)
    (hf : ∀ x, (f x).balance = x.balance) : supply (modifyState' s a f) = supply s := by
  have := supply_modifyState' hd a f
  rw [hf] at this
  omega

/-- The end of a frame that started at `m`. -/
def EqPost (m : Mach) : Res Unit → Prop
  | .ok _ m' => m.world.state.mainTrie.default = none → m'.world.state.mainTrie.default = none ∧
      (m'.evm.accountsToDelete = [] → m.evm.accountsToDelete = [] ∧ supply m'.world.state = supply m.world.state)
  | .err _ _ => True

def SubEqs (pm : Sub) : Prop := ∀ msg w child w', pm msg w = .ok (child, w') → w.state.mainTrie.default = none →
  w'.state.mainTrie.default = none ∧ (child.error.isSome = true ∨ child.accountsToDelete = [] → supply w'.state = supply w.state)

def EqLoop (loop : Loop) : Prop := ∀ m, m.evm.stack.length ≤ 1024 → EqPost m (loop m)

theorem step_eqs {pm pcm : Sub} (hpm : SubEqs pm) (hpcm : SubEqs pcm) {m : Mach} {r : Res Unit} {k : Kind}
    (h : OpEffect k pm pcm m r) : EqPost m r := by
  have hinc : ∀ {m1 m2 : Mach} {child : Evm} {w : World} {w1 : State} (sub : Sub) (msg : Message), SubEqs sub →
      m1.evm.accountsToDelete = m.evm.accountsToDelete → m1.world.state = w1 →
      (m.world.state.mainTrie.default = none → w1.mainTrie.default = none ∧ supply w1 = supply m.world.state) →
      sub msg m1.world = .ok (child, w) → Incorporated m1 child w m2 → EqPost m (.ok () m2) := by
    intro m1 m2 child w w1 sub msg hs hdel hw1 hw hsub hinc hd
    have h0 := hw hd
    rw [← hw1] at h0
    have h1 := hs _ _ _ _ hsub h0.1
    rw [hinc.world]
    refine ⟨h1.1, fun hn => ?_⟩
    cases he : child.error.isSome with
    | true =>
      rw [(hinc.onError he).2.2.1, hdel] at hn
      exact ⟨hn, (h1.2 (.inl he)).trans h0.2⟩
    | false =>
      rw [(hinc.onSuccess he).2.2.1, hdel] at hn
      obtain ⟨a, b⟩ := setUpdate_nil hn
      exact ⟨a, (h1.2 (.inr b)).trans h0.2⟩
  cases h with
  | ok m' h hk strict => exact fun hd => ⟨by rw [h.world]; exact hd, fun hn => ⟨h.deleted ▸ hn, by rw [h.world]⟩⟩
  | err e m' h he => trivial
  | sstore hk m1 key new orig s' h hg _ _ _ hset =>
    have hm : s'.mainTrie = m.world.state.mainTrie := by unfold setStorage at hset; split at hset <;> cases hset; rfl
    exact fun hd => ⟨by simp only [hm]; exact hd, fun hn => ⟨by simp only at hn; rw [← h.deleted]; exact hn, by simp only [supply, hm]⟩⟩
  | tstore hk m1 key new h hg => exact fun hd => ⟨hd, fun hn => ⟨by simp only at hn; rw [← h.deleted]; exact hn, rfl⟩⟩
  | log hk m1 topics data h hg =>
    exact fun hd => ⟨by simp only [h.world]; exact hd, fun hn => ⟨by simp only at hn; rw [← h.deleted]; exact hn, by simp only [h.world]⟩⟩
  | selfdestruct hk m1 b s1 h hg _ hrun hmove =>
    intro hd
    refine ⟨(noMint_state.selfdestruct _ _ _ _ hmove hd).1, fun hn => ?_⟩
    simp only at hn
    split at hn
    · exact absurd hn (setAdd_ne_nil _ _)
    · rename_i hdel
      refine ⟨?_, selfdestruct_supplyEq hmove hd (by simpa using hdel)⟩
      cases hl : m.evm.accountsToDelete with
      | nil => rfl
      | cons x xs =>
        have : x ∈ m.sdBase := mem_sdBase_of (by rw [hl]; exact List.mem_cons_self ..)
        rw [hn] at this; cases this
  | collision hk m1 a h hg =>
    intro hd
    exact ⟨(modifyState'_default _ _ _).trans hd, fun hn => ⟨by simp only at hn; rw [← h.deleted]; exact hn, supply_modify hd _ _ fun _ => rfl⟩⟩
  | createErr hk m1 msg e w m' h hsub hw => trivial
  | create hk m1 msg child w m2 h hsub hi =>
    exact hinc (w1 := incrementNonce m.world.state m.self) pcm msg hpcm h.deleted (by rw [h.world]) (fun hd => ⟨(modifyState'_default _ _ _).trans hd, supply_modify hd _ _ fun _ => rfl⟩) hsub hi
  | callErr hk m1 msg e w m' h hsub hw => trivial
  | call hk m1 msg child w m2 h hsub hi =>
    exact hinc pm msg hpm h.locals.deleted (by rw [h.locals.world]) (fun hd => ⟨hd, rfl⟩) hsub hi
  | callOverflow hk m1 msg child w m' h hsub hlen => trivial

theorem executeCode_eqs {E : Env} {loop : Loop} {msg : Message} {w : World}
    (hl : EqPost ⟨initEvm msg, w⟩ (loop ⟨initEvm msg, w⟩)) {evm : Evm} {w2 : World}
    (h : executeCode E loop msg w = .ok (evm, w2)) (hd : w.state.mainTrie.default = none) (he : evm.error.isSome = false) :
    w2.state.mainTrie.default = none ∧ (evm.accountsToDelete = [] → supply w2.state = supply w.state) := by
  unfold executeCode at h
  simp only at h
  have key : ∀ r : Res Unit, EqPost ⟨initEvm msg, w⟩ r → catchFrame r = .ok (evm, w2) →
      w2.state.mainTrie.default = none ∧ (evm.accountsToDelete = [] → supply w2.state = supply w.state) := by
    intro r hr hc
    match r with
    | .ok _ m' => cases hc; exact ⟨(hr hd).1, fun hn => ((hr hd).2 hn).2⟩
    | .err (.halt x) m' => cases hc; simp at he
    | .err .revert m' => cases hc; simp at he
    | .err (.crash c) m' => cases hc
    | .err .outOfFuel m' => cases hc
  match hpre : precompileOf E w.state.fork msg with
  | some p =>
    simp only [hpre] at h
    split at h
    · cases h; exact ⟨hd, fun _ => rfl⟩
    · have hp : Pres p := by
        unfold precompileOf at hpre
        split at hpre
        · cases hpre
        · exact pres_precompile _ _ _ _ hpre
      refine key _ ?_ h
      have := hp.run ⟨initEvm msg, w⟩
      revert this
      match p ⟨initEvm msg, w⟩ with
      | .ok _ m' =>
        intro h hd'
        have hw : m'.world = w := h.world
        exact ⟨by rw [hw]; exact hd', fun hn => ⟨h.deleted ▸ hn, by rw [hw]⟩⟩
      | .err e m' => intro _; trivial
  | none => simp only [hpre] at h; exact key _ hl h

theorem processMessage_eqs {E : Env} {loop : Loop} (hs : SnapLoop loop) (hl : EqLoop loop) : SubEqs (processMessage E loop) := by
  intro msg w child w' h hd
  have hsnap := processMessage_snap' hs h
  cases he : child.error.isSome with
  | true =>
    have := hsnap.2 he
    exact ⟨by rw [this.1]; exact hd, fun _ => sameContents_supply this⟩
  | false =>
    unfold processMessage at h
    split at h
    · cases h
    · simp only at h
      split at h
      · cases h
      · rename_i s hst
        have h0 := noMint_state.touch (beginTransaction w).state msg.currentTarget hd
        have h0' : supply (touchIn (beginTransaction w).state msg.currentTarget) = supply w.state := supply_touchIn (s := (beginTransaction w).state) hd _
        have h1 : s.mainTrie.default = none ∧ supply s = supply w.state := by
          split at hst
          · exact ⟨(moveEther_default hst).trans h0.1, (supply_moveEther h0.1 hst).trans h0'⟩
          · cases hst; exact ⟨h0.1, h0'⟩
        have hsn : s.snapshots = (beginTransaction w).state.snapshots ∧ s.fork = (beginTransaction w).state.fork := by
          split at hst
          · exact ⟨(moveEther_snaps hst).1.trans (touchIn_snapshots _ _), (moveEther_fork hst).trans (touchIn_fork _ _)⟩
          · cases hst; exact ⟨touchIn_snapshots _ _, touchIn_fork _ _⟩
        split at h
        · cases h
        · rename_i evm w2 hx
          have hxs := executeCode_snap (hs _ (Nat.zero_le _)) hx
          have hss : SameSnaps w2 (beginTransaction w) := ⟨hxs.1.trans hsn.1, hxs.2.1, hxs.2.2.trans hsn.2⟩
          split at h
          · cases h
          · rename_i w3 hr
            cases h
            have hx' := executeCode_eqs (hl _ (Nat.zero_le _)) hx h1.1 he
            rw [if_neg (by simp [he])] at hr
            obtain ⟨w4, e, hc, -, -⟩ := commit_ok hss
            rw [e] at hr; cases hr
            refine ⟨by rw [hc.1]; exact hx'.1, fun hn => ?_⟩
            rcases hn with hn | hn
            · cases hn
            · rw [sameContents_supply hc, hx'.2 hn]; exact h1.2

theorem createStart_supply (w : World) (t : Address) (hd : w.state.mainTrie.default = none) :
    (createStart w t).state.mainTrie.default = none ∧ supply (createStart w t).state = supply w.state := by
  unfold createStart startNonce
  simp only
  split
  · exact ⟨(modifyState'_default _ _ _).trans hd, supply_modify (s := markAccountCreated (destroyStorage (beginTransaction w).state t) t) hd _ _ fun _ => rfl⟩
  · exact ⟨hd, rfl⟩

theorem processCreateMessage_eqs {E : Env} {loop : Loop} (hs : SnapLoop loop) (hl : EqLoop loop) : SubEqs (processCreateMessage E loop) := by
  intro msg w child w' h hd
  have hsnap := processCreateMessage_snap' hs h
  cases he : child.error.isSome with
  | true =>
    have := hsnap.2 he
    exact ⟨by rw [this.1]; exact hd, fun _ => sameContents_supply this⟩
  | false =>
    have hst := createStart_supply w msg.currentTarget hd
    unfold processCreateMessage at h
    split at h
    · cases h
    · rename_i evm w2 hx
      have h1 := processMessage_eqs hs hl _ _ _ _ hx hst.1
      have hxs := (processMessage_snap' hs hx).1
      have hss := SameSnaps.trans hxs (createStart_snaps w msg.currentTarget)
      split at h
      · rename_i hh
        split at h <;> cases h
        rw [he] at hh; cases hh
      · split at h
        · split at h
          · split at h <;> cases h
            simp at he
          · obtain ⟨w4, e, hc, hs4, _⟩ := commit_ok hss
            rw [e] at h; cases h
            refine ⟨by rw [hc.1]; exact h1.1, fun hn => ?_⟩
            rw [sameContents_supply hc, h1.2 (.inr (hn.resolve_left (by simp)))]; exact hst.2
        · simp only at h
          have hss3 : SameSnaps { w2 with state := setCode w2.state msg.currentTarget evm.output } (beginTransaction w) :=
            ⟨by simpa [setCode] using hss.1, hss.2.1, by simpa [setCode] using hss.2.2⟩
          obtain ⟨w4, e, hc, hs4, _⟩ := commit_ok hss3
          rw [e] at h; cases h
          refine ⟨by rw [hc.1]; exact (modifyState'_default _ _ _).trans h1.1, fun hn => ?_⟩
          rw [sameContents_supply hc]
          simp only
          rw [show supply (setCode w2.state msg.currentTarget evm.output) = supply w2.state from supply_modify h1.1 _ _ fun _ => rfl,
            h1.2 (.inr (hn.resolve_left (by simp)))]
          exact hst.2

theorem run_eqs (E : Env) : ∀ n, EqLoop (run E n) := by
  intro n
  induction n with
  | zero => intro m _; trivial
  | succ n ih =>
    intro m hs
    rw [run]; unfold loopBody
    by_cases hr : m.evm.running = true
    · simp only [hr, if_true]
      match hb : m.evm.code[m.evm.pc]? with
      | none => exact fun hd => ⟨hd, fun hn => ⟨hn, rfl⟩⟩
      | some b =>
        simp only
        match decodeOpIn m.world.state.fork b with
        | none => trivial
        | some op =>
          simp only
          have heff := opStep_effect E (processMessage E (run E n)) (processCreateMessage E (run E n)) op m hs
          have h := step_eqs (processMessage_eqs (E := E) (run_snap E n) ih) (processCreateMessage_eqs (E := E) (run_snap E n) ih) heff
          have hg := step_gas (processMessage_gas (run_gas E n)) (processCreateMessage_gas (run_gas E n))
            (processMessage_uncaught E _) (processCreateMessage_uncaught E _) heff
          revert h hg
          match opStep E (processMessage E (run E n)) (processCreateMessage E (run E n)) op m with
          | .err e m' => intro _ _; trivial
          | .ok _ m' =>
            intro h hg
            have h2 := ih m' (hg.1.2 hs)
            revert h2
            simp only
            match run E n m' with
            | .ok _ m2 =>
              intro h2 hd
              have a := h hd
              have b := h2 a.1
              exact ⟨b.1, fun hn => ⟨(a.2 (b.2 hn).1).1, (b.2 hn).2.trans (a.2 (b.2 hn).1).2⟩⟩
            | .err e m2 => intro _; trivial
    · simp only [hr, if_false, Bool.false_eq_true]
      exact fun hd => ⟨hd, fun hn => ⟨hn, rfl⟩⟩

theorem exec_eqs (E : Env) : EqLoop (exec E) := fun m hs => run_eqs E _ m hs

/-- A whole top-level message. -/
theorem top_eqs {E : Env} {msg : Message} {w w' : World} {out : MessageCallOutput} (hw : w.WF)
    (h : processMessageCall E msg w = .ok (out, w')) (hn : out.accountsToDelete = []) : supply w'.state = supply w.state := by
  have hout : ∀ {r : Word} {evm : Evm} {o : MessageCallOutput}, messageCallOutput r evm = .ok o → o.accountsToDelete = [] →
      evm.error.isSome = true ∨ evm.accountsToDelete = [] := by
    intro r evm o ho hz
    unfold messageCallOutput at ho
    split at ho
    · rename_i he; exact .inl he
    · split at ho
      · cases ho
      · split at ho
        · cases ho; exact .inr hz
        · cases ho
  unfold processMessageCall at h
  rw [processMessageCallWith_eq] at h
  split at h
  · cases h
  · rename_i r msg1 s1 ha
    have hs1 := (authorized_rel ha).1
    split at h
    · split at h
      · cases h; rfl
      · split at h
        · cases h
        · rename_i evm w1 hx
          split at h
          · cases h
          · rename_i o ho
            cases h
            exact (processCreateMessage_eqs (exec_snap E) (exec_eqs E) _ _ _ _ hx hw.state.main.1).2 (hout ho hn)
    · split at h
      · cases h
      · rename_i evm w1 hx
        split at h
        · cases h
        · rename_i o ho
          cases h
          rw [(processMessage_eqs (exec_snap E) (exec_eqs E) _ _ _ _ hx (hs1.wf hw.state).main.1).2
            (hout (evm := { evm with touchedAccounts := Spec.topTouched _ _ evm }) ho hn)]
          exact hs1.supply hw.state

open Spec Verif.Props in
/-- `supply_all` is exact when no account is deleted. -/
theorem supply_all_eq {C : Crypto} {B : BlockEnv} {b b' : BlockState} {tx : Transaction} {i : Nat} {sender : Address}
    {msg : Message} {o : MessageCallOutput} {w : World} {s1 s2 : State} (hq : Quiet b.state)
    (h : Ran C B b tx i b' sender msg o w s1 s2) (hn : o.accountsToDelete = []) :
    supply b'.state + (gasCharged b.state.fork tx o * B.baseFeePerGas + blobFee b.state.fork B tx) = supply b.state := by
  have hw := hq.wf
  have hpw : (prepaid B b.state tx sender).WF := prepaid_wf hw
  have hqw : Quiet w.state := top_quiet (w := ⟨prepaid B b.state tx sender, TransientStorage.empty⟩)
    ⟨hpw, (prepaid_snapshots ..).trans hq.snapshots, (prepaid_created ..).trans hq.created⟩ h.run
  have hww := hqw.wf
  have heq := top_eqs (w := ⟨prepaid B b.state tx sender, TransientStorage.empty⟩) ⟨hpw, TransientStorage.empty_wf⟩ h.run hn
  have hpre := supply_prepaid hw h.includable
  have r1 := (refundSender_ok h.refund).2
  have r2 := (payCoinbase_ok h.pay).2
  have q1 := r1.supply hww
  have q2 := r2.supply (r1.wf hww)
  have hd := finalDeletions_ok s2 o
  have d8 := hd.supplyEq (r2.wf (r1.wf hww)) hn
  have hu : gasCharged b.state.fork tx o ≤ tx.gas := gasCharged_le o h.includable.valid.floor
  have e : (tx.gas - gasCharged b.state.fork tx o) * price B.baseFeePerGas tx + gasCharged b.state.fork tx o * tip B.baseFeePerGas tx +
      gasCharged b.state.fork tx o * B.baseFeePerGas = tx.gas * price B.baseFeePerGas tx := by
    rw [Nat.add_assoc, ← Nat.mul_add, show tip B.baseFeePerGas tx + B.baseFeePerGas = price B.baseFeePerGas tx by unfold price; omega,
      ← Nat.add_mul]
    congr 1; omega
  have hres : b'.state = finalDeletions s2 o := by rw [h.result]
  rw [hres]
  simp only at heq
  omega

end Verif
