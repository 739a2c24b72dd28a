import Verif.Lemmas.Exec
import Verif.Lemmas.Touch
import Verif.Lemmas.StateProg
/-! Messages: `execute_code`, `process_message`, `process_create_message`, and the induction on the fuel. -/
namespace Verif

theorem SameSnaps.refl (w : World) : SameSnaps w w := ⟨rfl, rfl, rfl⟩
theorem SameSnaps.trans {a b c : World} (h : SameSnaps a b) (h' : SameSnaps b c) : SameSnaps a c :=
  ⟨h.1.trans h'.1, h.2.1.trans h'.2.1, h.2.2.trans h'.2.2⟩

structure ExecOut (msg : Message) (w : World) (evm : Evm) (w2 : World) : Prop where
  rel : WRel w w2
  message : evm.message = msg
  gas : evm.gasLeft ≤ msg.gas
  good : evm.error = none → FRel ⟨initEvm msg, w⟩ ⟨evm, w2⟩

theorem catchFrame_ok {msg : Message} {w : World} {r : Res Unit}
    (h : StepPost ⟨initEvm msg, w⟩ r) :
    match catchFrame r with
    | .ok (evm, w2) => ExecOut msg w evm w2
    | .error (e, _) => ¬ Caught e := by
  match r with
  | .ok _ m' => exact ⟨h.w, h.frame.message, h.gas, fun _ => h⟩
  | .err (.halt x) m' =>
    have h := h trivial
    exact ⟨h.w, h.message, Nat.zero_le _, by simp⟩
  | .err .revert m' =>
    have h := h trivial
    exact ⟨h.w, h.message, h.gas, by simp⟩
  | .err (.crash c) m' => exact id
  | .err .outOfFuel m' => exact id

theorem executeCode_ok {E : Env} {loop : Loop} (hl : LoopOK loop) {msg : Message} {w : World}
    (hp : Pre ⟨initEvm msg, w⟩) :
    match executeCode E loop msg w with
    | .ok (evm, w2) => ExecOut msg w evm w2
    | .error (e, _) => ¬ Caught e := by
  unfold executeCode
  simp only
  match hpre : precompileOf E w.state.fork msg with
  | some p =>
    simp only
    by_cases hd : msg.disablePrecompiles = true
    · simp only [hd, if_true]
      exact ⟨WRel.refl _, rfl, Nat.le_refl _, fun _ => FRel.refl _⟩
    · simp only [hd, if_false, Bool.false_eq_true]
      apply catchFrame_ok
      have hp : Pres p := by
        unfold precompileOf at hpre
        split at hpre
        · cases hpre
        · exact pres_precompile _ _ _ _ hpre
      have := hp.run ⟨initEvm msg, w⟩
      revert this
      match p ⟨initEvm msg, w⟩ with
      | .ok _ m' => intro h; exact Loc.frel h
      | .err e m' => intro h _; exact (Loc.frel h).errRel
  | none => exact catchFrame_ok (hl _ hp)

theorem cleared_commit {w w3 w4 : World} (hw3 : w3.WF) (hs : SameSnaps w3 (beginTransaction w))
    (he : commitTransaction w3 = .ok w4) : cleared w4.state ≤ cleared w3.state := by
  obtain ⟨w', e, hc, hss, hcre⟩ := commit_ok hs
  rw [e] at he; cases he
  match hq : w.state.snapshots with
  | [] => rw [cleared_nil (by rw [hss.1, hq])]; exact Nat.zero_le _
  | x :: r =>
    have ho : origTries w4.state = origTries w3.state := by
      unfold origTries; rw [hss.1, hs.1]; simp [beginTransaction, hq, List.getLast?_cons_cons]
    have ho' : origSlots w4.state = origSlots w3.state := by unfold origSlots; rw [ho]
    have hcr : w4.state.createdAccounts = w3.state.createdAccounts := by rw [hcre, hq]; rfl
    have : isCleared w4.state = isCleared w3.state := by
      funext p; simp only [isCleared, hcr, sameContents_stor hc, Owned, sameContents_owned hc]
    unfold cleared
    rw [ho', this]; exact Nat.le_refl _

theorem cleared_rollback {w w3 w4 : World} (hw : w.WF) (hs : SameSnaps w3 (beginTransaction w))
    (hcr : ∀ a ∈ w.state.createdAccounts, a ∈ w3.state.createdAccounts)
    (he : rollbackTransaction w3 = .ok w4) : cleared w4.state ≤ cleared w.state := by
  obtain ⟨w', e, hc, hss, hcre⟩ := rollback_ok hs
  rw [e] at he; cases he
  match hq : w.state.snapshots with
  | [] => rw [cleared_nil (by rw [hss.1, hq])]; exact Nat.zero_le _
  | x :: r =>
    refine cleared_le hw.state hss.1 (fun a ha => ?_) (fun a k _ ho h => by
      rw [sameContents_stor hc] at h; rw [Owned, sameContents_owned hc] at ho; exact ⟨ho, h⟩)
    rw [hcre, hq]; exact hcr a ha

theorem commit_created {w w3 w4 : World} (hs : SameSnaps w3 (beginTransaction w))
    (he : commitTransaction w3 = .ok w4) (hne : w.state.snapshots ≠ []) :
    w4.state.createdAccounts = w3.state.createdAccounts := by
  obtain ⟨w', e, hc, hss, hcre⟩ := commit_ok hs
  rw [e] at he; cases he
  rw [hcre]
  cases hq : w.state.snapshots with
  | nil => exact absurd hq hne
  | cons x r => rfl

/-- The part of `process_message` before `execute_code`. -/
theorem transfer_ok {msg : Message} {w : World} (hp : PreMsg msg w) {s : State}
    (h : (if msg.shouldTransferValue = true ∧ msg.value ≠ 0
           then moveEther (touchIn (beginTransaction w).state msg.currentTarget) msg.caller msg.currentTarget msg.value
           else .ok (touchIn (beginTransaction w).state msg.currentTarget)) = .ok s) :
    WCore w { beginTransaction w with state := s } ∧
    s.snapshots = (beginTransaction w).state.snapshots ∧ s.createdAccounts = w.state.createdAccounts ∧
    supply s = supply w.state ∧ cleared s ≤ cleared w.state ∧
    ((msg.shouldTransferValue = true → msg.value = 0 ∨ (msg.currentTarget = msg.caller ∧ Owned w.state msg.caller)) →
      StaticReads { beginTransaction w with state := s } w) := by
  have hcore0 : WCore w { beginTransaction w with state := touchIn (beginTransaction w).state msg.currentTarget } :=
    (WCore.begin w).trans (wcore_touchIn (beginTransaction w) _)
  have hsup0 : supply (touchIn (beginTransaction w).state msg.currentTarget) = supply w.state :=
    supply_touchIn (hp.wf.begin).state.main.1 _
  have hcl0 : cleared (touchIn (beginTransaction w).state msg.currentTarget) ≤ cleared w.state :=
    Nat.le_trans (cleared_touchIn hp.wf.begin.state _) (cleared_begin hp.wf)
  have hst0 : StaticReads { beginTransaction w with state := touchIn (beginTransaction w).state msg.currentTarget } w :=
    ⟨by simp [beginTransaction], ⟨fun a => by rw [touchIn_account]; rfl,
      fun a k => by rw [touchIn_storage]; rfl, fun a k => rfl⟩,
      fun hpa => by rw [touchIn_paris _ (by exact hpa)]; exact (begin_contents w).sameReads⟩
  by_cases hc : msg.shouldTransferValue = true ∧ msg.value ≠ 0
  · rw [if_pos hc] at h
    have hstor := @moveEther_storage _ _ _ _ _ h
    have hsn := moveEther_snaps h
    have hwf0 := (hp.wf.begin).state.touchIn msg.currentTarget
    refine ⟨hcore0.trans (WCore.moveEther (w := { beginTransaction w with
        state := touchIn (beginTransaction w).state msg.currentTarget }) h), by rw [hsn.1]; simp, by rw [hsn.2]; simp [beginTransaction], ?_, ?_, ?_⟩
    · rw [supply_moveEther hwf0.main.1 h]; exact hsup0
    · refine Nat.le_trans (cleared_le hwf0 hsn.1 (fun a ha => by rw [hsn.2]; exact ha)
        (fun a k _ ho hk => by
          rw [Owned, moveEther_owned h] at ho; rw [hstor ho] at hk; exact ⟨ho, hk⟩)) hcl0
    · intro hs
      rcases hs hc.1 with h0 | h0
      · exact absurd h0 hc.2
      · obtain ⟨h0, hown⟩ := h0
        have hown : Owned (touchIn (beginTransaction w).state msg.currentTarget) msg.caller := by
          rw [Owned, touchIn_hasCodeOrNonce]; exact hown
        refine StaticReads.trans (b := { beginTransaction w with state := touchIn (beginTransaction w).state msg.currentTarget }) ?_ hst0
        clear hst0 hsup0 hcl0 hcore0 hstor hsn hwf0
        generalize touchIn (beginTransaction w).state msg.currentTarget = s0 at h hown ⊢
        rw [h0] at h
        exact SameReads.static (moveEther_fork h) ⟨fun a => moveEther_self hown h a, fun a k => moveEther_self_storage hown h a k, fun a k => rfl⟩
  · rw [if_neg hc] at h; cases h
    exact ⟨hcore0, by simp, by simp [beginTransaction], hsup0, hcl0, fun _ => hst0⟩

theorem processMessage_ok {E : Env} {loop : Loop} (hl : LoopOK loop) : SubOK (processMessage E loop) := by
  intro msg w hp
  unfold processMessage
  have hd : ¬ (msg.depth > STACK_DEPTH_LIMIT) := Nat.not_lt.mpr hp.depth
  rw [if_neg hd]
  simp only
  match htr : (if msg.shouldTransferValue = true ∧ msg.value ≠ 0
           then moveEther (touchIn (beginTransaction w).state msg.currentTarget) msg.caller msg.currentTarget msg.value
           else .ok (touchIn (beginTransaction w).state msg.currentTarget)) with
  | .error c => exact id
  | .ok s =>
    simp only
    obtain ⟨hcore, hsn, hcr, hsup, hcl, hsame⟩ := transfer_ok hp htr
    have hne : s.snapshots ≠ [] := by rw [hsn]; simp [beginTransaction]
    have hpre : Pre ⟨initEvm msg, { beginTransaction w with state := s }⟩ :=
      ⟨hcore.wf hp.wf, hne, Nat.zero_le _, fun hc => hcore.owned (hp.alive hc), rfl, hp.depth,
       fun hc hf => (hp.coded hc (by rw [← hcore.fork]; exact hf)).mono hcore (fun a ha => by show a ∈ s.createdAccounts; rw [hcr]; exact ha),
       by rw [hcore.fork]; exact hp.fork, fun a ha => absurd ha (by simp [initEvm]),
       fun a ha => (hp.parents a ha).mono hcore (fun a ha => by show a ∈ s.createdAccounts; rw [hcr]; exact ha)⟩
    have hx := executeCode_ok (E := E) hl hpre
    revert hx
    match executeCode E loop msg { beginTransaction w with state := s } with
    | .error (e, w2) => exact id
    | .ok (evm, w2) =>
      intro hx
      simp only at hx ⊢
      have hss : SameSnaps w2 (beginTransaction w) := ⟨hx.rel.snaps.1.trans hsn, hx.rel.snaps.2.1, hx.rel.fork.trans hcore.fork⟩
      have hcore2 := hcore.trans hx.rel.toWCore
      have hcr2 : ∀ a ∈ w.state.createdAccounts, a ∈ w2.state.createdAccounts := fun a ha =>
        hx.rel.created hne a (by rw [hcr]; exact ha)
      by_cases he : evm.error.isSome = true
      · simp only [he, if_true]
        match hr : rollbackTransaction w2 with
        | .error c => exact id
        | .ok w3 =>
          obtain ⟨hrel, hsc⟩ := wrel_rollback hcore2 hss hcr2 hr
          have hn : evm.error ≠ none := by intro h; simp [h] at he
          exact ⟨hrel, hx.message, hx.gas, fun h => absurd h hn, fun h => absurd h hn, fun _ => hsc,
            fun h => absurd h hn, fun h => absurd h hn, fun h => absurd h hn, fun h => absurd h hn,
            fun _ => cleared_rollback hp.wf hss hcr2 hr, fun _ _ => ⟨hsc.sameReads.static hrel.fork, fun h => absurd h hn⟩⟩
      · have hn : evm.error = none := by simpa using he
        simp only [he, Bool.false_eq_true, if_false]
        match hr : commitTransaction w2 with
        | .error c => exact id
        | .ok w3 =>
          obtain ⟨hrel, hsc⟩ := wrel_commit hcore2 hss hcr2 hr
          have hf := hx.good hn
          have hdel : ∀ a ∈ evm.accountsToDelete, Doomable w2.state a := by
            intro a ha
            rcases hf.delCreated a ha with h | h
            · simp [initEvm] at h
            · exact h
          refine ⟨hrel, hx.message, hx.gas, fun _ => hf.frame.addrs, fun _ => hf.frame.keys, by simp [hn],
            fun _ hne' a ha => ?_, fun _ a ha => (hdel a ha).fresh hcore2, fun _ hd => ?_, fun _ => ?_, by simp [hn], ?_⟩
          · exact (hdel a ha).same (commit_created hss hr hne') (hrel.fork.trans hcore2.fork.symm) (congrArg Account.code (sameContents_acc hsc a))
          · rw [sameContents_supply hsc]
            have := hf.supplyEq hd
            simp only at this
            rw [this, hsup]
          · have h1 := hf.refund
            have h2 := clearUnit_mono w.state.fork (cleared_commit (hcore2.wf hp.wf) hss hr)
            have h3 := clearUnit_mono w.state.fork hcl
            simp only [initEvm, hcore.fork] at h1
            rw [show s.fork = w.state.fork from hcore.fork] at h1
            omega
          · intro hst hv
            obtain ⟨a1, a2, a3⟩ := hf.static hst
            exact ⟨(hsc.sameReads.static (hrel.fork.trans hcore2.fork.symm)).trans (a1.trans (hsame hv)), fun _ => ⟨a2, a3⟩⟩

/-- Since spurious_dragon a new contract starts with nonce 1. -/
theorem createStart_since {w : World} (t : Address) (hs : w.state.fork.since .spuriousDragon = true) : createStart w t =
    { beginTransaction w with state := incrementNonce (markAccountCreated (destroyStorage (beginTransaction w).state t) t) t } := by
  unfold createStart startNonce
  rw [if_pos (show (markAccountCreated (destroyStorage (beginTransaction w).state t) t).fork.since .spuriousDragon = true from hs)]

@[simp] theorem startNonce_fork (s : State) (t : Address) : (startNonce s t).fork = s.fork := by
  unfold startNonce; split <;> simp [incrementNonce]
@[simp] theorem startNonce_snapshots (s : State) (t : Address) : (startNonce s t).snapshots = s.snapshots := by
  unfold startNonce; split <;> simp [incrementNonce]
@[simp] theorem startNonce_created (s : State) (t : Address) : (startNonce s t).createdAccounts = s.createdAccounts := by
  unfold startNonce; split <;> simp [incrementNonce]

theorem createStart_snaps (w : World) (t : Address) : SameSnaps (createStart w t) (beginTransaction w) :=
  ⟨by simp [createStart, markAccountCreated, destroyStorage], rfl, by simp [createStart, markAccountCreated, destroyStorage]⟩

theorem createStart_account (w : World) (t x : Address) (hx : t ≠ x) :
    getAccount (createStart w t).state x = getAccount w.state x := by
  unfold createStart startNonce
  split
  · unfold incrementNonce; simp only [getAccount_modifyState', hx, if_false]; rfl
  · rfl

theorem createStart_nonce {w : World} (t : Address) (hs : w.state.fork.since .spuriousDragon = true) :
    (getAccount (createStart w t).state t).nonce = (getAccount w.state t).nonce + 1 := by
  rw [createStart_since t hs]
  unfold incrementNonce
  simp only [getAccount_modifyState', if_true]; rfl

theorem createStart_ok {w : World} {t : Address} (hw : w.WF) (ht : ¬ Owned w.state t)
    (hs : w.state.fork.since .spuriousDragon = true) :
    WCore w (createStart w t) ∧ SameSnaps (createStart w t) (beginTransaction w) ∧
    (∀ a, a ∈ (createStart w t).state.createdAccounts ↔ a ∈ w.state.createdAccounts ∨ a = t) ∧
    supply (createStart w t).state = supply w.state ∧ cleared (createStart w t).state ≤ cleared w.state ∧
    Owned (createStart w t).state t := by
  have hcr : ∀ a, a ∈ (createStart w t).state.createdAccounts ↔ a ∈ w.state.createdAccounts ∨ a = t := by
    intro a
    simp [createStart_since t hs, incrementNonce, markAccountCreated, destroyStorage, mem_setAdd, beginTransaction]
  have hsup : supply (createStart w t).state = supply w.state := by
    rw [createStart_since t hs]
    exact (incNonce_supply (s := markAccountCreated (destroyStorage (beginTransaction w).state t) t)
      hw.begin.state.main.1 t)
  have hsn : SameSnaps (createStart w t) (beginTransaction w) := by
    rw [createStart_since t hs]
    refine ⟨?_, rfl, ?_⟩ <;> simp [incrementNonce, markAccountCreated, destroyStorage]
  have hstor : ∀ x k, x ≠ t → getStorage (createStart w t).state x k = getStorage w.state x k := by
    intro x k hx
    rw [createStart_since t hs]
    unfold incrementNonce
    simp only [getStorage_modifyState', Ne.symm hx, false_and, if_false]
    simp only [getStorage, markAccountCreated, destroyStorage, triesGet_del, Ne.symm hx, if_false, beginTransaction]
  refine ⟨⟨?_, ?_, ?_, fun _ => Nat.le_of_eq hsup, by simp [createStart_since t hs, incrementNonce, markAccountCreated, destroyStorage, beginTransaction]⟩, hsn, hcr, hsup, ?_, ?_⟩
  · intro h
    rw [createStart_since t hs]
    exact ⟨((h.begin.state.destroyStorage t).markAccountCreated t).incrementNonce t, h.begin.transient⟩
  · intro a ha
    rcases (hcr a).mp ha with h | h
    · exact .inl h
    · subst h; exact .inr ht
  · intro a ha
    have hne : t ≠ a := by intro h; subst h; exact ht ha
    rw [createStart_account _ _ _ hne]; exact ⟨rfl, Nat.le_refl _⟩
  · refine Nat.le_trans (cleared_le hw.begin.state hsn.1 (fun a ha => (hcr a).mpr (.inl ha)) ?_) (cleared_begin hw)
    intro a k ha ho hk
    have hx : a ≠ t := fun h => ha ((hcr a).mpr (.inr h))
    rw [owned_iff, createStart_account _ _ _ (Ne.symm hx), ← owned_iff] at ho
    rw [hstor _ _ hx] at hk; exact ⟨ho, hk⟩
  · rw [owned_iff, createStart_nonce t hs]; left; omega

theorem processCreateMessage_ok {E : Env} {loop : Loop} (hl : LoopOK loop) : CreateOK (processCreateMessage E loop) := by
  intro msg w hp
  obtain ⟨hcore, hsn, hcr, hsup, hcl, hown⟩ := createStart_ok hp.wf hp.fresh hp.fork
  have hne : (createStart w msg.currentTarget).state.snapshots ≠ [] := by rw [hsn.1]; simp [beginTransaction]
  have hpm : PreMsg msg (createStart w msg.currentTarget) :=
    ⟨hcore.wf hp.wf, fun _ => hown, hp.depth, fun _ _ => .inl ((hcr _).mpr (.inr rfl)), by rw [hcore.fork]; exact hp.fork,
     fun a ha => (hp.parents a ha).mono hcore fun a ha => (hcr a).mpr (.inl ha)⟩
  have hx := processMessage_ok (E := E) hl msg _ hpm
  unfold processCreateMessage
  revert hx
  match processMessage E loop msg (createStart w msg.currentTarget) with
  | .error (e, w2) => exact id
  | .ok (evm, w2) =>
    intro hx
    simp only at hx ⊢
    have hss : SameSnaps w2 (beginTransaction w) := SameSnaps.trans hx.rel.snaps hsn
    have hcore2 := hcore.trans hx.rel.toWCore
    have hcr2 : ∀ a ∈ w.state.createdAccounts, a ∈ w2.state.createdAccounts := fun a ha =>
      hx.rel.created hne a ((hcr a).mpr (.inl ha))
    have hns : msg.isStatic ≠ true := by rw [hp.notStatic]; simp
    by_cases he : evm.error.isSome = true
    · simp only [he, if_true]
      match hr : rollbackTransaction w2 with
      | .error c => exact id
      | .ok w3 =>
        obtain ⟨hrel, hsc⟩ := wrel_rollback hcore2 hss hcr2 hr
        have hn : evm.error ≠ none := by intro h; simp [h] at he
        exact ⟨hrel, hx.message, hx.gas, fun h => absurd h hn, fun h => absurd h hn, fun _ => hsc,
          fun h => absurd h hn, fun h => absurd h hn, fun h => absurd h hn, fun h => absurd h hn,
          fun _ => cleared_rollback hp.wf hss hcr2 hr, fun h => absurd h hns⟩
    · have hn : evm.error = none := by simpa using he
      simp only [he, Bool.false_eq_true, if_false]
      match hdep : depositCode w2.state.fork evm.gasLeft evm.output with
      | .error h =>
        have hhome : w2.state.fork.since .homestead = true := by
          have : ∀ f : Fork, f.since .spuriousDragon = true → f.since .homestead = true := by intro f; cases f <;> decide
          exact this _ (by rw [hcore2.fork]; exact hp.fork)
        simp only [hhome, if_true]
        match hr : rollbackTransaction w2 with
        | .error c => exact id
        | .ok w3 =>
          obtain ⟨hrel, hsc⟩ := wrel_rollback hcore2 hss hcr2 hr
          exact ⟨hrel, hx.message, Nat.zero_le _, by simp, by simp, fun _ => hsc,
            by simp, by simp, by simp, by simp,
            fun _ => cleared_rollback hp.wf hss hcr2 hr, fun h => absurd h hns⟩
      | .ok g =>
        simp only
        have hg : g ≤ evm.gasLeft := by
          unfold depositCode at hdep
          simp only at hdep
          split at hdep
          · cases hdep
          · split at hdep
            · cases hdep
            · split at hdep <;> cases hdep
              omega
        have htc : msg.currentTarget ∈ w2.state.createdAccounts := hx.rel.created hne _ ((hcr _).mpr (.inr rfl))
        have hcode_sn : (setCode w2.state msg.currentTarget evm.output).snapshots = w2.state.snapshots := by simp [setCode]
        have hcode_cr : (setCode w2.state msg.currentTarget evm.output).createdAccounts = w2.state.createdAccounts := by
          simp [setCode]
        have hwf2 := hcore2.wf hp.wf
        have hcode_sup : supply (setCode w2.state msg.currentTarget evm.output) = supply w2.state := by
          have := supply_modifyState' hwf2.state.main.1 msg.currentTarget (fun acc => { acc with code := evm.output })
          simp only at this; unfold setCode; omega
        have hcore3 : WCore w { w2 with state := setCode w2.state msg.currentTarget evm.output } := by
          refine ⟨fun h => ⟨(hcore2.wf h).state.setCode _ _, (hcore2.wf h).transient⟩,
            fun a ha => hcore2.fresh a (by rw [hcode_cr] at ha; exact ha), ?_,
            fun h => by have := hcore2.supply h; simp only; omega,
            by simpa [setCode] using hcore2.fork⟩
          intro a ha
          have hne : msg.currentTarget ≠ a := by intro h; subst h; exact hp.fresh ha
          unfold setCode
          simp only [getAccount_modifyState', hne, if_false]
          exact hcore2.keep a ha
        have hss3 : SameSnaps { w2 with state := setCode w2.state msg.currentTarget evm.output } (beginTransaction w) :=
          ⟨hcode_sn.trans hss.1, hss.2.1, by simpa [setCode] using hss.2.2⟩
        have hcl3 : cleared (setCode w2.state msg.currentTarget evm.output) ≤ cleared w2.state := by
          refine cleared_le hwf2.state hcode_sn (fun a ha => by rw [hcode_cr]; exact ha) (fun a k ha ho hk => ?_)
          have hne : msg.currentTarget ≠ a := by intro h; subst h; exact ha (by rw [hcode_cr]; exact htc)
          unfold setCode at hk ho
          rw [getStorage_modifyState'] at hk
          rw [owned_iff, getAccount_modifyState'] at ho
          rw [owned_iff]
          exact ⟨by simpa [hne] using ho, by simpa [hne] using hk⟩
        match hr : commitTransaction { w2 with state := setCode w2.state msg.currentTarget evm.output } with
        | .error c => exact id
        | .ok w4 =>
          obtain ⟨hrel, hsc⟩ := wrel_commit hcore3 hss3 (fun a ha => by simp only; rw [hcode_cr]; exact hcr2 a ha) hr
          refine ⟨hrel, hx.message, Nat.le_trans hg hx.gas, fun _ => hx.addrs hn, fun _ => hx.keys hn, by simp [hn],
            fun _ hne' a ha => ?_, fun _ a ha => (hx.delCreated hn hne a ha).fresh hcore2, fun _ hd => ?_, fun _ => ?_, by simp [hn], fun h => absurd h hns⟩
          · refine Doomable.same (commit_created hss3 hr hne') (hrel.fork.trans hcore3.fork.symm) (congrArg Account.code (sameContents_acc hsc a)) ?_
            by_cases hta : msg.currentTarget = a
            · subst hta; exact .inl (by simp only; rw [hcode_cr]; exact htc)
            · refine Doomable.same (by simp only; rw [hcode_cr]) (hcore3.fork.trans hcore2.fork.symm) ?_ (hx.delCreated hn hne a ha)
              unfold setCode
              simp only [getAccount_modifyState', hta, if_false]
          · rw [sameContents_supply hsc]; simp only
            rw [hcode_sup, hx.supplyEq hn hd, hsup]
          · have h1 := hx.refund hn
            have h2 := clearUnit_mono w.state.fork (cleared_commit (hcore3.wf hp.wf) hss3 hr)
            have h3 := clearUnit_mono w.state.fork hcl
            have h4 := clearUnit_mono w.state.fork hcl3
            rw [hcore.fork] at h1
            simp only at h2 ⊢
            omega

theorem run_ok (E : Env) : ∀ n, LoopOK (run E n) := by
  intro n
  induction n with
  | zero => intro m _; simp [run, StepPost, Caught]
  | succ n ih =>
    intro m hp
    rw [run]; unfold loopBody
    by_cases hr : m.evm.running = true
    · simp only [hr, if_true]
      match hb : m.evm.code[m.evm.pc]? with
      | none => exact FRel.refl m
      | some b =>
        simp only
        have hc : m.evm.code ≠ [] := by intro h; simp [h] at hb
        match decodeOpIn m.world.state.fork b with
        | none => intro _; exact (FRel.refl m).errRel
        | some op =>
          simp only
          have h := step_ok (processMessage_ok (E := E) ih) (processCreateMessage_ok (E := E) ih) hp hc
            (opStep_effect E _ _ op m hp.stack)
          revert h
          match opStep E (processMessage E (run E n)) (processCreateMessage E (run E n)) op m with
          | .err e m' => exact id
          | .ok _ m' =>
            intro h
            simp only at h ⊢
            have := ih m' (hp.mono h)
            revert this
            match run E n m' with
            | .ok _ m2 => intro h'; exact h.trans hp.snaps h'
            | .err e m2 => intro h' hc; exact h.errRel.trans (h' hc)
    · simp only [hr, if_false, Bool.false_eq_true]
      exact FRel.refl m

end Verif
