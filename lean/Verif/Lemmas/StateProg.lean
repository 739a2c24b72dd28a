import Verif.Lemmas.State
import Verif.Spec.StateProg
/-! Lemmas for C01-C05. -/
namespace Verif

/-- Equal dictionaries in the three content stores, in the same fork. -/
def SameContents (w w' : World) : Prop :=
  w.state.mainTrie = w'.state.mainTrie ∧ w.state.storageTries = w'.state.storageTries ∧
  w.transient.tries = w'.transient.tries ∧ w.state.fork = w'.state.fork

theorem SameContents.refl (w : World) : SameContents w w := ⟨rfl, rfl, rfl, rfl⟩
theorem SameContents.sameReads {w w' : World} (h : SameContents w w') : SameReads w w' := by
  obtain ⟨h1, h2, h3, -⟩ := h
  refine ⟨fun a => ?_, fun a k => ?_, fun a k => ?_⟩
  · simp [getAccountOptional, h1]
  · simp [getStorage, h2]
  · simp [getTransientStorage, h3]

/-- Same snapshot stacks, in the same fork. -/
def SameSnaps (w w' : World) : Prop :=
  w.state.snapshots = w'.state.snapshots ∧ w.transient.snapshots = w'.transient.snapshots ∧ w.state.fork = w'.state.fork

/-- One state operation, seen on the part of the state it depends on. -/
theorem stateOp_exec_frame (o : StateOp) {w w' : World} (h : o.exec w = .ok w') : SameSnaps w' w := by
  have hm : ∀ {s s' : State} {a f}, modifyState s a f = .ok s' → s'.snapshots = s.snapshots ∧ s'.fork = s.fork := by
    intro s s' a f he
    rw [modifyState_eq] at he; split at he <;> cases he; simp
  cases o <;> simp only [StateOp.exec, Except.map] at h
  all_goals first
    | (cases h; exact ⟨by simp [World.withState, setAccount, destroyStorage, destroyAccount, markAccountCreated,
        setAccountBalance, incrementNonce, setCode], rfl, by simp [World.withState, setAccount, destroyStorage, destroyAccount,
        markAccountCreated, setAccountBalance, incrementNonce, setCode]⟩)
    | skip
  · rename_i a k v
    unfold Verif.setStorage at h
    split at h
    · cases h
    · rename_i v' hv
      split at hv <;> cases hv
      cases h; exact ⟨rfl, rfl, rfl⟩
  · split at h
    · cases h
    · rename_i s' hs; cases h; exact ⟨(hm hs).1, rfl, (hm hs).2⟩
  · split at h
    · cases h
    · rename_i s' hs; cases h
      unfold Verif.moveEther at hs
      split at hs
      · cases hs
      · rename_i s1 h1; exact ⟨(hm hs).1.trans (hm h1).1, rfl, (hm hs).2.trans (hm h1).2⟩

/-- Both error, or both succeed with equal contents. -/
def SameOutcome : Except Crash World → Except Crash World → Prop
  | .ok w, .ok w' => SameContents w w'
  | .error c, .error c' => c = c'
  | _, _ => False

theorem getAccount_congr {s s' : State} (h : s.mainTrie = s'.mainTrie) (a : Address) :
    getAccount s a = getAccount s' a := by simp [getAccount, getAccountOptional, h]

theorem modifyState'_congr {s s' : State} (h1 : s.mainTrie = s'.mainTrie) (h2 : s.storageTries = s'.storageTries)
    (h3 : s.fork = s'.fork) (a : Address) (f : Account → Account) :
    (modifyState' s a f).mainTrie = (modifyState' s' a f).mainTrie ∧
    (modifyState' s a f).storageTries = (modifyState' s' a f).storageTries ∧
    (modifyState' s a f).fork = (modifyState' s' a f).fork := by
  have e := getAccount_congr h1 a
  refine ⟨?_, ?_, ?_⟩
  · rw [modifyState'_unfold, modifyState'_unfold, e, h3]
    split <;> simp [destroyAccount, destroyStorage, setAccount, h1]
  · rw [modifyState'_storage, modifyState'_storage, e, h2, h3]
  · simpa using h3

theorem stateOp_exec_congr (o : StateOp) {w w' : World} (h : SameContents w w') :
    SameOutcome (o.exec w) (o.exec w') := by
  obtain ⟨h1, h2, h3, h4⟩ := h
  have hm : ∀ {s s' : State} (a f), s.mainTrie = s'.mainTrie → s.storageTries = s'.storageTries → s.fork = s'.fork →
      (∃ c, modifyState s a f = .error c ∧ modifyState s' a f = .error c) ∨
      (∃ t t', modifyState s a f = .ok t ∧ modifyState s' a f = .ok t' ∧ t.mainTrie = t'.mainTrie ∧
        t.storageTries = t'.storageTries ∧ t.fork = t'.fork) := by
    intro s s' a f e1 e2 e0
    rw [modifyState_eq, modifyState_eq, getAccount_congr e1 a]
    match f (getAccount s' a) with
    | .error c => exact .inl ⟨c, rfl, rfl⟩
    | .ok acc =>
      have := modifyState'_congr e1 e2 e0 a (fun _ => acc)
      exact .inr ⟨_, _, rfl, rfl, this⟩
  cases o with
  | setAccount a acc => exact ⟨by simp [World.withState, setAccount, h1], h2, h3, h4⟩
  | destroyStorage a => exact ⟨h1, by simp [World.withState, destroyStorage, h2], h3, h4⟩
  | destroyAccount a =>
    exact ⟨by simp [World.withState, destroyAccount, setAccount, destroyStorage, h1],
      by simp [World.withState, destroyAccount, setAccount, destroyStorage, h2], h3, h4⟩
  | markCreated a => exact ⟨h1, h2, h3, h4⟩
  | setBalance a v => exact have e := modifyState'_congr h1 h2 h4 _ _; ⟨e.1, e.2.1, h3, e.2.2⟩
  | incrementNonce a => exact have e := modifyState'_congr h1 h2 h4 _ _; ⟨e.1, e.2.1, h3, e.2.2⟩
  | setCode a c => exact have e := modifyState'_congr h1 h2 h4 _ _; ⟨e.1, e.2.1, h3, e.2.2⟩
  | setTransient a k v => exact ⟨h1, h2, by simp [setTransientStorage, h3], h4⟩
  | setStorage a k v =>
    simp only [StateOp.exec, Verif.setStorage, getAccountOptional, h1]
    split
    · rfl
    · exact ⟨rfl, by simp [World.withState, h2], h3, h4⟩
  | modify a f =>
    simp only [StateOp.exec]
    rcases hm a f h1 h2 h4 with ⟨c, e1, e2⟩ | ⟨t, t', e1, e2, e3, e4, e5⟩
    · rw [e1, e2]; exact rfl
    · rw [e1, e2]; exact ⟨e3, e4, h3, e5⟩
  | moveEther x y v =>
    simp only [StateOp.exec, Verif.moveEther]
    rcases hm x (reduceSenderBalance v) h1 h2 h4 with ⟨c, e1, e2⟩ | ⟨t, t', e1, e2, e3, e4, e5⟩
    · rw [e1, e2]; exact rfl
    · rw [e1, e2]
      rcases hm y (increaseRecipientBalance v) e3 e4 e5 with ⟨c, e1, e2⟩ | ⟨t, t', e1, e2, e3, e4, e5⟩
      · simp only [e1, e2]; exact rfl
      · simp only [e1, e2]; exact ⟨e3, e4, h3, e5⟩

theorem begin_contents (w : World) : SameContents (beginTransaction w) w := ⟨rfl, rfl, rfl, rfl⟩

theorem commit_ok {w1 w : World} (h : SameSnaps w1 (beginTransaction w)) :
    ∃ w2, commitTransaction w1 = .ok w2 ∧ SameContents w2 w1 ∧ SameSnaps w2 w ∧
      w2.state.createdAccounts = if w.state.snapshots.isEmpty then [] else w1.state.createdAccounts := by
  obtain ⟨h1, h2, h3⟩ := h
  simp only [beginTransaction] at h1 h2 h3
  unfold commitTransaction
  rw [h1, h2]
  exact ⟨_, rfl, ⟨rfl, rfl, rfl, rfl⟩, ⟨rfl, rfl, h3⟩, rfl⟩

theorem rollback_ok {w1 w : World} (h : SameSnaps w1 (beginTransaction w)) :
    ∃ w2, rollbackTransaction w1 = .ok w2 ∧ SameContents w2 w ∧ SameSnaps w2 w ∧
      w2.state.createdAccounts = if w.state.snapshots.isEmpty then [] else w1.state.createdAccounts := by
  obtain ⟨h1, h2, h3⟩ := h
  simp only [beginTransaction] at h1 h2 h3
  unfold rollbackTransaction
  rw [h1, h2]
  exact ⟨_, rfl, ⟨rfl, rfl, rfl, h3⟩, ⟨rfl, rfl, h3⟩, rfl⟩

/-- A well-nested sequence leaves the snapshot stacks alone. -/
theorem Prog.exec_snaps (p : Prog) : ∀ {w w' : World}, p.exec w = .ok w' → SameSnaps w' w := by
  induction p with
  | done => intro w w' h; cases h; exact ⟨rfl, rfl, rfl⟩
  | op o rest ih =>
    intro w w' h
    simp only [Prog.exec] at h
    split at h
    · cases h
    · rename_i w1 h1
      have a := stateOp_exec_frame o h1; have b := ih h
      exact ⟨b.1.trans a.1, b.2.1.trans a.2.1, b.2.2.trans a.2.2⟩
  | committed body rest ihb ihr =>
    intro w w' h
    simp only [Prog.exec] at h
    split at h
    · cases h
    · rename_i w1 h1
      obtain ⟨w2, e, _, hs, _⟩ := commit_ok (ihb h1)
      rw [e] at h
      have b := ihr h
      exact ⟨b.1.trans hs.1, b.2.1.trans hs.2.1, b.2.2.trans hs.2.2⟩
  | rolledBack body rest ihb ihr =>
    intro w w' h
    simp only [Prog.exec] at h
    split at h
    · cases h
    · rename_i w1 h1
      obtain ⟨w2, e, _, hs, _⟩ := rollback_ok (ihb h1)
      rw [e] at h
      have b := ihr h
      exact ⟨b.1.trans hs.1, b.2.1.trans hs.2.1, b.2.2.trans hs.2.2⟩

theorem SameContents.trans {a b c : World} (h : SameContents a b) (h' : SameContents b c) : SameContents a c :=
  ⟨h.1.trans h'.1, h.2.1.trans h'.2.1, h.2.2.1.trans h'.2.2.1, h.2.2.2.trans h'.2.2.2⟩
theorem SameContents.symm {a b : World} (h : SameContents a b) : SameContents b a :=
  ⟨h.1.symm, h.2.1.symm, h.2.2.1.symm, h.2.2.2.symm⟩

/-- The effect of a sequence on contents depends only on contents. -/
theorem Prog.exec_congr (p : Prog) : ∀ {w w' : World}, SameContents w w' → SameOutcome (p.exec w) (p.exec w') := by
  induction p with
  | done => intro w w' h; exact h
  | op o rest ih =>
    intro w w' h
    have := stateOp_exec_congr o h
    simp only [Prog.exec]
    revert this
    generalize o.exec w = r1; generalize o.exec w' = r2
    intro this
    match r1, r2, this with
    | .ok _, .ok _, h => exact ih h
    | .error _, .error _, h => exact h
  | committed body rest ihb ihr =>
    intro w w' h
    have := ihb (w := beginTransaction w) (w' := beginTransaction w') h
    simp only [Prog.exec]
    match h1 : body.exec (beginTransaction w), h2 : body.exec (beginTransaction w') with
    | .ok a, .ok b =>
      rw [h1, h2] at this
      obtain ⟨a2, e1, c1, _⟩ := commit_ok (body.exec_snaps h1)
      obtain ⟨b2, e2, c2, _⟩ := commit_ok (body.exec_snaps h2)
      simp only [e1, e2]
      exact ihr (c1.trans (SameContents.trans this c2.symm))
    | .error _, .error _ => rw [h1, h2] at this; exact this
    | .ok _, .error _ => rw [h1, h2] at this; exact this.elim
    | .error _, .ok _ => rw [h1, h2] at this; exact this.elim
  | rolledBack body rest ihb ihr =>
    intro w w' h
    have := ihb (w := beginTransaction w) (w' := beginTransaction w') h
    simp only [Prog.exec]
    match h1 : body.exec (beginTransaction w), h2 : body.exec (beginTransaction w') with
    | .ok a, .ok b =>
      obtain ⟨a2, e1, c1, _⟩ := rollback_ok (body.exec_snaps h1)
      obtain ⟨b2, e2, c2, _⟩ := rollback_ok (body.exec_snaps h2)
      simp only [e1, e2]
      exact ihr (c1.trans (SameContents.trans h c2.symm))
    | .error _, .error _ => rw [h1, h2] at this; exact this
    | .ok _, .error _ => rw [h1, h2] at this; exact this.elim
    | .error _, .ok _ => rw [h1, h2] at this; exact this.elim

theorem stateOp_exec_created (o : StateOp) {w w' : World} (h : o.exec w = .ok w') (a : Address) :
    a ∈ w'.state.createdAccounts ↔ a ∈ w.state.createdAccounts ∨ o = .markCreated a := by
  have hm : ∀ {s s' : State} {a f}, modifyState s a f = .ok s' → s'.createdAccounts = s.createdAccounts := by
    intro s s' a f he
    rw [modifyState_eq] at he; split at he <;> cases he; simp
  cases o <;> simp only [StateOp.exec, Except.map] at h
  case markCreated b =>
    cases h
    simp only [World.withState, markAccountCreated, mem_setAdd, StateOp.markCreated.injEq]
    grind
  case setStorage =>
    unfold Verif.setStorage at h
    split at h
    · cases h
    · rename_i v' hv
      split at hv <;> cases hv
      cases h; simp [World.withState]
  case modify =>
    split at h
    · cases h
    · rename_i s' hs; cases h; simp [World.withState, hm hs]
  case moveEther =>
    split at h
    · cases h
    · rename_i s' hs; cases h
      unfold Verif.moveEther at hs
      split at hs
      · cases hs
      · rename_i s1 h1; simp [World.withState, hm hs, hm h1]
  all_goals (cases h; simp [World.withState, setAccount, destroyStorage, destroyAccount,
    setAccountBalance, incrementNonce, setCode])

/-- Inside a snapshot, a sequence adds exactly the addresses it marks to the created set. -/
theorem Prog.exec_created (p : Prog) : ∀ {w w' : World}, p.exec w = .ok w' → w.state.snapshots ≠ [] →
    ∀ a, a ∈ w'.state.createdAccounts ↔ a ∈ w.state.createdAccounts ∨ a ∈ p.marks := by
  induction p with
  | done => intro w w' h _ a; cases h; simp [Prog.marks]
  | op o rest ih =>
    intro w w' h hne a
    simp only [Prog.exec] at h
    split at h
    · cases h
    · rename_i w1 h1
      have hs := (stateOp_exec_frame o h1).1
      rw [ih h (by rw [hs]; exact hne), stateOp_exec_created o h1]
      cases o <;> simp only [Prog.marks, List.mem_cons, reduceCtorEq, or_false, StateOp.markCreated.injEq]
      grind
  | committed body rest ihb ihr =>
    intro w w' h hne a
    simp only [Prog.exec] at h
    split at h
    · cases h
    · rename_i w1 h1
      obtain ⟨w2, e, _, hs, hc⟩ := commit_ok (body.exec_snaps h1)
      rw [e] at h
      rw [ihr h (by rw [hs.1]; exact hne), hc, if_neg (by simpa using hne)]
      rw [ihb h1 (by simp [beginTransaction])]
      simp [Prog.marks, beginTransaction, or_assoc]
  | rolledBack body rest ihb ihr =>
    intro w w' h hne a
    simp only [Prog.exec] at h
    split at h
    · cases h
    · rename_i w1 h1
      obtain ⟨w2, e, _, hs, hc⟩ := rollback_ok (body.exec_snaps h1)
      rw [e] at h
      rw [ihr h (by rw [hs.1]; exact hne), hc, if_neg (by simpa using hne)]
      rw [ihb h1 (by simp [beginTransaction])]
      simp [Prog.marks, beginTransaction, or_assoc]

theorem stateOp_exec_wf (o : StateOp) {w w' : World} (hw : w.WF) (h : o.exec w = .ok w') : w'.WF := by
  cases o <;> simp only [StateOp.exec, Except.map] at h
  case setAccount => cases h; exact ⟨hw.state.setAccount _ _, hw.transient⟩
  case destroyStorage => cases h; exact ⟨hw.state.destroyStorage _, hw.transient⟩
  case destroyAccount => cases h; exact ⟨hw.state.destroyAccount _, hw.transient⟩
  case markCreated => cases h; exact ⟨hw.state.markAccountCreated _, hw.transient⟩
  case setBalance => cases h; exact ⟨hw.state.setAccountBalance _ _, hw.transient⟩
  case incrementNonce => cases h; exact ⟨hw.state.incrementNonce _, hw.transient⟩
  case setCode => cases h; exact ⟨hw.state.setCode _ _, hw.transient⟩
  case setTransient => cases h; exact ⟨hw.state, hw.transient.set _ _ _⟩
  case setStorage =>
    split at h
    · cases h
    · rename_i s' hs; cases h; exact ⟨hw.state.setStorage hs, hw.transient⟩
  case modify =>
    split at h
    · cases h
    · rename_i s' hs; cases h; exact ⟨hw.state.modifyState hs, hw.transient⟩
  case moveEther =>
    split at h
    · cases h
    · rename_i s' hs; cases h; exact ⟨hw.state.moveEther hs, hw.transient⟩

theorem Prog.exec_wf (p : Prog) : ∀ {w w' : World}, w.WF → p.exec w = .ok w' → w'.WF := by
  induction p with
  | done => intro w w' hw h; cases h; exact hw
  | op o rest ih =>
    intro w w' hw h
    simp only [Prog.exec] at h
    split at h
    · cases h
    · rename_i w1 h1; exact ih (stateOp_exec_wf o hw h1) h
  | committed body rest ihb ihr =>
    intro w w' hw h
    simp only [Prog.exec] at h
    split at h
    · cases h
    · rename_i w1 h1
      split at h
      · cases h
      · rename_i w2 h2; exact ihr ((ihb hw.begin h1).commit h2) h
  | rolledBack body rest ihb ihr =>
    intro w w' hw h
    simp only [Prog.exec] at h
    split at h
    · cases h
    · rename_i w1 h1
      split at h
      · cases h
      · rename_i w2 h2; exact ihr ((ihb hw.begin h1).rollback h2) h

end Verif
