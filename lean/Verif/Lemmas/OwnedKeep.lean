import Verif.Lemmas.Eoa
/-!
Accounts that have code or a nonce keep their code, in every fork. Unlike the invariants of `Exec.lean` this does not need the nonce that
contracts start with since spurious_dragon.
-/
namespace Verif
open Spec

/-- The account is in use and its code is `c`. -/
def Keep (a : Address) (c : Bytes) (s : State) : Prop :=
  ((getAccount s a).nonce ≠ 0 ∨ (getAccount s a).code ≠ []) ∧ (getAccount s a).code = c

section
variable {a : Address} {c : Bytes}

theorem Keep.congr {s s' : State} (h : Keep a c s) (hc : (getAccount s' a).code = (getAccount s a).code)
    (hn : (getAccount s a).nonce ≤ (getAccount s' a).nonce) : Keep a c s' :=
  ⟨h.1.imp (fun h e => h (by omega)) (fun h => by rw [hc]; exact h), hc.trans h.2⟩

theorem Keep.contents {s s' : State} (h : Keep a c s) (hm : s'.mainTrie = s.mainTrie) : Keep a c s' := by
  unfold Keep; rw [getAccount_congr hm]; exact h

theorem Keep.nonceUp {s : State} (h : Keep a c s) (x : Address) : Keep a c (incrementNonce s x) := by
  refine h.congr ?_ (nonces_increment s x a)
  unfold incrementNonce; rw [getAccount_modifyState']; split
  · rename_i h; subst h; rfl
  · rfl

theorem Keep.code {s : State} (h : Keep a c s) {x : Address} (hx : x ≠ a) (d : Bytes) : Keep a c (setCode s x d) := by
  have : getAccount (setCode s x d) a = getAccount s a := by
    unfold setCode; rw [getAccount_modifyState', if_neg hx]
  unfold Keep; rw [this]; exact h

variable (a c)

def KeepSub (ok : Message → Prop) (pm : Sub) : Prop :=
  ∀ msg w child w', pm msg w = .ok (child, w') → ok msg → Keep a c w.state → Keep a c w'.state

def KeepPost (m : Mach) : Res Unit → Prop
  | .ok _ m' => Keep a c m'.world.state ∧ (m.evm.stack.length ≤ 1024 → m'.evm.stack.length ≤ 1024)
  | .err _ _ => True

def KeepLoop (loop : Loop) : Prop := ∀ m, m.evm.stack.length ≤ 1024 → Keep a c m.world.state → KeepPost a c m (loop m)

variable {a c}

theorem keep_step {pm pcm : Sub} (hpm : KeepSub a c (fun _ => True) pm) (hpcm : KeepSub a c (fun msg => msg.currentTarget ≠ a) pcm)
    {m : Mach} {r : Res Unit} {k : Kind} (h : OpEffect k pm pcm m r) (he : Keep a c m.world.state) : KeepPost a c m r := by
  cases h with
  | ok m' h hk strict => exact ⟨by rw [h.world]; exact he, h.stack⟩
  | err e m' h he => trivial
  | sstore hk m1 key new orig s' h hg _ _ _ hset =>
    refine ⟨?_, h.stack⟩
    unfold setStorage at hset; split at hset <;> cases hset; exact he
  | tstore hk m1 key new h hg => exact ⟨he, h.stack⟩
  | log hk m1 topics data h hg => exact ⟨by rw [show _ = m1.world.state from rfl, h.world]; exact he, h.stack⟩
  | selfdestruct hk m1 b s1 h hg _ _ hmove =>
    exact ⟨he.congr ((selfdestructState_rel hmove).account a).2 (Nat.le_of_eq ((selfdestructState_rel hmove).account a).1.symm), h.stack⟩
  | collision hk m1 x h hg => exact ⟨he.nonceUp _, h.stack⟩
  | createErr hk m1 msg e w m' h hsub hw => trivial
  | create hk m1 msg child w m2 h hsub hinc =>
    have hne : msg.currentTarget ≠ a := by
      intro e
      have := h.fresh.1
      rw [e] at this
      exact absurd (owned_iff.mpr he.1) (by unfold Owned; rw [this]; simp)
    have h1 := hpcm msg m1.world child w hsub hne (by rw [h.world]; exact he.nonceUp _)
    exact ⟨by rw [hinc.world]; exact h1, fun hs => hinc.frame.stack (h.frame.stack hs)⟩
  | callErr hk m1 msg e w m' h hsub hw => trivial
  | call hk m1 msg child w m2 h hsub hinc =>
    have h1 := hpm msg m1.world child w hsub trivial (by rw [h.locals.world]; exact he)
    exact ⟨by rw [hinc.world]; exact h1, fun hs => hinc.frame.stack (h.locals.stack hs)⟩
  | callOverflow hk m1 msg child w m' h hsub hlen => trivial

theorem keep_executeCode {E : Env} {loop : Loop} {msg : Message} {w : World} (hl : KeepLoop a c loop) {evm : Evm} {w2 : World}
    (h : executeCode E loop msg w = .ok (evm, w2)) (he : Keep a c w.state) (hne : evm.error.isSome = false) : Keep a c w2.state := by
  unfold executeCode at h
  simp only at h
  have key : ∀ r : Res Unit, KeepPost a c ⟨initEvm msg, w⟩ r → catchFrame r = .ok (evm, w2) → Keep a c w2.state := by
    intro r hr hc
    match r with
    | .ok _ m' => cases hc; exact hr.1
    | .err (.halt x) m' => cases hc; simp at hne
    | .err .revert m' => cases hc; simp at hne
    | .err (.crash c) m' => cases hc
    | .err .outOfFuel m' => cases hc
  match hpre : precompileOf E w.state.fork msg with
  | some p =>
    simp only [hpre] at h
    split at h
    · cases h; exact he
    · have hp : Pres p := by
        unfold precompileOf at hpre
        split at hpre
        · cases hpre
        · exact pres_precompile _ _ _ _ hpre
      refine key _ ?_ h
      have := hp.run ⟨initEvm msg, w⟩
      revert this
      match p ⟨initEvm msg, w⟩ with
      | .ok _ m' => intro h; have hw : m'.world = w := h.world; exact ⟨by rw [hw]; exact he, h.stack⟩
      | .err e m' => intro h; trivial
  | none => simp only [hpre] at h; exact key _ (hl ⟨initEvm msg, w⟩ (Nat.zero_le _) he) h

theorem keep_processMessage {E : Env} {loop : Loop} (hs : SnapLoop loop) (hl : KeepLoop a c loop) :
    KeepSub a c (fun _ => True) (processMessage E loop) := by
  intro msg w child w' h _ he
  have hsnap := processMessage_snap' hs h
  by_cases herr : child.error.isSome = true
  · exact he.contents (hsnap.2 herr).1
  · have herr' : child.error.isSome = false := by simpa using herr
    unfold processMessage at h
    split at h
    · cases h
    · simp only at h
      split at h
      · cases h
      · rename_i s hst
        have h0 : Keep a c (touchIn (beginTransaction w).state msg.currentTarget) := by
          unfold Keep; rw [show getAccount (touchIn (beginTransaction w).state msg.currentTarget) a = getAccount w.state a by simp; rfl]
          exact he
        have h1 : Keep a c s := by
          split at hst
          · exact h0.congr (moveEther_account hst a).2 (Nat.le_of_eq (moveEther_account hst a).1.symm)
          · cases hst; exact h0
        have hsn : s.snapshots = (beginTransaction w).state.snapshots ∧ s.fork = (beginTransaction w).state.fork := by
          split at hst
          · exact ⟨(moveEther_snaps hst).1.trans (touchIn_snapshots _ _), (moveEther_fork hst).trans (touchIn_fork _ _)⟩
          · cases hst; exact ⟨touchIn_snapshots _ _, touchIn_fork _ _⟩
        split at h
        · cases h
        · rename_i evm w2 hx
          have hxs := executeCode_snap (hs _ (Nat.zero_le _)) hx
          have hss : SameSnaps w2 (beginTransaction w) := ⟨hxs.1.trans hsn.1, hxs.2.1, hxs.2.2.trans hsn.2⟩
          split at h
          · cases h
          · rename_i w3 hr
            cases h
            rw [if_neg herr] at hr
            obtain ⟨w4, e, hc, -, -⟩ := commit_ok hss
            rw [e] at hr; cases hr
            exact (keep_executeCode hl hx h1 herr').contents hc.1

theorem keep_createStart {w : World} {t : Address} (he : Keep a c w.state) : Keep a c (createStart w t).state := by
  have h1 : Keep a c (markAccountCreated (destroyStorage (beginTransaction w).state t) t) := he.contents rfl
  show Keep a c (startNonce _ t)
  unfold startNonce
  split
  · exact h1.nonceUp _
  · exact h1

theorem keep_processCreateMessage {E : Env} {loop : Loop} (hs : SnapLoop loop) (hl : KeepLoop a c loop) :
    KeepSub a c (fun msg => msg.currentTarget ≠ a) (processCreateMessage E loop) := by
  intro msg w child w' h hok he
  have hsnap := processCreateMessage_snap' hs h
  by_cases herr : child.error.isSome = true
  · exact he.contents (hsnap.2 herr).1
  · unfold processCreateMessage at h
    split at h
    · cases h
    · rename_i evm w2 hx
      have h1 := keep_processMessage hs hl _ _ _ _ hx trivial (keep_createStart he)
      have hxs := (processMessage_snap' hs hx).1
      have hss := SameSnaps.trans hxs (createStart_snaps w msg.currentTarget)
      split at h
      · rename_i hh
        split at h <;> cases h
        exact absurd hh herr
      · split at h
        · split at h
          · split at h <;> cases h
            simp at herr
          · obtain ⟨w4, e, hc, hs4, _⟩ := commit_ok hss
            rw [e] at h; cases h
            exact h1.contents hc.1
        · simp only at h
          have hss3 : SameSnaps { w2 with state := setCode w2.state msg.currentTarget evm.output } (beginTransaction w) :=
            ⟨by simpa [setCode] using hss.1, hss.2.1, by simpa [setCode] using hss.2.2⟩
          obtain ⟨w4, e, hc, hs4, _⟩ := commit_ok hss3
          rw [e] at h; cases h
          exact (h1.code hok _).contents hc.1

theorem keep_run (E : Env) : ∀ n, KeepLoop a c (run E n) := by
  intro n
  induction n with
  | zero => intro m _ _; simp [run, KeepPost]
  | succ n ih =>
    intro m hs he
    rw [run]; unfold loopBody
    by_cases hr : m.evm.running = true
    · simp only [hr, if_true]
      match hb : m.evm.code[m.evm.pc]? with
      | none => exact ⟨he, id⟩
      | some b =>
        simp only
        match decodeOpIn m.world.state.fork b with
        | none => trivial
        | some op =>
          simp only
          have h := keep_step (keep_processMessage (E := E) (run_snap E n) ih) (keep_processCreateMessage (E := E) (run_snap E n) ih)
            (opStep_effect E _ _ op m hs) he
          revert h
          match opStep E (processMessage E (run E n)) (processCreateMessage E (run E n)) op m with
          | .err e m' => intro _; trivial
          | .ok _ m' =>
            intro h
            obtain ⟨h1, h5⟩ := h
            have h2 := ih m' (h5 hs) h1
            revert h2
            simp only
            match run E n m' with
            | .ok _ m2 => intro g; exact ⟨g.1, fun hs => g.2 (h5 hs)⟩
            | .err e m2 => intro _; trivial
    · simp only [hr, if_false, Bool.false_eq_true]
      exact ⟨he, id⟩

theorem keep_exec (E : Env) : KeepLoop a c (exec E) := fun m hs => keep_run E _ m hs

/-- **Top level.** An account in use keeps its code while a message is executed. -/
theorem keep_top {E : Env} {msg msg1 : Message} {w w' : World} {out : MessageCallOutput} {r : Word} {s1 : State}
    (ha : authorized E msg w = .ok (r, msg1, s1)) (h : processMessageCall E msg w = .ok (out, w')) (he : Keep a c s1) : Keep a c w'.state := by
  unfold processMessageCall at h
  rw [processMessageCallWith_eq, ha] at h
  simp only at h
  split at h
  · rename_i htar
    have hs1 : s1 = w.state := by
      unfold authorized at ha; rw [htar] at ha; cases ha; rfl
    subst hs1
    split at h
    · cases h; exact he
    · rename_i hcol
      split at h
      · cases h
      · rename_i evm w1 hx
        have hne : msg.currentTarget ≠ a := by
          intro e
          have := owned_iff.mpr he.1
          unfold Owned at this
          rw [e, this] at hcol
          simp at hcol
        have h1 := keep_processCreateMessage (exec_snap E) (keep_exec E) _ _ _ _ hx hne he
        split at h
        · cases h
        · cases h; exact h1
  · split at h
    · cases h
    · rename_i evm w1 hx
      have h1 := keep_processMessage (exec_snap E) (keep_exec E) _ _ _ _ hx trivial he
      split at h
      · cases h
      · cases h; exact h1

end

end Verif
