import Verif.Lemmas.Fuel
/-! The snapshot discipline alone, without any assumption on the stores. -/
namespace Verif

def SubSnap (pm : Sub) : Prop := ∀ msg w child w', pm msg w = .ok (child, w') → SameSnaps w' w

def SnapPost (m : Mach) : Res Unit → Prop
  | .ok _ m' => SameSnaps m'.world m.world ∧ (m.evm.stack.length ≤ 1024 → m'.evm.stack.length ≤ 1024)
  | .err e m' => Caught e → SameSnaps m'.world m.world

theorem step_snap {pm pcm : Sub} (hpm : SubSnap pm) (hpcm : SubSnap pcm) (hum : SubUncaught pm) (hucm : SubUncaught pcm)
    {m : Mach} {r : Res Unit} {k : Kind} (h : OpEffect k pm pcm m r) : SnapPost m r := by
  cases h with
  | ok m' h hk strict => exact ⟨by rw [h.world]; exact .refl _, h.stack⟩
  | err e m' h he => exact fun _ => by rw [h.world]; exact .refl _
  | sstore hk m1 key new orig s' h hg _ _ _ hset =>
    refine ⟨?_, h.stack⟩
    unfold setStorage at hset; split at hset <;> cases hset; exact ⟨rfl, rfl, rfl⟩
  | tstore hk m1 key new h hg => exact ⟨⟨rfl, rfl, rfl⟩, h.stack⟩
  | log hk m1 topics data h hg => exact ⟨by simp only [h.world]; exact .refl _, h.stack⟩
  | selfdestruct hk m1 b s1 h hg _ _ hmove =>
    exact ⟨⟨(selfdestructState_rel hmove).snaps, rfl, (selfdestructState_rel hmove).fork⟩, h.stack⟩
  | collision hk m1 a h hg => exact ⟨⟨by simp [incrementNonce], rfl, by simp [incrementNonce]⟩, h.stack⟩
  | createErr hk m1 msg e w m' h hsub hw => exact fun hc => absurd hc (hucm _ _ _ _ h.depthLe hsub)
  | create hk m1 msg child w m2 h hsub hinc =>
    have h1 := hpcm _ _ _ _ hsub
    refine ⟨?_, fun hs => hinc.frame.stack (h.frame.stack hs)⟩
    rw [hinc.world]
    refine h1.trans ?_
    rw [h.world]; exact ⟨by simp [incrementNonce], rfl, by simp [incrementNonce]⟩
  | callErr hk m1 msg e w m' h hsub hw => exact fun hc => absurd hc (hum _ _ _ _ h.depthLe hsub)
  | call hk m1 msg child w m2 h hsub hinc =>
    have h1 := hpm _ _ _ _ hsub
    refine ⟨?_, fun hs => hinc.frame.stack (h.locals.stack hs)⟩
    rw [hinc.world]
    rw [h.locals.world] at h1; exact h1
  | callOverflow hk m1 msg child w m' h hsub hlen => exact fun hc => hc.elim

theorem executeCode_snap {E : Env} {loop : Loop} {msg : Message} {w : World}
    (hl : SnapPost ⟨initEvm msg, w⟩ (loop ⟨initEvm msg, w⟩)) {evm : Evm} {w2 : World}
    (h : executeCode E loop msg w = .ok (evm, w2)) : SameSnaps w2 w := by
  unfold executeCode at h
  simp only at h
  have key : ∀ r : Res Unit, SnapPost ⟨initEvm msg, w⟩ r → catchFrame r = .ok (evm, w2) → SameSnaps w2 w := by
    intro r hr hc
    match r with
    | .ok _ m' => cases hc; exact hr.1
    | .err (.halt x) m' => cases hc; exact hr trivial
    | .err .revert m' => cases hc; exact hr trivial
    | .err (.crash c) m' => cases hc
    | .err .outOfFuel m' => cases hc
  match hpre : precompileOf E w.state.fork msg with
  | some p =>
    simp only [hpre] at h
    split at h
    · cases h; exact .refl _
    · have hp : Pres p := by
        unfold precompileOf at hpre
        split at hpre
        · cases hpre
        · exact pres_precompile _ _ _ _ hpre
      refine key _ ?_ h
      have := hp.run ⟨initEvm msg, w⟩
      revert this
      match p ⟨initEvm msg, w⟩ with
      | .ok _ m' => intro h; have hw : m'.world = w := h.world; exact ⟨by rw [hw]; exact .refl _, h.stack⟩
      | .err e m' => intro h _; have hw : m'.world = w := h.world; rw [hw]; exact .refl _
  | none => simp only [hpre] at h; exact key _ hl h

def SnapLoop (loop : Loop) : Prop := ∀ m, m.evm.stack.length ≤ 1024 → SnapPost m (loop m)

/-- What `process_message` does with the snapshots, and what it leaves when it fails. -/
theorem processMessage_snap' {E : Env} {loop : Loop} (hl : SnapLoop loop) {msg : Message} {w w' : World} {child : Evm}
    (h : processMessage E loop msg w = .ok (child, w')) :
    SameSnaps w' w ∧ (child.error.isSome = true → SameContents w' w) := by
  unfold processMessage at h
  split at h
  · cases h
  · simp only at h
    split at h
    · cases h
    · rename_i s hs
      have hsn : s.snapshots = (beginTransaction w).state.snapshots ∧ s.fork = (beginTransaction w).state.fork := by
        split at hs
        · exact ⟨by rw [(moveEther_snaps hs).1]; simp, by rw [moveEther_fork hs]; simp⟩
        · cases hs; exact ⟨by simp, by simp⟩
      split at h
      · cases h
      · rename_i evm w2 hx
        have hx := executeCode_snap (hl _ (Nat.zero_le _)) hx
        have hss : SameSnaps w2 (beginTransaction w) := ⟨hx.1.trans hsn.1, hx.2.1, hx.2.2.trans hsn.2⟩
        split at h
        · cases h
        · rename_i w3 hr
          cases h
          split at hr
          · obtain ⟨w4, e, hc, hs4, _⟩ := rollback_ok hss
            rw [e] at hr; cases hr; exact ⟨hs4, fun _ => hc⟩
          · rename_i hn
            obtain ⟨w4, e, hc, hs4, _⟩ := commit_ok hss
            rw [e] at hr; cases hr; exact ⟨hs4, fun h => absurd h hn⟩

theorem processMessage_snap {E : Env} {loop : Loop} (hl : SnapLoop loop) : SubSnap (processMessage E loop) :=
  fun _ _ _ _ h => (processMessage_snap' hl h).1

theorem processCreateMessage_snap' {E : Env} {loop : Loop} (hl : SnapLoop loop) {msg : Message} {w w' : World}
    {child : Evm} (h : processCreateMessage E loop msg w = .ok (child, w')) :
    SameSnaps w' w ∧ (child.error.isSome = true → SameContents w' w) := by
  unfold processCreateMessage at h
  split at h
  · cases h
  · rename_i evm w2 hx
    have hx := (processMessage_snap' hl hx).1
    have hss := hx.trans (createStart_snaps _ _)
    split at h
    · obtain ⟨w4, e, hc, hs4, _⟩ := rollback_ok hss
      rw [e] at h; cases h; exact ⟨hs4, fun _ => hc⟩
    · rename_i hn
      split at h
      · split at h
        · obtain ⟨w4, e, hc, hs4, _⟩ := rollback_ok hss
          rw [e] at h; cases h; exact ⟨hs4, fun _ => hc⟩
        · obtain ⟨w4, e, hc, hs4, _⟩ := commit_ok hss
          rw [e] at h; cases h; exact ⟨hs4, fun h => absurd h hn⟩
      · simp only at h
        have hss3 : SameSnaps { w2 with state := setCode w2.state msg.currentTarget evm.output } (beginTransaction w) :=
          ⟨by simpa [setCode] using hss.1, hss.2.1, by simpa [setCode] using hss.2.2⟩
        obtain ⟨w4, e, hc, hs4, _⟩ := commit_ok hss3
        rw [e] at h; cases h; exact ⟨hs4, fun h => absurd h hn⟩

theorem processCreateMessage_snap {E : Env} {loop : Loop} (hl : SnapLoop loop) : SubSnap (processCreateMessage E loop) :=
  fun _ _ _ _ h => (processCreateMessage_snap' hl h).1

theorem SnapPost.trans {m m' : Mach} (h : SnapPost m (.ok () m')) {r : Res Unit} (h' : SnapPost m' r) : SnapPost m r := by
  match r with
  | .ok _ m2 => exact ⟨h'.1.trans h.1, fun hs => h'.2 (h.2 hs)⟩
  | .err e m2 => exact fun hc => (h' hc).trans h.1

theorem run_snap (E : Env) : ∀ n, SnapLoop (run E n) := by
  intro n
  induction n with
  | zero => intro m _; simp [run, SnapPost, Caught]
  | succ n ih =>
    intro m hs
    rw [run]; unfold loopBody
    by_cases hr : m.evm.running = true
    · simp only [hr, if_true]
      match hb : m.evm.code[m.evm.pc]? with
      | none => exact ⟨.refl _, id⟩
      | some b =>
        simp only
        match decodeOpIn m.world.state.fork b with
        | none => intro _; exact .refl _
        | some op =>
          simp only
          have h := step_snap (processMessage_snap (E := E) ih) (processCreateMessage_snap (E := E) ih)
            (processMessage_uncaught E _) (processCreateMessage_uncaught E _) (opStep_effect E _ _ op m hs)
          revert h
          match opStep E (processMessage E (run E n)) (processCreateMessage E (run E n)) op m with
          | .err e m' => exact id
          | .ok _ m' => intro h; exact h.trans (ih m' (h.2 hs))
    · simp only [hr, if_false, Bool.false_eq_true]
      exact ⟨.refl _, id⟩

theorem exec_snap (E : Env) : SnapLoop (exec E) := fun m hs => run_snap E _ m hs
theorem exec_ok (E : Env) : LoopOK (exec E) := fun m hp => run_ok E _ m hp

end Verif
