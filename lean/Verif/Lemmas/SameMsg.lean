import Verif.Lemmas.StateRel
/-! A frame that ends without error still has the message it was started with. -/
namespace Verif

def KeepsMsgPost (m : Mach) : Res Unit → Prop
  | .ok _ m' => m'.evm.message = m.evm.message ∧ (m.evm.stack.length ≤ 1024 → m'.evm.stack.length ≤ 1024)
  | .err _ _ => True

def KeepsMsgLoop (loop : Loop) : Prop := ∀ m, m.evm.stack.length ≤ 1024 → KeepsMsgPost m (loop m)

def KeepsMsgSub (pm : Sub) : Prop := ∀ msg w child w', pm msg w = .ok (child, w') → child.error.isSome = false → child.message = msg

theorem msg_step {pm pcm : Sub} {m : Mach} {r : Res Unit} {k : Kind} (h : OpEffect k pm pcm m r) : KeepsMsgPost m r := by
  cases h with
  | ok m' h hk strict => exact ⟨h.message, h.stack⟩
  | err e m' h he => trivial
  | sstore hk m1 key new orig s' h hg _ _ _ hset => exact ⟨h.message, h.stack⟩
  | tstore hk m1 key new h hg => exact ⟨h.message, h.stack⟩
  | log hk m1 topics data h hg => exact ⟨h.message, h.stack⟩
  | selfdestruct hk m1 b s1 h hg _ _ hmove => exact ⟨h.message, h.stack⟩
  | collision hk m1 x h hg => exact ⟨h.message, h.stack⟩
  | createErr hk m1 msg e w m' h hsub hw => trivial
  | create hk m1 msg child w m2 h hsub hinc =>
    exact ⟨hinc.frame.message.trans h.frame.message, fun hs => hinc.frame.stack (h.frame.stack hs)⟩
  | callErr hk m1 msg e w m' h hsub hw => trivial
  | call hk m1 msg child w m2 h hsub hinc =>
    exact ⟨hinc.frame.message.trans h.locals.message, fun hs => hinc.frame.stack (h.locals.stack hs)⟩
  | callOverflow hk m1 msg child w m' h hsub hlen => trivial

theorem msg_executeCode {E : Env} {loop : Loop} {msg : Message} {w : World} (hl : KeepsMsgLoop loop) {evm : Evm} {w2 : World}
    (h : executeCode E loop msg w = .ok (evm, w2)) (hne : evm.error.isSome = false) : evm.message = msg := by
  unfold executeCode at h
  simp only at h
  have key : ∀ r : Res Unit, KeepsMsgPost ⟨initEvm msg, w⟩ r → catchFrame r = .ok (evm, w2) → evm.message = msg := by
    intro r hr hc
    match r with
    | .ok _ m' => cases hc; exact hr.1
    | .err (.halt x) m' => cases hc; simp at hne
    | .err .revert m' => cases hc; simp at hne
    | .err (.crash c) m' => cases hc
    | .err .outOfFuel m' => cases hc
  match hpre : precompileOf E w.state.fork msg with
  | some p =>
    simp only [hpre] at h
    split at h
    · cases h; rfl
    · have hp : Pres p := by
        unfold precompileOf at hpre
        split at hpre
        · cases hpre
        · exact pres_precompile _ _ _ _ hpre
      refine key _ ?_ h
      have := hp.run ⟨initEvm msg, w⟩
      revert this
      match p ⟨initEvm msg, w⟩ with
      | .ok _ m' => intro h; exact ⟨h.message, h.stack⟩
      | .err e m' => intro h; trivial
  | none => simp only [hpre] at h; exact key _ (hl ⟨initEvm msg, w⟩ (Nat.zero_le _)) h

theorem msg_processMessage {E : Env} {loop : Loop} (hl : KeepsMsgLoop loop) : KeepsMsgSub (processMessage E loop) := by
  intro msg w child w' h herr
  unfold processMessage at h
  split at h
  · cases h
  · simp only at h
    split at h
    · cases h
    · split at h
      · cases h
      · rename_i evm w2 hx
        split at h
        · cases h
        · cases h
          exact msg_executeCode hl hx herr

theorem msg_processCreateMessage {E : Env} {loop : Loop} (hl : KeepsMsgLoop loop) : KeepsMsgSub (processCreateMessage E loop) := by
  intro msg w child w' h herr
  unfold processCreateMessage at h
  split at h
  · cases h
  · rename_i evm w2 hx
    have h1 := msg_processMessage hl _ _ _ _ hx
    split at h
    · rename_i hh
      split at h <;> cases h
      rw [herr] at hh; cases hh
    · rename_i hno
      have h1 := h1 (by simpa using hno)
      split at h
      · split at h
        · split at h <;> cases h
          simp at herr
        · split at h <;> cases h
          exact h1
      · simp only at h
        split at h <;> cases h
        exact h1

theorem msg_run (E : Env) : ∀ n, KeepsMsgLoop (run E n) := by
  intro n
  induction n with
  | zero => intro m _; trivial
  | succ n ih =>
    intro m hs
    rw [run]; unfold loopBody
    by_cases hr : m.evm.running = true
    · simp only [hr, if_true]
      match hb : m.evm.code[m.evm.pc]? with
      | none => exact ⟨rfl, id⟩
      | some b =>
        simp only
        match decodeOpIn m.world.state.fork b with
        | none => trivial
        | some op =>
          simp only
          have h := msg_step (opStep_effect E (processMessage E (run E n)) (processCreateMessage E (run E n)) op m hs)
          revert h
          match opStep E (processMessage E (run E n)) (processCreateMessage E (run E n)) op m with
          | .err e m' => intro _; trivial
          | .ok _ m' =>
            intro h
            have h2 := ih m' (h.2 hs)
            revert h2
            simp only
            match run E n m' with
            | .ok _ m2 => intro g; exact ⟨g.1.trans h.1, fun hs => g.2 (h.2 hs)⟩
            | .err e m2 => intro _; trivial
    · simp only [hr, if_false, Bool.false_eq_true]
      exact ⟨rfl, id⟩

theorem msg_exec (E : Env) : KeepsMsgLoop (exec E) := fun m hs => msg_run E _ m hs

end Verif
