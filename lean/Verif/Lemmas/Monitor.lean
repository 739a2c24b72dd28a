import Verif.Lemmas.Agree
import Verif.Spec.Monitor
/-! Invariants of all frames of an execution, through the monitored interpreter. -/
namespace Verif
open Spec

theorem OpEffect.frameLoc {k : Kind} {pm pcm : Sub} {m m' : Mach} {r : Res Unit} (h : OpEffect k pm pcm m r)
    (hr : r = .ok () m') : FrameLoc m m' := by
  cases h with
  | ok m1 h hk strict => cases hr; exact h.frameLoc
  | err e m1 h he => cases hr
  | sstore hk m1 key new orig s' h hg => cases hr; exact ⟨h.message, h.code, h.jumps, h.error, h.addrs, h.keys, h.stack⟩
  | tstore hk m1 key new h hg => cases hr; exact ⟨h.message, h.code, h.jumps, h.error, h.addrs, h.keys, h.stack⟩
  | log hk m1 topics data h hg => cases hr; exact ⟨h.message, h.code, h.jumps, h.error, h.addrs, h.keys, h.stack⟩
  | selfdestruct hk m1 b s1 h hg => cases hr; exact ⟨h.message, h.code, h.jumps, h.error, h.addrs, h.keys, h.stack⟩
  | collision hk m1 a h hg => cases hr; exact ⟨h.message, h.code, h.jumps, h.error, h.addrs, h.keys, h.stack⟩
  | createErr hk m1 msg e w m1 h hsub hw => cases hr
  | create hk m1 msg child w m2 h hsub hinc => cases hr; exact h.frame.trans hinc.frame
  | callErr hk m1 msg e w m1 h hsub hw => cases hr
  | call hk m1 msg child w m2 h hsub hinc => cases hr; exact h.locals.frameLoc.trans hinc.frame
  | callOverflow hk m1 msg child w m1 h hsub hlen => cases hr

/-- An instruction keeps a frame within the limits, whatever its children do. -/
theorem opStep_limits {E : Env} {pm pcm : Sub} {op : Op} {m m' : Mach} (h : WithinLimits m)
    (he : opStep E pm pcm op m = .ok () m') : WithinLimits m' := by
  have hf := (opStep_effect E pm pcm op m h.stack).frameLoc he
  exact ⟨hf.stack h.stack, opStep_aligned E pm pcm op m () m' h.memory he, by rw [hf.message]; exact h.depth⟩

/-- A check that follows from an invariant, which holds of every new frame and is preserved by every instruction of the interpreter never fails. -/
theorem runChecked_eq_inv (E : Env) (check inv : Mach → Prop) (bad : Loop) (himp : ∀ m, inv m → check m)
    (hinit : ∀ msg w, msg.depth ≤ 1024 → inv ⟨initEvm msg, w⟩)
    (hstep : ∀ n op m m' b, inv m → m.evm.code[m.evm.pc]? = some b → decodeOpIn m.world.state.fork b = some op → m.evm.running = true →
      opStep E (processMessage E (run E n)) (processCreateMessage E (run E n)) op m = .ok () m' → inv m') :
    ∀ n m, inv m → runChecked E check bad n m = run E n m
  | 0, m, _ => rfl
  | n + 1, m, hm => by
    have ih := runChecked_eq_inv E check inv bad himp hinit hstep n
    have hpm : processMessage E (runChecked E check bad n) = processMessage E (run E n) := by
      funext msg w
      by_cases hd : msg.depth ≤ 1024
      · exact processMessage_congr (fun w => ih _ (hinit msg w hd)) w
      · unfold processMessage
        rw [if_pos (show msg.depth > STACK_DEPTH_LIMIT from by simpa [STACK_DEPTH_LIMIT] using hd),
          if_pos (show msg.depth > STACK_DEPTH_LIMIT from by simpa [STACK_DEPTH_LIMIT] using hd)]
    have hpcm : processCreateMessage E (runChecked E check bad n) = processCreateMessage E (run E n) := by
      funext msg w
      unfold processCreateMessage
      rw [hpm]
    show runChecked E check bad (n + 1) m = loopBody E (run E n) m
    unfold runChecked
    simp only [himp m hm, if_true]
    unfold loopBody
    rw [hpm, hpcm]
    split
    · rename_i hrun
      split
      · rfl
      · rename_i b hb
        split
        · rfl
        · rename_i op hop
          split
          · rfl
          · rename_i m' he
            exact ih m' (hstep n op m m' b hm hb hop hrun he)
    · rfl

/-- And so no frame of a whole message fails it. -/
theorem checked_message_inv (E : Env) (check inv : Mach → Prop) (bad : Loop) (himp : ∀ m, inv m → check m)
    (hinit : ∀ msg w, msg.depth ≤ 1024 → inv ⟨initEvm msg, w⟩)
    (hstep : ∀ n op m m' b, inv m → m.evm.code[m.evm.pc]? = some b → decodeOpIn m.world.state.fork b = some op → m.evm.running = true →
      opStep E (processMessage E (run E n)) (processCreateMessage E (run E n)) op m = .ok () m' → inv m') :
    processMessage E (execChecked E check bad) = processMessage E (exec E) ∧
    processCreateMessage E (execChecked E check bad) = processCreateMessage E (exec E) := by
  have hpm : processMessage E (execChecked E check bad) = processMessage E (exec E) := by
    funext msg w
    by_cases hd : msg.depth ≤ 1024
    · refine processMessage_congr (fun w => ?_) w
      exact runChecked_eq_inv E check inv bad himp hinit hstep _ _ (hinit msg w hd)
    · unfold processMessage
      rw [if_pos (show msg.depth > STACK_DEPTH_LIMIT from by simpa [STACK_DEPTH_LIMIT] using hd),
        if_pos (show msg.depth > STACK_DEPTH_LIMIT from by simpa [STACK_DEPTH_LIMIT] using hd)]
  refine ⟨hpm, ?_⟩
  funext msg w
  unfold processCreateMessage
  rw [hpm]

theorem checked_call_inv (E : Env) (check inv : Mach → Prop) (bad : Loop) (himp : ∀ m, inv m → check m)
    (hinit : ∀ msg w, msg.depth ≤ 1024 → inv ⟨initEvm msg, w⟩)
    (hstep : ∀ n op m m' b, inv m → m.evm.code[m.evm.pc]? = some b → decodeOpIn m.world.state.fork b = some op → m.evm.running = true →
      opStep E (processMessage E (run E n)) (processCreateMessage E (run E n)) op m = .ok () m' → inv m')
    (msg : Message) (w : World) :
    processMessageCallWith E (execChecked E check bad) msg w = processMessageCall E msg w := by
  obtain ⟨h1, h2⟩ := checked_message_inv E check inv bad himp hinit hstep
  unfold processMessageCall processMessageCallWith
  rw [h1, h2]

theorem checked_message (E : Env) (check : Mach → Prop) (bad : Loop)
    (hinit : ∀ msg w, msg.depth ≤ 1024 → check ⟨initEvm msg, w⟩)
    (hstep : ∀ n op m m' b, check m → m.evm.code[m.evm.pc]? = some b → decodeOpIn m.world.state.fork b = some op → m.evm.running = true →
      opStep E (processMessage E (run E n)) (processCreateMessage E (run E n)) op m = .ok () m' → check m') :
    processMessage E (execChecked E check bad) = processMessage E (exec E) ∧
    processCreateMessage E (execChecked E check bad) = processCreateMessage E (exec E) :=
  checked_message_inv E check check bad (fun _ h => h) hinit hstep

theorem checked_call (E : Env) (check : Mach → Prop) (bad : Loop)
    (hinit : ∀ msg w, msg.depth ≤ 1024 → check ⟨initEvm msg, w⟩)
    (hstep : ∀ n op m m' b, check m → m.evm.code[m.evm.pc]? = some b → decodeOpIn m.world.state.fork b = some op → m.evm.running = true →
      opStep E (processMessage E (run E n)) (processCreateMessage E (run E n)) op m = .ok () m' → check m')
    (msg : Message) (w : World) :
    processMessageCallWith E (execChecked E check bad) msg w = processMessageCall E msg w :=
  checked_call_inv E check check bad (fun _ h => h) hinit hstep msg w

theorem init_limits (msg : Message) (w : World) (h : msg.depth ≤ 1024) : WithinLimits ⟨initEvm msg, w⟩ :=
  ⟨by simp [initEvm], by simp [initEvm], h⟩

end Verif
