import Verif.Lemmas.Raises
import Verif.Lemmas.Good
import Verif.Spec.Trace
/-! How a frame comes to its end. -/
namespace Verif
open Spec

/-- The end of a frame that returns or raises. -/
def FrameEnd (E : Env) (m : Mach) : Res Unit → Prop
  | .ok _ m' => Steps E m m' ∧ (m'.evm.running = false ∨ m'.evm.code[m'.evm.pc]? = none)
  | .err e m' => ∃ m0, Steps E m m0 ∧ m0.evm.running = true ∧
      ((∃ b, m0.evm.code[m0.evm.pc]? = some b ∧ decodeOpIn m0.world.state.fork b = none ∧ e = .halt .invalidOpcode ∧ m' = m0) ∨
       ∃ op, AtOp m0 op ∧ opStep E (processMessage E (exec E)) (processCreateMessage E (exec E)) op m0 = .err e m')

theorem exec_end (E : Env) : ∀ n m, m.evm.gasLeft ≤ n → m.evm.stack.length ≤ 1024 → FrameEnd E m (exec E m) := by
  intro n
  induction n using Nat.strongRecOn with
  | _ n ih =>
    intro m hn hs
    rw [exec_eq E m hs]
    unfold loopBody
    by_cases hr : m.evm.running = true
    · rw [if_pos hr]
      match hb : m.evm.code[m.evm.pc]? with
      | none => exact ⟨.refl _, .inr hb⟩
      | some b =>
        match hd : decodeOpIn m.world.state.fork b with
        | none =>
          simp only [hd]
          exact ⟨m, .refl _, hr, .inl ⟨b, hb, hd, rfl, rfl⟩⟩
        | some op =>
          simp only [hd]
          have hop : AtOp m op := ⟨hr, b, hb, hd⟩
          have hg := step_gas (processMessage_gas (exec_gas E)) (processCreateMessage_gas (exec_gas E))
            (processMessage_uncaught E _) (processCreateMessage_uncaught E _) (opStep_effect E _ _ op m hs)
          match hst : opStep E (processMessage E (exec E)) (processCreateMessage E (exec E)) op m with
          | .err e m' => exact ⟨m, .refl _, hr, .inr ⟨op, hop, hst⟩⟩
          | .ok _ m1 =>
            rw [hst] at hg
            have key : FrameEnd E m1 (exec E m1) := by
              rcases hg.2 with h1 | ⟨h1, h2⟩
              · exact ih m1.evm.gasLeft (by omega) m1 (Nat.le_refl _) (hg.1.2 hs)
              · rw [exec_eq E m1 (hg.1.2 hs)]
                unfold loopBody
                simp only [h1, Bool.false_eq_true, if_false]
                exact ⟨.refl _, .inl h1⟩
            simp only
            revert key
            cases hx : exec E m1 with
            | ok a m' => intro key; exact ⟨.cons m op m1 m' hop hst key.1, key.2⟩
            | err e m' =>
              intro key
              obtain ⟨m0, h1, h2, h3⟩ := key
              exact ⟨m0, .cons m op m1 m0 hop hst h1, h2, h3⟩
    · rw [if_neg hr]
      exact ⟨.refl _, .inl (by simpa using hr)⟩

theorem Spec.Steps.trans {E : Env} {a b c : Mach} (h : Steps E a b) (h' : Steps E b c) : Steps E a c := by
  induction h with
  | refl m => exact h'
  | cons m op m1 m2 hop h hr ih => exact .cons m op m1 c hop h (ih h')

/-- What is kept along a run, given that each instruction keeps it. -/
theorem Spec.Steps.frame {E : Env} {m m' : Mach} (h : Steps E m m') (hs : m.evm.stack.length ≤ 1024) : FrameLoc m m' := by
  induction h with
  | refl m => exact FrameLoc.refl m
  | cons m op m1 m2 hop h hr ih =>
    have := (opStep_effect E _ _ op m hs).frameLoc h
    exact this.trans (ih (this.stack hs))

theorem Spec.Steps.limits {E : Env} {m m' : Mach} (h : Steps E m m') (hm : WithinLimits m) : WithinLimits m' := by
  induction h with
  | refl m => exact hm
  | cons m op m1 m2 hop h hr ih => exact ih (opStep_limits hm h)

theorem Spec.Steps.frel {E : Env} {m m' : Mach} (h : Steps E m m') (hm : Pre m) : FRel m m' := by
  induction h with
  | refl m => exact FRel.refl m
  | cons m op m1 m2 hop h hr ih =>
    obtain ⟨-, b, hb, -⟩ := hop
    have hc : m.evm.code ≠ [] := by intro hc; rw [hc] at hb; simp at hb
    have := step_ok (processMessage_ok (E := E) (exec_ok E)) (processCreateMessage_ok (E := E) (exec_ok E)) hm hc
      (opStep_effect E _ _ op m hm.stack)
    rw [h] at this
    exact FRel.trans hm.snaps this (ih (hm.mono this))

theorem subNR_processMessage (E : Env) (loop : Loop) : SubNR (processMessage E loop) := by
  intro msg w w' h
  unfold processMessage at h
  split at h
  · cases h
  · simp only at h
    split at h
    · cases h
    · split at h
      · rename_i e he; cases h
        unfold executeCode at he
        simp only at he
        split at he
        · split at he
          · cases he
          · unfold catchFrame at he; split at he <;> cases he
            simp_all
        · unfold catchFrame at he; split at he <;> cases he
          simp_all
      · split at h <;> cases h

theorem subNR_processCreateMessage (E : Env) (loop : Loop) : SubNR (processCreateMessage E loop) := by
  intro msg w w' h
  unfold processCreateMessage at h
  split at h
  · rename_i e he; cases h; exact subNR_processMessage E loop _ _ _ he
  · split at h
    · split at h <;> cases h
    · split at h
      · split at h <;> split at h <;> cases h
      · simp only at h; split at h <;> cases h

/-- How the frame of a message ends. -/
inductive CodeEnd (E : Env) (msg : Message) (w : World) : Evm → World → Prop
  | disabled (h : ∃ p, precompileOf E w.state.fork msg = some p) : CodeEnd E msg w (initEvm msg) w
  | ok (m' : Mach) (he : m'.evm.error = none)
      (h : (∃ p, precompileOf E w.state.fork msg = some p ∧ p ⟨initEvm msg, w⟩ = .ok () m') ∨
        precompileOf E w.state.fork msg = none ∧ Steps E ⟨initEvm msg, w⟩ m' ∧
          (m'.evm.running = false ∨ m'.evm.code[m'.evm.pc]? = none)) : CodeEnd E msg w m'.evm m'.world
  | halt (x : Halt) (m' : Mach) : CodeEnd E msg w { m'.evm with gasLeft := 0, output := haltOutput m'.world.state.fork m'.evm.output, error := some (.halt x) } m'.world
  | revert (m0 m' : Mach) (hn : precompileOf E w.state.fork msg = none) (hs : Steps E ⟨initEvm msg, w⟩ m0) (hop : AtOp m0 .revert)
      (h : opRevert m0 = .err .revert m') : CodeEnd E msg w { m'.evm with error := some .revert } m'.world

theorem executeCode_end {E : Env} {msg : Message} {w w' : World} {child : Evm}
    (h : executeCode E (exec E) msg w = .ok (child, w')) : CodeEnd E msg w child w' := by
  unfold executeCode at h
  simp only at h
  match hp : precompileOf E w.state.fork msg with
  | some p =>
    simp only [hp] at h
    split at h
    · cases h; exact .disabled ⟨p, hp⟩
    · obtain ⟨a, ha⟩ : ∃ a, precompile E w.state.fork a = some p := by
        unfold precompileOf at hp
        split at hp
        · cases hp
        · exact ⟨_, hp⟩
      match hx : p ⟨initEvm msg, w⟩ with
      | .ok _ m' =>
        rw [hx] at h; cases h
        refine .ok m' ?_ (.inl ⟨p, hp, hx⟩)
        have := (pres_precompile E _ a p ha).run ⟨initEvm msg, w⟩
        rw [hx] at this
        exact this.error
      | .err e m' =>
        rw [hx] at h
        cases e with
        | halt x => cases h; exact .halt x m'
        | revert => exact absurd hx (nr_precompile ha _ _)
        | crash c => cases h
        | outOfFuel => cases h
  | none =>
    simp only [hp] at h
    have hend := exec_end E _ ⟨initEvm msg, w⟩ (Nat.le_refl _) (by simp [initEvm])
    match hx : exec E ⟨initEvm msg, w⟩ with
    | .ok _ m' =>
      rw [hx] at h hend; cases h
      refine .ok m' ?_ (.inr ⟨hp, hend⟩)
      rw [(hend.1.frame (by simp [initEvm])).error]; rfl
    | .err e m' =>
      rw [hx] at h hend
      cases e with
      | halt x => cases h; exact .halt x m'
      | revert =>
        cases h
        obtain ⟨m0, h1, h2, h3 | ⟨op, hop, h4⟩⟩ := hend
        · obtain ⟨b, -, -, he, -⟩ := h3; cases he
        · have hrev : op = .revert := by
            apply Classical.byContradiction
            intro hne
            exact opStep_nr E (subNR_processMessage E _) (subNR_processCreateMessage E _) op hne _ _ h4
          subst hrev
          exact .revert m0 m' hp h1 hop h4
      | crash c => cases h
      | outOfFuel => cases h

/-- What REVERT does, in a frame whose memory is a whole number of words. -/
theorem opRevert_inv {m m' : Mach} (ha : Aligned m.evm.memory) (h : opRevert m = .err .revert m') :
    ∃ start size rest, m.evm.stack = start :: size :: rest ∧
      let words := m.evm.memory.length / 32
      m'.evm.gasLeft + (memoryPrice (max words (wordsFor start size)) - memoryPrice words) = m.evm.gasLeft ∧
      m'.evm.output.length = size.toNat ∧
      (∀ i < size.toNat, m'.evm.output[i]? = some ((m.evm.memory[start.toNat + i]?).getD 0)) ∧
      m'.world = m.world ∧ m'.evm.message = m.evm.message := by
  match hst : m.evm.stack with
  | [] => simp [opRevert, bind_eq, pop, hst] at h
  | [x] => simp [opRevert, bind_eq, pop, hst] at h
  | start :: size :: rest =>
    refine ⟨start, size, rest, rfl, ?_⟩
    have hx := createExt_eq ha start size
    simp only [createExt] at hx
    simp only [opRevert, bind_eq, pop, hst, extendCost, pure_eq, getEvm, chargeGas, hx] at h
    by_cases hg : m.evm.gasLeft < memoryPrice (max (m.evm.memory.length / 32) (wordsFor start size)) -
        memoryPrice (m.evm.memory.length / 32)
    · rw [if_pos hg] at h; simp at h
    · rw [if_neg hg] at h
      simp only [expandMemory, setOutput, raise] at h
      cases h
      have hcov : size.toNat = 0 ∨ start.toNat + size.toNat ≤ 32 * max (m.evm.memory.length / 32) (wordsFor start size) := by
        by_cases h0 : size = 0
        · left; rw [h0]; rfl
        · right; unfold wordsFor; rw [if_neg h0]; omega
      have hlen : m.evm.memory.length = 32 * (m.evm.memory.length / 32) := by unfold Aligned at ha; omega
      refine ⟨?_, ?_, ?_, rfl, rfl⟩
      · show m.evm.gasLeft - _ + _ = _; omega
      · simp only [memoryReadBytes, slice, List.length_take, List.length_drop, List.length_append, List.length_replicate]
        omega
      · intro i hi
        simp only [memoryReadBytes, slice]
        rw [List.getElem?_take_of_lt (by omega), List.getElem?_drop]
        by_cases hin : start.toNat + i < m.evm.memory.length
        · rw [List.getElem?_append_left hin, List.getElem?_eq_getElem hin]; rfl
        · rw [List.getElem?_append_right (by omega), List.getElem?_replicate, if_pos (by omega),
            List.getElem?_eq_none (by omega)]; rfl

end Verif
