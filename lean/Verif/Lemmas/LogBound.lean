import Verif.Lemmas.StateRel
/-! Logs are paid for: 375 for each log and topic, 8 for each byte of data. -/
namespace Verif

/-- What a list of logs costs at least. -/
def logsCost (l : List Log) : Nat := (l.map fun g => 375 + 375 * g.topics.length + 8 * g.data.length).sum

theorem logsCost_append (a b : List Log) : logsCost (a ++ b) = logsCost a + logsCost b := by
  unfold logsCost; rw [List.map_append, List.sum_append]

def SubLog (pm : Sub) : Prop := ∀ msg w child w', pm msg w = .ok (child, w') → child.error.isSome = false →
  logsCost child.logs + child.gasLeft ≤ msg.gas

def LogPost (m : Mach) : Res Unit → Prop
  | .ok _ m' => logsCost m'.evm.logs + m'.evm.gasLeft ≤ logsCost m.evm.logs + m.evm.gasLeft ∧
    (m.evm.stack.length ≤ 1024 → m'.evm.stack.length ≤ 1024)
  | .err _ _ => True

theorem step_log {pm pcm : Sub} (hpm : SubLog pm) (hpcm : SubLog pcm) (hgm : SubGas pm) (hgcm : SubGas pcm)
    {m : Mach} {r : Res Unit} {k : Kind} (h : OpEffect k pm pcm m r) : LogPost m r := by
  cases h with
  | ok m' h hk strict => exact ⟨by rw [h.logs]; have := h.gas; omega, h.stack⟩
  | err e m' h he => trivial
  | sstore hk m1 key new orig s' h hg => exact ⟨by simp only [h.logs]; omega, h.stack⟩
  | tstore hk m1 key new h hg => exact ⟨by simp only [h.logs]; omega, h.stack⟩
  | log hk m1 topics data h hg hs hpay =>
    refine ⟨?_, h.stack⟩
    have : logsCost [(⟨m.self, topics, data⟩ : Log)] = 375 + 375 * topics.length + 8 * data.length := by simp [logsCost]
    simp only [logsCost_append, this]; omega
  | selfdestruct hk m1 b s1 h hg => exact ⟨by have := h.gas; simp only [h.logs]; omega, h.stack⟩
  | collision hk m1 a h hg => exact ⟨by simp only [h.logs]; omega, h.stack⟩
  | createErr hk m1 msg e w m' h hsub hw => trivial
  | create hk m1 msg child w m2 h hsub hinc =>
    have h1 := hgcm _ _ _ _ hsub
    have h2 := hinc.gas
    have h3 := h.gas
    have h4 := h.logs
    refine ⟨?_, fun hs => hinc.frame.stack (h.frame.stack hs)⟩
    cases he : child.error.isSome with
    | true => have := (hinc.onError he).1; rw [this, h4]; omega
    | false => have := (hinc.onSuccess he).1; have := hpcm _ _ _ _ hsub he; rw [(hinc.onSuccess he).1, logsCost_append, h4]; omega
  | callErr hk m1 msg e w m' h hsub hw => trivial
  | call hk m1 msg child w m2 h hsub hinc =>
    have h1 := hgm _ _ _ _ hsub
    have h2 := hinc.gas
    have h3 := h.gas
    have h4 := h.locals.logs
    refine ⟨?_, fun hs => hinc.frame.stack (h.locals.stack hs)⟩
    cases he : child.error.isSome with
    | true => have := (hinc.onError he).1; rw [this, h4]; omega
    | false => have := hpm _ _ _ _ hsub he; rw [(hinc.onSuccess he).1, logsCost_append, h4]; omega
  | callOverflow hk m1 msg child w m' h hsub hlen => trivial

def LogLoop (loop : Loop) : Prop := ∀ m, m.evm.stack.length ≤ 1024 → LogPost m (loop m)

theorem executeCode_log {E : Env} {loop : Loop} (hl : LogLoop loop) {msg : Message} {w w2 : World} {evm : Evm}
    (h : executeCode E loop msg w = .ok (evm, w2)) (he : evm.error.isSome = false) :
    logsCost evm.logs + evm.gasLeft ≤ msg.gas := by
  unfold executeCode at h
  simp only at h
  have h0 : logsCost [] = 0 := rfl
  have key : ∀ r : Res Unit, LogPost ⟨initEvm msg, w⟩ r → catchFrame r = .ok (evm, w2) → logsCost evm.logs + evm.gasLeft ≤ msg.gas := by
    intro r hr hc
    match r with
    | .ok _ m' => cases hc; have := hr.1; simp only [initEvm, h0] at this; omega
    | .err (.halt x) m' => cases hc; simp at he
    | .err .revert m' => cases hc; simp at he
    | .err (.crash c) m' => cases hc
    | .err .outOfFuel m' => cases hc
  match hpre : precompileOf E w.state.fork msg with
  | some p =>
    simp only [hpre] at h
    split at h
    · cases h; simp only [initEvm, h0]; omega
    · have hp : Pres p := by
        unfold precompileOf at hpre
        split at hpre
        · cases hpre
        · exact pres_precompile _ _ _ _ hpre
      refine key _ ?_ h
      have := hp.run ⟨initEvm msg, w⟩
      match hr : p ⟨initEvm msg, w⟩ with
      | .ok _ m' =>
        rw [hr] at this
        have hg : m'.evm.gasLeft ≤ (initEvm msg).gasLeft := this.gas
        have hf : m'.evm.logs = (initEvm msg).logs := this.logs
        exact ⟨by rw [hf]; simp only; omega, this.stack⟩
      | .err e m' => trivial
  | none => simp only [hpre] at h; exact key _ (hl _ (Nat.zero_le _)) h

theorem processMessage_log {E : Env} {loop : Loop} (hl : LogLoop loop) : SubLog (processMessage E loop) := by
  intro msg w child w' h he
  unfold processMessage at h
  split at h
  · cases h
  · simp only at h
    split at h
    · cases h
    · split at h
      · cases h
      · rename_i hx
        split at h
        · cases h
        · cases h; exact executeCode_log hl hx he

theorem processCreateMessage_log {E : Env} {loop : Loop} (hl : LogLoop loop) : SubLog (processCreateMessage E loop) := by
  intro msg w child w' h he
  unfold processCreateMessage at h
  split at h
  · cases h
  · rename_i hx
    have hx := processMessage_log hl _ _ _ _ hx
    split at h
    · split at h
      · cases h
      · cases h; exact hx he
    · rename_i hne
      split at h
      · split at h
        · split at h
          · cases h
          · cases h; simp at he
        · split at h
          · cases h
          · cases h; exact hx he
      · rename_i hd
        simp only at h
        split at h
        · cases h
        · cases h
          have := hx (by simpa using hne)
          have := depositCode_le hd
          simp only
          omega

theorem run_log (E : Env) : ∀ n, LogLoop (run E n) := by
  intro n
  induction n with
  | zero => intro m _; trivial
  | succ n ih =>
    intro m hs
    rw [run]; unfold loopBody
    by_cases hr : m.evm.running = true
    · simp only [hr, if_true]
      match hb : m.evm.code[m.evm.pc]? with
      | none => exact ⟨Nat.le_refl _, id⟩
      | some b =>
        simp only
        match decodeOpIn m.world.state.fork b with
        | none => trivial
        | some op =>
          simp only
          have h := step_log (processMessage_log (E := E) ih) (processCreateMessage_log (E := E) ih)
            (processMessage_gas (run_gas E n)) (processCreateMessage_gas (run_gas E n)) (opStep_effect E _ _ op m hs)
          match hs' : opStep E (processMessage E (run E n)) (processCreateMessage E (run E n)) op m with
          | .err e m' => trivial
          | .ok _ m' =>
            rw [hs'] at h
            have h2 := ih m' (h.2 hs)
            match hr2 : run E n m' with
            | .err e m2 => simp only [hr2]; trivial
            | .ok _ m2 =>
              rw [hr2] at h2
              simp only [hr2]
              exact ⟨Nat.le_trans h2.1 h.1, fun hs => h2.2 (h.2 hs)⟩
    · simp only [hr, if_false, Bool.false_eq_true]
      exact ⟨Nat.le_refl _, id⟩

theorem exec_log (E : Env) : LogLoop (exec E) := fun m hs => run_log E _ m hs

end Verif
