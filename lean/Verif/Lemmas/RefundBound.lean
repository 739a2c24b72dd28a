import Verif.Lemmas.StateRel
import Verif.Lemmas.AccessRun
/-! The refund counter grows by less than 25000 per unit of gas spent, and by at most another 25000 in the instruction that ends a frame
(SELFDESTRUCT, which is free before tangerine_whistle). -/
namespace Verif

theorem sstoreRefund_lt (f : Fork) (orig cur new : Word) : sstoreRefund f orig cur new ≤ 25000 := by
  rw [sstoreRefund_eq]
  unfold Spec.writeRefund
  grind

theorem sdRefund_lt (m : Mach) : m.sdRefund ≤ 25000 := by
  unfold Mach.sdRefund
  split <;> decide

def SubRef (pm : Sub) : Prop := ∀ msg w child w', pm msg w = .ok (child, w') → child.error.isSome = false →
  child.refundCounter + 25000 * (child.gasLeft : Int) ≤ 25000 * (msg.gas : Int) + 25000

def RefPost (m : Mach) : Res Unit → Prop
  | .ok _ m' => (m'.evm.refundCounter + 25000 * (m'.evm.gasLeft : Int) ≤ m.evm.refundCounter + 25000 * (m.evm.gasLeft : Int) ∨
      (m'.evm.running = false ∧
        m'.evm.refundCounter + 25000 * (m'.evm.gasLeft : Int) ≤ m.evm.refundCounter + 25000 * (m.evm.gasLeft : Int) + 25000)) ∧
    (m.evm.stack.length ≤ 1024 → m'.evm.stack.length ≤ 1024)
  | .err _ _ => True

theorem step_ref {pm pcm : Sub} (hpm : SubRef pm) (hpcm : SubRef pcm) (hgm : SubGas pm) (hgcm : SubGas pcm)
    {m : Mach} {r : Res Unit} {k : Kind} (h : OpEffect k pm pcm m r) : RefPost m r := by
  cases h with
  | ok m' h hk strict => exact ⟨.inl (by rw [h.refund]; have := h.gas; omega), h.stack⟩
  | err e m' h he => trivial
  | sstore hk m1 key new orig s' h hg =>
    have := sstoreRefund_lt m.world.state.fork orig (getStorage m.world.state m.self key) new
    exact ⟨.inl (by simp only; omega), h.stack⟩
  | tstore hk m1 key new h hg => exact ⟨.inl (by simp only [h.refund]; omega), h.stack⟩
  | log hk m1 topics data h hg => exact ⟨.inl (by simp only [h.refund]; omega), h.stack⟩
  | selfdestruct hk m1 b s1 h hg hs hrun =>
    have := sdRefund_lt m
    have := h.gas
    exact ⟨.inr ⟨hrun, by simp only; omega⟩, h.stack⟩
  | collision hk m1 a h hg => exact ⟨.inl (by simp only [h.refund]; omega), h.stack⟩
  | createErr hk m1 msg e w m' h hsub hw => trivial
  | create hk m1 msg child w m2 h hsub hinc =>
    have h1 := hgcm _ _ _ _ hsub
    have h2 := hinc.gas
    have h3 := h.gas
    have h4 := h.refund
    refine ⟨.inl ?_, fun hs => hinc.frame.stack (h.frame.stack hs)⟩
    cases he : child.error.isSome with
    | true => have := (hinc.onError he).2.1; omega
    | false => have := (hinc.onSuccess he).2.1; have := hpcm _ _ _ _ hsub he; omega
  | callErr hk m1 msg e w m' h hsub hw => trivial
  | call hk m1 msg child w m2 h hsub hinc =>
    have h1 := hgm _ _ _ _ hsub
    have h2 := hinc.gas
    have h3 := h.gas
    have h4 := h.locals.refund
    refine ⟨.inl ?_, fun hs => hinc.frame.stack (h.locals.stack hs)⟩
    cases he : child.error.isSome with
    | true => have := (hinc.onError he).2.1; omega
    | false => have := (hinc.onSuccess he).2.1; have := hpm _ _ _ _ hsub he; omega
  | callOverflow hk m1 msg child w m' h hsub hlen => trivial

def RefLoop (loop : Loop) : Prop := ∀ m, m.evm.stack.length ≤ 1024 → RefPost m (loop m)

theorem executeCode_ref {E : Env} {loop : Loop} (hl : RefLoop loop) {msg : Message} {w w2 : World} {evm : Evm}
    (h : executeCode E loop msg w = .ok (evm, w2)) (he : evm.error.isSome = false) :
    evm.refundCounter + 25000 * (evm.gasLeft : Int) ≤ 25000 * (msg.gas : Int) + 25000 := by
  unfold executeCode at h
  simp only at h
  have key : ∀ r : Res Unit, RefPost ⟨initEvm msg, w⟩ r → catchFrame r = .ok (evm, w2) →
      evm.refundCounter + 25000 * (evm.gasLeft : Int) ≤ 25000 * (msg.gas : Int) + 25000 := by
    intro r hr hc
    match r with
    | .ok _ m' => cases hc; have := hr.1; simp only [initEvm] at this; omega
    | .err (.halt x) m' => cases hc; simp at he
    | .err .revert m' => cases hc; simp at he
    | .err (.crash c) m' => cases hc
    | .err .outOfFuel m' => cases hc
  match hpre : precompileOf E w.state.fork msg with
  | some p =>
    simp only [hpre] at h
    split at h
    · cases h; simp only [initEvm]; omega
    · have hp : Pres p := by
        unfold precompileOf at hpre
        split at hpre
        · cases hpre
        · exact pres_precompile _ _ _ _ hpre
      refine key _ ?_ h
      have := hp.run ⟨initEvm msg, w⟩
      match hr : p ⟨initEvm msg, w⟩ with
      | .ok _ m' =>
        rw [hr] at this
        have hg : m'.evm.gasLeft ≤ (initEvm msg).gasLeft := this.gas
        have hf : m'.evm.refundCounter = (initEvm msg).refundCounter := this.refund
        exact ⟨.inl (by rw [hf]; simp only; omega), this.stack⟩
      | .err e m' => trivial
  | none => simp only [hpre] at h; exact key _ (hl _ (Nat.zero_le _)) h

theorem processMessage_ref {E : Env} {loop : Loop} (hl : RefLoop loop) : SubRef (processMessage E loop) := by
  intro msg w child w' h he
  unfold processMessage at h
  split at h
  · cases h
  · simp only at h
    split at h
    · cases h
    · split at h
      · cases h
      · rename_i hx
        split at h
        · cases h
        · cases h; exact executeCode_ref hl hx he

theorem processCreateMessage_ref {E : Env} {loop : Loop} (hl : RefLoop loop) : SubRef (processCreateMessage E loop) := by
  intro msg w child w' h he
  unfold processCreateMessage at h
  split at h
  · cases h
  · rename_i hx
    have hx := processMessage_ref hl _ _ _ _ hx
    split at h
    · split at h
      · cases h
      · cases h; exact hx he
    · rename_i hne
      split at h
      · split at h
        · split at h
          · cases h
          · cases h; simp at he
        · split at h
          · cases h
          · cases h; exact hx he
      · rename_i hd
        simp only at h
        split at h
        · cases h
        · cases h
          have := hx (by simpa using hne)
          have := depositCode_le hd
          simp only
          omega

theorem run_ref (E : Env) : ∀ n, RefLoop (run E n) := by
  intro n
  induction n with
  | zero => intro m _; trivial
  | succ n ih =>
    intro m hs
    rw [run]; unfold loopBody
    by_cases hr : m.evm.running = true
    · simp only [hr, if_true]
      match hb : m.evm.code[m.evm.pc]? with
      | none => exact ⟨.inl (Int.le_refl _), id⟩
      | some b =>
        simp only
        match decodeOpIn m.world.state.fork b with
        | none => trivial
        | some op =>
          simp only
          have h := step_ref (processMessage_ref (E := E) ih) (processCreateMessage_ref (E := E) ih)
            (processMessage_gas (run_gas E n)) (processCreateMessage_gas (run_gas E n)) (opStep_effect E _ _ op m hs)
          match hs' : opStep E (processMessage E (run E n)) (processCreateMessage E (run E n)) op m with
          | .err e m' => trivial
          | .ok _ m' =>
            rw [hs'] at h
            have h2 := ih m' (h.2 hs)
            match hr2 : run E n m' with
            | .err e m2 => simp only [hr2]; trivial
            | .ok _ m2 =>
              rw [hr2] at h2
              simp only [hr2]
              refine ⟨?_, fun hs => h2.2 (h.2 hs)⟩
              rcases h.1 with h1 | ⟨hn, h1⟩
              · rcases h2.1 with h3 | ⟨h4, h3⟩
                · exact .inl (by omega)
                · exact .inr ⟨h4, by omega⟩
              · have : m2 = m' := by
                  have hz : run E n m' = .err .outOfFuel m' ∨ run E n m' = .ok () m' := by
                    cases n with
                    | zero => exact .inl rfl
                    | succ n => right; rw [run]; unfold loopBody; simp [hn]
                  rcases hz with hz | hz <;> rw [hz] at hr2 <;> cases hr2
                  rfl
                subst this
                exact .inr ⟨hn, h1⟩
    · simp only [hr, if_false, Bool.false_eq_true]
      exact ⟨.inl (Int.le_refl _), id⟩

theorem exec_ref (E : Env) : RefLoop (exec E) := fun m hs => run_ref E _ m hs
end Verif
