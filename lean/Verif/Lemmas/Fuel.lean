import Verif.Lemmas.Exec2
/-! Fuel: `gas + 2` suffices, and more fuel does not change the result. -/
namespace Verif

/-! ### gas alone -/

def SubGas (pm : Sub) : Prop := ∀ msg w child w', pm msg w = .ok (child, w') → child.gasLeft ≤ msg.gas

/-- Result of a frame that started at `m`: gas did not grow (if the exception, if any, is caught), and the stack bound
is kept. -/
def GasPost (m : Mach) : Res Unit → Prop
  | .ok _ m' => m'.evm.gasLeft ≤ m.evm.gasLeft ∧ (m.evm.stack.length ≤ 1024 → m'.evm.stack.length ≤ 1024)
  | .err e m' => Caught e → m'.evm.gasLeft ≤ m.evm.gasLeft

/-- The result of one instruction makes progress. -/
def Progress (m : Mach) : Res Unit → Prop
  | .ok _ m' => m'.evm.gasLeft < m.evm.gasLeft ∨ (m'.evm.running = false ∧ m'.evm.gasLeft ≤ m.evm.gasLeft)
  | .err _ _ => True

/-- No exception that a frame would catch comes out of the processor itself. -/
def SubUncaught (pm : Sub) : Prop := ∀ msg w e w', msg.depth ≤ 1024 → pm msg w = .error (e, w') → ¬ Caught e

theorem step_gas {pm pcm : Sub} (hpm : SubGas pm) (hpcm : SubGas pcm) (hum : SubUncaught pm) (hucm : SubUncaught pcm)
    {m : Mach} {r : Res Unit} {k : Kind} (h : OpEffect k pm pcm m r) : GasPost m r ∧ Progress m r := by
  cases h with
  | ok m' h hk strict =>
    refine ⟨⟨h.gas, h.stack⟩, ?_⟩
    rcases strict with h1 | h1
    · exact .inl h1
    · exact .inr ⟨h1, h.gas⟩
  | err e m' h he => exact ⟨fun _ => h.gas, trivial⟩
  | sstore hk m1 key new orig s' h hg => exact ⟨⟨Nat.le_of_lt hg, h.stack⟩, .inl hg⟩
  | tstore hk m1 key new h hg => exact ⟨⟨Nat.le_of_lt hg, h.stack⟩, .inl hg⟩
  | log hk m1 topics data h hg => exact ⟨⟨Nat.le_of_lt hg, h.stack⟩, .inl hg⟩
  | selfdestruct hk m1 b s1 h hg _ hrun => exact ⟨⟨h.gas, h.stack⟩, .inr ⟨hrun, h.gas⟩⟩
  | collision hk m1 a h hg => exact ⟨⟨Nat.le_of_lt hg, h.stack⟩, .inl hg⟩
  | createErr hk m1 msg e w m' h hsub hw =>
    exact ⟨fun hc => absurd hc (hucm _ _ _ _ h.depthLe hsub), trivial⟩
  | create hk m1 msg child w m2 h hsub hinc =>
    have h1 := hpcm _ _ _ _ hsub
    have h2 := hinc.gas
    have h3 := h.gas
    exact ⟨⟨by omega, fun hs => hinc.frame.stack (h.frame.stack hs)⟩, .inl (by omega)⟩
  | callErr hk m1 msg e w m' h hsub hw =>
    exact ⟨fun hc => absurd hc (hum _ _ _ _ h.depthLe hsub), trivial⟩
  | call hk m1 msg child w m2 h hsub hinc =>
    have h1 := hpm _ _ _ _ hsub
    have h2 := hinc.gas
    have h3 := h.gas
    exact ⟨⟨by omega, fun hs => hinc.frame.stack (h.locals.stack hs)⟩, .inl (by omega)⟩
  | callOverflow hk m1 msg child w m' h hsub hlen => exact ⟨fun hc => hc.elim, trivial⟩

theorem executeCode_gas {E : Env} {loop : Loop} (msg : Message) (w : World)
    (hl : GasPost ⟨initEvm msg, w⟩ (loop ⟨initEvm msg, w⟩)) {evm : Evm} {w2 : World}
    (h : executeCode E loop msg w = .ok (evm, w2)) : evm.gasLeft ≤ msg.gas := by
  unfold executeCode at h
  simp only at h
  have key : ∀ r : Res Unit, GasPost ⟨initEvm msg, w⟩ r → catchFrame r = .ok (evm, w2) → evm.gasLeft ≤ msg.gas := by
    intro r hr hc
    match r with
    | .ok _ m' => cases hc; exact hr.1
    | .err (.halt x) m' => cases hc; exact Nat.zero_le _
    | .err .revert m' => cases hc; exact hr trivial
    | .err (.crash c) m' => cases hc
    | .err .outOfFuel m' => cases hc
  match hpre : precompileOf E w.state.fork msg with
  | some p =>
    simp only [hpre] at h
    split at h
    · cases h; exact Nat.le_refl _
    · have hp : Pres p := by
        unfold precompileOf at hpre
        split at hpre
        · cases hpre
        · exact pres_precompile _ _ _ _ hpre
      refine key _ ?_ h
      have := hp.run ⟨initEvm msg, w⟩
      revert this
      match p ⟨initEvm msg, w⟩ with
      | .ok _ m' => intro h; exact ⟨h.gas, h.stack⟩
      | .err e m' => intro h _; exact h.gas
  | none => simp only [hpre] at h; exact key _ hl h

theorem catchFrame_uncaught {r : Res Unit} {e : Exn} {w : World} (h : catchFrame r = .error (e, w)) : ¬ Caught e := by
  match r with
  | .ok _ _ => cases h
  | .err (.halt _) _ => cases h
  | .err .revert _ => cases h
  | .err (.crash _) _ => cases h; exact id
  | .err .outOfFuel _ => cases h; exact id

theorem processMessage_uncaught (E : Env) (loop : Loop) : SubUncaught (processMessage E loop) := by
  intro msg w e w' hd h
  unfold processMessage at h
  rw [if_neg (show ¬ msg.depth > STACK_DEPTH_LIMIT from Nat.not_lt.mpr hd)] at h
  simp only at h
  split at h
  · cases h; exact id
  · split at h
    · rename_i hx
      cases h
      unfold executeCode at hx
      simp only at hx
      split at hx
      · split at hx
        · cases hx
        · exact catchFrame_uncaught hx
      · exact catchFrame_uncaught hx
    · split at h
      · cases h; exact id
      · cases h

theorem processCreateMessage_uncaught (E : Env) (loop : Loop) : SubUncaught (processCreateMessage E loop) := by
  intro msg w e w' hd h
  unfold processCreateMessage at h
  split at h
  · rename_i hx; cases h; exact processMessage_uncaught E loop _ _ _ _ hd hx
  · split at h
    · split at h
      · cases h; exact id
      · cases h
    · split at h
      · split at h
        · split at h
          · cases h; exact id
          · cases h
        · split at h
          · cases h; exact id
          · cases h
      · simp only at h
        split at h
        · cases h; exact id
        · cases h

def GasLoop (loop : Loop) : Prop := ∀ m, m.evm.stack.length ≤ 1024 → GasPost m (loop m)

theorem processMessage_gas {E : Env} {loop : Loop} (hl : GasLoop loop) : SubGas (processMessage E loop) := by
  intro msg w child w' h
  unfold processMessage at h
  split at h
  · cases h
  · simp only at h
    split at h
    · cases h
    · split at h
      · cases h
      · rename_i hx
        split at h
        · cases h
        · cases h; exact executeCode_gas msg _ (hl _ (Nat.zero_le _)) hx

theorem depositCode_le {f : Fork} {g : Nat} {out : Bytes} {g' : Nat} (h : depositCode f g out = .ok g') : g' ≤ g := by
  unfold depositCode at h
  simp only at h
  split at h
  · cases h
  · split at h
    · cases h
    · split at h <;> cases h
      omega

theorem processCreateMessage_gas {E : Env} {loop : Loop} (hl : GasLoop loop) : SubGas (processCreateMessage E loop) := by
  intro msg w child w' h
  unfold processCreateMessage at h
  split at h
  · cases h
  · rename_i hx
    have hx := processMessage_gas hl _ _ _ _ hx
    split at h
    · split at h
      · cases h
      · cases h; exact hx
    · split at h
      · split at h
        · split at h
          · cases h
          · cases h; exact Nat.zero_le _
        · split at h
          · cases h
          · cases h; exact hx
      · rename_i hd
        simp only at h
        split at h
        · cases h
        · cases h; exact Nat.le_trans (depositCode_le hd) hx

theorem GasPost.trans {m m' : Mach} (h : GasPost m (.ok () m')) {r : Res Unit} (h' : GasPost m' r) : GasPost m r := by
  match r with
  | .ok _ m2 => exact ⟨Nat.le_trans h'.1 h.1, fun hs => h'.2 (h.2 hs)⟩
  | .err e m2 => exact fun hc => Nat.le_trans (h' hc) h.1

theorem run_gas (E : Env) : ∀ n, GasLoop (run E n) := by
  intro n
  induction n with
  | zero => intro m _; simp [run, GasPost, Caught]
  | succ n ih =>
    intro m hs
    rw [run]; unfold loopBody
    by_cases hr : m.evm.running = true
    · simp only [hr, if_true]
      match hb : m.evm.code[m.evm.pc]? with
      | none => exact ⟨Nat.le_refl _, id⟩
      | some b =>
        simp only
        match decodeOpIn m.world.state.fork b with
        | none => intro _; exact Nat.le_refl _
        | some op =>
          simp only
          have h := (step_gas (processMessage_gas (E := E) ih) (processCreateMessage_gas (E := E) ih)
            (processMessage_uncaught E _) (processCreateMessage_uncaught E _) (opStep_effect E _ _ op m hs)).1
          revert h
          match opStep E (processMessage E (run E n)) (processCreateMessage E (run E n)) op m with
          | .err e m' => exact id
          | .ok _ m' => intro h; exact h.trans (ih m' (h.2 hs))
    · simp only [hr, if_false, Bool.false_eq_true]
      exact ⟨Nat.le_refl _, id⟩

/-! ### enough fuel -/

theorem executeCode_fuel {E : Env} {loop : Loop} {msg : Message} {w w' : World}
    (h : executeCode E loop msg w = .error (.outOfFuel, w')) : ∃ m', loop ⟨initEvm msg, w⟩ = .err .outOfFuel m' := by
  unfold executeCode at h
  simp only at h
  match hpre : precompileOf E w.state.fork msg with
  | some p =>
    simp only [hpre] at h
    split at h
    · cases h
    · have hp : Pres p := by
        unfold precompileOf at hpre
        split at hpre
        · cases hpre
        · exact pres_precompile _ _ _ _ hpre
      have := hp.fuel ⟨initEvm msg, w⟩
      revert h this
      match p ⟨initEvm msg, w⟩ with
      | .ok _ m' => intro h; cases h
      | .err (.halt x) m' => intro h; cases h
      | .err .revert m' => intro h; cases h
      | .err (.crash c) m' => intro h; cases h
      | .err .outOfFuel m' => intro _ h2; exact absurd rfl (h2 _ _ rfl)
  | none =>
    simp only [hpre] at h
    revert h
    match loop ⟨initEvm msg, w⟩ with
    | .ok _ m' => intro h; cases h
    | .err (.halt x) m' => intro h; cases h
    | .err .revert m' => intro h; cases h
    | .err (.crash c) m' => intro h; cases h
    | .err .outOfFuel m' => intro _; exact ⟨m', rfl⟩

theorem processMessage_fuel {E : Env} {loop : Loop} {msg : Message} {w w' : World}
    (h : processMessage E loop msg w = .error (.outOfFuel, w')) :
    ∃ w1 m', loop ⟨initEvm msg, w1⟩ = .err .outOfFuel m' := by
  unfold processMessage at h
  split at h
  · cases h
  · simp only at h
    split at h
    · cases h
    · split at h
      · rename_i hx; cases h; obtain ⟨m', h'⟩ := executeCode_fuel hx; exact ⟨_, _, h'⟩
      · split at h <;> cases h

theorem processCreateMessage_fuel {E : Env} {loop : Loop} {msg : Message} {w w' : World}
    (h : processCreateMessage E loop msg w = .error (.outOfFuel, w')) :
    ∃ w1 m', loop ⟨initEvm msg, w1⟩ = .err .outOfFuel m' := by
  unfold processCreateMessage at h
  split at h
  · rename_i hx; cases h; exact processMessage_fuel hx
  · split at h
    · split at h <;> cases h
    · split at h
      · split at h
        · split at h <;> cases h
        · split at h <;> cases h
      · simp only at h; split at h <;> cases h

theorem run_enough (E : Env) : ∀ n m, m.evm.stack.length ≤ 1024 →
    (m.evm.gasLeft + 2 ≤ n ∨ (m.evm.running = false ∧ 1 ≤ n)) → ∀ m', run E n m ≠ .err .outOfFuel m' := by
  intro n
  induction n with
  | zero => intro m _ h; omega
  | succ n ih =>
    intro m hs hn m'
    rw [run]; unfold loopBody
    by_cases hr : m.evm.running = true
    · have hn : m.evm.gasLeft + 2 ≤ n + 1 := by
        rcases hn with h | h
        · exact h
        · rw [hr] at h; cases h.1
      simp only [hr, if_true]
      match hb : m.evm.code[m.evm.pc]? with
      | none => simp
      | some b =>
        simp only
        match decodeOpIn m.world.state.fork b with
        | none => simp
        | some op =>
          simp only
          have heff := opStep_effect E (processMessage E (run E n)) (processCreateMessage E (run E n)) op m hs
          have hg := step_gas (processMessage_gas (E := E) (run_gas E n)) (processCreateMessage_gas (E := E) (run_gas E n))
            (processMessage_uncaught E _) (processCreateMessage_uncaught E _) heff
          revert hg heff
          match opStep E (processMessage E (run E n)) (processCreateMessage E (run E n)) op m with
          | .ok _ m1 =>
            intro _ hg
            refine ih m1 (hg.1.2 hs) ?_ m'
            rcases hg.2 with h | h
            · left; omega
            · right; exact ⟨h.1, by omega⟩
          | .err e m1 =>
            intro heff _ he
            simp only [Res.err.injEq] at he
            obtain ⟨rfl, _⟩ := he
            cases heff with
            | err _ _ _ he => exact he rfl
            | createErr hk m2 msg _ w _ h hsub hw =>
              obtain ⟨w1, m3, h3⟩ := processCreateMessage_fuel hsub
              refine ih _ (Nat.zero_le _) (.inl ?_) _ h3
              have := h.gas
              simp only [initEvm]; omega
            | callErr hk m2 msg _ w _ h hsub hw =>
              obtain ⟨w1, m3, h3⟩ := processMessage_fuel hsub
              refine ih _ (Nat.zero_le _) (.inl ?_) _ h3
              have := h.gas
              simp only [initEvm]; omega
    · simp [hr]

/-! ### more fuel gives the same result -/

/-- Equal, unless the first ran out of fuel. -/
def LeR {α : Type} (r r' : Res α) : Prop := (∃ m, r = .err .outOfFuel m) ∨ r = r'
def LeM {α : Type} (x y : M α) : Prop := ∀ m, LeR (x m) (y m)
def LeS (s s' : Sub) : Prop := ∀ msg w, (∃ w', s msg w = .error (.outOfFuel, w')) ∨ s msg w = s' msg w

section
variable {α β : Type}

theorem LeR.refl (r : Res α) : LeR r r := .inr rfl
theorem LeM.refl (x : M α) : LeM x x := fun _ => .inr rfl

theorem leM_bind {x y : M α} {f g : α → M β} (h : LeM x y) (hf : ∀ a, LeM (f a) (g a)) : LeM (x >>= f) (y >>= g) := by
  intro m
  rw [bind_eq, bind_eq]
  rcases h m with ⟨m', h1⟩ | h1
  · rw [h1]; exact .inl ⟨m', rfl⟩
  · rw [h1]
    match y m with
    | .ok a m' => exact hf a m'
    | .err e m' => exact .inr rfl

theorem leM_bind_right {x : M α} {f g : α → M β} (hf : ∀ a, LeM (f a) (g a)) : LeM (x >>= f) (x >>= g) :=
  leM_bind (LeM.refl x) hf
theorem leM_bind_left {x y : M α} {f : α → M β} (h : LeM x y) : LeM (x >>= f) (y >>= f) := leM_bind h fun a => LeM.refl _

theorem leM_ite {c : Prop} [Decidable c] {x y x' y' : M α} (h : LeM x x') (h' : LeM y y') :
    LeM (if c then x else y) (if c then x' else y') := by split <;> assumption
end

theorem leM_runSub {s s' : Sub} (h : LeS s s') (msg : Message) : LeM (runSub s msg) (runSub s' msg) := by
  intro m
  unfold runSub
  rcases h msg m.world with ⟨w', h1⟩ | h1
  · rw [h1]; exact .inl ⟨_, rfl⟩
  · rw [h1]; exact .inr rfl

theorem leM_genericCreate {s s' : Sub} (h : LeS s s') (e : Word) (a : Address) (x y : Word) :
    LeM (genericCreate s e a x y) (genericCreate s' e a x y) := by
  unfold genericCreate
  refine leM_bind_right fun _ => leM_bind_right fun _ => ?_
  refine leM_ite (LeM.refl _) ?_
  refine leM_bind_right fun _ => leM_ite (LeM.refl _) ?_
  refine leM_bind_right fun _ => leM_bind_right fun _ => leM_ite (LeM.refl _) ?_
  refine leM_bind_right fun _ => leM_ite (LeM.refl _) ?_
  refine leM_bind_right fun _ => leM_bind_right fun _ => leM_bind_left ?_
  exact leM_runSub h _

theorem leM_genericCall {s s' : Sub} (h : LeS s s') (a : CallArgs) : LeM (genericCall s a) (genericCall s' a) := by
  unfold genericCall
  refine leM_bind_right fun _ => leM_bind_right fun _ => leM_ite (LeM.refl _) ?_
  exact leM_bind_left (leM_runSub h _)

theorem leM_opStep (E : Env) {pm pm' pcm pcm' : Sub} (h : LeS pm pm') (h' : LeS pcm pcm') (op : Op) :
    LeM (opStep E pm pcm op) (opStep E pm' pcm' op) := by
  cases op
  case create =>
    show LeM (opCreate E pcm) (opCreate E pcm')
    unfold opCreate
    exact leM_bind_right fun _ => leM_bind_right fun _ => leM_bind_right fun _ => leM_bind_right fun _ => leM_bind_right fun _ =>
      leM_bind_right fun _ => leM_bind_right fun _ => leM_bind_right fun _ => leM_bind_right fun _ =>
      leM_bind_left (leM_genericCreate h' _ _ _ _)
  case create2 =>
    show LeM (opCreate2 E pcm) (opCreate2 E pcm')
    unfold opCreate2
    exact leM_bind_right fun _ => leM_bind_right fun _ => leM_bind_right fun _ => leM_bind_right fun _ => leM_bind_right fun _ =>
      leM_bind_right fun _ => leM_bind_right fun _ => leM_bind_right fun _ => leM_bind_right fun _ =>
      leM_bind_left (leM_genericCreate h' _ _ _ _)
  case call =>
    show LeM (opCall pm) (opCall pm')
    unfold opCall
    refine leM_bind_right fun _ => leM_bind_right fun _ => leM_bind_right fun _ => leM_bind_right fun _ =>
      leM_bind_right fun _ => leM_bind_right fun _ => leM_bind_right fun _ => leM_bind_right fun _ =>
      leM_bind_right fun _ => leM_bind_right fun _ => ?_
    split
    refine leM_bind_right fun _ => leM_bind_right fun _ => leM_bind_right fun _ => leM_ite (LeM.refl _) ?_
    exact leM_bind_right fun _ => leM_ite (LeM.refl _) (leM_bind_left (leM_genericCall h _))
  case callcode =>
    show LeM (opCallcode pm) (opCallcode pm')
    unfold opCallcode
    refine leM_bind_right fun _ => leM_bind_right fun _ => leM_bind_right fun _ => leM_bind_right fun _ =>
      leM_bind_right fun _ => leM_bind_right fun _ => leM_bind_right fun _ => leM_bind_right fun _ =>
      leM_bind_right fun _ => leM_bind_right fun _ => ?_
    split
    refine leM_bind_right fun _ => leM_bind_right fun _ => leM_bind_right fun _ => leM_bind_right fun _ => ?_
    exact leM_ite (LeM.refl _) (leM_bind_left (leM_genericCall h _))
  case delegatecall =>
    show LeM (opDelegatecall pm) (opDelegatecall pm')
    unfold opDelegatecall
    refine leM_bind_right fun _ => leM_bind_right fun _ => leM_bind_right fun _ => leM_bind_right fun _ =>
      leM_bind_right fun _ => leM_bind_right fun _ => leM_bind_right fun _ => leM_bind_right fun _ =>
      leM_bind_right fun _ => ?_
    split
    exact leM_bind_right fun _ => leM_bind_right fun _ => leM_bind_right fun _ => leM_bind_right fun _ =>
      leM_bind_left (leM_genericCall h _)
  case staticcall =>
    show LeM (opStaticcall pm) (opStaticcall pm')
    unfold opStaticcall
    refine leM_bind_right fun _ => leM_bind_right fun _ => leM_bind_right fun _ => leM_bind_right fun _ =>
      leM_bind_right fun _ => leM_bind_right fun _ => leM_bind_right fun _ => leM_bind_right fun _ =>
      leM_bind_right fun _ => ?_
    split
    exact leM_bind_right fun _ => leM_bind_right fun _ => leM_bind_right fun _ => leM_bind_right fun _ =>
      leM_bind_left (leM_genericCall h _)
  all_goals exact LeM.refl _

theorem leS_executeCode {E : Env} {l l' : Loop} {msg : Message} {w : World}
    (h : LeR (l ⟨initEvm msg, w⟩) (l' ⟨initEvm msg, w⟩)) :
    (∃ w', executeCode E l msg w = .error (.outOfFuel, w')) ∨ executeCode E l msg w = executeCode E l' msg w := by
  unfold executeCode
  simp only
  match precompileOf E w.state.fork msg with
  | some p => exact .inr rfl
  | none =>
    simp only
    rcases h with ⟨m, h⟩ | h
    · rw [h]; exact .inl ⟨_, rfl⟩
    · rw [h]; exact .inr rfl

/-- The loops agree on fresh frames, unless the first runs out of fuel. -/
def LeInit (l l' : Loop) : Prop := ∀ msg w, LeR (l ⟨initEvm msg, w⟩) (l' ⟨initEvm msg, w⟩)

theorem leS_processMessage {E : Env} {l l' : Loop} (h : LeInit l l') :
    LeS (processMessage E l) (processMessage E l') := by
  intro msg w
  unfold processMessage
  split
  · exact .inr rfl
  · simp only
    split
    · exact .inr rfl
    · rcases leS_executeCode (E := E) (h msg _) with ⟨w', h1⟩ | h1
      · rw [h1]; exact .inl ⟨_, rfl⟩
      · rw [h1]; exact .inr rfl

theorem leS_processCreateMessage {E : Env} {l l' : Loop} (h : LeInit l l') :
    LeS (processCreateMessage E l) (processCreateMessage E l') := by
  intro msg w
  unfold processCreateMessage
  rcases leS_processMessage (E := E) h msg (createStart w msg.currentTarget) with ⟨w', h1⟩ | h1
  · rw [h1]; exact .inl ⟨_, rfl⟩
  · rw [h1]; exact .inr rfl

theorem run_succ (E : Env) (n : Nat) (m : Mach) : run E (n + 1) m = loopBody E (run E n) m := rfl

theorem loopBody_le (E : Env) {l l' : Loop} (hi : LeInit l l')
    {m : Mach} (hs : m.evm.stack.length ≤ 1024) (hl : GasLoop l)
    (h : ∀ m', m'.evm.stack.length ≤ 1024 → LeR (l m') (l' m')) : LeR (loopBody E l m) (loopBody E l' m) := by
  unfold loopBody
  split
  · split
    · exact .inr rfl
    · split
      · exact .inr rfl
      · rename_i op _
        have hg := step_gas (processMessage_gas (E := E) hl) (processCreateMessage_gas (E := E) hl)
          (processMessage_uncaught E _) (processCreateMessage_uncaught E _)
          (opStep_effect E (processMessage E l) (processCreateMessage E l) op m hs)
        rcases leM_opStep E (leS_processMessage hi) (leS_processCreateMessage hi) op m with ⟨m', h1⟩ | h1
        · rw [h1]; exact .inl ⟨_, rfl⟩
        · rw [← h1]
          revert hg
          match opStep E (processMessage E l) (processCreateMessage E l) op m with
          | .err e m' => intro _; exact .inr rfl
          | .ok _ m' => intro hg; exact h m' (hg.1.2 hs)
  · exact .inr rfl

/-- Any solution of the loop equation lies above `run`. -/
theorem run_le_fix (E : Env) (f : Loop) (hf : ∀ m, m.evm.stack.length ≤ 1024 → f m = loopBody E f m) :
    ∀ n m, m.evm.stack.length ≤ 1024 → LeR (run E n m) (f m) := by
  intro n
  induction n with
  | zero => intro m _; exact .inl ⟨m, rfl⟩
  | succ n ih =>
    intro m hs
    rw [run_succ, hf m hs]
    exact loopBody_le E (fun msg w => ih _ (Nat.zero_le _)) hs (run_gas E n) ih

theorem run_mono (E : Env) : ∀ n k m, m.evm.stack.length ≤ 1024 → LeR (run E n m) (run E (n + k) m) := by
  intro n
  induction n with
  | zero => intro k m _; exact .inl ⟨m, rfl⟩
  | succ n ih =>
    intro k m hs
    rw [show n + 1 + k = (n + k) + 1 by omega, run_succ, run_succ]
    exact loopBody_le E (fun msg w => ih k _ (Nat.zero_le _)) hs (run_gas E n) (ih k)

theorem run_eq_exec (E : Env) (n : Nat) (m : Mach) (hs : m.evm.stack.length ≤ 1024) (hn : m.evm.gasLeft + 2 ≤ n) :
    run E n m = exec E m := by
  obtain ⟨k, rfl⟩ := Nat.exists_eq_add_of_le hn
  rcases run_mono E (m.evm.gasLeft + 2) k m hs with ⟨m', h⟩ | h
  · exact absurd h (run_enough E _ m hs (.inl (Nat.le_refl _)) m')
  · exact h.symm

theorem run_le_exec (E : Env) (n : Nat) (m : Mach) (hs : m.evm.stack.length ≤ 1024) : LeR (run E n m) (exec E m) := by
  by_cases hn : m.evm.gasLeft + 2 ≤ n
  · exact .inr (run_eq_exec E n m hs hn)
  · obtain ⟨k, hk⟩ := Nat.exists_eq_add_of_le (Nat.le_of_lt (Nat.not_le.mp hn))
    unfold exec; rw [hk]; exact run_mono E n k m hs

theorem exec_gas (E : Env) : GasLoop (exec E) := fun m hs => run_gas E _ m hs

theorem exec_enough (E : Env) (m : Mach) (hs : m.evm.stack.length ≤ 1024) (m' : Mach) : exec E m ≠ .err .outOfFuel m' :=
  run_enough E _ m hs (.inl (Nat.le_refl _)) m'

/-- `exec` satisfies the Python recursion. -/
theorem exec_eq (E : Env) (m : Mach) (hs : m.evm.stack.length ≤ 1024) : exec E m = loopBody E (exec E) m := by
  rw [← run_eq_exec E (m.evm.gasLeft + 3) m hs (by omega), run_succ]
  rcases loopBody_le E (l := run E (m.evm.gasLeft + 2)) (l' := exec E) (m := m)
    (fun msg w => run_le_exec E _ _ (Nat.zero_le _)) hs (run_gas E _) (fun m' hs' => run_le_exec E _ _ hs') with ⟨m', h⟩ | h
  · rw [← run_succ] at h
    exact absurd h (run_enough E _ m hs (.inl (by omega)) m')
  · exact h

/-- It is the only solution. -/
theorem exec_unique (E : Env) (f : Loop) (hf : ∀ m, m.evm.stack.length ≤ 1024 → f m = loopBody E f m)
    (m : Mach) (hs : m.evm.stack.length ≤ 1024) : f m = exec E m := by
  rcases run_le_fix E f hf (m.evm.gasLeft + 2) m hs with ⟨m', h⟩ | h
  · exact absurd h (exec_enough E m hs m')
  · exact h.symm

theorem processMessage_congr {E : Env} {l l' : Loop} {msg : Message}
    (h : ∀ w, l ⟨initEvm msg, w⟩ = l' ⟨initEvm msg, w⟩) (w : World) :
    processMessage E l msg w = processMessage E l' msg w := by
  unfold processMessage executeCode; simp only [h]

theorem processCreateMessage_congr {E : Env} {l l' : Loop} {msg : Message}
    (h : ∀ w, l ⟨initEvm msg, w⟩ = l' ⟨initEvm msg, w⟩) (w : World) :
    processCreateMessage E l msg w = processCreateMessage E l' msg w := by
  unfold processCreateMessage; rw [processMessage_congr h]

theorem processMessageCallWith_congr {E : Env} {l l' : Loop} {msg : Message}
    (h : ∀ msg', msg'.gas = msg.gas → ∀ w, l ⟨initEvm msg', w⟩ = l' ⟨initEvm msg', w⟩) (w : World) :
    processMessageCallWith E l msg w = processMessageCallWith E l' msg w := by
  unfold processMessageCallWith
  split
  · rw [processCreateMessage_congr (h msg rfl)]
  · split
    · rfl
    · rename_i refund msg1 s1 heq
      have hg : (resolveDelegation msg1 s1).gas = msg.gas := by
        have h1 : (resolveDelegation msg1 s1).gas = msg1.gas := by
          unfold resolveDelegation; split
          · split <;> rfl
          · rfl
        rw [h1]
        split at heq
        · unfold setDelegation at heq; simp only at heq; split at heq
          · cases heq
          · split at heq <;> cases heq; rfl
        · cases heq; rfl
      simp only
      rw [processMessage_congr (h _ hg)]

end Verif
