import Verif.Lemmas.Trace
import Verif.Spec.Work
/-! The number of instructions of a frame is bounded by its gas. -/
namespace Verif
open Spec

/-- What a computation asks of the processor of child messages: nothing, or the result of one message. -/
def Asks (m0 : Mach) (x : Sub → Res Unit) : Prop :=
  (∀ s s', x s = x s') ∨ ∃ (msg : Message) (m1 : Mach), (∀ s, x s = x (fun _ _ => s msg m1.world)) ∧ m1.evm.gasLeft + msg.gas < m0.evm.gasLeft ∧
    (∀ child w m2, x (fun _ _ => .ok (child, w)) = .ok () m2 → m2.evm.gasLeft = m1.evm.gasLeft + child.gasLeft) ∧
    (∀ e w, ∃ m', x (fun _ _ => .error (e, w)) = .err e m') ∧
    (∀ child w m', x (fun _ _ => .ok (child, w)) ≠ .err .revert m')

theorem asks_bind {α : Type} {x : M α} {f : α → Sub → M Unit} {m0 m : Mach} (hx : Pres x) (h : Loc m0 m)
    (hf : ∀ a m', x m = .ok a m' → Loc m0 m' → Asks m0 (fun s => f a s m')) :
    Asks m0 (fun s => (x >>= fun a => f a s) m) := by
  simp only [bind_eq]
  have h1 := hx.run m
  revert h1 hf
  match x m with
  | .ok a m' => intro hf h1; exact hf a m' rfl (h.trans h1)
  | .err e m' => intro _ _; exact .inl fun _ _ => rfl

theorem asks_const {m0 : Mach} {r : Res Unit} : Asks m0 (fun _ => r) := .inl fun _ _ => rfl

theorem asks_genericCall {m0 m : Mach} (a : CallArgs) (hg : m.evm.gasLeft + a.gas < m0.evm.gasLeft) :
    Asks m0 (fun s => (genericCall s a >>= fun _ => incPc 1) m) := by
  unfold genericCall
  simp only [bind_eq, getEvm, setReturnData]
  by_cases hd : m.evm.message.depth + 1 > STACK_DEPTH_LIMIT
  · simp only [hd, if_true]; exact asks_const
  simp only [hd, if_false, bind_eq, runSub]
  refine .inr ⟨_, m, fun s => rfl, ?_, ?_, ?_, ?_⟩
  · exact hg
  · intro child w m2 h
    simp only at h
    by_cases herr : child.error.isSome = true
    · simp only [herr, if_true, bind_eq, incorporateChildOnError, setReturnData, push] at h
      by_cases hne : m.evm.stack.length = 1024
      · simp only [hne, if_true] at h; cases h
      · simp only [hne, if_false] at h
        generalize hM : (Mach.mk _ _) = M1 at h
        rcases u256_cases child.output.length M1 with ⟨hl, he⟩ | ⟨hl, he⟩
        · rw [he] at h; simp only [writeMemory, incPc] at h; cases h; subst hM; rfl
        · rw [he] at h; cases h
    · simp only [herr, Bool.false_eq_true, if_false, bind_eq, incorporateChildOnSuccess, setReturnData, push] at h
      by_cases hne : m.evm.stack.length = 1024
      · simp only [hne, if_true] at h; cases h
      · simp only [hne, if_false] at h
        generalize hM : (Mach.mk _ _) = M1 at h
        rcases u256_cases child.output.length M1 with ⟨hl, he⟩ | ⟨hl, he⟩
        · rw [he] at h; simp only [writeMemory, incPc] at h; cases h; subst hM; rfl
        · rw [he] at h; cases h
  · intro e w; exact ⟨_, rfl⟩
  · intro child w m2 h
    simp only at h
    by_cases herr : child.error.isSome = true
    · simp only [herr, if_true, bind_eq, incorporateChildOnError, setReturnData, push] at h
      by_cases hne : m.evm.stack.length = 1024
      · simp only [hne, if_true] at h; cases h
      · simp only [hne, if_false] at h
        generalize hM : (Mach.mk _ _) = M1 at h
        rcases u256_cases child.output.length M1 with ⟨hl, he⟩ | ⟨hl, he⟩
        · rw [he] at h; simp only [writeMemory, incPc] at h; cases h
        · rw [he] at h; cases h
    · simp only [herr, Bool.false_eq_true, if_false, bind_eq, incorporateChildOnSuccess, setReturnData, push] at h
      by_cases hne : m.evm.stack.length = 1024
      · simp only [hne, if_true] at h; cases h
      · simp only [hne, if_false] at h
        generalize hM : (Mach.mk _ _) = M1 at h
        rcases u256_cases child.output.length M1 with ⟨hl, he⟩ | ⟨hl, he⟩
        · rw [he] at h; simp only [writeMemory, incPc] at h; cases h
        · rw [he] at h; cases h

theorem asks_genericCreate {m0 m : Mach} (endow : Word) (a : Address) (start size : Word) (hg : m.evm.gasLeft < m0.evm.gasLeft) :
    Asks m0 (fun s => (genericCreate s endow a start size >>= fun _ => incPc 1) m) := by
  unfold genericCreate
  simp only [bind_eq, getEvm, getState]
  split
  · exact asks_const
  simp only [bind_eq]
  match hch : chargeGas (createMessageGas m.world.state.fork m.evm.gasLeft) m with
  | .err e m' => exact asks_const
  | .ok _ m1 =>
    obtain ⟨hle, hm1⟩ := chargeGas_ok hch
    simp only
    split
    · exact asks_const
    simp only [bind_eq, setReturnData, getState]
    split
    · exact asks_const
    simp only [bind_eq, warmAddress]
    split
    · exact asks_const
    simp only [bind_eq, setState, getEvm, runSub]
    refine .inr ⟨_, Mach.mk (world := { m1.world with state := incrementNonce m1.world.state m.evm.message.currentTarget })
      (evm := m1.evm), fun s => rfl, ?_, ?_, ?_, ?_⟩
    · subst hm1; simp only; omega
    · intro child w m2 h
      simp only at h
      by_cases herr : child.error.isSome = true
      · simp only [herr, if_true, bind_eq, incorporateChildOnError, setReturnData, push] at h
        by_cases hne : m1.evm.stack.length = 1024
        · simp only [hne, if_true] at h; cases h
        · simp only [hne, if_false, incPc] at h; cases h; rfl
      · simp only [herr, Bool.false_eq_true, if_false, bind_eq, incorporateChildOnSuccess, setReturnData, push] at h
        by_cases hne : m1.evm.stack.length = 1024
        · simp only [hne, if_true] at h; cases h
        · simp only [hne, if_false, incPc] at h; cases h; rfl
    · intro e w; exact ⟨_, rfl⟩
    · intro child w m2 h
      simp only at h
      by_cases herr : child.error.isSome = true
      · simp only [herr, if_true, bind_eq, incorporateChildOnError, setReturnData, push] at h
        by_cases hne : m1.evm.stack.length = 1024
        · simp only [hne, if_true] at h; cases h
        · simp only [hne, if_false, incPc] at h; cases h
      · simp only [herr, Bool.false_eq_true, if_false, bind_eq, incorporateChildOnSuccess, setReturnData, push] at h
        by_cases hne : m1.evm.stack.length = 1024
        · simp only [hne, if_true] at h; cases h
        · simp only [hne, if_false, incPc] at h; cases h

theorem asks_create (E : Env) (m : Mach) : Asks m (fun s => opCreate E s m) := by
  unfold opCreate
  refine asks_bind pres_pop (Loc.refl m) fun endow m1 _ h1 => ?_
  refine asks_bind pres_pop h1 fun start m2 _ h2 => ?_
  refine asks_bind pres_pop h2 fun size m3 _ h3 => ?_
  refine asks_bind (pres_extendCost _) h3 fun ext m4 _ h4 => ?_
  refine asks_bind pres_getState h4 fun _ m4' e4 h4 => ?_
  refine asks_bind (pres_chargeGas _) h4 fun _ m5 e5 h5 => ?_
  refine asks_bind (pres_expandMemory _) h5 fun _ m6 e6 h6 => ?_
  refine asks_bind pres_getEvm h6 fun _ m7 e7 h7 => ?_
  obtain ⟨rfl, rfl⟩ := getEvm_ok e7
  refine asks_bind pres_getState h7 fun _ m8 e8 h8 => ?_
  obtain ⟨rfl, rfl⟩ := getState_ok e8
  refine asks_genericCreate _ _ _ _ ?_
  obtain ⟨hle, rfl⟩ := chargeGas_ok e5
  cases e6
  have := h4.gas
  simp only [GAS_CREATE] at hle ⊢; omega

theorem asks_create2 (E : Env) (m : Mach) : Asks m (fun s => opCreate2 E s m) := by
  unfold opCreate2
  refine asks_bind pres_pop (Loc.refl m) fun endow m1 _ h1 => ?_
  refine asks_bind pres_pop h1 fun start m2 _ h2 => ?_
  refine asks_bind pres_pop h2 fun size m3 _ h3 => ?_
  refine asks_bind pres_pop h3 fun salt m3' _ h3' => ?_
  refine asks_bind (pres_extendCost _) h3' fun ext m4 _ h4 => ?_
  refine asks_bind pres_getState h4 fun _ m4' e4 h4 => ?_
  refine asks_bind (pres_chargeGas _) h4 fun _ m5 e5 h5 => ?_
  refine asks_bind (pres_expandMemory _) h5 fun _ m6 e6 h6 => ?_
  refine asks_bind pres_getEvm h6 fun _ m7 e7 h7 => ?_
  obtain ⟨rfl, rfl⟩ := getEvm_ok e7
  refine asks_genericCreate _ _ _ _ ?_
  obtain ⟨hle, rfl⟩ := chargeGas_ok e5
  cases e6
  have := h4.gas
  simp only [GAS_CREATE] at hle ⊢; omega

theorem asks_call (m : Mach) : Asks m (fun s => opCall s m) := by
  unfold opCall
  refine asks_bind pres_pop (Loc.refl m) fun gas m1 _ h1 => ?_
  refine asks_bind pres_pop h1 fun to m2 _ h2 => ?_
  refine asks_bind pres_pop h2 fun value m3 _ h3 => ?_
  refine asks_bind pres_pop h3 fun is m4 _ h4 => ?_
  refine asks_bind pres_pop h4 fun isz m5 _ h5 => ?_
  refine asks_bind pres_pop h5 fun os m6 _ h6 => ?_
  refine asks_bind pres_pop h6 fun osz m7 _ h7 => ?_
  refine asks_bind (pres_extendCost _) h7 fun ext m8 _ h8 => ?_
  refine asks_bind (pres_accessAddress _ _) h8 fun ac m9 e9 h9 => ?_
  refine asks_bind (pres_accessDelegation _) h9 fun ⟨dp, ca, code, dc⟩ m10 e10 h10 => ?_
  have hac := (accessAddress_ok e9).1
  dsimp only
  refine asks_bind pres_getState h10 fun _ m11 e11 h11 => ?_
  obtain ⟨rfl, rfl⟩ := getState_ok e11
  refine asks_bind pres_getEvm h11 fun _ m12 e12 h12 => ?_
  obtain ⟨rfl, rfl⟩ := getEvm_ok e12
  refine asks_bind (pres_chargeGas _) h12 fun _ m13 e13 h13 => ?_
  obtain ⟨hle, hm13⟩ := chargeGas_ok e13
  split
  · exact asks_const
  refine asks_bind (pres_expandMemory _) h13 fun _ m14 e14 h14 => ?_
  have hgl : m14.evm.gasLeft = m13.evm.gasLeft := by cases e14; rfl
  have hlt := callGas_lt m12.world.state.fork value gas.toNat m12.evm.gasLeft ext.cost _ (by omega)
    (by intro hv; simp only [hv, if_false, GAS_CALL_VALUE]; omega) hle
  have hgas12 := h12.gas
  have hg14 : m14.evm.gasLeft = m12.evm.gasLeft - ((calculateMessageCallGas m12.world.state.fork value gas.toNat m12.evm.gasLeft ext.cost
      (ac + dc + callCreateCost m12.world.state (toAddressMasked to) value +
        if value = 0 then 0 else GAS_CALL_VALUE)).cost + ext.cost) := by rw [hgl, hm13]
  split
  · exact asks_const
  · refine asks_genericCall _ ?_
    simp only; omega

theorem asks_callcode (m : Mach) : Asks m (fun s => opCallcode s m) := by
  unfold opCallcode
  refine asks_bind pres_pop (Loc.refl m) fun gas m1 _ h1 => ?_
  refine asks_bind pres_pop h1 fun to m2 _ h2 => ?_
  refine asks_bind pres_pop h2 fun value m3 _ h3 => ?_
  refine asks_bind pres_pop h3 fun is m4 _ h4 => ?_
  refine asks_bind pres_pop h4 fun isz m5 _ h5 => ?_
  refine asks_bind pres_pop h5 fun os m6 _ h6 => ?_
  refine asks_bind pres_pop h6 fun osz m7 _ h7 => ?_
  refine asks_bind (pres_extendCost _) h7 fun ext m8 _ h8 => ?_
  refine asks_bind (pres_accessAddress _ _) h8 fun ac m9 e9 h9 => ?_
  refine asks_bind (pres_accessDelegation _) h9 fun ⟨dp, ca, code, dc⟩ m10 e10 h10 => ?_
  have hac := (accessAddress_ok e9).1
  dsimp only
  refine asks_bind pres_getEvm h10 fun _ m11 e11 h11 => ?_
  obtain ⟨rfl, rfl⟩ := getEvm_ok e11
  refine asks_bind pres_getState h11 fun _ m12 e12 h12 => ?_
  obtain ⟨rfl, rfl⟩ := getState_ok e12
  refine asks_bind (pres_chargeGas _) h12 fun _ m13 e13 h13 => ?_
  obtain ⟨hle, hm13⟩ := chargeGas_ok e13
  refine asks_bind (pres_expandMemory _) h13 fun _ m14 e14 h14 => ?_
  have hgl : m14.evm.gasLeft = m13.evm.gasLeft := by cases e14; rfl
  have hlt := callGas_lt m12.world.state.fork value gas.toNat m12.evm.gasLeft ext.cost _ (by omega)
    (by intro hv; simp only [hv, if_false, GAS_CALL_VALUE]; omega) hle
  have hgas12 := h12.gas
  have hg14 : m14.evm.gasLeft = m12.evm.gasLeft - ((calculateMessageCallGas m12.world.state.fork value gas.toNat m12.evm.gasLeft ext.cost
      (ac + dc + callcodeCreateCost m12.world.state m12.evm.message.currentTarget +
        if value = 0 then 0 else GAS_CALL_VALUE)).cost + ext.cost) := by rw [hgl, hm13]
  split
  · exact asks_const
  · refine asks_genericCall _ ?_
    simp only; omega

theorem asks_delegatecall (m : Mach) : Asks m (fun s => opDelegatecall s m) := by
  unfold opDelegatecall
  refine asks_bind pres_pop (Loc.refl m) fun gas m1 _ h1 => ?_
  refine asks_bind pres_pop h1 fun to m2 _ h2 => ?_
  refine asks_bind pres_pop h2 fun is m4 _ h4 => ?_
  refine asks_bind pres_pop h4 fun isz m5 _ h5 => ?_
  refine asks_bind pres_pop h5 fun os m6 _ h6 => ?_
  refine asks_bind pres_pop h6 fun osz m7 _ h7 => ?_
  refine asks_bind (pres_extendCost _) h7 fun ext m8 _ h8 => ?_
  refine asks_bind (pres_accessAddress _ _) h8 fun ac m9 e9 h9 => ?_
  refine asks_bind (pres_accessDelegation _) h9 fun ⟨dp, ca, code, dc⟩ m10 e10 h10 => ?_
  have hac := (accessAddress_ok e9).1
  dsimp only
  refine asks_bind pres_getEvm h10 fun _ m11 e11 h11 => ?_
  obtain ⟨rfl, rfl⟩ := getEvm_ok e11
  refine asks_bind pres_getState h11 fun _ m12 e12 h12 => ?_
  obtain ⟨rfl, rfl⟩ := getState_ok e12
  refine asks_bind (pres_chargeGas _) h12 fun _ m13 e13 h13 => ?_
  obtain ⟨hle, hm13⟩ := chargeGas_ok e13
  refine asks_bind (pres_expandMemory _) h13 fun _ m14 e14 h14 => ?_
  have hgl : m14.evm.gasLeft = m13.evm.gasLeft := by cases e14; rfl
  have hlt := callGas_lt m12.world.state.fork 0 gas.toNat m12.evm.gasLeft ext.cost _ (by omega) (by simp) hle
  have hgas12 := h12.gas
  have hg14 : m14.evm.gasLeft = m12.evm.gasLeft - ((calculateMessageCallGas m12.world.state.fork 0 gas.toNat m12.evm.gasLeft ext.cost
      (ac + dc)).cost + ext.cost) := by rw [hgl, hm13]
  refine asks_genericCall _ ?_
  simp only; omega

theorem asks_staticcall (m : Mach) : Asks m (fun s => opStaticcall s m) := by
  unfold opStaticcall
  refine asks_bind pres_pop (Loc.refl m) fun gas m1 _ h1 => ?_
  refine asks_bind pres_pop h1 fun to m2 _ h2 => ?_
  refine asks_bind pres_pop h2 fun is m4 _ h4 => ?_
  refine asks_bind pres_pop h4 fun isz m5 _ h5 => ?_
  refine asks_bind pres_pop h5 fun os m6 _ h6 => ?_
  refine asks_bind pres_pop h6 fun osz m7 _ h7 => ?_
  refine asks_bind (pres_extendCost _) h7 fun ext m8 _ h8 => ?_
  refine asks_bind (pres_accessAddress _ _) h8 fun ac m9 e9 h9 => ?_
  refine asks_bind (pres_accessDelegation _) h9 fun ⟨dp, ca, code, dc⟩ m10 e10 h10 => ?_
  have hac := (accessAddress_ok e9).1
  dsimp only
  refine asks_bind pres_getEvm h10 fun _ m11 e11 h11 => ?_
  obtain ⟨rfl, rfl⟩ := getEvm_ok e11
  refine asks_bind pres_getState h11 fun _ m12 e12 h12 => ?_
  obtain ⟨rfl, rfl⟩ := getState_ok e12
  refine asks_bind (pres_chargeGas _) h12 fun _ m13 e13 h13 => ?_
  obtain ⟨hle, hm13⟩ := chargeGas_ok e13
  refine asks_bind (pres_expandMemory _) h13 fun _ m14 e14 h14 => ?_
  have hgl : m14.evm.gasLeft = m13.evm.gasLeft := by cases e14; rfl
  have hlt := callGas_lt m12.world.state.fork 0 gas.toNat m12.evm.gasLeft ext.cost _ (by omega) (by simp) hle
  have hgas12 := h12.gas
  have hg14 : m14.evm.gasLeft = m12.evm.gasLeft - ((calculateMessageCallGas m12.world.state.fork 0 gas.toNat m12.evm.gasLeft ext.cost
      (ac + dc)).cost + ext.cost) := by rw [hgl, hm13]
  refine asks_genericCall _ ?_
  simp only; omega

/-- An instruction asks for the result of at most one call or creation. -/
theorem opStep_asks (E : Env) (op : Op) (m : Mach) :
    (∀ pm pcm pm' pcm', opStep E pm pcm op m = opStep E pm' pcm' op m) ∨
    (∃ x : Sub → Res Unit, (∀ pm pcm, opStep E pm pcm op m = x pm) ∧ Asks m x) ∨
    (∃ x : Sub → Res Unit, (∀ pm pcm, opStep E pm pcm op m = x pcm) ∧ Asks m x) := by
  cases op
  case create => exact .inr (.inr ⟨_, fun _ _ => rfl, asks_create E m⟩)
  case create2 => exact .inr (.inr ⟨_, fun _ _ => rfl, asks_create2 E m⟩)
  case call => exact .inr (.inl ⟨_, fun _ _ => rfl, asks_call m⟩)
  case callcode => exact .inr (.inl ⟨_, fun _ _ => rfl, asks_callcode m⟩)
  case delegatecall => exact .inr (.inl ⟨_, fun _ _ => rfl, asks_delegatecall m⟩)
  case staticcall => exact .inr (.inl ⟨_, fun _ _ => rfl, asks_staticcall m⟩)
  all_goals exact .inl fun _ _ _ _ => rfl

/-- The gas that a frame with this result gives back. -/
def endGas : Res Unit → Nat
  | .ok _ m => m.evm.gasLeft
  | .err .revert m => m.evm.gasLeft
  | .err _ _ => 0

/-- What a processor of messages asks of the loop: nothing, or the result of the frame of the message. -/
def SubAsks (sub : Loop → Sub) : Prop := ∀ msg w,
  (∀ f g, sub f msg w = sub g msg w) ∨
  ∃ w1, (∀ f g : Loop, f ⟨initEvm msg, w1⟩ = g ⟨initEvm msg, w1⟩ → sub f msg w = sub g msg w) ∧
    ∀ f child w', sub f msg w = .ok (child, w') → child.gasLeft ≤ endGas (f ⟨initEvm msg, w1⟩)

theorem catchFrame_gas {r : Res Unit} {evm : Evm} {w : World} (h : catchFrame r = .ok (evm, w)) : evm.gasLeft ≤ endGas r := by
  match r with
  | .ok _ m' => cases h; exact Nat.le_refl _
  | .err (.halt x) m' => cases h; exact Nat.zero_le _
  | .err .revert m' => cases h; exact Nat.le_refl _
  | .err (.crash c) m' => cases h
  | .err .outOfFuel m' => cases h

theorem executeCode_asks (E : Env) (msg : Message) (w : World) :
    (∀ f g, executeCode E f msg w = executeCode E g msg w) ∨
    ((∀ f g : Loop, f ⟨initEvm msg, w⟩ = g ⟨initEvm msg, w⟩ → executeCode E f msg w = executeCode E g msg w) ∧
    ∀ f child w', executeCode E f msg w = .ok (child, w') → child.gasLeft ≤ endGas (f ⟨initEvm msg, w⟩)) := by
  unfold executeCode
  simp only
  match hpre : precompileOf E w.state.fork msg with
  | some p => exact .inl fun _ _ => rfl
  | none =>
    refine .inr ⟨fun f g h => ?_, fun f child w' h => catchFrame_gas h⟩
    simp only [h]

theorem processMessage_asks (E : Env) : SubAsks (processMessage E) := by
  intro msg w
  unfold processMessage
  split
  · exact .inl fun _ _ => rfl
  simp only
  split
  · exact .inl fun _ _ => rfl
  rename_i s _
  rcases executeCode_asks E msg { beginTransaction w with state := s } with h | ⟨h1, h2⟩
  · exact .inl fun f g => by rw [h f g]
  · refine .inr ⟨_, fun f g hfg => by rw [h1 f g hfg], fun f child w' h => ?_⟩
    split at h
    · cases h
    · rename_i evm w2 he
      split at h
      · cases h
      · cases h; exact h2 f _ _ he

theorem processCreateMessage_asks (E : Env) : SubAsks (processCreateMessage E) := by
  intro msg w
  unfold processCreateMessage
  rcases processMessage_asks E msg (createStart w msg.currentTarget) with h | ⟨w1, h1, h2⟩
  · exact .inl fun f g => by rw [h f g]
  · refine .inr ⟨w1, fun f g hfg => by rw [h1 f g hfg], fun f child w' h => ?_⟩
    split at h
    · cases h
    · rename_i evm w2 he
      have hg := h2 f _ _ he
      split at h
      · split at h <;> cases h; exact hg
      · split at h
        · split at h
          · split at h <;> cases h; exact Nat.zero_le _
          · split at h <;> cases h; exact hg
        · rename_i g hd
          simp only at h
          split at h <;> cases h
          exact Nat.le_trans (depositCode_le hd) hg

/-- What one instruction and all that follows from it cost, when it asks the processor `sub` for one child message. -/
theorem work_step {E : Env} {m : Mach} {b : UInt8} {op : Op} (hs : m.evm.stack.length ≤ 1024)
    (hr : m.evm.running = true) (hb : m.evm.code[m.evm.pc]? = some b) (hd : decodeOpIn m.world.state.fork b = some op)
    (ih : ∀ m' : Mach, m'.evm.gasLeft < m.evm.gasLeft → m'.evm.stack.length ≤ 1024 →
      ∃ k, Work E m' k ∧ k + 2 * endGas (exec E m') ≤ 2 * m'.evm.gasLeft + 1) :
    ∃ k, Work E m k ∧ k + 2 * endGas (exec E m) ≤ 2 * m.evm.gasLeft + 1 := by
  have hbody : ∀ f : Loop, loopBody E f m = match opStep E (processMessage E f) (processCreateMessage E f) op m with
      | .err e m' => .err e m'
      | .ok _ m' => f m' := by
    intro f; unfold loopBody; simp only [hr, if_true, hb, hd]; rfl
  have hexec := exec_eq E m hs
  have hg := step_gas (processMessage_gas (exec_gas E)) (processCreateMessage_gas (exec_gas E))
    (processMessage_uncaught E _) (processCreateMessage_uncaught E _) (opStep_effect E _ _ op m hs)
  have hind : (∀ f g : Loop, opStep E (processMessage E f) (processCreateMessage E f) op m =
        opStep E (processMessage E g) (processCreateMessage E g) op m) →
      ∃ k, Work E m k ∧ k + 2 * endGas (exec E m) ≤ 2 * m.evm.gasLeft + 1 := by
    intro hfg
    match hst : opStep E (processMessage E (exec E)) (processCreateMessage E (exec E)) op m with
    | .err e m' =>
      rw [hst] at hg
      have hx : exec E m = .err e m' := by rw [hexec, hbody, hst]
      refine ⟨1, .last m fun f => ?_, ?_⟩
      · rw [hx, hbody, hfg f (exec E), hst]
      · rw [hx]
        match e, hg with
        | .revert, hg => have := hg.1 trivial; simp only [endGas]; omega
        | .halt _, _ => simp only [endGas]; omega
        | .crash _, _ => simp only [endGas]; omega
        | .outOfFuel, _ => simp only [endGas]; omega
    | .ok _ m1 =>
      rw [hst] at hg
      have hx : exec E m = exec E m1 := by rw [hexec, hbody, hst]
      have hnext : ∀ f : Loop, f m1 = exec E m1 → loopBody E f m = exec E m := by
        intro f hf; rw [hx, hbody, hfg f (exec E), hst]; exact hf
      rcases hg.2 with h1 | ⟨h1, h2⟩
      · obtain ⟨k, hk, hle⟩ := ih m1 h1 (hg.1.2 hs)
        exact ⟨k + 1, .next m m1 k hnext hk, by rw [hx]; omega⟩
      · refine ⟨1, .next m m1 0 hnext (.done m1 (.inl h1)), ?_⟩
        have : exec E m1 = .ok () m1 := by
          rw [exec_eq E m1 (hg.1.2 hs)]; unfold loopBody; simp only [h1, Bool.false_eq_true, if_false]
        rw [hx, this]; simp only [endGas]; omega
  have hask : ∀ sub : Loop → Sub, SubAsks sub → SubGas (sub (exec E)) → SubNR (sub (exec E)) → ∀ x : Sub → Res Unit,
      (∀ f, opStep E (processMessage E f) (processCreateMessage E f) op m = x (sub f)) → Asks m x →
      ∃ k, Work E m k ∧ k + 2 * endGas (exec E m) ≤ 2 * m.evm.gasLeft + 1 := by
    intro sub hsub hsg hnr x hx ha
    rcases ha with ha | ⟨msg, m1, hq, hlt, hok, herr, hrev⟩
    · exact hind fun f g => by rw [hx f, hx g, ha]
    rcases hsub msg m1.world with hc | ⟨w1, hc, hcg⟩
    · exact hind fun f g => by rw [hx f, hx g, hq (sub f), hq (sub g), hc f g]
    obtain ⟨k, hk, hkle⟩ := ih ⟨initEvm msg, w1⟩ (by simp only [initEvm]; omega) (by simp [initEvm])
    have hinit : (initEvm msg).gasLeft = msg.gas := rfl
    simp only [hinit] at hkle
    have hagree : ∀ f : Loop, f ⟨initEvm msg, w1⟩ = exec E ⟨initEvm msg, w1⟩ →
        opStep E (processMessage E f) (processCreateMessage E f) op m =
        opStep E (processMessage E (exec E)) (processCreateMessage E (exec E)) op m := by
      intro f hf; rw [hx f, hx (exec E), hq (sub f), hq (sub (exec E)), hc f (exec E) hf]
    match hst : opStep E (processMessage E (exec E)) (processCreateMessage E (exec E)) op m with
    | .err e m' =>
      have hxe : exec E m = .err e m' := by rw [hexec, hbody, hst]
      refine ⟨k + 1, .next m _ k (fun f hf => by rw [hxe, hbody, hagree f hf, hst]) hk, ?_⟩
      have he : e ≠ .revert := by
        rintro rfl
        rw [hx, hq] at hst
        match hsb : sub (exec E) msg m1.world with
        | .ok (child, w) => rw [hsb] at hst; exact hrev _ _ _ hst
        | .error (e', w) =>
          rw [hsb] at hst
          obtain ⟨m2, h2⟩ := herr e' w
          rw [h2] at hst
          cases hst
          exact hnr _ _ _ hsb
      have hz : endGas (.err e m') = 0 := by
        match e, he with
        | .revert, he => exact absurd rfl he
        | .halt _, _ => rfl
        | .crash _, _ => rfl
        | .outOfFuel, _ => rfl
      rw [hxe, hz]; omega
    | .ok _ m2 =>
      rw [hst] at hg
      have hxe : exec E m = exec E m2 := by rw [hexec, hbody, hst]
      rw [hx, hq] at hst
      match hsb : sub (exec E) msg m1.world with
      | .error (e', w) =>
        rw [hsb] at hst
        obtain ⟨m3, h3⟩ := herr e' w
        rw [h3] at hst; cases hst
      | .ok (child, w) =>
        rw [hsb] at hst
        have h2 := hok _ _ _ hst
        have h3 := hcg _ _ _ hsb
        have h4 := hsg _ _ _ _ hsb
        obtain ⟨n, hn, hnle⟩ := ih m2 (by omega) (hg.1.2 hs)
        refine ⟨k + n + 1, .call m _ m2 k n (fun f hf hf2 => ?_) hk hn, ?_⟩
        · rw [hxe, hbody, hagree f hf, hx, hq, hsb, hst]; exact hf2
        · rw [hxe]; omega
  rcases opStep_asks E op m with h | ⟨x, hx, ha⟩ | ⟨x, hx, ha⟩
  · exact hind fun f g => h _ _ _ _
  · exact hask (processMessage E) (processMessage_asks E) (processMessage_gas (exec_gas E)) (subNR_processMessage E _) x
      (fun f => hx _ _) ha
  · exact hask (processCreateMessage E) (processCreateMessage_asks E) (processCreateMessage_gas (exec_gas E))
      (subNR_processCreateMessage E _) x (fun f => hx _ _) ha

theorem exec_work (E : Env) : ∀ n (m : Mach), m.evm.gasLeft ≤ n → m.evm.stack.length ≤ 1024 →
    ∃ k, Work E m k ∧ k + 2 * endGas (exec E m) ≤ 2 * m.evm.gasLeft + 1 := by
  intro n
  induction n using Nat.strongRecOn with
  | _ n ih =>
    intro m hn hs
    have hend : (m.evm.running = false ∨ m.evm.code[m.evm.pc]? = none) →
        ∃ k, Work E m k ∧ k + 2 * endGas (exec E m) ≤ 2 * m.evm.gasLeft + 1 := by
      intro h
      refine ⟨0, .done m h, ?_⟩
      have : exec E m = .ok () m := by
        rw [exec_eq E m hs]; unfold loopBody
        rcases h with h | h
        · simp only [h, Bool.false_eq_true, if_false]
        · simp only [h]; split <;> rfl
      rw [this]; simp only [endGas]; omega
    by_cases hr : m.evm.running = true
    · match hb : m.evm.code[m.evm.pc]? with
      | none => exact hend (.inr hb)
      | some b =>
        match hd : decodeOpIn m.world.state.fork b with
        | none =>
          have hbody : ∀ f : Loop, loopBody E f m = .err (.halt .invalidOpcode) m := by
            intro f; unfold loopBody; simp only [hr, if_true, hb, hd]
          refine ⟨1, .last m fun f => ?_, ?_⟩
          · rw [exec_eq E m hs, hbody, hbody]
          · rw [exec_eq E m hs, hbody]; simp only [endGas]; omega
        | some op => exact work_step hs hr hb hd fun m' h h' => ih m'.evm.gasLeft (by omega) m' (Nat.le_refl _) h'
    · exact hend (.inl (by simpa using hr))

theorem message_work (E : Env) (msg : Message) (w : World) : ∃ n, MessageWork E msg w n ∧ n ≤ 2 * msg.gas + 1 := by
  have key : ∀ sub : Loop → Sub, SubAsks sub → ∀ (msg1 : Message) (w1 : World), msg1.gas = msg.gas →
      (∀ f, sub f msg1 w1 = sub (exec E) msg1 w1 → processMessageCallWith E f msg w = processMessageCall E msg w) →
      ∃ n, MessageWork E msg w n ∧ n ≤ 2 * msg.gas + 1 := by
    intro sub hsub msg1 w1 hgas h
    rcases hsub msg1 w1 with h1 | ⟨w2, h1, _⟩
    · exact ⟨0, .none fun f => h f (h1 _ _), Nat.zero_le _⟩
    · obtain ⟨k, hk, hle⟩ := exec_work E _ ⟨initEvm msg1, w2⟩ (Nat.le_refl _) (by simp [initEvm])
      have hinit : (initEvm msg1).gasLeft = msg1.gas := rfl
      simp only [hinit] at hle
      exact ⟨k, .frame _ k (fun f hf => h f (h1 _ _ hf)) hk, by omega⟩
  unfold processMessageCall processMessageCallWith at key
  split at key
  · split at key
    · exact ⟨0, .none fun f => by unfold processMessageCall processMessageCallWith; simp_all, Nat.zero_le _⟩
    · exact key _ (processCreateMessage_asks E) msg w rfl fun f h => by rw [h]
  · split at key
    · exact ⟨0, .none fun f => by unfold processMessageCall processMessageCallWith; simp_all, Nat.zero_le _⟩
    · rename_i refund msg1 s1 heq
      have hg : (resolveDelegation msg1 s1).gas = msg.gas := by
        have h1 : (resolveDelegation msg1 s1).gas = msg1.gas := by
          unfold resolveDelegation; split
          · split <;> rfl
          · rfl
        rw [h1]
        split at heq
        · unfold setDelegation at heq; simp only at heq; split at heq
          · cases heq
          · split at heq <;> cases heq; rfl
        · cases heq; rfl
      exact key _ (processMessage_asks E) (resolveDelegation msg1 s1) { w with state := s1 } hg fun f h => by simp only [h]

end Verif
