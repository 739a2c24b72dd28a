import Verif.Lemmas.State
import Verif.Model.Interpreter
/-! Program logic for frame code: relations kept by every piece of instruction code. -/
namespace Verif

/-- What an instruction without effect outside its frame does: everything another frame or the state could see is
unchanged, gas does not grow, warm sets do not shrink, the stack bound is kept. -/
structure Loc (m m' : Mach) : Prop where
  world : m'.world = m.world
  message : m'.evm.message = m.evm.message
  code : m'.evm.code = m.evm.code
  jumps : m'.evm.validJumpDestinations = m.evm.validJumpDestinations
  logs : m'.evm.logs = m.evm.logs
  refund : m'.evm.refundCounter = m.evm.refundCounter
  deleted : m'.evm.accountsToDelete = m.evm.accountsToDelete
  error : m'.evm.error = m.evm.error
  touched : m'.evm.touchedAccounts = m.evm.touchedAccounts
  gas : m'.evm.gasLeft ≤ m.evm.gasLeft
  addrs : ∀ a ∈ m.evm.accessedAddresses, a ∈ m'.evm.accessedAddresses
  keys : ∀ a ∈ m.evm.accessedStorageKeys, a ∈ m'.evm.accessedStorageKeys
  stack : m.evm.stack.length ≤ 1024 → m'.evm.stack.length ≤ 1024

theorem Loc.refl (m : Mach) : Loc m m :=
  ⟨rfl, rfl, rfl, rfl, rfl, rfl, rfl, rfl, rfl, Nat.le_refl _, fun _ h => h, fun _ h => h, id⟩
theorem Loc.trans {a b c : Mach} (h : Loc a b) (h' : Loc b c) : Loc a c :=
  ⟨h'.world.trans h.world, h'.message.trans h.message, h'.code.trans h.code, h'.jumps.trans h.jumps,
   h'.logs.trans h.logs, h'.refund.trans h.refund, h'.deleted.trans h.deleted, h'.error.trans h.error, h'.touched.trans h.touched,
   Nat.le_trans h'.gas h.gas, fun a x => h'.addrs a (h.addrs a x), fun a x => h'.keys a (h.keys a x),
   fun x => h'.stack (h.stack x)⟩

/-- Whatever the outcome, the machine afterwards is `Loc`-related to the machine before. -/
structure Pres {α : Type} (x : M α) : Prop where
  run : ∀ m, Loc m (x m).mach
  /-- The model's artificial exception is not raised. -/
  fuel : ∀ m e m', x m = .err e m' → e ≠ .outOfFuel := by intro m e m' h; cases h

section
variable {α β : Type}

theorem bind_eq (x : M α) (f : α → M β) (m : Mach) :
    (x >>= f) m = match x m with | .ok a m' => f a m' | .err e m' => .err e m' := rfl
theorem pure_eq (a : α) (m : Mach) : (pure a : M α) m = .ok a m := rfl
theorem map_eq (g : α → β) (x : M α) (m : Mach) :
    (g <$> x) m = match x m with | .ok a m' => .ok (g a) m' | .err e m' => .err e m' := rfl

theorem pres_bind {x : M α} {f : α → M β} (hx : Pres x) (hf : ∀ a, Pres (f a)) : Pres (x >>= f) := by
  refine ⟨fun m => ?_, fun m e m' h => ?_⟩
  · rw [bind_eq]
    have := hx.run m
    revert this
    match x m with
    | .ok a m' => intro h; exact h.trans ((hf a).run m')
    | .err e m' => intro h; exact h
  · rw [bind_eq] at h
    have := hx.fuel m
    revert h this
    match x m with
    | .ok a m1 => intro h _; exact (hf a).fuel _ _ _ h
    | .err e1 m1 => intro h h2; cases h; exact h2 _ _ rfl
theorem pres_pure (a : α) : Pres (pure a : M α) := ⟨fun m => Loc.refl m, by intro m e m' h; cases h⟩
theorem pres_raise (e : Exn) (he : e ≠ .outOfFuel) : Pres (raise e : M α) :=
  ⟨fun m => Loc.refl m, fun m e m' h => by cases h; exact he⟩
theorem pres_raiseHalt (h : Halt) : Pres (raiseHalt h : M α) :=
  ⟨fun m => Loc.refl m, fun m e m' h => by cases h; simp⟩
theorem pres_getEvm : Pres getEvm := ⟨fun m => Loc.refl m, by intro m e m' h; cases h⟩
theorem pres_getState : Pres getState := ⟨fun m => Loc.refl m, by intro m e m' h; cases h⟩
theorem pres_getTransient : Pres getTransient := ⟨fun m => Loc.refl m, by intro m e m' h; cases h⟩
theorem pres_liftCrash (x : Except Crash α) : Pres (liftCrash x) := by
  refine ⟨fun m => ?_, fun m e m' h => ?_⟩
  · unfold liftCrash; split <;> exact Loc.refl m
  · unfold liftCrash at h; split at h <;> cases h <;> simp
theorem pres_u256 (n : Nat) : Pres (u256 n) := by
  refine ⟨fun m => ?_, fun m e m' h => ?_⟩
  · unfold u256; split <;> exact Loc.refl m
  · unfold u256 at h; split at h <;> cases h <;> simp
theorem pres_pop : Pres pop := by
  refine ⟨fun m => ?_, fun m e m' h => ?_⟩
  · unfold pop; split
    · exact Loc.refl m
    · rename_i h
      exact ⟨rfl, rfl, rfl, rfl, rfl, rfl, rfl, rfl, rfl, Nat.le_refl _, fun _ h => h, fun _ h => h,
        fun h' => by rw [h] at h'; simp only [List.length_cons] at h'; simp only [Res.mach]; omega⟩
  · unfold pop at h; split at h <;> cases h <;> simp
theorem pres_push (w : Word) : Pres (push w) := by
  refine ⟨fun m => ?_, fun m e m' h => ?_⟩
  · unfold push; split
    · exact Loc.refl m
    · exact ⟨rfl, rfl, rfl, rfl, rfl, rfl, rfl, rfl, rfl, Nat.le_refl _, fun _ h => h, fun _ h => h,
        fun h' => by simp only [Res.mach, List.length_cons]; omega⟩
  · unfold push at h; split at h <;> cases h <;> simp
theorem pres_chargeGas (n : Nat) : Pres (chargeGas n) := by
  refine ⟨fun m => ?_, fun m e m' h => ?_⟩
  · unfold chargeGas; split
    · exact Loc.refl m
    · exact ⟨rfl, rfl, rfl, rfl, rfl, rfl, rfl, rfl, rfl, by simp [Res.mach], fun _ h => h, fun _ h => h, id⟩
  · unfold chargeGas at h; split at h <;> cases h <;> simp
theorem pres_incPc (n : Nat) : Pres (incPc n) := ⟨fun m =>
  ⟨rfl, rfl, rfl, rfl, rfl, rfl, rfl, rfl, rfl, Nat.le_refl _, fun _ h => h, fun _ h => h, id⟩, by intro m e m' h; cases h⟩
theorem pres_setPc (n : Nat) : Pres (setPc n) := ⟨fun m =>
  ⟨rfl, rfl, rfl, rfl, rfl, rfl, rfl, rfl, rfl, Nat.le_refl _, fun _ h => h, fun _ h => h, id⟩, by intro m e m' h; cases h⟩
theorem pres_stopRunning : Pres stopRunning := ⟨fun m =>
  ⟨rfl, rfl, rfl, rfl, rfl, rfl, rfl, rfl, rfl, Nat.le_refl _, fun _ h => h, fun _ h => h, id⟩, by intro m e m' h; cases h⟩
theorem pres_setOutput (b : Bytes) : Pres (setOutput b) := ⟨fun m =>
  ⟨rfl, rfl, rfl, rfl, rfl, rfl, rfl, rfl, rfl, Nat.le_refl _, fun _ h => h, fun _ h => h, id⟩, by intro m e m' h; cases h⟩
theorem pres_setReturnData (b : Bytes) : Pres (setReturnData b) := ⟨fun m =>
  ⟨rfl, rfl, rfl, rfl, rfl, rfl, rfl, rfl, rfl, Nat.le_refl _, fun _ h => h, fun _ h => h, id⟩, by intro m e m' h; cases h⟩
theorem pres_expandMemory (n : Nat) : Pres (expandMemory n) := ⟨fun m =>
  ⟨rfl, rfl, rfl, rfl, rfl, rfl, rfl, rfl, rfl, Nat.le_refl _, fun _ h => h, fun _ h => h, id⟩, by intro m e m' h; cases h⟩
theorem pres_writeMemory (n : Nat) (b : Bytes) : Pres (writeMemory n b) := ⟨fun m =>
  ⟨rfl, rfl, rfl, rfl, rfl, rfl, rfl, rfl, rfl, Nat.le_refl _, fun _ h => h, fun _ h => h, id⟩, by intro m e m' h; cases h⟩
theorem pres_warmAddress (a : Address) : Pres (warmAddress a) := ⟨fun m =>
  ⟨rfl, rfl, rfl, rfl, rfl, rfl, rfl, rfl, rfl, Nat.le_refl _, fun x h => by simp [Res.mach, warmAddress, mem_setAdd, h],
   fun _ h => h, id⟩, by intro m e m' h; cases h⟩
theorem pres_warmSlot (a : Address) (k : Word) : Pres (warmSlot a k) := ⟨fun m =>
  ⟨rfl, rfl, rfl, rfl, rfl, rfl, rfl, rfl, rfl, Nat.le_refl _, fun _ h => h,
   fun x h => by simp only [Res.mach, warmSlot, mem_setAdd]; exact Or.inl h, id⟩, by intro m e m' h; cases h⟩
end

/-- Discharge `Pres` goals by following the structure of the code. -/
macro "walk" : tactic => `(tactic| repeat' first
  | exact pres_pure _ | exact pres_raise _ (by simp) | exact pres_raiseHalt _ | exact pres_getEvm | exact pres_getState
  | exact pres_getTransient | exact pres_liftCrash _ | exact pres_u256 _ | exact pres_pop | exact pres_push _
  | exact pres_chargeGas _ | exact pres_incPc _ | exact pres_setPc _ | exact pres_stopRunning | exact pres_setOutput _
  | exact pres_setReturnData _ | exact pres_expandMemory _ | exact pres_writeMemory _ _ | exact pres_warmAddress _
  | exact pres_warmSlot _ _
  | assumption
  | apply pres_bind
  | intro _
  | split
  | dsimp only)

theorem pres_accessAddress (k : AccessKind) (a : Address) : Pres (accessAddress k a) := by unfold accessAddress; walk
theorem pres_extendCost (l : List (Word × Word)) : Pres (extendCost l) := by unfold extendCost; walk
theorem pres_popN (n : Nat) : Pres (popN n) := by
  induction n with
  | zero => exact pres_pure _
  | succ n ih => unfold popN; walk
theorem pres_accessDelegation (a : Address) : Pres (accessDelegation a) := by
  unfold accessDelegation
  apply pres_bind pres_getState; intro s
  dsimp only
  split
  · apply pres_bind (pres_accessAddress _ _); walk
  · walk

end Verif
