import Verif.Lemmas.Alike
import Verif.Model.Interpreter
/-! Two runs of the same code on alike stores go in parallel (for C85). -/
namespace Verif

/-- The same frame, on alike stores. -/
structure MSim (m m' : Mach) : Prop where
  evm : m.evm = m'.evm
  world : WSim m.world m'.world

/-- Two results: the same exception or related values, in the same frame, on alike stores. -/
def RSim {α : Type} (R : α → α → Prop) : Res α → Res α → Prop
  | .ok a m, .ok b m' => R a b ∧ MSim m m'
  | .err e m, .err e' m' => e = e' ∧ MSim m m'
  | _, _ => False

/-- Two pieces of code that take alike machines to alike results. -/
def Par {α : Type} (R : α → α → Prop) (f g : M α) : Prop := ∀ m m', MSim m m' → RSim R (f m) (g m')

/-- Code that cannot tell alike stores apart. -/
abbrev Ext {α : Type} (f : M α) : Prop := Par Eq f f

theorem par_bind {α β : Type} {R : α → α → Prop} {S : β → β → Prop} {f f' : M α} {k k' : α → M β} (h : Par R f f')
    (hk : ∀ a a', R a a' → Par S (k a) (k' a')) : Par S (f >>= k) (f' >>= k') := by
  intro m m' hm
  have h1 := h m m' hm
  show RSim S (M.bind f k m) (M.bind f' k' m')
  unfold M.bind
  revert h1
  cases f m <;> cases f' m' <;> intro h1
  · exact hk _ _ h1.1 _ _ h1.2
  · cases h1
  · cases h1
  · exact h1

theorem ext_bind {α β : Type} {S : β → β → Prop} {f : M α} {k k' : α → M β} (h : Ext f) (hk : ∀ a, Par S (k a) (k' a)) :
    Par S (f >>= k) (f >>= k') := par_bind h fun a a' e => by subst e; exact hk a

theorem state_bind {β : Type} {S : β → β → Prop} {k k' : State → M β} (hk : ∀ s s', SSim s s' → Par S (k s) (k' s')) :
    Par S (getState >>= k) (getState >>= k') := by
  refine par_bind (R := SSim) (fun m m' h => ⟨h.world.state, h⟩) hk

theorem transient_bind {β : Type} {S : β → β → Prop} {k k' : TransientStorage → M β} (hk : ∀ s s', TSim s s' → Par S (k s) (k' s')) :
    Par S (getTransient >>= k) (getTransient >>= k') := by
  refine par_bind (R := TSim) (fun m m' h => ⟨h.world.transient, h⟩) hk

theorem crash_bind {α β : Type} {R : α → α → Prop} {S : β → β → Prop} {x x' : Except Crash α} {k k' : α → M β} (h : ESim R x x')
    (hk : ∀ s s', R s s' → Par S (k s) (k' s')) : Par S (liftCrash x >>= k) (liftCrash x' >>= k') := by
  refine par_bind (R := R) (fun m m' hm => ?_) hk
  unfold liftCrash
  cases x <;> cases x'
  · exact ⟨congrArg Exn.crash h, hm⟩
  · cases h
  · cases h
  · exact ⟨h, hm⟩

theorem par_pure {α : Type} {R : α → α → Prop} {a b : α} (h : R a b) : Par R (pure a) (pure b) := fun _ _ hm => ⟨h, hm⟩
theorem ext_pure {α : Type} (a : α) : Ext (pure a : M α) := fun _ _ hm => ⟨rfl, hm⟩
theorem ext_raise {α : Type} (e : Exn) : Ext (raise e : M α) := fun _ _ hm => ⟨rfl, hm⟩
theorem ext_raiseHalt {α : Type} (e : Halt) : Ext (raiseHalt e : M α) := fun _ _ hm => ⟨rfl, hm⟩
theorem ext_getEvm : Ext getEvm := fun _ _ hm => ⟨hm.evm, hm⟩
theorem ext_liftCrash {α : Type} (x : Except Crash α) : Ext (liftCrash x) := by
  intro m m' hm; cases x <;> exact ⟨rfl, hm⟩
theorem ext_u256 (n : Nat) : Ext (u256 n) := by
  intro m m' hm; unfold u256; split <;> exact ⟨rfl, hm⟩

/-- Code that only changes the frame, without reading the stores. -/
theorem ext_evm {α : Type} {f : M α} (g : Evm → Except Exn (α × Evm))
    (h : ∀ m, f m = match g m.evm with | .ok (a, e) => .ok a { m with evm := e } | .error x => .err x m) : Ext f := by
  intro m m' hm
  rw [h, h, hm.evm]
  cases g m'.evm with
  | error x => exact ⟨rfl, hm⟩
  | ok p => exact ⟨rfl, ⟨rfl, hm.world⟩⟩

theorem ext_pop : Ext pop := ext_evm (fun e => match e.stack with | [] => .error (.halt .stackUnderflow) | x :: r => .ok (x, { e with stack := r })) (by
  intro m; unfold pop; split <;> simp [*])
theorem ext_push (w : Word) : Ext (push w) := ext_evm (fun e => if e.stack.length = 1024 then .error (.halt .stackOverflow) else .ok ((), { e with stack := w :: e.stack })) (by
  intro m; unfold push; split <;> simp [*])
theorem ext_chargeGas (n : Nat) : Ext (chargeGas n) := ext_evm (fun e => if e.gasLeft < n then .error (.halt .outOfGas) else .ok ((), { e with gasLeft := e.gasLeft - n })) (by
  intro m; unfold chargeGas; split <;> simp [*])
theorem ext_incPc (n : Nat) : Ext (incPc n) := ext_evm (fun e => .ok ((), { e with pc := e.pc + n })) fun _ => rfl
theorem ext_setPc (n : Nat) : Ext (setPc n) := ext_evm (fun e => .ok ((), { e with pc := n })) fun _ => rfl
theorem ext_stopRunning : Ext stopRunning := ext_evm (fun e => .ok ((), { e with running := false })) fun _ => rfl
theorem ext_setOutput (b : Bytes) : Ext (setOutput b) := ext_evm (fun e => .ok ((), { e with output := b })) fun _ => rfl
theorem ext_setReturnData (b : Bytes) : Ext (setReturnData b) := ext_evm (fun e => .ok ((), { e with returnData := b })) fun _ => rfl
theorem ext_addGas (n : Nat) : Ext (addGas n) := ext_evm (fun e => .ok ((), { e with gasLeft := e.gasLeft + n })) fun _ => rfl
theorem ext_expandMemory (n : Nat) : Ext (expandMemory n) := ext_evm (fun e => .ok ((), { e with memory := e.memory ++ List.replicate n 0 })) fun _ => rfl
theorem ext_writeMemory (n : Nat) (b : Bytes) : Ext (writeMemory n b) := ext_evm (fun e => .ok ((), { e with memory := memoryWrite e.memory n b })) fun _ => rfl
theorem ext_setStack (l : List Word) : Ext (setStack l) := ext_evm (fun e => .ok ((), { e with stack := l })) fun _ => rfl
theorem ext_warmAddress (a : Address) : Ext (warmAddress a) := ext_evm (fun e => .ok ((), { e with accessedAddresses := setAdd e.accessedAddresses a })) fun _ => rfl
theorem ext_warmSlot (a : Address) (k : Word) : Ext (warmSlot a k) := ext_evm (fun e => .ok ((), { e with accessedStorageKeys := setAdd e.accessedStorageKeys (a, k) })) fun _ => rfl
theorem ext_addRefund (n : Int) : Ext (addRefund n) := ext_evm (fun e => .ok ((), { e with refundCounter := e.refundCounter + n })) fun _ => rfl
theorem ext_addLog (l : Log) : Ext (addLog l) := ext_evm (fun e => .ok ((), { e with logs := e.logs ++ [l] })) fun _ => rfl
theorem ext_addDeleted (a : Address) : Ext (addDeleted a) := ext_evm (fun e => .ok ((), { e with accountsToDelete := setAdd e.accountsToDelete a })) fun _ => rfl

theorem ext_touchIfEmpty (a : Address) : Ext (touchIfEmpty a) := by
  rintro ⟨e, w⟩ ⟨e', w'⟩ ⟨h1, h2⟩
  cases h1
  unfold touchIfEmpty
  simp only [h2.state.touchedIf]
  exact ⟨rfl, ⟨rfl, h2⟩⟩
theorem ext_selfdestructRefund (a : Address) : Ext (selfdestructRefund a) := by
  intro m m' hm
  unfold selfdestructRefund
  rw [hm.evm, hm.world.state.fork]
  split
  · exact ⟨rfl, hm⟩
  · exact ⟨rfl, ⟨rfl, hm.world⟩⟩
theorem ext_onSuccess (c : Evm) : Ext (incorporateChildOnSuccess c) := by
  rintro ⟨e, w⟩ ⟨e', w'⟩ ⟨h1, h2⟩
  cases h1
  unfold incorporateChildOnSuccess
  simp only [h2.state.touchedIf]
  exact ⟨rfl, ⟨rfl, h2⟩⟩
theorem ext_onError (c : Evm) : Ext (incorporateChildOnError c) := by
  rintro ⟨e, w⟩ ⟨e', w'⟩ ⟨h1, h2⟩
  cases h1
  unfold incorporateChildOnError touchedOnError
  simp only [h2.state.touchedIf]
  exact ⟨rfl, ⟨rfl, h2⟩⟩

theorem par_setState {s s' : State} (h : SSim s s') : Par Eq (setState s) (setState s') := fun _ _ hm => ⟨rfl, ⟨hm.evm, ⟨h, hm.world.transient⟩⟩⟩
theorem par_setTransient {s s' : TransientStorage} (h : TSim s s') : Par Eq (setTransient s) (setTransient s') :=
  fun _ _ hm => ⟨rfl, ⟨hm.evm, ⟨hm.world.state, h⟩⟩⟩

/-- The same exception or the same value, on alike stores. -/
def OSim {α : Type} : Except (Exn × World) (α × World) → Except (Exn × World) (α × World) → Prop
  | .ok (a, v), .ok (b, v') => a = b ∧ WSim v v'
  | .error (x, v), .error (x', v') => x = x' ∧ WSim v v'
  | _, _ => False

/-- A way to process messages that cannot tell alike stores apart. -/
def SubExt (sub : Sub) : Prop := ∀ msg w w', WSim w w' → OSim (sub msg w) (sub msg w')

theorem ext_runSub {sub : Sub} (h : SubExt sub) (msg : Message) : Ext (runSub sub msg) := by
  intro m m' hm
  have h1 := h msg _ _ hm.world
  unfold runSub
  revert h1
  rcases sub msg m.world with ⟨x, v⟩ | ⟨e, v⟩ <;> rcases sub msg m'.world with ⟨x', v'⟩ | ⟨e', v'⟩ <;> intro h1
  · exact ⟨h1.1, ⟨hm.evm, h1.2⟩⟩
  · cases h1
  · cases h1
  · exact ⟨h1.1, ⟨hm.evm, h1.2⟩⟩

/-- Follow the structure of the code. -/
macro "par1" : tactic => `(tactic| with_reducible first
  | exact ext_pure _ | exact ext_raise _ | exact ext_raiseHalt _ | exact ext_getEvm
  | exact ext_liftCrash _ | exact ext_u256 _ | exact ext_pop | exact ext_push _
  | exact ext_chargeGas _ | exact ext_incPc _ | exact ext_setPc _ | exact ext_stopRunning | exact ext_setOutput _
  | exact ext_setReturnData _ | exact ext_addGas _ | exact ext_expandMemory _ | exact ext_writeMemory _ _ | exact ext_setStack _
  | exact ext_warmAddress _ | exact ext_warmSlot _ _ | exact ext_addRefund _ | exact ext_addLog _ | exact ext_addDeleted _
  | exact ext_touchIfEmpty _ | exact ext_selfdestructRefund _ | exact ext_onSuccess _ | exact ext_onError _
  | assumption)

macro "parread" h:term : tactic => `(tactic| try simp only [($h).fork, ($h).account, ($h).slot, ($h).exists_, ($h).codeOrNonce, ($h).hasStorage,
  ($h).isEmpty, ($h).alive, ($h).original, ($h).created])

macro "par" : tactic => `(tactic| repeat' first
  | par1
  | (with_reducible refine state_bind fun s s' hs => ?_; parread hs)
  | with_reducible refine ext_bind ?_ fun _ => ?_
  | split
  | dsimp only)

theorem ext_popN (n : Nat) : Ext (popN n) := by
  induction n with
  | zero => exact ext_pure _
  | succ n ih => unfold popN; par
theorem ext_extendCost (l : List (Word × Word)) : Ext (extendCost l) := by unfold extendCost; par
theorem ext_accessAddress (k : AccessKind) (a : Address) : Ext (accessAddress k a) := by unfold accessAddress; par

end Verif
