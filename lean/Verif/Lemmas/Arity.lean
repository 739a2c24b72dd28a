import Verif.Lemmas.OpEffect2
import Verif.Spec.Arity
/-! Every instruction replaces a fixed number of stack items and leaves the rest alone. -/
namespace Verif
open Spec
section
variable {α β : Type} {i j : Nat}

/-- A run that returns replaced the top `i` items by `j` items. -/
def SE (i j : Nat) (x : M α) : Prop := ∀ m a m', x m = .ok a m' →
  i ≤ m.evm.stack.length ∧ m'.evm.stack.length + i = m.evm.stack.length + j ∧ m'.evm.stack.drop j = m.evm.stack.drop i

theorem se_bind {x : M α} {f : α → M β} {i' : Nat} (hx : SE i 0 x) (hf : ∀ a, SE i' j (f a)) : SE (i + i') j (x >>= f) := by
  intro m b m' h
  rw [bind_eq] at h
  match hxm : x m with
  | .ok a m1 =>
    rw [hxm] at h
    obtain ⟨h1, h2, h3⟩ := hx _ _ _ hxm
    obtain ⟨h4, h5, h6⟩ := hf a _ _ _ h
    simp only [List.drop_zero] at h3
    refine ⟨by omega, by omega, ?_⟩
    rw [h6, h3, List.drop_drop]
  | .err _ _ => rw [hxm] at h; cases h
theorem se_keep {x : M α} {f : α → M β} (hx : SE 0 0 x) (hf : ∀ a, SE i j (f a)) : SE i j (x >>= f) := by
  have := se_bind hx hf; rwa [Nat.zero_add] at this
theorem se_after {x : M α} {f : α → M β} (hx : SE i j x) (hf : ∀ a, SE 0 0 (f a)) : SE i j (x >>= f) := by
  intro m b m' h
  rw [bind_eq] at h
  match hxm : x m with
  | .ok a m1 =>
    rw [hxm] at h
    obtain ⟨h1, h2, h3⟩ := hx _ _ _ hxm
    obtain ⟨h4, h5, h6⟩ := hf a _ _ _ h
    simp only [List.drop_zero] at h6
    rw [h6]
    exact ⟨h1, h2, h3⟩
  | .err _ _ => rw [hxm] at h; cases h
theorem se_raise (e : Exn) : SE i j (raise e : M α) := by intro m a m' h; cases h
theorem se_raiseHalt (e : Halt) : SE i j (raiseHalt e : M α) := by intro m a m' h; cases h
theorem se_ite {c : Prop} [Decidable c] {x y : M α} (h : SE i j x) (h' : SE i j y) : SE i j (if c then x else y) := by
  split <;> assumption
theorem se_pop : SE 1 0 pop := by
  intro m a m' h
  unfold pop at h
  match hs : m.evm.stack with
  | [] => rw [hs] at h; cases h
  | x :: r => rw [hs] at h; cases h; simp
theorem se_push (w : Word) : SE 0 1 (push w) := by
  intro m a m' h
  unfold push at h; split at h <;> cases h; simp
theorem se_of_stack {x : M α} (h : ∀ m a m', x m = .ok a m' → m'.evm.stack = m.evm.stack) : SE 0 0 x := by
  intro m a m' hx; rw [h m a m' hx]; simp
theorem se_pure (a : α) : SE 0 0 (pure a : M α) := se_of_stack fun m b m' h => by cases h; rfl
theorem se_getEvm : SE 0 0 getEvm := se_of_stack fun m b m' h => by cases h; rfl
theorem se_getState : SE 0 0 getState := se_of_stack fun m b m' h => by cases h; rfl
theorem se_getTransient : SE 0 0 getTransient := se_of_stack fun m b m' h => by cases h; rfl
theorem se_liftCrash (x : Except Crash α) : SE 0 0 (liftCrash x) :=
  se_of_stack fun m b m' h => by rw [(liftCrash_ok h).2]
theorem se_u256 (n : Nat) : SE 0 0 (u256 n) := se_of_stack fun m b m' h => by unfold u256 at h; split at h <;> cases h; rfl
theorem se_chargeGas (n : Nat) : SE 0 0 (chargeGas n) := se_of_stack fun m b m' h => by rw [(chargeGas_ok h).2]
theorem se_incPc (n : Nat) : SE 0 0 (incPc n) := se_of_stack fun m b m' h => by cases h; rfl
theorem se_setPc (n : Nat) : SE 0 0 (setPc n) := se_of_stack fun m b m' h => by cases h; rfl
theorem se_stopRunning : SE 0 0 stopRunning := se_of_stack fun m b m' h => by cases h; rfl
theorem se_setOutput (b : Bytes) : SE 0 0 (setOutput b) := se_of_stack fun m b m' h => by cases h; rfl
theorem se_setReturnData (b : Bytes) : SE 0 0 (setReturnData b) := se_of_stack fun m b m' h => by cases h; rfl
theorem se_addGas (n : Nat) : SE 0 0 (addGas n) := se_of_stack fun m b m' h => by cases h; rfl
theorem se_expandMemory (n : Nat) : SE 0 0 (expandMemory n) := se_of_stack fun m b m' h => by cases h; rfl
theorem se_writeMemory (n : Nat) (v : Bytes) : SE 0 0 (writeMemory n v) := se_of_stack fun m b m' h => by cases h; rfl
theorem se_warmAddress (a : Address) : SE 0 0 (warmAddress a) := se_of_stack fun m b m' h => by cases h; rfl
theorem se_warmSlot (a : Address) (k : Word) : SE 0 0 (warmSlot a k) := se_of_stack fun m b m' h => by cases h; rfl
theorem se_addRefund (n : Int) : SE 0 0 (addRefund n) := se_of_stack fun m b m' h => by cases h; rfl
theorem se_addLog (l : Log) : SE 0 0 (addLog l) := se_of_stack fun m b m' h => by cases h; rfl
theorem se_addDeleted (a : Address) : SE 0 0 (addDeleted a) := se_of_stack fun m b m' h => by cases h; rfl
theorem se_setState (s : State) : SE 0 0 (setState s) := se_of_stack fun m b m' h => by cases h; rfl
theorem se_setTransient (s : TransientStorage) : SE 0 0 (setTransient s) := se_of_stack fun m b m' h => by cases h; rfl
theorem se_incSuccess (c : Evm) : SE 0 0 (incorporateChildOnSuccess c) := se_of_stack fun m b m' h => by cases h; rfl
theorem se_incError (c : Evm) : SE 0 0 (incorporateChildOnError c) := se_of_stack fun m b m' h => by cases h; rfl
theorem se_runSub (s : Sub) (msg : Message) : SE 0 0 (runSub s msg) :=
  se_of_stack fun m b m' h => by unfold runSub at h; split at h <;> cases h; rfl
theorem se_extendCost (l : List (Word × Word)) : SE 0 0 (extendCost l) :=
  se_of_stack fun m b m' h => by unfold extendCost at h; cases h; rfl
theorem se_touchIfEmpty (a : Address) : SE 0 0 (touchIfEmpty a) := se_of_stack fun m b m' h => by cases h; rfl
theorem se_selfdestructRefund (a : Address) : SE 0 0 (selfdestructRefund a) :=
  se_of_stack fun m b m' h => by unfold selfdestructRefund at h; split at h <;> cases h <;> rfl
theorem se_randaoOrDifficulty (E : Env) : SE 0 0 (randaoOrDifficulty E) := by
  intro m b m' h; unfold randaoOrDifficulty at h
  split at h
  · cases h; simp
  · exact se_u256 _ _ _ _ h
theorem se_accessAddress (k : AccessKind) (a : Address) : SE 0 0 (accessAddress k a) := by
  unfold accessAddress
  exact se_keep se_getEvm fun e => se_keep se_getState fun s => se_ite (se_pure _) (se_ite (se_pure _)
    (se_keep (se_warmAddress _) fun _ => se_pure _))
theorem se_accessDelegation (a : Address) : SE 0 0 (accessDelegation a) := by
  unfold accessDelegation
  refine se_keep se_getState fun e => ?_
  dsimp only
  exact se_ite (se_keep (se_accessAddress _ _) fun _ => se_pure _) (se_pure _)
theorem se_popN : ∀ n, SE n 0 (popN n)
  | 0 => se_pure _
  | n + 1 => by
    have := se_bind se_pop (i' := n) (j := 0) (f := fun t => popN n >>= fun r => pure (t :: r))
      fun _ => se_after (se_popN n) fun _ => se_pure _
    rw [Nat.add_comm] at this; exact this
theorem se_popBind {f : Word → M β} (hf : ∀ a, SE i j (f a)) : SE (i + 1) j (pop >>= f) := by
  have := se_bind se_pop hf; rwa [Nat.add_comm] at this

/-- With fewer than `i` items the run ends with an exceptional halt, and the output of the frame is as it was. -/
def HU (i : Nat) (x : M α) : Prop := ∀ m, m.evm.stack.length < i →
  ∃ h m', x m = .err (.halt h) m' ∧ m'.evm.output = m.evm.output

theorem hu_zero (x : M α) : HU 0 x := fun _ h => absurd h (Nat.not_lt_zero _)
theorem hu_pop {f : Word → M β} (hf : ∀ a, HU i (f a)) : HU (i + 1) (pop >>= f) := by
  intro m hm
  rw [bind_eq]
  unfold pop
  match hs : m.evm.stack with
  | [] => exact ⟨_, _, rfl, rfl⟩
  | x :: r => exact hf x _ (by rw [hs] at hm; simp at hm; exact hm)
theorem hu_popN : ∀ n, HU n (popN n)
  | 0 => hu_zero _
  | n + 1 => hu_pop fun t => by
    intro m hm
    obtain ⟨h, m', e, ho⟩ := hu_popN n m hm
    rw [bind_eq, e]; exact ⟨_, _, rfl, ho⟩
theorem hu_bind {x : M α} {f : α → M β} (hx : HU i x) : HU i (x >>= f) := by
  intro m hm
  obtain ⟨h, m', e, ho⟩ := hx m hm
  rw [bind_eq, e]; exact ⟨_, _, rfl, ho⟩
end

/-- Walk through code that leaves the stack alone. -/
macro "skeep" : tactic => `(tactic| first
  | exact se_pure _ | exact se_getEvm | exact se_getState | exact se_getTransient
  | exact se_liftCrash _ | exact se_u256 _ | exact se_chargeGas _ | exact se_incPc _
  | exact se_setPc _ | exact se_stopRunning | exact se_setOutput _ | exact se_setReturnData _ | exact se_addGas _
  | exact se_warmAddress _ | exact se_warmSlot _ _ | exact se_addRefund _ | exact se_addLog _
  | exact se_addDeleted _ | exact se_setState _ | exact se_setTransient _ | exact se_incSuccess _ | exact se_incError _
  | exact se_touchIfEmpty _ | exact se_selfdestructRefund _ | exact se_randaoOrDifficulty _
  | exact se_runSub _ _ | exact se_extendCost _ | exact se_accessAddress _ _ | exact se_accessDelegation _
  | exact se_expandMemory _ | exact se_writeMemory _ _)

macro "swalk" : tactic => `(tactic| repeat' (first
  | skeep | exact se_raise _ | exact se_raiseHalt _ | exact se_push _ | exact se_pop
  | (with_reducible refine se_popBind fun _ => ?_)
  | (with_reducible refine se_after (se_push _) fun _ => ?_)
  | (refine se_keep (by skeep) fun _ => ?_)
  | (with_reducible refine se_ite ?_ ?_)
  | dsimp only
  | split))

theorem se_genericCreate (pcm : Sub) (e : Word) (a : Address) (s z : Word) : SE 0 1 (genericCreate pcm e a s z) := by
  unfold genericCreate; swalk
theorem se_genericCall (pm : Sub) (a : CallArgs) : SE 0 1 (genericCall pm a) := by
  unfold genericCall; swalk

theorem se_swap (n : Nat) : SE (n + 1) (n + 1) (opSwap n) := by
  unfold opSwap
  refine se_keep (se_chargeGas _) fun _ => ?_
  intro m b m' h
  simp only [bind_eq, getEvm] at h
  match hx : m.evm.stack[0]?, hy : m.evm.stack[n]? with
  | some x, some y =>
    simp only [hx, hy] at h
    cases h
    have hn : n < m.evm.stack.length := by
      rcases Nat.lt_or_ge n m.evm.stack.length with h | h
      · exact h
      · rw [List.getElem?_eq_none h] at hy; cases hy
    refine ⟨hn, by simp, ?_⟩
    show List.drop (n + 1) ((m.evm.stack.set 0 y).set n x) = _
    rw [List.drop_set_of_lt (by omega), List.drop_set_of_lt (by omega)]
  | none, _ => simp only [hx] at h; cases h
  | some x, none => simp only [hx, hy] at h; cases h

theorem se_dup (n : Nat) : SE (n + 1) (n + 2) (opDup n) := by
  unfold opDup
  refine se_keep (se_chargeGas _) fun _ => ?_
  intro m b m' h
  simp only [bind_eq, getEvm] at h
  match hx : m.evm.stack[n]? with
  | none => simp only [hx] at h; cases h
  | some x =>
    simp only [hx, bind_eq, push] at h
    by_cases hl : m.evm.stack.length = 1024
    · simp only [hl, if_true] at h; cases h
    · simp only [hl, if_false] at h
      cases h
      have hn : n < m.evm.stack.length := by
        rcases Nat.lt_or_ge n m.evm.stack.length with h | h
        · exact h
        · rw [List.getElem?_eq_none h] at hx; cases hx
      exact ⟨hn, by simp; omega, by simp⟩

theorem hu_dup (n : Nat) : HU (n + 1) (opDup n) := by
  intro m hm
  unfold opDup
  simp only [bind_eq, chargeGas]
  by_cases hg : m.evm.gasLeft < GAS_VERY_LOW
  · simp only [hg, if_true]; exact ⟨_, _, rfl, rfl⟩
  · simp only [hg, if_false, getEvm]
    rw [List.getElem?_eq_none (by omega)]
    exact ⟨_, _, rfl, rfl⟩

theorem hu_swap (n : Nat) : HU (n + 1) (opSwap n) := by
  intro m hm
  unfold opSwap
  simp only [bind_eq, chargeGas]
  by_cases hg : m.evm.gasLeft < GAS_VERY_LOW
  · simp only [hg, if_true]; exact ⟨_, _, rfl, rfl⟩
  · simp only [hg, if_false, getEvm]
    rw [List.getElem?_eq_none (i := n) (by omega)]
    cases m.evm.stack[0]? <;> exact ⟨_, _, rfl, rfl⟩

set_option linter.unusedSimpArgs false in
set_option maxHeartbeats 4000000 in
/-- Every instruction replaces the items of the specification's table. -/
theorem opStep_arity (E : Env) (pm pcm : Sub) (op : Op) (hd : op ≠ .dup 0) :
    SE (removed op) (added op) (opStep E pm pcm op) := by
  cases op
  case dup n =>
    dsimp only [opStep, removed, added]
    cases n with
    | zero => exact absurd rfl hd
    | succ n => exact se_dup n
  case swap n => exact se_swap n
  case log n =>
    dsimp only [opStep, opLog, removed, added]
    refine se_popBind fun _ => se_popBind fun _ => ?_
    refine se_bind (i' := 0) (se_popN n) fun _ => ?_
    swalk
  all_goals
    dsimp only [opStep, removed, added]
    simp only [opStop, opAdd, opMul, opSub, opDiv, opSdiv, opMod, opSmod, opAddmod, opMulmod, opExp, opSignextend,
      opLt, opGt, opSlt, opSgt, opEq, opIszero, opAnd, opOr, opXor, opNot, opByte, opShl, opShr, opSar, opClz,
      opAddress, opBalance, opOrigin, opCaller, opCallvalue, opCalldataload, opCalldatasize,
      opCodesize, opGasprice, opExtcodesize, opReturndatasize,
      opExtcodehash, opBlockhash, opCoinbase, opTimestamp, opNumber, opPrevrandao, opGaslimit,
      opChainid, opSelfbalance, opBasefee, opBlobhash, opBlobbasefee, opPop, opSload,
      opJump, opJumpi, opPc, opMsize, opGas, opJumpdest, opTload, opPush, opSstore, opTstore,
      opSelfdestruct, opCalldatacopy, opCodecopy, opExtcodecopy, opReturndatacopy, opMstore, opMstore8, opMcopy, opMload,
      opKeccak, opReturn, opRevert, opCreate, opCreate2, opCall, opCallcode, opDelegatecall, opStaticcall]
    repeat' (first
      | skeep | exact se_raise _ | exact se_raiseHalt _ | exact se_push _ | exact se_pop
      | exact se_genericCall _ _ | exact se_genericCreate _ _ _ _ _
      | (with_reducible refine se_popBind fun _ => ?_)
      | (with_reducible refine se_after (se_push _) fun _ => ?_)
      | (with_reducible refine se_after (se_genericCall _ _) fun _ => ?_)
      | (with_reducible refine se_after (se_genericCreate _ _ _ _ _) fun _ => ?_)
      | (refine se_keep (by first | skeep | (refine se_ite ?_ ?_ <;> swalk)) fun _ => ?_)
      | (with_reducible refine se_ite ?_ ?_)
      | dsimp only
      | split)

set_option linter.unusedSimpArgs false in
set_option maxHeartbeats 4000000 in
/-- With too few items every instruction ends with an exceptional halt. -/
theorem opStep_underflow (E : Env) (pm pcm : Sub) (op : Op) (hd : op ≠ .dup 0) :
    HU (removed op) (opStep E pm pcm op) := by
  cases op
  case dup n =>
    dsimp only [opStep, removed, added]
    cases n with
    | zero => exact absurd rfl hd
    | succ n => exact hu_dup n
  case swap n => exact hu_swap n
  case log n =>
    dsimp only [opStep, opLog, removed]
    exact hu_pop fun _ => hu_pop fun _ => hu_bind (hu_popN n)
  all_goals
    dsimp only [opStep, removed]
    simp only [opStop, opAdd, opMul, opSub, opDiv, opSdiv, opMod, opSmod, opAddmod, opMulmod, opExp, opSignextend,
      opLt, opGt, opSlt, opSgt, opEq, opIszero, opAnd, opOr, opXor, opNot, opByte, opShl, opShr, opSar, opClz,
      opAddress, opBalance, opOrigin, opCaller, opCallvalue, opCalldataload, opCalldatasize,
      opCodesize, opGasprice, opExtcodesize, opReturndatasize,
      opExtcodehash, opBlockhash, opCoinbase, opTimestamp, opNumber, opPrevrandao, opGaslimit,
      opChainid, opSelfbalance, opBasefee, opBlobhash, opBlobbasefee, opPop, opSload,
      opJump, opJumpi, opPc, opMsize, opGas, opJumpdest, opTload, opPush, opSstore, opTstore,
      opSelfdestruct, opCalldatacopy, opCodecopy, opExtcodecopy, opReturndatacopy, opMstore, opMstore8, opMcopy, opMload,
      opKeccak, opReturn, opRevert, opCreate, opCreate2, opCall, opCallcode, opDelegatecall, opStaticcall]
    repeat' (first | exact hu_zero _ | refine hu_pop fun _ => ?_)

end Verif
