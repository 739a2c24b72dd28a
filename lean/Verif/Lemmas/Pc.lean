import Verif.Lemmas.Arity
import Verif.Lemmas.Monitor
/-! How far every instruction moves the program counter. -/
namespace Verif
open Spec
section
variable {α β : Type} {i j : Nat}

/-- A run that returns advanced the program counter by `i`. -/
def Pc (i : Nat) (x : M α) : Prop := ∀ m a m', x m = .ok a m' → m'.evm.pc = m.evm.pc + i

theorem pc_bind {x : M α} {f : α → M β} (hx : Pc i x) (hf : ∀ a, Pc j (f a)) : Pc (i + j) (x >>= f) := by
  intro m b m' h
  rw [bind_eq] at h
  match hxm : x m with
  | .ok a m1 => rw [hxm] at h; rw [hf a _ _ _ h, hx _ _ _ hxm]; omega
  | .err _ _ => rw [hxm] at h; cases h
theorem pc_keep {x : M α} {f : α → M β} (hx : Pc 0 x) (hf : ∀ a, Pc i (f a)) : Pc i (x >>= f) := by
  have := pc_bind hx hf; rwa [Nat.zero_add] at this
theorem pc_raise (e : Exn) : Pc i (raise e : M α) := by intro m a m' h; cases h
theorem pc_raiseHalt (e : Halt) : Pc i (raiseHalt e : M α) := by intro m a m' h; cases h
theorem pc_ite {c : Prop} [Decidable c] {x y : M α} (h : Pc i x) (h' : Pc i y) : Pc i (if c then x else y) := by
  split <;> assumption
theorem pc_pop : Pc 0 pop := by
  intro m a m' h
  unfold pop at h
  match hs : m.evm.stack with
  | [] => rw [hs] at h; cases h
  | x :: r => rw [hs] at h; cases h; simp
theorem pc_push (w : Word) : Pc 0 (push w) := by
  intro m a m' h
  unfold push at h; split at h <;> cases h; simp
theorem pc_pure (a : α) : Pc 0 (pure a : M α) := fun m b m' h => by cases h; rfl
theorem pc_getEvm : Pc 0 getEvm := fun m b m' h => by cases h; rfl
theorem pc_getState : Pc 0 getState := fun m b m' h => by cases h; rfl
theorem pc_getTransient : Pc 0 getTransient := fun m b m' h => by cases h; rfl
theorem pc_liftCrash (x : Except Crash α) : Pc 0 (liftCrash x) := fun m b m' h => by rw [(liftCrash_ok h).2]; rfl
theorem pc_u256 (n : Nat) : Pc 0 (u256 n) := fun m b m' h => by unfold u256 at h; split at h <;> cases h; rfl
theorem pc_chargeGas (n : Nat) : Pc 0 (chargeGas n) := fun m b m' h => by rw [(chargeGas_ok h).2]; rfl
theorem pc_incPc (n : Nat) : Pc n (incPc n) := fun m b m' h => by cases h; rfl
theorem pc_stopRunning : Pc 0 stopRunning := fun m b m' h => by cases h; rfl
theorem pc_setOutput (b : Bytes) : Pc 0 (setOutput b) := fun m b m' h => by cases h; rfl
theorem pc_setStack (b : List Word) : Pc 0 (setStack b) := fun m b m' h => by cases h; rfl
theorem pc_setReturnData (b : Bytes) : Pc 0 (setReturnData b) := fun m b m' h => by cases h; rfl
theorem pc_addGas (n : Nat) : Pc 0 (addGas n) := fun m b m' h => by cases h; rfl
theorem pc_expandMemory (n : Nat) : Pc 0 (expandMemory n) := fun m b m' h => by cases h; rfl
theorem pc_writeMemory (n : Nat) (v : Bytes) : Pc 0 (writeMemory n v) := fun m b m' h => by cases h; rfl
theorem pc_warmAddress (a : Address) : Pc 0 (warmAddress a) := fun m b m' h => by cases h; rfl
theorem pc_warmSlot (a : Address) (k : Word) : Pc 0 (warmSlot a k) := fun m b m' h => by cases h; rfl
theorem pc_addRefund (n : Int) : Pc 0 (addRefund n) := fun m b m' h => by cases h; rfl
theorem pc_addLog (l : Log) : Pc 0 (addLog l) := fun m b m' h => by cases h; rfl
theorem pc_addDeleted (a : Address) : Pc 0 (addDeleted a) := fun m b m' h => by cases h; rfl
theorem pc_setState (s : State) : Pc 0 (setState s) := fun m b m' h => by cases h; rfl
theorem pc_setTransient (s : TransientStorage) : Pc 0 (setTransient s) := fun m b m' h => by cases h; rfl
theorem pc_incSuccess (c : Evm) : Pc 0 (incorporateChildOnSuccess c) := fun m b m' h => by cases h; rfl
theorem pc_incError (c : Evm) : Pc 0 (incorporateChildOnError c) := fun m b m' h => by cases h; rfl
theorem pc_runSub (s : Sub) (msg : Message) : Pc 0 (runSub s msg) :=
  fun m b m' h => by unfold runSub at h; split at h <;> cases h; rfl
theorem pc_extendCost (l : List (Word × Word)) : Pc 0 (extendCost l) :=
  fun m b m' h => by unfold extendCost at h; cases h; rfl
theorem pc_touchIfEmpty (a : Address) : Pc 0 (touchIfEmpty a) := fun m b m' h => by cases h; rfl
theorem pc_selfdestructRefund (a : Address) : Pc 0 (selfdestructRefund a) :=
  fun m b m' h => by unfold selfdestructRefund at h; split at h <;> cases h <;> rfl
theorem pc_randaoOrDifficulty (E : Env) : Pc 0 (randaoOrDifficulty E) := by
  intro m b m' h; unfold randaoOrDifficulty at h
  split at h
  · cases h; rfl
  · exact pc_u256 _ _ _ _ h
theorem pc_accessAddress (k : AccessKind) (a : Address) : Pc 0 (accessAddress k a) := by
  unfold accessAddress
  exact pc_keep pc_getEvm fun e => pc_keep pc_getState fun s => pc_ite (pc_pure _) (pc_ite (pc_pure _)
    (pc_keep (pc_warmAddress _) fun _ => pc_pure _))
theorem pc_accessDelegation (a : Address) : Pc 0 (accessDelegation a) := by
  unfold accessDelegation
  refine pc_keep pc_getState fun e => ?_
  dsimp only
  exact pc_ite (pc_keep (pc_accessAddress _ _) fun _ => pc_pure _) (pc_pure _)
theorem pc_popN : ∀ n, Pc 0 (popN n)
  | 0 => pc_pure _
  | n + 1 => pc_keep pc_pop fun _ => pc_keep (pc_popN n) fun _ => pc_pure _
end

macro "pkeep" : tactic => `(tactic| first
  | exact pc_pure _ | exact pc_getEvm | exact pc_getState | exact pc_getTransient | exact pc_pop | exact pc_push _
  | exact pc_liftCrash _ | exact pc_u256 _ | exact pc_chargeGas _ | exact pc_setStack _ | exact pc_popN _
  | exact pc_stopRunning | exact pc_setOutput _ | exact pc_setReturnData _ | exact pc_addGas _
  | exact pc_warmAddress _ | exact pc_warmSlot _ _ | exact pc_addRefund _ | exact pc_addLog _
  | exact pc_addDeleted _ | exact pc_setState _ | exact pc_setTransient _ | exact pc_incSuccess _ | exact pc_incError _
  | exact pc_touchIfEmpty _ | exact pc_selfdestructRefund _ | exact pc_randaoOrDifficulty _
  | exact pc_runSub _ _ | exact pc_extendCost _ | exact pc_accessAddress _ _ | exact pc_accessDelegation _
  | exact pc_expandMemory _ | exact pc_writeMemory _ _)

macro "pwalk" : tactic => `(tactic| repeat' (first
  | pkeep | exact pc_raise _ | exact pc_raiseHalt _ | exact pc_incPc _
  | (refine pc_keep (by pkeep) fun _ => ?_)
  | (with_reducible refine pc_ite ?_ ?_)
  | dsimp only
  | split))

theorem pc_genericCreate (pcm : Sub) (e : Word) (a : Address) (s z : Word) : Pc 0 (genericCreate pcm e a s z) := by
  unfold genericCreate; pwalk
theorem pc_genericCall (pm : Sub) (a : CallArgs) : Pc 0 (genericCall pm a) := by
  unfold genericCall; pwalk

/-- Instructions that end the frame, or jump. -/
def leaves : Op → Bool
  | .ret | .revert | .selfdestruct | .jump | .jumpi => true
  | _ => false

def pushLen : Op → Nat
  | .push n => n
  | _ => 0

set_option linter.unusedSimpArgs false in
set_option maxHeartbeats 4000000 in
theorem opStep_pc (E : Env) (pm pcm : Sub) (op : Op) (hl : leaves op = false) : Pc (1 + pushLen op) (opStep E pm pcm op) := by
  cases op
  all_goals first | (exact absurd hl (by decide)) | skip
  all_goals
    dsimp only [opStep, pushLen]
    simp only [opStop, opAdd, opMul, opSub, opDiv, opSdiv, opMod, opSmod, opAddmod, opMulmod, opExp, opSignextend,
      opLt, opGt, opSlt, opSgt, opEq, opIszero, opAnd, opOr, opXor, opNot, opByte, opShl, opShr, opSar, opClz,
      opAddress, opBalance, opOrigin, opCaller, opCallvalue, opCalldataload, opCalldatasize,
      opCodesize, opGasprice, opExtcodesize, opReturndatasize, opDup, opSwap, opLog,
      opExtcodehash, opBlockhash, opCoinbase, opTimestamp, opNumber, opPrevrandao, opGaslimit,
      opChainid, opSelfbalance, opBasefee, opBlobhash, opBlobbasefee, opPop, opSload,
      opJump, opJumpi, opPc, opMsize, opGas, opJumpdest, opTload, opPush, opSstore, opTstore,
      opSelfdestruct, opCalldatacopy, opCodecopy, opExtcodecopy, opReturndatacopy, opMstore, opMstore8, opMcopy, opMload,
      opKeccak, opReturn, opRevert, opCreate, opCreate2, opCall, opCallcode, opDelegatecall, opStaticcall]
    repeat' (first
      | pkeep | exact pc_raise _ | exact pc_raiseHalt _ | exact pc_incPc _
      | (refine pc_keep (by first | pkeep | exact pc_genericCall _ _ | exact pc_genericCreate _ _ _ _ _ | (refine pc_ite ?_ ?_ <;> pwalk)) fun _ => ?_)
      | (with_reducible refine pc_ite ?_ ?_)
      | dsimp only
      | split)

end Verif
