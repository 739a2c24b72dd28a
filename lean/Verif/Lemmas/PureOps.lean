import Verif.Lemmas.Frame
/-! `Loc` for the instructions without outside effects. -/
namespace Verif

macro "walk1" : tactic => `(tactic| repeat' first
  | with_reducible (first
    | apply pres_bind
    | apply pres_pop | apply pres_push | apply pres_chargeGas | apply pres_incPc | apply pres_getEvm
    | apply pres_getState | apply pres_extendCost | apply pres_expandMemory | apply pres_u256
    | apply pres_raiseHalt | apply pres_accessAddress | apply pres_writeMemory | apply pres_setOutput
    | apply pres_pure | exact pres_raise _ (by simp) | apply pres_popN | apply pres_getTransient | apply pres_liftCrash
    | apply pres_setPc | apply pres_stopRunning
    | apply pres_setReturnData | apply pres_warmAddress | apply pres_warmSlot
    | assumption)
  | intro _
  | split
  | dsimp only)

/-- Opcodes that act only on their own frame. -/
def Op.isPure : Op → Bool
  | .sstore | .tstore | .log _ | .selfdestruct | .create | .create2 | .call | .callcode | .delegatecall
  | .staticcall => false
  | _ => true

theorem pres_opDup (n : Nat) : Pres (opDup n) := by unfold opDup; walk1
theorem pres_setStack_set (l : List Word) (n : Nat) (a b : Word) (m : Mach) (hm : m.evm.stack = l) :
    Loc m (setStack ((l.set 0 b).set n a) m).mach :=
  ⟨rfl, rfl, rfl, rfl, rfl, rfl, rfl, rfl, rfl, Nat.le_refl _, fun _ h => h, fun _ h => h, by simp [Res.mach, setStack, hm]⟩
theorem pres_swapTail (n : Nat) : Pres (getEvm >>= fun evm =>
    match evm.stack[0]?, evm.stack[n]? with
    | some a, some b => do
      setStack ((evm.stack.set 0 b).set n a)
      incPc 1
    | _, _ => raiseHalt .stackUnderflow) := by
  refine ⟨fun m => ?_, fun m e m' h => ?_⟩
  · simp only [bind_eq, getEvm]
    match m.evm.stack[0]?, m.evm.stack[n]? with
    | some a, some b =>
      exact (pres_setStack_set _ n a b m rfl).trans ((pres_incPc 1).run _)
    | some _, none => exact Loc.refl m
    | none, _ => exact Loc.refl m
  · simp only [bind_eq, getEvm] at h
    revert h
    match m.evm.stack[0]?, m.evm.stack[n]? with
    | some a, some b => intro h; cases h
    | some _, none => intro h; cases h; simp
    | none, _ => intro h; cases h; simp
theorem pres_opSwap (n : Nat) : Pres (opSwap n) := pres_bind (pres_chargeGas _) fun _ => pres_swapTail n

theorem pres_randaoOrDifficulty (E : Env) : Pres (randaoOrDifficulty E) := by
  refine ⟨fun m => ?_, fun m e m' h => ?_⟩
  · unfold randaoOrDifficulty
    split
    · exact Loc.refl m
    · exact (pres_u256 _).run m
  · unfold randaoOrDifficulty at h
    split at h
    · cases h
    · exact (pres_u256 _).fuel _ _ _ h

set_option maxHeartbeats 2000000 in
theorem pres_pureOp (E : Env) (pm pcm : Sub) (op : Op) (h : op.isPure = true) : Pres (opStep E pm pcm op) := by
  have hrandao := pres_randaoOrDifficulty E
  cases op
  case dup n => exact pres_opDup _
  case swap n => exact pres_opSwap _
  all_goals first
    | (cases h; done)
    | skip
  all_goals
    dsimp only [opStep]
    simp only [opStop, opAdd, opMul, opSub, opDiv, opSdiv, opMod, opSmod, opAddmod, opMulmod, opExp, opSignextend,
      opLt, opGt, opSlt, opSgt, opEq, opIszero, opAnd, opOr, opXor, opNot, opByte, opShl, opShr, opSar, opClz,
      opKeccak, opAddress, opBalance, opOrigin, opCaller, opCallvalue, opCalldataload, opCalldatasize,
      opCalldatacopy, opCodesize, opCodecopy, opGasprice, opExtcodesize, opExtcodecopy, opReturndatasize,
      opReturndatacopy, opExtcodehash, opBlockhash, opCoinbase, opTimestamp, opNumber, opPrevrandao, opGaslimit,
      opChainid, opSelfbalance, opBasefee, opBlobhash, opBlobbasefee, opPop, opMload, opMstore, opMstore8, opSload,
      opJump, opJumpi, opPc, opMsize, opGas, opJumpdest, opTload, opMcopy, opReturn, opRevert, opPush]
    walk1

end Verif
