import Verif.Lemmas.PureOps
/-! Every instruction that does not end the frame costs gas. -/
namespace Verif

/-- When `x` returns normally it has used some gas or stopped the frame. -/
structure Strict {α : Type} (x : M α) : Prop where
  run : ∀ m a m', x m = .ok a m' → m'.evm.gasLeft < m.evm.gasLeft ∨ m'.evm.running = false

section
variable {α β : Type}

theorem strict_bind {x : M α} {f : α → M β} (hx : Pres x) (hf : ∀ a, Strict (f a)) : Strict (x >>= f) := by
  refine ⟨fun m a m' h => ?_⟩
  rw [bind_eq] at h
  have := (hx.run m).gas
  revert this h
  match x m with
  | .ok b m1 =>
    intro h hg
    rcases (hf b).run _ _ _ h with h | h
    · exact .inl (Nat.lt_of_lt_of_le h hg)
    · exact .inr h
  | .err e m1 => intro h; cases h

theorem strict_charge {n : Nat} (hn : 0 < n) {f : Unit → M β} (hf : Pres (f ())) : Strict (chargeGas n >>= f) := by
  refine ⟨fun m a m' h => ?_⟩
  rw [bind_eq] at h
  unfold chargeGas at h
  split at h
  · rename_i heq
    split at heq
    · cases heq
    · cases heq
      have := (hf.run { m with evm := { m.evm with gasLeft := m.evm.gasLeft - n } }).gas
      rw [h] at this
      simp only [Res.mach] at this
      left; omega
  · cases h

theorem flatAccessCost_pos (f : Fork) (k : AccessKind) : 20 ≤ flatAccessCost f k := by
  cases k <;> simp only [flatAccessCost] <;> repeat' split
  all_goals decide

theorem strict_access {k : AccessKind} {a : Address} {f : Nat → M β} (hf : ∀ c, 20 ≤ c → Strict (f c)) :
    Strict (accessAddress k a >>= f) := by
  refine ⟨fun m b m' h => ?_⟩
  rw [bind_eq] at h
  unfold accessAddress at h
  simp only [bind_eq, getEvm, getState] at h
  split at h
  · rename_i c m1 heq
    have hc : 20 ≤ c ∧ m1.evm.gasLeft = m.evm.gasLeft := by
      split at heq
      · cases heq; exact ⟨flatAccessCost_pos _ _, rfl⟩
      split at heq
      · cases heq; exact ⟨by decide, rfl⟩
      · simp only [bind_eq, warmAddress] at heq; cases heq; exact ⟨by decide, rfl⟩
    have := (hf c hc.1).run _ _ _ h
    rwa [hc.2] at this
  · cases h

theorem strict_raiseHalt (h : Halt) : Strict (raiseHalt h : M α) := ⟨fun m a m' h => by cases h⟩
theorem strict_raise (h : Exn) : Strict (raise h : M α) := ⟨fun m a m' h => by cases h⟩
theorem strict_stop : Strict stopRunning := ⟨fun m a m' h => by cases h; exact .inr rfl⟩
end

macro "gaspos" : tactic => `(tactic| (first
  | decide
  | (simp only [GAS_VERY_LOW, GAS_KECCAK256, GAS_EXPONENTIATION, GAS_LOG, GAS_CREATE, GAS_SELF_DESTRUCT,
       GAS_BASE, GAS_WARM_ACCESS, GAS_COLD_SLOAD]; omega)
  | omega
  | (split <;> decide)))

macro "swalk" : tactic => `(tactic| repeat' first
  | (with_reducible apply strict_charge)
  | (with_reducible apply strict_access)
  | (with_reducible apply strict_raiseHalt)
  | (with_reducible apply strict_raise)
  | (with_reducible apply strict_stop)
  | (with_reducible apply strict_bind)
  | gaspos
  | (intro _)
  | (with_reducible (first
    | apply pres_bind
    | apply pres_pop | apply pres_push | apply pres_chargeGas | apply pres_incPc | apply pres_getEvm
    | apply pres_getState | apply pres_extendCost | apply pres_expandMemory | apply pres_u256
    | apply pres_raiseHalt | apply pres_accessAddress | apply pres_writeMemory | apply pres_setOutput
    | apply pres_pure | exact pres_raise _ (by simp) | apply pres_popN | apply pres_getTransient | apply pres_liftCrash
    | apply pres_setPc | apply pres_stopRunning | apply pres_randaoOrDifficulty
    | apply pres_setReturnData | apply pres_warmAddress | apply pres_warmSlot))
  | split
  | dsimp only)

theorem strict_opSload : Strict opSload := by
  unfold opSload
  refine strict_bind pres_pop fun key => strict_bind pres_getEvm fun evm => strict_bind pres_getState fun s => ?_
  dsimp only
  split
  · exact strict_charge (by unfold gasSload; repeat' split
                            all_goals decide) (by walk1)
  split
  · exact strict_charge (by decide) (by walk1)
  · exact strict_bind (pres_warmSlot _ _) fun _ => strict_charge (by decide) (by walk1)

theorem strict_opStop : Strict opStop := by
  refine ⟨fun m a m' h => ?_⟩
  cases h; exact .inr rfl

theorem strict_opSwap (n : Nat) : Strict (opSwap n) := strict_charge (by decide) (pres_swapTail n)

theorem strict_opDup (n : Nat) : Strict (opDup n) := by
  unfold opDup
  refine strict_charge (by decide) ?_
  walk1

theorem strict_opReturn : Strict opReturn := by
  unfold opReturn
  refine strict_bind pres_pop fun _ => strict_bind pres_pop fun _ => strict_bind (pres_extendCost _) fun _ =>
    strict_bind (pres_chargeGas _) fun _ => strict_bind (pres_expandMemory _) fun _ => strict_bind pres_getEvm fun _ =>
    strict_bind (pres_setOutput _) fun _ => strict_stop
theorem strict_opRevert : Strict opRevert := by
  unfold opRevert
  refine strict_bind pres_pop fun _ => strict_bind pres_pop fun _ => strict_bind (pres_extendCost _) fun _ =>
    strict_bind (pres_chargeGas _) fun _ => strict_bind (pres_expandMemory _) fun _ => strict_bind pres_getEvm fun _ =>
    strict_bind (pres_setOutput _) fun _ => strict_raise _

set_option maxHeartbeats 2000000 in
theorem strict_pureOp (E : Env) (pm pcm : Sub) (op : Op) (h : op.isPure = true) : Strict (opStep E pm pcm op) := by
  cases op
  case dup n => exact strict_opDup _
  case swap n => exact strict_opSwap _
  case stop => exact strict_opStop
  case sload => exact strict_opSload
  case ret => exact strict_opReturn
  case revert => exact strict_opRevert
  all_goals first
    | (cases h; done)
    | skip
  all_goals
    dsimp only [opStep]
    simp only [opAdd, opMul, opSub, opDiv, opSdiv, opMod, opSmod, opAddmod, opMulmod, opExp, opSignextend,
      opLt, opGt, opSlt, opSgt, opEq, opIszero, opAnd, opOr, opXor, opNot, opByte, opShl, opShr, opSar, opClz,
      opKeccak, opAddress, opBalance, opOrigin, opCaller, opCallvalue, opCalldataload, opCalldatasize,
      opCalldatacopy, opCodesize, opCodecopy, opGasprice, opExtcodesize, opExtcodecopy, opReturndatasize,
      opReturndatacopy, opExtcodehash, opBlockhash, opCoinbase, opTimestamp, opNumber, opPrevrandao, opGaslimit,
      opChainid, opSelfbalance, opBasefee, opBlobhash, opBlobbasefee, opPop, opMload, opMstore, opMstore8,
      opJump, opJumpi, opPc, opMsize, opGas, opJumpdest, opTload, opMcopy, opReturn, opRevert, opPush]
    swalk

end Verif
