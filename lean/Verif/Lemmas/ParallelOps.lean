import Verif.Lemmas.Parallel
import Verif.Lemmas.Precompile
/-! Instructions and precompiled contracts cannot tell alike stores apart (for C85). -/
namespace Verif

/-! ### precompiled contracts -/

theorem ext_blsOutput1 (E : Env) (x : Option (Point3D (Fq BLS_P))) : Ext (blsOutput1 E x) := by
  cases x <;> unfold blsOutput1 <;> par
theorem ext_blsOutput2 (E : Env) (x : Option (Point3D (Fq2 BLS_P))) : Ext (blsOutput2 E x) := by
  cases x <;> unfold blsOutput2 <;> par
theorem ext_pEcrecover (E : Env) : Ext (pEcrecover E) := by
  unfold pEcrecover; par
theorem ext_pSha256 (E : Env) : Ext (pSha256 E) := by
  unfold pSha256; par
theorem ext_pRipemd160 (E : Env) : Ext (pRipemd160 E) := by
  unfold pRipemd160; par
theorem ext_pIdentity : Ext pIdentity := by
  unfold pIdentity; par
theorem ext_pModexp (f : Fork) : Ext (pModexp f) := by
  unfold pModexp
  split
  · unfold pModexpOsaka; par
  · unfold pModexpOld; par
theorem ext_pBnAdd (E : Env) (f : Fork) : Ext (pBnAdd E f) := by
  unfold pBnAdd; par
theorem ext_pBnMul (E : Env) (f : Fork) : Ext (pBnMul E f) := by
  unfold pBnMul; par
theorem ext_pBnPairing (E : Env) (f : Fork) : Ext (pBnPairing E f) := by
  unfold pBnPairing; par
theorem ext_pBlake2f : Ext pBlake2f := by
  unfold pBlake2f; par
theorem ext_pPointEvaluation (E : Env) : Ext (pPointEvaluation E) := by
  unfold pPointEvaluation; par
theorem ext_pBlsG1Add (E : Env) : Ext (pBlsG1Add E) := by
  unfold pBlsG1Add
  refine ext_bind ext_getEvm fun _ => ?_
  dsimp only
  split
  · exact ext_raiseHalt _
  · exact ext_bind (ext_chargeGas _) fun _ => by first | exact ext_blsOutput1 _ _ | exact ext_blsOutput2 _ _
theorem ext_pBlsG1Msm (E : Env) : Ext (pBlsG1Msm E) := by
  unfold pBlsG1Msm
  refine ext_bind ext_getEvm fun _ => ?_
  dsimp only
  split
  · exact ext_raiseHalt _
  · exact ext_bind (ext_chargeGas _) fun _ => by first | exact ext_blsOutput1 _ _ | exact ext_blsOutput2 _ _
theorem ext_pBlsG2Add (E : Env) : Ext (pBlsG2Add E) := by
  unfold pBlsG2Add
  refine ext_bind ext_getEvm fun _ => ?_
  dsimp only
  split
  · exact ext_raiseHalt _
  · exact ext_bind (ext_chargeGas _) fun _ => by first | exact ext_blsOutput1 _ _ | exact ext_blsOutput2 _ _
theorem ext_pBlsG2Msm (E : Env) : Ext (pBlsG2Msm E) := by
  unfold pBlsG2Msm
  refine ext_bind ext_getEvm fun _ => ?_
  dsimp only
  split
  · exact ext_raiseHalt _
  · exact ext_bind (ext_chargeGas _) fun _ => by first | exact ext_blsOutput1 _ _ | exact ext_blsOutput2 _ _
theorem ext_pBlsPairing (E : Env) : Ext (pBlsPairing E) := by
  unfold pBlsPairing; par
theorem ext_pBlsMapFpToG1 (E : Env) : Ext (pBlsMapFpToG1 E) := by
  unfold pBlsMapFpToG1
  refine ext_bind ext_getEvm fun _ => ?_
  dsimp only
  split
  · exact ext_raiseHalt _
  · exact ext_bind (ext_chargeGas _) fun _ => by first | exact ext_blsOutput1 _ _ | exact ext_blsOutput2 _ _
theorem ext_pBlsMapFp2ToG2 (E : Env) : Ext (pBlsMapFp2ToG2 E) := by
  unfold pBlsMapFp2ToG2
  refine ext_bind ext_getEvm fun _ => ?_
  dsimp only
  split
  · exact ext_raiseHalt _
  · exact ext_bind (ext_chargeGas _) fun _ => by first | exact ext_blsOutput1 _ _ | exact ext_blsOutput2 _ _
theorem ext_pP256verify (E : Env) : Ext (pP256verify E) := by
  unfold pP256verify; par

theorem ext_precompile (E : Env) (f : Fork) (a : Address) (p : M Unit) (h : precompile E f a = some p) : Ext p := by
  replace h := (precompileFn_of h).2
  unfold precompileFn at h
  by_cases h1 : a = 1
  · rw [if_pos h1] at h; cases h; exact ext_pEcrecover E
  rw [if_neg h1] at h; clear h1
  by_cases h1 : a = 2
  · rw [if_pos h1] at h; cases h; exact ext_pSha256 E
  rw [if_neg h1] at h; clear h1
  by_cases h1 : a = 3
  · rw [if_pos h1] at h; cases h; exact ext_pRipemd160 E
  rw [if_neg h1] at h; clear h1
  by_cases h1 : a = 4
  · rw [if_pos h1] at h; cases h; exact ext_pIdentity
  rw [if_neg h1] at h; clear h1
  by_cases h1 : a = 5
  · rw [if_pos h1] at h; cases h; exact ext_pModexp f
  rw [if_neg h1] at h; clear h1
  by_cases h1 : a = 6
  · rw [if_pos h1] at h; cases h; exact ext_pBnAdd E f
  rw [if_neg h1] at h; clear h1
  by_cases h1 : a = 7
  · rw [if_pos h1] at h; cases h; exact ext_pBnMul E f
  rw [if_neg h1] at h; clear h1
  by_cases h1 : a = 8
  · rw [if_pos h1] at h; cases h; exact ext_pBnPairing E f
  rw [if_neg h1] at h; clear h1
  by_cases h1 : a = 9
  · rw [if_pos h1] at h; cases h; exact ext_pBlake2f
  rw [if_neg h1] at h; clear h1
  by_cases h1 : a = 0x0a
  · rw [if_pos h1] at h; cases h; exact ext_pPointEvaluation E
  rw [if_neg h1] at h; clear h1
  by_cases h1 : a = 0x0b
  · rw [if_pos h1] at h; cases h; exact ext_pBlsG1Add E
  rw [if_neg h1] at h; clear h1
  by_cases h1 : a = 0x0c
  · rw [if_pos h1] at h; cases h; exact ext_pBlsG1Msm E
  rw [if_neg h1] at h; clear h1
  by_cases h1 : a = 0x0d
  · rw [if_pos h1] at h; cases h; exact ext_pBlsG2Add E
  rw [if_neg h1] at h; clear h1
  by_cases h1 : a = 0x0e
  · rw [if_pos h1] at h; cases h; exact ext_pBlsG2Msm E
  rw [if_neg h1] at h; clear h1
  by_cases h1 : a = 0x0f
  · rw [if_pos h1] at h; cases h; exact ext_pBlsPairing E
  rw [if_neg h1] at h; clear h1
  by_cases h1 : a = 0x10
  · rw [if_pos h1] at h; cases h; exact ext_pBlsMapFpToG1 E
  rw [if_neg h1] at h; clear h1
  by_cases h1 : a = 0x11
  · rw [if_pos h1] at h; cases h; exact ext_pBlsMapFp2ToG2 E
  rw [if_neg h1] at h; clear h1
  by_cases h1 : a = 0x100
  · rw [if_pos h1] at h; cases h; exact ext_pP256verify E
  rw [if_neg h1] at h; clear h1
  cases h


/-! ### instructions -/

theorem ext_randaoOrDifficulty (E : Env) : Ext (randaoOrDifficulty E) := by
  intro m m' hm
  unfold randaoOrDifficulty
  rw [hm.world.state.fork]
  split
  · exact ⟨rfl, hm⟩
  · exact ext_u256 _ m m' hm

theorem ext_opTload : Ext opTload := by
  unfold opTload
  refine ext_bind ext_pop fun _ => ext_bind (ext_chargeGas _) fun _ => ext_bind ext_getEvm fun _ => transient_bind fun t t' ht => ?_
  rw [ht.read]
  par

theorem ext_opTstore : Ext opTstore := by
  unfold opTstore
  refine ext_bind ext_pop fun _ => ext_bind ext_pop fun _ => ext_bind (ext_chargeGas _) fun _ => ext_bind ext_getEvm fun _ => ?_
  split
  · par
  · refine transient_bind fun t t' ht => par_bind (par_setTransient (ht.set _ _ _)) fun _ _ _ => ?_
    par

set_option maxHeartbeats 2000000 in
theorem ext_simpleOp (E : Env) (pm pcm : Sub) (op : Op) (h : op.isPure = true) : Ext (opStep E pm pcm op) := by
  have hrandao := ext_randaoOrDifficulty E
  have h1 := ext_extendCost
  have h2 := ext_accessAddress
  cases op
  case tload => exact ext_opTload
  all_goals first
    | (cases h; done)
    | skip
  all_goals
    dsimp only [opStep]
    simp only [opStop, opAdd, opMul, opSub, opDiv, opSdiv, opMod, opSmod, opAddmod, opMulmod, opExp, opSignextend,
      opLt, opGt, opSlt, opSgt, opEq, opIszero, opAnd, opOr, opXor, opNot, opByte, opShl, opShr, opSar, opClz,
      opKeccak, opAddress, opBalance, opOrigin, opCaller, opCallvalue, opCalldataload, opCalldatasize,
      opCalldatacopy, opCodesize, opCodecopy, opGasprice, opExtcodesize, opExtcodecopy, opReturndatasize,
      opReturndatacopy, opExtcodehash, opBlockhash, opCoinbase, opTimestamp, opNumber, opPrevrandao, opGaslimit,
      opChainid, opSelfbalance, opBasefee, opBlobhash, opBlobbasefee, opPop, opMload, opMstore, opMstore8, opSload,
      opJump, opJumpi, opPc, opMsize, opGas, opJumpdest, opMcopy, opReturn, opRevert, opPush, opDup, opSwap]
    repeat' first
      | with_reducible exact ext_extendCost _
      | with_reducible exact ext_accessAddress _ _
      | par1
      | (with_reducible refine state_bind fun s s' hs => ?_; parread hs)
      | with_reducible refine ext_bind ?_ fun _ => ?_
      | split
      | dsimp only

theorem ext_opLog (n : Nat) : Ext (opLog n) := by
  unfold opLog
  have h := ext_popN n
  repeat' first
    | with_reducible exact ext_extendCost _
    | par1
    | with_reducible refine ext_bind ?_ fun _ => ?_
    | split
    | dsimp only

theorem SSim.sstoreOriginal {s s' : State} (h : SSim s s') : sstoreOriginal s = Verif.sstoreOriginal s' := by
  funext a k; unfold Verif.sstoreOriginal; rw [h.fork, h.original]

theorem ext_opSstore : Ext opSstore := by
  unfold opSstore
  refine ext_bind ext_pop fun _ => ext_bind ext_pop fun _ => ext_bind ext_getEvm fun _ => state_bind fun s s' hs => ?_
  rw [hs.sstoreOriginal, hs.fork, hs.slot]
  split
  · par
  · repeat' first
      | with_reducible refine crash_bind (hs.setStorage _ _ _) fun t t' ht => par_bind (par_setState ht) fun _ _ _ => ?_
      | par1
      | with_reducible refine ext_bind ?_ fun _ => ?_
      | split
      | dsimp only

theorem SSim.selfdestruct {s s' : State} (h : SSim s s') (o b : Address) :
    ESim SSim (selfdestructState s o b) (selfdestructState s' o b) := by
  unfold selfdestructState
  rw [h.fork, h.account]
  split
  · have h1 := h.moveEther o b (getAccount s' o).balance
    revert h1
    cases Verif.moveEther s o b (getAccount s' o).balance <;> cases Verif.moveEther s' o b (getAccount s' o).balance <;> intro h1
    · exact h1
    · cases h1
    · cases h1
    · rename_i t t'
      have h2 : SSim t t' := h1
      show SSim _ _
      rw [h2.created]
      split
      · exact h2.setBalance o 0
      · exact h2
  · cases checkedAdd (getAccount s' b).balance (getAccount s' o).balance with
    | error c => exact rfl
    | ok v => exact (h.setBalance b v).setBalance o 0

theorem ext_opSelfdestruct : Ext opSelfdestruct := by
  unfold opSelfdestruct
  refine ext_bind ext_pop fun b => ext_bind ext_getEvm fun evm => state_bind fun s s' hs => ?_
  have e1 : ∀ x y, selfdestructNewCost s x y = selfdestructNewCost s' x y := by
    intro x y; unfold selfdestructNewCost; rw [hs.fork, hs.alive, hs.account, hs.exists_]
  have e2 : ∀ x, selfdestructDeletes s x = selfdestructDeletes s' x := by
    intro x; unfold selfdestructDeletes; rw [hs.fork, hs.created]
  simp only [e1, e2, hs.fork]
  repeat' first
    | with_reducible refine crash_bind (hs.selfdestruct _ _) fun t t' ht => par_bind (par_setState ht) fun _ _ _ => ?_
    | par1
    | with_reducible refine ext_bind ?_ fun _ => ?_
    | split
    | dsimp only

theorem ext_accessDelegation (a : Address) : Ext (accessDelegation a) := by
  unfold accessDelegation
  refine state_bind fun s s' hs => ?_
  have e : delegates s a = delegates s' a := by unfold delegates; rw [hs.fork, hs.account]
  simp only [e, hs.account]
  split
  · exact ext_bind (ext_accessAddress _ _) fun _ => ext_pure _
  · exact ext_pure _

theorem ext_genericCreate {pcm : Sub} (h : SubExt pcm) (v : Word) (a : Address) (x y : Word) : Ext (genericCreate pcm v a x y) := by
  unfold genericCreate
  refine ext_bind ext_getEvm fun evm => state_bind fun s s' hs => ?_
  simp only [hs.fork]
  split
  · par
  · refine ext_bind (ext_chargeGas _) fun _ => ?_
    split
    · par
    · refine ext_bind (ext_setReturnData _) fun _ => state_bind fun t t' ht => ?_
      simp only [ht.account, ht.codeOrNonce, ht.hasStorage]
      split
      · par
      · refine ext_bind (ext_warmAddress _) fun _ => ?_
        split
        · refine par_bind (par_setState (ht.incrementNonce _)) fun _ _ _ => ?_
          par
        · refine par_bind (par_setState (ht.incrementNonce _)) fun _ _ _ => ?_
          refine ext_bind ext_getEvm fun evm' => ext_bind (ext_runSub h _) fun child => ?_
          par

theorem ext_genericCall {pm : Sub} (h : SubExt pm) (a : CallArgs) : Ext (genericCall pm a) := by
  unfold genericCall
  refine ext_bind (ext_setReturnData _) fun _ => ext_bind ext_getEvm fun evm => ?_
  split
  · par
  · refine ext_bind (ext_runSub h _) fun child => ?_
    par

/-- The walk through the instructions that call and create. -/
macro "parcall" : tactic => `(tactic| repeat' first
  | with_reducible exact ext_extendCost _
  | with_reducible exact ext_accessAddress _ _
  | with_reducible exact ext_accessDelegation _
  | with_reducible exact ext_genericCall (by assumption) _
  | with_reducible exact ext_genericCreate (by assumption) _ _ _ _
  | par1
  | (with_reducible refine state_bind fun s s' hs => ?_; parread hs)
  | with_reducible refine ext_bind ?_ fun _ => ?_
  | split
  | dsimp only)

theorem SSim.callCost {s s' : State} (h : SSim s s') : callCreateCost s = callCreateCost s' := by
  funext a v; unfold callCreateCost; rw [h.fork, h.alive, h.exists_]
theorem SSim.callcodeCost {s s' : State} (h : SSim s s') : callcodeCreateCost s = callcodeCreateCost s' := by
  funext a; unfold callcodeCreateCost; rw [h.fork, h.exists_]

theorem ext_opCreate (E : Env) {pcm : Sub} (h : SubExt pcm) : Ext (opCreate E pcm) := by unfold opCreate; parcall
theorem ext_opCreate2 (E : Env) {pcm : Sub} (h : SubExt pcm) : Ext (opCreate2 E pcm) := by unfold opCreate2; parcall
theorem ext_opDelegatecall {pm : Sub} (h : SubExt pm) : Ext (opDelegatecall pm) := by unfold opDelegatecall; parcall
theorem ext_opStaticcall {pm : Sub} (h : SubExt pm) : Ext (opStaticcall pm) := by unfold opStaticcall; parcall
theorem ext_opCall {pm : Sub} (h : SubExt pm) : Ext (opCall pm) := by
  unfold opCall
  repeat' first
    | with_reducible exact ext_extendCost _
    | with_reducible exact ext_accessAddress _ _
    | with_reducible exact ext_accessDelegation _
    | with_reducible exact ext_genericCall (by assumption) _
    | par1
    | (with_reducible refine state_bind fun s s' hs => ?_; simp only [hs.callCost, hs.fork, hs.account])
    | with_reducible refine ext_bind ?_ fun _ => ?_
    | split
    | dsimp only
theorem ext_opCallcode {pm : Sub} (h : SubExt pm) : Ext (opCallcode pm) := by
  unfold opCallcode
  repeat' first
    | with_reducible exact ext_extendCost _
    | with_reducible exact ext_accessAddress _ _
    | with_reducible exact ext_accessDelegation _
    | with_reducible exact ext_genericCall (by assumption) _
    | par1
    | (with_reducible refine state_bind fun s s' hs => ?_; simp only [hs.callcodeCost, hs.fork, hs.account])
    | with_reducible refine ext_bind ?_ fun _ => ?_
    | split
    | dsimp only

/-- **Every instruction.** -/
theorem ext_opStep (E : Env) {pm pcm : Sub} (h : SubExt pm) (h' : SubExt pcm) (op : Op) : Ext (opStep E pm pcm op) := by
  by_cases hp : op.isPure = true
  · exact ext_simpleOp E pm pcm op hp
  · cases op
    case sstore => exact ext_opSstore
    case tstore => exact ext_opTstore
    case log n => exact ext_opLog _
    case create => exact ext_opCreate E h'
    case create2 => exact ext_opCreate2 E h'
    case call => exact ext_opCall h
    case callcode => exact ext_opCallcode h
    case delegatecall => exact ext_opDelegatecall h
    case staticcall => exact ext_opStaticcall h
    case selfdestruct => exact ext_opSelfdestruct
    all_goals exact absurd rfl hp

/-! ### frames and messages -/

theorem catchFrame_sim {x y : Res Unit} (h : RSim Eq x y) :
    OSim (catchFrame x) (catchFrame y) := by
  cases x with
  | ok a m =>
    cases y with
    | ok b m' => exact ⟨h.2.evm, h.2.world⟩
    | err e m' => cases h
  | err e m =>
    cases y with
    | ok b m' => cases h
    | err e' m' =>
      obtain ⟨rfl, hm⟩ := h
      cases e with
      | halt x =>
        refine ⟨?_, hm.world⟩
        rw [hm.evm, hm.world.state.fork]
      | revert =>
        refine ⟨?_, hm.world⟩
        rw [hm.evm]
      | crash c => exact ⟨rfl, hm.world⟩
      | outOfFuel => exact ⟨rfl, hm.world⟩

/-- A main loop that cannot tell alike stores apart. -/
def LoopExt (loop : Loop) : Prop := ∀ m m', MSim m m' → RSim Eq (loop m) (loop m')

theorem executeCode_ext (E : Env) {loop : Loop} (h : LoopExt loop) : SubExt (executeCode E loop) := by
  intro msg w w' hw
  unfold executeCode
  rw [hw.state.fork]
  match hp : precompileOf E w'.state.fork msg with
  | none => exact catchFrame_sim (h _ _ ⟨rfl, hw⟩)
  | some p =>
    dsimp only
    split
    · exact ⟨rfl, hw⟩
    · unfold precompileOf at hp
      split at hp
      · cases hp
      · exact catchFrame_sim (ext_precompile _ _ _ _ hp _ _ ⟨rfl, hw⟩)

theorem finish_sim {z z' : Except Crash World} (e : Evm) {v v' : World} : ESim WSim z z' → WSim v v' →
    OSim (match z with | .error c => .error (.crash c, v) | .ok w3 => .ok (e, w3))
      (match z' with | .error c => .error (.crash c, v') | .ok w3 => .ok (e, w3)) := by
  intro hy hv
  cases z with
  | error c =>
    cases z' with
    | error c' => exact ⟨congrArg Exn.crash hy, hv⟩
    | ok a => cases hy
  | ok a =>
    cases z' with
    | error c' => cases hy
    | ok b => exact ⟨rfl, hy⟩

theorem processMessage_ext (E : Env) {loop : Loop} (h : LoopExt loop) : SubExt (processMessage E loop) := by
  intro msg w w' hw
  unfold processMessage
  split
  · exact ⟨rfl, hw⟩
  · have hb := hw.begin
    have ht := hb.state.touchIn msg.currentTarget
    have hx : ESim SSim (if msg.shouldTransferValue = true ∧ msg.value ≠ 0
           then moveEther (touchIn (beginTransaction w).state msg.currentTarget) msg.caller msg.currentTarget msg.value
           else .ok (touchIn (beginTransaction w).state msg.currentTarget))
        (if msg.shouldTransferValue = true ∧ msg.value ≠ 0
           then moveEther (touchIn (beginTransaction w').state msg.currentTarget) msg.caller msg.currentTarget msg.value
           else .ok (touchIn (beginTransaction w').state msg.currentTarget)) := by
      split
      · exact ht.moveEther _ _ _
      · exact ht
    dsimp only
    revert hx
    generalize (if msg.shouldTransferValue = true ∧ msg.value ≠ 0
           then moveEther (touchIn (beginTransaction w).state msg.currentTarget) msg.caller msg.currentTarget msg.value
           else .ok (touchIn (beginTransaction w).state msg.currentTarget)) = x
    generalize (if msg.shouldTransferValue = true ∧ msg.value ≠ 0
           then moveEther (touchIn (beginTransaction w').state msg.currentTarget) msg.caller msg.currentTarget msg.value
           else .ok (touchIn (beginTransaction w').state msg.currentTarget)) = x'
    intro hx
    cases x with
    | error c =>
      cases x' with
      | error c' => cases hx; exact ⟨rfl, ⟨ht, hb.transient⟩⟩
      | ok s => cases hx
    | ok s =>
      cases x' with
      | error c' => cases hx
      | ok s' =>
        have hs : SSim s s' := hx
        have he := executeCode_ext E h msg { beginTransaction w with state := s } { beginTransaction w' with state := s' } ⟨hs, hb.transient⟩
        dsimp only
        revert he
        rcases executeCode E loop msg { beginTransaction w with state := s } with ⟨e, v⟩ | ⟨e, v⟩ <;>
          rcases executeCode E loop msg { beginTransaction w' with state := s' } with ⟨e', v'⟩ | ⟨e', v'⟩ <;> intro he
        · exact he
        · cases he
        · cases he
        · obtain ⟨rfl, hv⟩ := he
          dsimp only
          have hy : ESim WSim (if e.error.isSome = true then rollbackTransaction v else commitTransaction v)
              (if e.error.isSome = true then rollbackTransaction v' else commitTransaction v') := by
            split
            · exact hv.rollback
            · exact hv.commit
          revert hy
          generalize (if e.error.isSome = true then rollbackTransaction v else commitTransaction v) = z
          generalize (if e.error.isSome = true then rollbackTransaction v' else commitTransaction v') = z'
          intro hy
          exact finish_sim e hy hv

theorem createStart_sim {w w' : World} (h : WSim w w') (t : Address) : WSim (createStart w t) (createStart w' t) := by
  have h1 := (h.begin.state.destroyStorage t).markCreated t
  refine ⟨?_, h.begin.transient⟩
  show SSim (startNonce _ t) (startNonce _ t)
  unfold startNonce
  rw [h1.fork]
  split
  · exact h1.incrementNonce t
  · exact h1

theorem processCreateMessage_ext (E : Env) {loop : Loop} (h : LoopExt loop) : SubExt (processCreateMessage E loop) := by
  intro msg w w' hw
  have hp := processMessage_ext E h msg _ _ (createStart_sim hw msg.currentTarget)
  unfold processCreateMessage
  revert hp
  rcases processMessage E loop msg (createStart w msg.currentTarget) with ⟨e, v⟩ | ⟨e, v⟩ <;>
    rcases processMessage E loop msg (createStart w' msg.currentTarget) with ⟨e', v'⟩ | ⟨e', v'⟩ <;> intro hp
  · exact hp
  · cases hp
  · cases hp
  · obtain ⟨rfl, hv⟩ := hp
    dsimp only
    split
    · exact finish_sim e hv.rollback hv
    · rw [hv.state.fork]
      split
      · split
        · exact finish_sim _ hv.rollback hv
        · exact finish_sim _ hv.commit hv
      · have hs : WSim { v with state := setCode v.state msg.currentTarget e.output } { v' with state := setCode v'.state msg.currentTarget e.output } :=
          ⟨hv.state.setCode _ _, hv.transient⟩
        exact finish_sim _ hs.commit hs

theorem loopBody_ext (E : Env) {f : Loop} (h : LoopExt f) : LoopExt (loopBody E f) := by
  intro m m' hm
  unfold loopBody
  rw [hm.evm, hm.world.state.fork]
  split
  · split
    · exact ⟨rfl, hm⟩
    · split
      · exact ⟨rfl, hm⟩
      · rename_i op _
        have hs := ext_opStep E (processMessage_ext E h) (processCreateMessage_ext E h) op m m' hm
        revert hs
        cases opStep E (processMessage E f) (processCreateMessage E f) op m <;>
          cases opStep E (processMessage E f) (processCreateMessage E f) op m' <;> intro hs
        · exact h _ _ hs.2
        · cases hs
        · cases hs
        · exact hs
  · exact ⟨rfl, hm⟩

theorem run_ext (E : Env) (n : Nat) : LoopExt (run E n) := by
  induction n with
  | zero => exact fun m m' hm => ⟨rfl, hm⟩
  | succ n ih => exact loopBody_ext E ih

theorem exec_ext (E : Env) : LoopExt (exec E) := by
  intro m m' hm
  unfold exec
  rw [hm.evm]
  exact run_ext E _ m m' hm

theorem delegationStep_sim (E : Env) {s s' : State} (h : SSim s s') (l : List Address) (r : Nat) (auth : Authorization) :
    SSim (delegationStep E ⟨s, l, r⟩ auth).state (delegationStep E ⟨s', l, r⟩ auth).state ∧
    (delegationStep E ⟨s, l, r⟩ auth).accessed = (delegationStep E ⟨s', l, r⟩ auth).accessed ∧
    (delegationStep E ⟨s, l, r⟩ auth).refund = (delegationStep E ⟨s', l, r⟩ auth).refund := by
  unfold delegationStep
  simp only [h.account, h.exists_]
  repeat' split
  all_goals first
    | exact ⟨h, rfl, rfl⟩
    | exact ⟨(h.setCode _ _).incrementNonce _, rfl, rfl⟩

theorem delegationFold_sim (E : Env) (auths : List Authorization) {s s' : State} (h : SSim s s') (l : List Address) (r : Nat) :
    SSim (auths.foldl (delegationStep E) ⟨s, l, r⟩).state (auths.foldl (delegationStep E) ⟨s', l, r⟩).state ∧
    (auths.foldl (delegationStep E) ⟨s, l, r⟩).accessed = (auths.foldl (delegationStep E) ⟨s', l, r⟩).accessed ∧
    (auths.foldl (delegationStep E) ⟨s, l, r⟩).refund = (auths.foldl (delegationStep E) ⟨s', l, r⟩).refund := by
  induction auths generalizing s s' l r with
  | nil => exact ⟨h, rfl, rfl⟩
  | cons a as ih =>
    obtain ⟨h1, h2, h3⟩ := delegationStep_sim E h l r a
    rw [List.foldl_cons, List.foldl_cons]
    revert h1 h2 h3
    generalize delegationStep E ⟨s, l, r⟩ a = x, delegationStep E ⟨s', l, r⟩ a = y
    obtain ⟨x1, x2, x3⟩ := x
    obtain ⟨y1, y2, y3⟩ := y
    rintro h1 rfl rfl
    exact ih h1 _ _

theorem setDelegation_sim (E : Env) (msg : Message) {s s' : State} (h : SSim s s') :
    ESim (fun x y => x.1 = y.1 ∧ x.2.1 = y.2.1 ∧ SSim x.2.2 y.2.2) (setDelegation E msg s) (setDelegation E msg s') := by
  obtain ⟨h1, h2, h3⟩ := delegationFold_sim E E.tx.authorizations h msg.accessedAddresses 0
  unfold setDelegation
  simp only [h2, h3, h1.account]
  split
  · exact rfl
  · split
    · exact rfl
    · exact ⟨rfl, rfl, h1⟩

theorem resolveDelegation_sim (msg : Message) {s s' : State} (h : SSim s s') : resolveDelegation msg s = resolveDelegation msg s' := by
  unfold resolveDelegation
  rw [h.fork, h.account]

/-- **Messages from outside.** -/
theorem processMessageCall_ext (E : Env) (msg : Message) {w w' : World} (hw : WSim w w') :
    OSim (processMessageCall E msg w) (processMessageCall E msg w') := by
  unfold processMessageCall processMessageCallWith
  rw [hw.state.codeOrNonce, hw.state.hasStorage, hw.state.fork]
  split
  · split
    · exact ⟨rfl, hw⟩
    · have hp := processCreateMessage_ext E (exec_ext E) msg w w' hw
      revert hp
      rcases processCreateMessage E (exec E) msg w with ⟨e, v⟩ | ⟨e, v⟩ <;>
        rcases processCreateMessage E (exec E) msg w' with ⟨e', v'⟩ | ⟨e', v'⟩ <;> intro hp
      · exact hp
      · cases hp
      · cases hp
      · obtain ⟨rfl, hv⟩ := hp
        dsimp only
        split
        · exact ⟨rfl, hv⟩
        · exact ⟨rfl, hv⟩
  · rename_i target _
    have hd : ESim (fun x y => x.1 = y.1 ∧ x.2.1 = y.2.1 ∧ SSim x.2.2 y.2.2)
        (if w'.state.fork.since .prague = true ∧ E.tx.authorizations ≠ [] then setDelegation E msg w.state else .ok (0, msg, w.state))
        (if w'.state.fork.since .prague = true ∧ E.tx.authorizations ≠ [] then setDelegation E msg w'.state else .ok (0, msg, w'.state)) := by
      split
      · exact setDelegation_sim E msg hw.state
      · exact ⟨rfl, rfl, hw.state⟩
    revert hd
    generalize (if w'.state.fork.since .prague = true ∧ E.tx.authorizations ≠ [] then setDelegation E msg w.state else .ok (0, msg, w.state)) = x
    generalize (if w'.state.fork.since .prague = true ∧ E.tx.authorizations ≠ [] then setDelegation E msg w'.state else .ok (0, msg, w'.state)) = x'
    intro hd
    rcases x with c | ⟨r, m1, s1⟩ <;> rcases x' with c' | ⟨r', m1', s1'⟩
    · exact ⟨congrArg Exn.crash hd, hw⟩
    · cases hd
    · cases hd
    · obtain ⟨e1, e2, hs⟩ := hd
      dsimp only at e1 e2 hs ⊢
      subst e1 e2
      rw [resolveDelegation_sim m1 hs]
      have hp := processMessage_ext E (exec_ext E) (resolveDelegation m1 s1') { w with state := s1 } { w' with state := s1' } ⟨hs, hw.transient⟩
      revert hp
      rcases processMessage E (exec E) (resolveDelegation m1 s1') { w with state := s1 } with ⟨e, v⟩ | ⟨e, v⟩ <;>
        rcases processMessage E (exec E) (resolveDelegation m1 s1') { w' with state := s1' } with ⟨e', v'⟩ | ⟨e', v'⟩ <;> intro hp
      · exact hp
      · cases hp
      · cases hp
      · obtain ⟨rfl, hv⟩ := hp
        dsimp only
        have ht : touchTarget v.state target e = touchTarget v'.state target e := by unfold touchTarget; rw [hv.state.touchedIf]
        rw [ht]
        split
        · exact ⟨rfl, hv⟩
        · exact ⟨rfl, hv⟩

end Verif
