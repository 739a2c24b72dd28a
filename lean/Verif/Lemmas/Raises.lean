import Verif.Lemmas.Monitor
/-! REVERT is the only instruction that raises a revert, and how a frame comes to its end. -/
namespace Verif
open Spec
section
variable {α β : Type}

/-- Never raises a revert. -/
def NR (x : M α) : Prop := ∀ m m', x m ≠ .err .revert m'

theorem nr_bind {x : M α} {f : α → M β} (hx : NR x) (hf : ∀ a, NR (f a)) : NR (x >>= f) := by
  intro m m' h
  rw [bind_eq] at h
  match hxm : x m with
  | .ok a m1 => rw [hxm] at h; exact hf a _ _ h
  | .err e m1 => rw [hxm] at h; cases h; exact hx _ _ hxm
theorem nr_ite {c : Prop} [Decidable c] {x y : M α} (h : NR x) (h' : NR y) : NR (if c then x else y) := by
  split <;> assumption
theorem nr_raiseHalt (e : Halt) : NR (raiseHalt e : M α) := by intro m m' h; cases h
theorem nr_pop : NR pop := by intro m m' h; unfold pop at h; split at h <;> cases h
theorem nr_push (w : Word) : NR (push w) := by intro m m' h; unfold push at h; split at h <;> cases h
theorem nr_pure (a : α) : NR (pure a : M α) := by intro m m' h; cases h
theorem nr_getEvm : NR getEvm := by intro m m' h; cases h
theorem nr_getState : NR getState := by intro m m' h; cases h
theorem nr_getTransient : NR getTransient := by intro m m' h; cases h
theorem nr_liftCrash (x : Except Crash α) : NR (liftCrash x) := by intro m m' h; unfold liftCrash at h; split at h <;> cases h
theorem nr_u256 (n : Nat) : NR (u256 n) := by intro m m' h; unfold u256 at h; split at h <;> cases h
theorem nr_chargeGas (n : Nat) : NR (chargeGas n) := by intro m m' h; unfold chargeGas at h; split at h <;> cases h
theorem nr_incPc (n : Nat) : NR (incPc n) := by intro m m' h; cases h
theorem nr_setPc (n : Nat) : NR (setPc n) := by intro m m' h; cases h
theorem nr_stopRunning : NR stopRunning := by intro m m' h; cases h
theorem nr_setOutput (b : Bytes) : NR (setOutput b) := by intro m m' h; cases h
theorem nr_setReturnData (b : Bytes) : NR (setReturnData b) := by intro m m' h; cases h
theorem nr_addGas (n : Nat) : NR (addGas n) := by intro m m' h; cases h
theorem nr_expandMemory (n : Nat) : NR (expandMemory n) := by intro m m' h; cases h
theorem nr_writeMemory (n : Nat) (v : Bytes) : NR (writeMemory n v) := by intro m m' h; cases h
theorem nr_setStack (s : List Word) : NR (setStack s) := by intro m m' h; cases h
theorem nr_warmAddress (a : Address) : NR (warmAddress a) := by intro m m' h; cases h
theorem nr_warmSlot (a : Address) (k : Word) : NR (warmSlot a k) := by intro m m' h; cases h
theorem nr_addRefund (n : Int) : NR (addRefund n) := by intro m m' h; cases h
theorem nr_addLog (l : Log) : NR (addLog l) := by intro m m' h; cases h
theorem nr_addDeleted (a : Address) : NR (addDeleted a) := by intro m m' h; cases h
theorem nr_setState (s : State) : NR (setState s) := by intro m m' h; cases h
theorem nr_setTransient (s : TransientStorage) : NR (setTransient s) := by intro m m' h; cases h
theorem nr_incSuccess (c : Evm) : NR (incorporateChildOnSuccess c) := by intro m m' h; cases h
theorem nr_incError (c : Evm) : NR (incorporateChildOnError c) := by intro m m' h; cases h

theorem nr_touchIfEmpty (a : Address) : NR (touchIfEmpty a) := by intro m m' h; cases h
theorem nr_selfdestructRefund (a : Address) : NR (selfdestructRefund a) := by
  intro m m' h; unfold selfdestructRefund at h; split at h <;> cases h
theorem nr_randaoOrDifficulty (E : Env) : NR (randaoOrDifficulty E) := by
  intro m m' h; unfold randaoOrDifficulty at h
  split at h
  · cases h
  · exact nr_u256 _ _ _ h

/-- A processor that never raises a revert, in a frame within the depth limit. -/
def SubNR (s : Sub) : Prop := ∀ msg w w', s msg w ≠ .error (.revert, w')

theorem nr_runSub {s : Sub} (hs : SubNR s) (msg : Message) : NR (runSub s msg) := by
  intro m m' h; unfold runSub at h
  split at h
  · cases h
  · rename_i e; cases h; exact hs _ _ _ e
theorem nr_extendCost (l : List (Word × Word)) : NR (extendCost l) := by intro m m' h; unfold extendCost at h; cases h
end

macro "nrprim" : tactic => `(tactic| first
  | with_reducible exact nr_pure _ | exact nr_getEvm | exact nr_getState | exact nr_getTransient
  | exact nr_liftCrash _ | exact nr_u256 _ | exact nr_chargeGas _ | exact nr_incPc _
  | exact nr_setPc _ | exact nr_stopRunning | exact nr_setOutput _ | exact nr_setReturnData _ | exact nr_addGas _
  | exact nr_warmAddress _ | exact nr_warmSlot _ _ | exact nr_addRefund _ | exact nr_addLog _
  | exact nr_addDeleted _ | exact nr_setState _ | exact nr_setTransient _ | exact nr_incSuccess _ | exact nr_incError _
  | exact nr_touchIfEmpty _ | exact nr_selfdestructRefund _ | exact nr_randaoOrDifficulty _
  | exact nr_runSub (by assumption) _ | exact nr_extendCost _ | exact nr_setStack _ | exact nr_pop | exact nr_push _
  | exact nr_expandMemory _ | exact nr_writeMemory _ _ | exact nr_raiseHalt _)

macro "nrwalk" : tactic => `(tactic| repeat' (first
  | with_reducible nrprim
  | (with_reducible refine nr_bind ?_ fun _ => ?_)
  | (with_reducible refine nr_ite ?_ ?_)
  | dsimp only
  | split))

theorem nr_accessAddress (k : AccessKind) (a : Address) : NR (accessAddress k a) := by unfold accessAddress; nrwalk
theorem nr_accessDelegation (a : Address) : NR (accessDelegation a) := by
  unfold accessDelegation
  refine nr_bind nr_getState fun _ => ?_
  dsimp only
  exact nr_ite (nr_bind (nr_accessAddress _ _) fun _ => nr_pure _) (nr_pure _)
theorem nr_popN : ∀ n, NR (popN n)
  | 0 => nr_pure _
  | n + 1 => nr_bind nr_pop fun _ => nr_bind (nr_popN n) fun _ => nr_pure _
theorem nr_genericCall {pm : Sub} (h : SubNR pm) (a : CallArgs) : NR (genericCall pm a) := by
  unfold genericCall; nrwalk
theorem nr_genericCreate {pcm : Sub} (h : SubNR pcm) (v : Word) (a : Address) (x y : Word) :
    NR (genericCreate pcm v a x y) := by
  unfold genericCreate; nrwalk

set_option linter.unusedSimpArgs false in
set_option maxHeartbeats 4000000 in
theorem opStep_nr (E : Env) {pm pcm : Sub} (h : SubNR pm) (h' : SubNR pcm) (op : Op) (hop : op ≠ .revert) :
    NR (opStep E pm pcm op) := by
  cases op
  case revert => exact absurd rfl hop
  all_goals
    dsimp only [opStep]
    simp only [opStop, opAdd, opMul, opSub, opDiv, opSdiv, opMod, opSmod, opAddmod, opMulmod, opExp, opSignextend,
      opLt, opGt, opSlt, opSgt, opEq, opIszero, opAnd, opOr, opXor, opNot, opByte, opShl, opShr, opSar, opClz,
      opAddress, opBalance, opOrigin, opCaller, opCallvalue, opCalldataload, opCalldatasize,
      opCodesize, opGasprice, opExtcodesize, opReturndatasize,
      opExtcodehash, opBlockhash, opCoinbase, opTimestamp, opNumber, opPrevrandao, opGaslimit,
      opChainid, opSelfbalance, opBasefee, opBlobhash, opBlobbasefee, opPop, opSload,
      opJump, opJumpi, opPc, opMsize, opGas, opJumpdest, opTload, opPush, opSstore, opTstore, opDup, opSwap, opLog,
      opSelfdestruct, opCalldatacopy, opCodecopy, opExtcodecopy, opReturndatacopy, opMstore, opMstore8, opMcopy, opMload,
      opKeccak, opReturn, opCreate, opCreate2, opCall, opCallcode, opDelegatecall, opStaticcall]
    repeat' (first
      | with_reducible nrprim
      | with_reducible exact nr_accessAddress _ _ | with_reducible exact nr_accessDelegation _ | with_reducible exact nr_popN _
      | with_reducible exact nr_genericCall (by assumption) _ | with_reducible exact nr_genericCreate (by assumption) _ _ _ _
      | (with_reducible refine nr_bind ?_ fun _ => ?_)
      | (with_reducible refine nr_ite ?_ ?_)
      | dsimp only
      | split)

theorem nr_blsOutput1 (E : Env) (x : Option (Point3D (Fq BLS_P))) : NR (blsOutput1 E x) := by
  cases x <;> unfold blsOutput1 <;> nrwalk
theorem nr_blsOutput2 (E : Env) (x : Option (Point3D (Fq2 BLS_P))) : NR (blsOutput2 E x) := by
  cases x <;> unfold blsOutput2 <;> nrwalk

theorem precompile_elim {E : Env} {f : Fork} {P : M Unit → Prop} (h0 : P (pEcrecover E))
    (h1 : P (pSha256 E))
    (h2 : P (pRipemd160 E))
    (h3 : P pIdentity)
    (h4 : P (pModexp f))
    (h5 : P (pBnAdd E f))
    (h6 : P (pBnMul E f))
    (h7 : P (pBnPairing E f))
    (h8 : P pBlake2f)
    (h9 : P (pPointEvaluation E))
    (h10 : P (pBlsG1Add E))
    (h11 : P (pBlsG1Msm E))
    (h12 : P (pBlsG2Add E))
    (h13 : P (pBlsG2Msm E))
    (h14 : P (pBlsPairing E))
    (h15 : P (pBlsMapFpToG1 E))
    (h16 : P (pBlsMapFp2ToG2 E))
    (h17 : P (pP256verify E))
    {a : Address} {p : M Unit} (h : precompile E f a = some p) : P p := by
  replace h := (precompileFn_of h).2
  unfold precompileFn at h
  by_cases hc : a = 1
  · rw [if_pos hc] at h; cases h; exact h0
  rw [if_neg hc] at h; clear hc
  by_cases hc : a = 2
  · rw [if_pos hc] at h; cases h; exact h1
  rw [if_neg hc] at h; clear hc
  by_cases hc : a = 3
  · rw [if_pos hc] at h; cases h; exact h2
  rw [if_neg hc] at h; clear hc
  by_cases hc : a = 4
  · rw [if_pos hc] at h; cases h; exact h3
  rw [if_neg hc] at h; clear hc
  by_cases hc : a = 5
  · rw [if_pos hc] at h; cases h; exact h4
  rw [if_neg hc] at h; clear hc
  by_cases hc : a = 6
  · rw [if_pos hc] at h; cases h; exact h5
  rw [if_neg hc] at h; clear hc
  by_cases hc : a = 7
  · rw [if_pos hc] at h; cases h; exact h6
  rw [if_neg hc] at h; clear hc
  by_cases hc : a = 8
  · rw [if_pos hc] at h; cases h; exact h7
  rw [if_neg hc] at h; clear hc
  by_cases hc : a = 9
  · rw [if_pos hc] at h; cases h; exact h8
  rw [if_neg hc] at h; clear hc
  by_cases hc : a = 0x0a
  · rw [if_pos hc] at h; cases h; exact h9
  rw [if_neg hc] at h; clear hc
  by_cases hc : a = 0x0b
  · rw [if_pos hc] at h; cases h; exact h10
  rw [if_neg hc] at h; clear hc
  by_cases hc : a = 0x0c
  · rw [if_pos hc] at h; cases h; exact h11
  rw [if_neg hc] at h; clear hc
  by_cases hc : a = 0x0d
  · rw [if_pos hc] at h; cases h; exact h12
  rw [if_neg hc] at h; clear hc
  by_cases hc : a = 0x0e
  · rw [if_pos hc] at h; cases h; exact h13
  rw [if_neg hc] at h; clear hc
  by_cases hc : a = 0x0f
  · rw [if_pos hc] at h; cases h; exact h14
  rw [if_neg hc] at h; clear hc
  by_cases hc : a = 0x10
  · rw [if_pos hc] at h; cases h; exact h15
  rw [if_neg hc] at h; clear hc
  by_cases hc : a = 0x11
  · rw [if_pos hc] at h; cases h; exact h16
  rw [if_neg hc] at h; clear hc
  by_cases hc : a = 0x100
  · rw [if_pos hc] at h; cases h; exact h17
  rw [if_neg hc] at h; clear hc
  cases h

theorem nr_precompile {E : Env} {f : Fork} {a : Address} {p : M Unit} (h : precompile E f a = some p) : NR p := by
  refine precompile_elim ?_ ?_ ?_ ?_ ?_ ?_ ?_ ?_ ?_ ?_ ?_ ?_ ?_ ?_ ?_ ?_ ?_ ?_ h
  all_goals
    simp only [pEcrecover, pSha256, pRipemd160, pIdentity, pModexp, pModexpOsaka, pModexpOld, pBnAdd, pBnMul, pBnPairing, pBlake2f, pPointEvaluation,
      pBlsG1Add, pBlsG1Msm, pBlsG2Add, pBlsG2Msm, pBlsPairing, pBlsMapFpToG1, pBlsMapFp2ToG2, pP256verify]
    repeat' (first
      | with_reducible nrprim
      | with_reducible exact nr_blsOutput1 _ _
      | with_reducible exact nr_blsOutput2 _ _
      | (with_reducible refine nr_bind ?_ fun _ => ?_)
      | (with_reducible refine nr_ite ?_ ?_)
      | dsimp only
      | split)

end Verif
