import Verif.Lemmas.Space
import Verif.Lemmas.Good
import Verif.Lemmas.Keep
import Verif.Spec.Sane
/-! No instruction raises an error that escapes the interpreter (arithmetic overflow, missing account, missing item). -/
namespace Verif
open Spec

/-- Not an internal Python error. -/
def Exn.Clean (e : Exn) : Prop := ∀ c, e ≠ .crash c

/-- Not an internal Python error, unless it is the one of the old MODEXP. -/
def Exn.Tame (f : Fork) (e : Exn) : Prop := ∀ c, e = .crash c → c = .overflowError ∧ OldModexp f
theorem Exn.Clean.tame {f : Fork} {e : Exn} (h : e.Clean) : e.Tame f := fun c hc => absurd hc (h c)

theorem supplyLimit_le (f : Fork) : supplyLimit f ≤ 2 ^ 256 := by
  unfold supplyLimit; split <;> omega

/-- Bounds on lengths and gas that are kept by the primitives. -/
structure Lens (D : Nat) (e : Evm) : Prop where
  output : e.output.length ≤ D
  returnData : e.returnData.length ≤ D
  code : e.code.length ≤ D
  data : e.message.data.length ≤ D
  gas : e.gasLeft ≤ D

section
variable {α β : Type} {D : Nat}

/-- No internal error, and the lengths within bounds. -/
def NCPost (D : Nat) (X : World → Prop) : Res α → Prop
  | .ok _ m' => Lens D m'.evm ∧ X m'.world
  | .err e m' => e.Clean ∧ m'.evm.output.length ≤ D

/-- No internal error, and the lengths stay within bounds. -/
def NC (D : Nat) (X : World → Prop) (x : M α) : Prop := ∀ m, Lens D m.evm → X m.world → NCPost D X (x m)

variable {X : World → Prop}

theorem clean_halt (h : Halt) : (Exn.halt h).Clean := fun _ e => by cases e
theorem clean_revert : Exn.revert.Clean := fun _ e => by cases e
theorem clean_fuel : Exn.outOfFuel.Clean := fun _ e => by cases e

theorem nc_bind {x : M α} {f : α → M β} (hx : NC D X x) (hf : ∀ a, NC D X (f a)) : NC D X (x >>= f) := by
  intro m h hX
  rw [bind_eq]
  have := hx m h hX
  match hxm : x m with
  | .ok a m1 => rw [hxm] at this; exact hf a m1 this.1 this.2
  | .err e m1 => rw [hxm] at this; exact this
theorem nc_getEvm_bind {f : Evm → M β} (hf : ∀ e, Lens D e → NC D X (f e)) : NC D X (getEvm >>= f) :=
  fun m h hX => hf m.evm h m h hX
theorem nc_getState_bind {f : State → M β} (hf : ∀ w, X w → NC D X (f w.state)) : NC D X (getState >>= f) :=
  fun m h hX => hf m.world hX m h hX
theorem nc_ite {c : Prop} [Decidable c] {x y : M α} (h : c → NC D X x) (h' : ¬ c → NC D X y) : NC D X (if c then x else y) := by
  split
  · exact h (by assumption)
  · exact h' (by assumption)
theorem nc_raiseHalt (e : Halt) : NC D X (raiseHalt e : M α) := fun _ h _ => ⟨clean_halt e, h.output⟩
theorem nc_pure (a : α) : NC D X (pure a : M α) := fun _ h hX => ⟨h, hX⟩
theorem nc_getEvm : NC D X getEvm := fun _ h hX => ⟨h, hX⟩
theorem nc_getState : NC D X getState := fun _ h hX => ⟨h, hX⟩
theorem nc_getTransient : NC D X getTransient := fun _ h hX => ⟨h, hX⟩
theorem nc_pop : NC D X pop := by
  intro m h hX; unfold pop; split
  · exact ⟨clean_halt _, h.output⟩
  · exact ⟨⟨h.output, h.returnData, h.code, h.data, h.gas⟩, hX⟩
theorem nc_push (w : Word) : NC D X (push w) := by
  intro m h hX; unfold push; split
  · exact ⟨clean_halt _, h.output⟩
  · exact ⟨⟨h.output, h.returnData, h.code, h.data, h.gas⟩, hX⟩
theorem nc_liftCrash {x : Except Crash α} (hx : ∃ a, x = .ok a) : NC D X (liftCrash x) := by
  obtain ⟨a, rfl⟩ := hx
  exact fun _ h hX => ⟨h, hX⟩
theorem nc_u256 {n : Nat} (hn : n < 2 ^ 256) : NC D X (u256 n) := by
  intro m h hX; unfold u256; rw [if_pos hn]; exact ⟨h, hX⟩
theorem nc_chargeGas (n : Nat) : NC D X (chargeGas n) := by
  intro m h hX; unfold chargeGas; split
  · exact ⟨clean_halt _, h.output⟩
  · exact ⟨⟨h.output, h.returnData, h.code, h.data, Nat.le_trans (Nat.sub_le _ _) h.gas⟩, hX⟩
theorem nc_incPc (n : Nat) : NC D X (incPc n) := fun _ h hX => ⟨⟨h.output, h.returnData, h.code, h.data, h.gas⟩, hX⟩
theorem nc_setPc (n : Nat) : NC D X (setPc n) := fun _ h hX => ⟨⟨h.output, h.returnData, h.code, h.data, h.gas⟩, hX⟩
theorem nc_stopRunning : NC D X stopRunning := fun _ h hX => ⟨⟨h.output, h.returnData, h.code, h.data, h.gas⟩, hX⟩
theorem nc_setOutput {b : Bytes} (hb : b.length ≤ D) : NC D X (setOutput b) :=
  fun _ h hX => ⟨⟨hb, h.returnData, h.code, h.data, h.gas⟩, hX⟩
theorem nc_expandMemory (n : Nat) : NC D X (expandMemory n) := fun _ h hX => ⟨⟨h.output, h.returnData, h.code, h.data, h.gas⟩, hX⟩
theorem nc_writeMemory (n : Nat) (v : Bytes) : NC D X (writeMemory n v) := fun _ h hX => ⟨⟨h.output, h.returnData, h.code, h.data, h.gas⟩, hX⟩
theorem nc_setStack (s : List Word) : NC D X (setStack s) := fun _ h hX => ⟨⟨h.output, h.returnData, h.code, h.data, h.gas⟩, hX⟩
theorem nc_warmAddress (a : Address) : NC D X (warmAddress a) := fun _ h hX => ⟨⟨h.output, h.returnData, h.code, h.data, h.gas⟩, hX⟩
theorem nc_warmSlot (a : Address) (k : Word) : NC D X (warmSlot a k) := fun _ h hX => ⟨⟨h.output, h.returnData, h.code, h.data, h.gas⟩, hX⟩
theorem nc_addRefund (n : Int) : NC D X (addRefund n) := fun _ h hX => ⟨⟨h.output, h.returnData, h.code, h.data, h.gas⟩, hX⟩
theorem nc_addLog (l : Log) : NC D X (addLog l) := fun _ h hX => ⟨⟨h.output, h.returnData, h.code, h.data, h.gas⟩, hX⟩
theorem nc_addDeleted (a : Address) : NC D X (addDeleted a) := fun _ h hX => ⟨⟨h.output, h.returnData, h.code, h.data, h.gas⟩, hX⟩
theorem nc_setState (s : State) : NC D (fun _ => True) (setState s) := fun _ h _ => ⟨⟨h.output, h.returnData, h.code, h.data, h.gas⟩, trivial⟩
theorem nc_setTransient (s : TransientStorage) : NC D (fun _ => True) (setTransient s) :=
  fun _ h _ => ⟨⟨h.output, h.returnData, h.code, h.data, h.gas⟩, trivial⟩
theorem nc_extendCost (l : List (Word × Word)) : NC D X (extendCost l) := nc_bind nc_getEvm fun _ => nc_pure _
theorem nc_touchIfEmpty (a : Address) : NC D X (touchIfEmpty a) := fun _ h hX => ⟨⟨h.output, h.returnData, h.code, h.data, h.gas⟩, hX⟩
theorem nc_selfdestructRefund (a : Address) : NC D X (selfdestructRefund a) := by
  intro m h hX; unfold selfdestructRefund; split
  · exact ⟨h, hX⟩
  · exact ⟨⟨h.output, h.returnData, h.code, h.data, h.gas⟩, hX⟩
theorem nc_accessAddress (k : AccessKind) (a : Address) : NC D X (accessAddress k a) := by
  unfold accessAddress
  exact nc_bind nc_getEvm fun _ => nc_bind nc_getState fun _ => nc_ite (fun _ => nc_pure _) fun _ =>
    nc_ite (fun _ => nc_pure _) fun _ => nc_bind (nc_warmAddress _) fun _ => nc_pure _
theorem nc_popN : ∀ n, NC D X (popN n)
  | 0 => nc_pure _
  | n + 1 => nc_bind nc_pop fun _ => nc_bind (nc_popN n) fun _ => nc_pure _
end

macro "ncprim" : tactic => `(tactic| first
  | with_reducible exact nc_pure _ | exact nc_getEvm | exact nc_getState | exact nc_getTransient
  | exact nc_chargeGas _ | exact nc_incPc _
  | exact nc_setPc _ | exact nc_stopRunning
  | exact nc_warmAddress _ | exact nc_warmSlot _ _ | exact nc_addRefund _ | exact nc_addLog _
  | exact nc_addDeleted _ | exact nc_setState _ | exact nc_setTransient _
  | exact nc_extendCost _ | exact nc_setStack _ | exact nc_pop | exact nc_push _
  | exact nc_expandMemory _ | exact nc_writeMemory _ _ | exact nc_raiseHalt _
  | exact nc_accessAddress _ _ | exact nc_touchIfEmpty _ | exact nc_selfdestructRefund _ | exact nc_popN _)

/-- Instructions treated by themselves. -/
def specialOp : Op → Bool
  | .sstore | .selfdestruct | .extcodesize | .msize | .blobbasefee | .pc | .push _ | .ret | .revert | .blockhash | .returndatacopy
  | .create | .create2 | .call | .callcode | .delegatecall | .staticcall => true
  | _ => false

theorem blockHash_ok {hashes : List Word} {n b : Nat} (h : min 256 n ≤ hashes.length) :
    ∃ a, blockHashVal hashes n b = .ok a := by
  unfold blockHashVal
  simp only
  split
  · exact ⟨_, rfl⟩
  · rename_i hc
    rw [if_pos (by omega)]
    have hlt : hashes.length - (n - b) < hashes.length := by omega
    rw [List.getElem?_eq_getElem hlt]
    exact ⟨_, rfl⟩

theorem nc_randaoOrDifficulty {E : Env} {D : Nat} {X : World → Prop} (h : E.block.difficulty < 2 ^ 256) :
    NC D X (randaoOrDifficulty E) := by
  intro m hm hX
  unfold randaoOrDifficulty
  split
  · exact ⟨hm, hX⟩
  · exact nc_u256 h m hm hX

set_option linter.unusedSimpArgs false in
set_option maxHeartbeats 4000000 in
theorem opStep_nc (E : Env) {f : Fork} (hE : EnvFits f E) (pm pcm : Sub) {D : Nat} (hD : D < 2 ^ 256) (op : Op) (hop : specialOp op = false) :
    NC D (fun _ => True) (opStep E pm pcm op) := by
  have b1 := hE.number
  have b0 := hE.difficulty
  have b2 := hE.gasLimit
  have b3 := hE.baseFee
  have b4 := hE.gasPrice
  cases op
  case sstore | selfdestruct | extcodesize | msize | blobbasefee | pc | push | ret | revert | blockhash | returndatacopy |
    create | create2 | call | callcode | delegatecall | staticcall => cases hop
  all_goals
    clear hop
    dsimp only [opStep]
    simp only [opStop, opAdd, opMul, opSub, opDiv, opSdiv, opMod, opSmod, opAddmod, opMulmod, opExp, opSignextend,
      opLt, opGt, opSlt, opSgt, opEq, opIszero, opAnd, opOr, opXor, opNot, opByte, opShl, opShr, opSar, opClz,
      opAddress, opBalance, opOrigin, opCaller, opCallvalue, opCalldataload, opCalldatasize,
      opCodesize, opGasprice, opReturndatasize,
      opExtcodehash, opCoinbase, opTimestamp, opNumber, opPrevrandao, opGaslimit,
      opChainid, opSelfbalance, opBasefee, opBlobhash, opPop, opSload,
      opJump, opJumpi, opGas, opJumpdest, opTload, opTstore, opDup, opSwap, opLog,
      opCalldatacopy, opCodecopy, opExtcodecopy, opMstore, opMstore8, opMcopy, opMload,
      opKeccak]
    repeat' (first
      | with_reducible ncprim
      | with_reducible exact nc_u256 (by assumption)
      | with_reducible exact nc_randaoOrDifficulty (by assumption)
      | with_reducible exact nc_u256 (Nat.lt_of_le_of_lt (Lens.data (by assumption)) hD)
      | with_reducible exact nc_u256 (Nat.lt_of_le_of_lt (Lens.code (by assumption)) hD)
      | with_reducible exact nc_u256 (Nat.lt_of_le_of_lt (Lens.returnData (by assumption)) hD)
      | with_reducible exact nc_u256 (Nat.lt_of_le_of_lt (Lens.gas (by assumption)) hD)
      | (with_reducible refine nc_getEvm_bind fun _ _ => ?_)
      | (with_reducible refine nc_bind ?_ fun _ => ?_)
      | (with_reducible refine nc_ite (fun _ => ?_) (fun _ => ?_))
      | dsimp only
      | split)

end Verif
