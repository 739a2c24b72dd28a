import Verif.Lemmas.NoCrash
import Verif.Lemmas.StateRel
/-! No internal errors: the instructions that need the invariants of the frame. -/
namespace Verif
open Spec

/-- A transfer within the sender's balance succeeds when all ether fits in a word. -/
theorem moveEther_succeeds {s : State} (hd : s.mainTrie.default = none) (hs : supply s < 2 ^ 256) {a b : Address} {v : Word}
    (hv : v ≤ (getAccount s a).balance) : ∃ s', moveEther s a b v = .ok s' := by
  unfold moveEther
  have hb : ¬ (getAccount s a).balance < v := by simpa [BitVec.lt_def, BitVec.le_def] using hv
  have hle : v.toNat ≤ (getAccount s a).balance.toNat := hv
  simp only [modifyState_eq, reduceSenderBalance, hb, if_false]
  have he : modifyState' s a (fun _ => { getAccount s a with balance := (getAccount s a).balance - v }) =
        modifyState' s a (fun acc => { acc with balance := acc.balance - v }) := rfl
  rw [he]
  have h1 := supply_modifyState' hd a (fun acc => { acc with balance := acc.balance - v })
  have h2 := balance_le_supply (s := modifyState' s a (fun acc => { acc with balance := acc.balance - v }))
    (by rw [modifyState'_default]; exact hd) b
  simp only at h1
  rw [BitVec.toNat_sub_of_le (by simpa [BitVec.le_def] using hle)] at h1
  generalize modifyState' s a (fun acc => { acc with balance := acc.balance - v }) = s1 at h1 h2 ⊢
  have hov : (getAccount s1 b).balance.toNat + v.toNat < 2 ^ 256 := by omega
  simp only [increaseRecipientBalance, checkedAdd, hov, if_true]
  exact ⟨_, rfl⟩

/-- SELFDESTRUCT moves the balance without an error. -/
theorem selfdestructState_succeeds {s : State} (hd : s.mainTrie.default = none) (hs : supply s < supplyLimit s.fork) (a b : Address) :
    ∃ s', selfdestructState s a b = .ok s' := by
  unfold selfdestructState
  unfold supplyLimit at hs
  split
  · rename_i hc
    rw [if_pos hc] at hs
    obtain ⟨s', hs'⟩ := moveEther_succeeds (a := a) (b := b) hd hs (BitVec.le_refl (getAccount s a).balance)
    rw [hs']; exact ⟨_, rfl⟩
  · rename_i hc
    rw [if_neg hc] at hs
    have h1 := balance_le_supply hd a
    have h2 := balance_le_supply hd b
    unfold checkedAdd
    rw [if_pos (by omega)]
    exact ⟨_, rfl⟩

/-- Invariant of a frame under which nothing goes wrong inside the interpreter. `D` bounds every length. -/
structure Fits (f : Fork) (D : Nat) (m : Mach) : Prop where
  default : m.world.state.mainTrie.default = none
  snaps : m.world.state.snapshots ≠ []
  stack : m.evm.stack.length ≤ 1024
  memory : Aligned m.evm.memory
  depth : m.evm.message.depth ≤ 1024
  self : m.evm.code ≠ [] → getAccountOptional m.world.state m.self ≠ none
  good : f.since .spuriousDragon = true → GoodFrame m
  output : m.evm.output.length ≤ D
  returnData : m.evm.returnData.length ≤ D
  code : m.evm.code.length ≤ D
  data : m.evm.message.data.length ≤ D
  space : m.evm.memory.length + 32 * m.evm.gasLeft ≤ D
  codes : ∀ a, (getAccount m.world.state a).code.length ≤ D
  supply : Verif.supply m.world.state < supplyLimit f
  isFork : m.world.state.fork = f

theorem Fits.lens {f : Fork} {D : Nat} {m : Mach} (h : Fits f D m) : Lens D m.evm :=
  ⟨h.output, h.returnData, h.code, h.data, by have := h.space; omega⟩

theorem nc_drop {α : Type} {D : Nat} {X : World → Prop} {x : M α} (h : NC D (fun _ => True) x) {m : Mach} (hl : Lens D m.evm)
    (_ : X m.world) : NCPost D (fun _ => True) (x m) := h m hl trivial

/-- Change of the condition on the world in the middle of a program. -/
theorem nc_seq {α β : Type} {D : Nat} {X Y : World → Prop} {x : M α} {f : α → M β} {m : Mach} (hx : NCPost D X (x m))
    (hf : ∀ a m', x m = .ok a m' → Lens D m'.evm → X m'.world → NCPost D Y (f a m')) : NCPost D Y ((x >>= f) m) := by
  rw [bind_eq]
  match hxm : x m with
  | .ok a m1 => rw [hxm] at hx; exact hf a m1 hxm hx.1 hx.2
  | .err e m1 => rw [hxm] at hx; exact hx

theorem existing_of_owned {s : State} {a : Address} (h : Owned s a) : ∃ acc, getAccountOptional s a = some acc := by
  cases he : getAccountOptional s a with
  | none => exact absurd (by simp [getAccount, he]) h.nonempty
  | some acc => exact ⟨acc, rfl⟩

/-- A walk over a program given a fixed world and message. -/
def NCw (D : Nat) (w : World) (msg : Message) {α : Type} (x : M α) : Prop := ∀ m, Lens D m.evm → m.world = w → m.evm.message = msg →
  NCPost D (fun _ => True) (x m)

section
variable {α β : Type} {D : Nat} {w : World} {msg : Message}
theorem ncw_bind {x : M α} {f : α → M β} (hx : NC D (fun w' => w' = w) x) (hp : ∀ m a m', x m = .ok a m' → m'.evm.message = m.evm.message)
    (hf : ∀ a, NCw D w msg (f a)) : NCw D w msg (x >>= f) := by
  intro m hl hw hm
  exact nc_seq (hx m hl hw) fun a m' he hl' hw' => hf a m' hl' hw' ((hp m a m' he).trans hm)
theorem ncw_getEvm {f : Evm → M β} (hf : ∀ e, e.message = msg → NCw D w msg (f e)) : NCw D w msg (getEvm >>= f) :=
  fun m hl hw hm => hf m.evm hm m hl hw hm
theorem ncw_getState {f : State → M β} (hf : NCw D w msg (f w.state)) : NCw D w msg (getState >>= f) :=
  fun m hl hw hm => by have := hf m hl hw hm; subst hw; exact this
theorem ncw_ite {c : Prop} [Decidable c] {x y : M α} (h : NCw D w msg x) (h' : NCw D w msg y) : NCw D w msg (if c then x else y) := by
  split <;> assumption
theorem ncw_of {x : M α} (h : NC D (fun _ => True) x) : NCw D w msg x := fun m hl _ _ => h m hl trivial
end

theorem opSstore_nc {f : Fork} {D : Nat} {m : Mach} (hm : Fits f D m) (hc : m.evm.code ≠ []) :
    NCPost D (fun _ => True) (opSstore m) := by
  obtain ⟨acc, hacc⟩ := Option.ne_none_iff_exists'.mp (hm.self hc)
  have key : NCw D m.world m.evm.message opSstore := by
    unfold opSstore
    refine ncw_bind nc_pop (fun _ _ _ h => (by unfold pop at h; split at h <;> cases h; rfl)) fun key => ?_
    refine ncw_bind nc_pop (fun _ _ _ h => (by unfold pop at h; split at h <;> cases h; rfl)) fun new => ?_
    refine ncw_getEvm fun e he => ?_
    refine ncw_getState ?_
    refine ncw_ite (ncw_of (nc_raiseHalt _)) ?_
    refine ncw_bind (nc_liftCrash ?_) (fun _ _ _ h => (by unfold liftCrash at h; split at h <;> cases h; rfl)) fun orig => ?_
    · unfold sstoreOriginal
      split
      · unfold getStorageOriginal
        split
        · exact ⟨_, rfl⟩
        · split
          · rename_i h; exact absurd (List.getLast?_eq_none_iff.mp h) hm.snaps
          · exact ⟨_, rfl⟩
      · exact ⟨_, rfl⟩
    dsimp only
    have tail : ∀ cold : Nat, NCw D m.world m.evm.message (do
        addRefund (sstoreRefund m.world.state.fork orig (getStorage m.world.state e.message.currentTarget key) new)
        chargeGas (cold + sstoreGas m.world.state.fork orig (getStorage m.world.state e.message.currentTarget key) new)
        if e.message.isStatic = true then raiseHalt Halt.writeInStaticContext
          else do
            let s' ← liftCrash (setStorage m.world.state e.message.currentTarget key new)
            setState s'
            incPc 1) := by
      intro cold
      refine ncw_bind (nc_addRefund _) (fun _ _ _ h => (by cases h; rfl)) fun _ => ?_
      refine ncw_bind (nc_chargeGas _) (fun _ _ _ h => (by rw [(chargeGas_ok h).2])) fun _ => ?_
      refine ncw_ite (ncw_of (nc_raiseHalt _)) ?_
      refine ncw_bind (nc_liftCrash ?_) (fun _ _ _ h => (by unfold liftCrash at h; split at h <;> cases h; rfl)) fun s' => ?_
      · unfold setStorage
        have hacc' : getAccountOptional m.world.state e.message.currentTarget = some acc := by rw [he]; exact hacc
        rw [hacc']; exact ⟨_, rfl⟩
      exact ncw_of (nc_bind (nc_setState _) fun _ => nc_incPc 1)
    refine ncw_ite ?_ ?_
    · exact ncw_bind (nc_pure _) (fun _ _ _ h => (by cases h; rfl)) tail
    · exact ncw_bind (nc_warmSlot _ _) (fun _ _ _ h => (by cases h; rfl)) fun _ =>
        ncw_bind (nc_pure _) (fun _ _ _ h => (by cases h; rfl)) tail
  exact key m hm.lens rfl rfl

theorem opSelfdestruct_nc {f : Fork} {D : Nat} {m : Mach} (hm : Fits f D m) :
    NCPost D (fun _ => True) (opSelfdestruct m) := by
  have key : NCw D m.world m.evm.message opSelfdestruct := by
    unfold opSelfdestruct
    refine ncw_bind nc_pop (fun _ _ _ h => (by unfold pop at h; split at h <;> cases h; rfl)) fun b => ?_
    dsimp only
    refine ncw_getEvm fun e he => ?_
    refine ncw_getState ?_
    have tail : ∀ cold : Nat, NCw D m.world m.evm.message (do
        selfdestructRefund e.message.currentTarget
        chargeGas (gasSelfDestruct m.world.state.fork + cold +
          selfdestructNewCost m.world.state e.message.currentTarget (toAddressMasked b))
        if e.message.isStatic then raiseHalt .writeInStaticContext
        else do
          let s' ← liftCrash (selfdestructState m.world.state e.message.currentTarget (toAddressMasked b))
          setState s'
          if selfdestructDeletes m.world.state e.message.currentTarget then addDeleted e.message.currentTarget
          else pure ()
          touchIfEmpty (toAddressMasked b)
          stopRunning) := by
      intro cold
      refine ncw_bind (nc_selfdestructRefund _) (fun _ _ _ h => (by
        unfold selfdestructRefund at h; split at h <;> cases h <;> rfl)) fun _ => ?_
      refine ncw_bind (nc_chargeGas _) (fun _ _ _ h => (by rw [(chargeGas_ok h).2])) fun _ => ?_
      refine ncw_ite (ncw_of (nc_raiseHalt _)) ?_
      have hsd : ∃ s', selfdestructState m.world.state e.message.currentTarget (toAddressMasked b) = .ok s' := by
        exact selfdestructState_succeeds hm.default (by rw [hm.isFork]; exact hm.supply) _ _
      refine ncw_bind (nc_liftCrash hsd)
        (fun _ _ _ h => (by unfold liftCrash at h; split at h <;> cases h; rfl)) fun s' => ?_
      exact ncw_of (nc_bind (nc_setState _) fun _ => nc_ite
        (fun _ => nc_bind (nc_addDeleted _) fun _ => nc_bind (nc_touchIfEmpty _) fun _ => nc_stopRunning)
        fun _ => nc_bind (nc_touchIfEmpty _) fun _ => nc_stopRunning)
    refine ncw_ite ?_ ?_
    · exact ncw_bind (nc_pure _) (fun _ _ _ h => (by cases h; rfl)) tail
    · exact ncw_bind (nc_warmAddress _) (fun _ _ _ h => (by cases h; rfl)) fun _ =>
        ncw_bind (nc_pure _) (fun _ _ _ h => (by cases h; rfl)) tail
  exact key m hm.lens rfl rfl

theorem opExtcodesize_nc {f : Fork} {D : Nat} (hD : D < 2 ^ 256) {m : Mach} (hm : Fits f D m) :
    NCPost D (fun _ => True) (opExtcodesize m) := by
  have key : NCw D m.world m.evm.message opExtcodesize := by
    unfold opExtcodesize
    refine ncw_bind nc_pop (fun _ _ _ h => (by unfold pop at h; split at h <;> cases h; rfl)) fun b => ?_
    dsimp only
    refine ncw_bind (nc_accessAddress _ _) (fun _ _ _ h => (by rw [accessAddress_run] at h; cases h; rfl)) fun _ => ?_
    refine ncw_bind (nc_chargeGas _) (fun _ _ _ h => (by rw [(chargeGas_ok h).2])) fun _ => ?_
    refine ncw_getState ?_
    exact ncw_of (nc_bind (nc_u256 (Nat.lt_of_le_of_lt (hm.codes _) hD)) fun _ => nc_bind (nc_push _) fun _ => nc_incPc _)
  exact key m hm.lens rfl rfl

theorem opReturndatacopy_nc {D : Nat} (hD : D < 2 ^ 256) : NC D (fun _ => True) opReturndatacopy := by
  unfold opReturndatacopy
  refine nc_bind nc_pop fun _ => nc_bind nc_pop fun start => nc_bind nc_pop fun size => ?_
  dsimp only
  refine nc_bind (nc_extendCost _) fun ext => nc_bind (nc_chargeGas _) fun _ => nc_getEvm_bind fun e he => ?_
  refine nc_ite (fun _ => nc_raiseHalt _) fun hle => ?_
  refine nc_bind (nc_expandMemory _) fun _ => nc_bind (nc_u256 ?_) fun _ => nc_bind (nc_writeMemory _ _) fun _ => nc_incPc _
  have := he.returnData
  omega

theorem opBlockhash_nc {E : Env} {f : Fork} (hE : EnvFits f E) {D : Nat} : NC D (fun _ => True) (opBlockhash E) := by
  unfold opBlockhash
  exact nc_bind nc_pop fun _ => nc_bind (nc_chargeGas _) fun _ => nc_bind (nc_liftCrash (blockHash_ok hE.hashes)) fun _ =>
    nc_bind (nc_push _) fun _ => nc_incPc _

theorem bind_run {α β : Type} {x : M α} {f : α → M β} {a : α} {m m' : Mach} (h : x m = .ok a m') : (x >>= f) m = f a m' := by
  rw [bind_eq, h]

/-- A charge, then a conversion that fits. -/
theorem charge_nc {D n : Nat} {m : Mach} (hl : Lens D m.evm) {f : Unit → M Unit}
    (hf : n ≤ m.evm.gasLeft → NCPost D (fun _ => True) (f () { m with evm := { m.evm with gasLeft := m.evm.gasLeft - n } })) :
    NCPost D (fun _ => True) ((chargeGas n >>= f) m) := by
  rw [bind_eq]
  by_cases h : n ≤ m.evm.gasLeft
  · rw [chargeGas_run h]; exact hf h
  · rw [chargeGas_oog (by omega)]; exact ⟨clean_halt _, hl.output⟩

theorem Lens.gasSub {D : Nat} {e : Evm} (h : Lens D e) (n : Nat) : Lens D { e with gasLeft := e.gasLeft - n } :=
  ⟨h.output, h.returnData, h.code, h.data, Nat.le_trans (Nat.sub_le _ _) h.gas⟩

theorem opMsize_nc {f : Fork} {D : Nat} (hD : D < 2 ^ 256) {m : Mach} (hm : Fits f D m) : NCPost D (fun _ => True) (opMsize m) := by
  have hs := hm.space
  unfold opMsize
  refine charge_nc hm.lens fun _ => ?_
  exact (nc_bind (nc_u256 (by show m.evm.memory.length < _; omega)) fun n => nc_bind (nc_push n) fun _ => nc_incPc 1) _ (hm.lens.gasSub _) trivial

theorem opPc_nc {f : Fork} {D : Nat} (hD : D < 2 ^ 256) {m : Mach} (hm : Fits f D m) (hpc : m.evm.pc < m.evm.code.length) :
    NCPost D (fun _ => True) (opPc m) := by
  have hs := hm.code
  unfold opPc
  refine charge_nc hm.lens fun _ => ?_
  exact (nc_bind (nc_u256 (by show m.evm.pc < _; omega)) fun n => nc_bind (nc_push n) fun _ => nc_incPc 1) _ (hm.lens.gasSub _) trivial

theorem opPush_nc {f : Fork} {D : Nat} (hD : D < 2 ^ 256) {m : Mach} (hm : Fits f D m) (hpc : m.evm.pc < m.evm.code.length) (k : Nat) :
    NCPost D (fun _ => True) (opPush k m) := by
  have hs := hm.code
  unfold opPush
  refine charge_nc hm.lens fun _ => ?_
  exact (nc_bind (nc_u256 (by show m.evm.pc + 1 < _; omega)) fun n => nc_bind (nc_push _) fun _ => nc_incPc _) _ (hm.lens.gasSub _) trivial

theorem memoryReadBytes_le (mem : Bytes) (s n : Nat) : (memoryReadBytes mem s n).length ≤ mem.length := by
  simp only [memoryReadBytes, slice, List.length_take, List.length_drop]; omega

theorem opReturn_nc {f : Fork} {D : Nat} {m : Mach} (hm : Fits f D m) : NCPost D (fun _ => True) (opReturn m) := by
  have hs := hm.space
  unfold opReturn
  match hst : m.evm.stack with
  | [] => simp only [bind_eq, pop, hst]; exact ⟨clean_halt _, hm.output⟩
  | [_] => simp only [bind_eq, pop, hst]; exact ⟨clean_halt _, hm.output⟩
  | s :: z :: rest =>
    have hp := expand_price m.evm.memory.length hm.memory [(s, z)]
    simp only [bind_eq, pop, hst, extendCost, getEvm, pure_eq, chargeGas]
    generalize calculateGasExtendMemory m.evm.memory.length [(s, z)] = ext at hp ⊢
    split
    · rename_i h; split at h <;> cases h
      rename_i hg
      refine ⟨⟨?_, hm.returnData, hm.code, hm.data, ?_⟩, trivial⟩
      · refine Nat.le_trans (memoryReadBytes_le _ _ _) ?_
        simp only [List.length_append, List.length_replicate, GAS_ZERO] at *
        omega
      · simp only; omega
    · rename_i h; split at h <;> cases h
      exact ⟨clean_halt _, hm.output⟩

theorem opRevert_nc {f : Fork} {D : Nat} {m : Mach} (hm : Fits f D m) : NCPost D (fun _ => True) (opRevert m) := by
  have hs := hm.space
  unfold opRevert
  match hst : m.evm.stack with
  | [] => simp only [bind_eq, pop, hst]; exact ⟨clean_halt _, hm.output⟩
  | [_] => simp only [bind_eq, pop, hst]; exact ⟨clean_halt _, hm.output⟩
  | s :: z :: rest =>
    have hp := expand_price m.evm.memory.length hm.memory [(s, z)]
    simp only [bind_eq, pop, hst, extendCost, getEvm, pure_eq, chargeGas]
    generalize calculateGasExtendMemory m.evm.memory.length [(s, z)] = ext at hp ⊢
    split
    · rename_i h; split at h <;> cases h
      rename_i hg
      refine ⟨clean_revert, ?_⟩
      refine Nat.le_trans (memoryReadBytes_le _ _ _) ?_
      simp only [List.length_append, List.length_replicate] at *
      omega
    · rename_i h; split at h <;> cases h
      exact ⟨clean_halt _, hm.output⟩

theorem opBlobbasefee_nc {E : Env} {f : Fork} {D : Nat} {m : Mach} (hm : Fits f D m) (hE : EnvFits m.world.state.fork E) :
    NCPost D (fun _ => True) (opBlobbasefee E m) := by
  have key : NCw D m.world m.evm.message (opBlobbasefee E) := by
    unfold opBlobbasefee
    refine ncw_bind (nc_chargeGas _) (fun _ _ _ h => (by rw [(chargeGas_ok h).2])) fun _ => ?_
    refine ncw_getState ?_
    exact ncw_of (nc_bind (nc_u256 hE.blobPrice) fun _ => nc_bind (nc_push _) fun _ => nc_incPc 1)
  exact key m hm.lens rfl rfl

/-- Every instruction that starts no other frame. -/
theorem opStep_nc' {E : Env} {f : Fork} (pm pcm : Sub) {D : Nat} (hD : D < 2 ^ 256) {m : Mach} (hm : Fits f D m) (hE : EnvFits m.world.state.fork E)
    (hpc : m.evm.pc < m.evm.code.length) (op : Op) (h1 : ∀ k : CallKind, op ≠ k.op) (h2 : ∀ k, op ≠ createInstr k) :
    NCPost D (fun _ => True) (opStep E pm pcm op m) := by
  have hc : m.evm.code ≠ [] := by intro h; rw [h] at hpc; simp at hpc
  cases op
  case sstore => exact opSstore_nc hm hc
  case selfdestruct => exact opSelfdestruct_nc hm
  case blobbasefee => exact opBlobbasefee_nc hm hE
  case extcodesize => exact opExtcodesize_nc hD hm
  case msize => exact opMsize_nc hD hm
  case pc => exact opPc_nc hD hm hpc
  case push k => exact opPush_nc hD hm hpc k
  case ret => exact opReturn_nc hm
  case revert => exact opRevert_nc hm
  case blockhash => exact opBlockhash_nc hE m hm.lens trivial
  case returndatacopy => exact opReturndatacopy_nc hD m hm.lens trivial
  case create => exact absurd rfl (h2 false)
  case create2 => exact absurd rfl (h2 true)
  case call => exact absurd rfl (h1 .call)
  case callcode => exact absurd rfl (h1 .callcode)
  case delegatecall => exact absurd rfl (h1 .delegatecall)
  case staticcall => exact absurd rfl (h1 .staticcall)
  all_goals exact opStep_nc E hE pm pcm hD _ rfl m hm.lens trivial

end Verif
