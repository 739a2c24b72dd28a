import Verif.Lemmas.NoCrashOps
/-! No internal errors: calls, creations, messages and whole executions. -/
namespace Verif
open Spec

/-- Requirements on a message, beside those of `PreMsg` and `PreCreate` since spurious_dragon. -/
structure MsgFits (f : Fork) (D : Nat) (msg : Message) (w : World) : Prop where
  default : w.state.mainTrie.default = none
  depth : msg.depth ≤ 1024
  gas : 32 * msg.gas ≤ D
  code : msg.code.length ≤ D
  data : msg.data.length ≤ D
  codes : ∀ a, (getAccount w.state a).code.length ≤ D
  supply : Verif.supply w.state < supplyLimit f
  fork : w.state.fork = f
  funds : msg.shouldTransferValue = true → msg.value ≤ (getAccount w.state msg.caller).balance

/-- The outcome of a message: no internal error, a bounded output, bounded codes. -/
def MsgPost (f : Fork) (D : Nat) : Except (Exn × World) (Evm × World) → Prop
  | .ok (child, w') => child.output.length ≤ D ∧ ∀ a, (getAccount w'.state a).code.length ≤ D
  | .error (e, _) => e.Tame f ∧ ¬ Caught e

def SubFits (f : Fork) (D : Nat) (pm : Sub) : Prop := ∀ msg w, (f.since .spuriousDragon = true → PreMsg msg w) → MsgFits f D msg w → MsgPost f D (pm msg w)
def CreateFits (f : Fork) (D : Nat) (pcm : Sub) : Prop := ∀ msg w, (f.since .spuriousDragon = true → PreCreate msg w) → MsgFits f D msg w → MsgPost f D (pcm msg w)

/-- The local part of the outcome of one instruction. -/
def StepFits (f : Fork) (D : Nat) : Res Unit → Prop
  | .ok _ m' => m'.evm.output.length ≤ D ∧ m'.evm.returnData.length ≤ D ∧ m'.evm.memory.length + 32 * m'.evm.gasLeft ≤ D ∧
      ∀ a, (getAccount m'.world.state a).code.length ≤ D
  | .err e m' => e.Tame f ∧ (Caught e → m'.evm.output.length ≤ D)

section
variable {f : Fork} {D : Nat} {m : Mach}

theorem stipend_paid (k : CallKind) (m : Mach) (o : CallOperands) :
    stipend o + 3 * (callWords m o - m.evm.memory.length / 32) ≤ callCharges k m o := by
  have h1 := memoryPrice_diff (a := m.evm.memory.length / 32) (b := callWords m o) (by unfold callWords; omega)
  unfold stipend callCharges
  split <;> omega

/-- Gas and memory when the callee starts. -/
theorem call_space (hm : Fits f D m) (k : CallKind) (o : CallOperands) (hg : forwarded k m o + callCharges k m o ≤ m.evm.gasLeft) :
    (callMid k m o).evm.memory.length + 32 * ((callMid k m o).evm.gasLeft + (forwarded k m o + stipend o)) ≤ D ∧
    (callMid k m o).evm.memory.length = 32 * callWords m o ∧
    m.evm.gasLeft - callCharges k m o = (callMid k m o).evm.gasLeft + forwarded k m o := by
  have hs := hm.space
  have hp := stipend_paid k m o
  have ha : m.evm.memory.length % 32 = 0 := hm.memory
  have hw : m.evm.memory.length / 32 ≤ callWords m o := by unfold callWords; omega
  have hf : forwarded k m o ≤ m.evm.gasLeft - callCharges k m o := by omega
  have e1 : (callMid k m o).evm.memory.length = 32 * callWords m o := by
    simp only [callMid, callFrame, List.length_append, List.length_replicate]; omega
  have e2 : (callMid k m o).evm.gasLeft = m.evm.gasLeft - (forwarded k m o + callCharges k m o) := rfl
  rw [e1, e2]
  refine ⟨?_, rfl, ?_⟩ <;> omega

theorem wordsFor_cover {s z : Word} (h : z ≠ 0) : s.toNat + z.toNat ≤ 32 * wordsFor s z := by
  unfold wordsFor; rw [if_neg h]; omega

theorem callDone_memory (k : CallKind) (m : Mach) (o : CallOperands) (child : Evm) (w : World)
    (h : (callMid k m o).evm.memory.length = 32 * callWords m o) :
    (callDone (callMid k m o) (callArgs k m o) child w).evm.memory.length = 32 * callWords m o := by
  simp only [callDone, callArgs]
  rw [memoryWrite_length, h]
  by_cases hz : o.outSize = 0
  · left; simp [hz]
  · right
    have h1 := wordsFor_cover (s := o.outStart) hz
    have h2 : wordsFor o.outStart o.outSize ≤ callWords m o := by unfold callWords; omega
    rw [h, List.length_take]; omega

theorem call_step {E : Env} {pm pcm : Sub} (hpm : SubFits f D pm) (hgm : SubGas pm) (hD : D < 2 ^ 256) (hm : Fits f D m)
    (hc : m.evm.code ≠ []) (k : CallKind) : StepFits f D (opStep E pm pcm k.op m) := by
  match ho : callOperands k m.evm.stack with
  | none =>
    obtain ⟨x, m1, h1, h2⟩ := opStep_underflow E pm pcm k.op (by cases k <;> simp [CallKind.op]) m (callOperands_none ho)
    rw [h1]; exact ⟨(clean_halt _).tame, fun _ => by rw [h2]; exact hm.output⟩
  | some o =>
    rw [opStep_callOp]
    by_cases hg : forwarded k m o + callCharges k m o ≤ m.evm.gasLeft
    · rw [callOp_cases hm.memory hm.stack ho hg]
      obtain ⟨hsp, hml, hgl⟩ := call_space hm k o hg
      split
      · exact ⟨(clean_halt _).tame, fun _ => hm.output⟩
      · split
        · refine ⟨hm.output, Nat.zero_le _, ?_, hm.codes⟩
          show (callMid k m o).evm.memory.length + 32 * (m.evm.gasLeft - callCharges k m o + stipend o) ≤ D
          omega
        · rename_i hno
          have hdep : m.evm.message.depth + 1 ≤ 1024 := by simp only [STACK_DEPTH_LIMIT] at hno; omega
          have hp := fun hf => call_preMsg (k := k) (o := o) (hm.good hf).toPre hc hdep
          have hf : MsgFits f D (callMessage (callMid k m o) (callArgs k m o)) m.world := by
            refine ⟨hm.default, hdep, ?_, hm.codes _, ?_, hm.codes, hm.supply, hm.isFork, fun ht => ?_⟩
            · show 32 * (forwarded k m o + stipend o) ≤ D
              omega
            · exact Nat.le_trans (memoryReadBytes_le _ _ _) (by omega)
            · have hk : k ≠ .delegatecall := by simpa [callMessage, callArgs] using ht
              have hno' : ¬ ((getAccount m.world.state m.self).balance < o.value) := fun h => hno (.inl h)
              show (callArgs k m o).value ≤ (getAccount m.world.state (callArgs k m o).caller).balance
              simp only [callArgs, hk, if_false]
              simpa [BitVec.lt_def, BitVec.le_def] using hno'
          have hpost := hpm _ _ hp hf
          match hr : pm (callMessage (callMid k m o) (callArgs k m o)) m.world with
          | .error (e, w) =>
            rw [hr] at hpost
            exact ⟨hpost.1, fun he => absurd he hpost.2⟩
          | .ok (child, w) =>
            rw [hr] at hpost
            have hout : child.output.length ≤ D := hpost.1
            simp only
            rw [if_pos (by omega)]
            have hgas : child.gasLeft ≤ forwarded k m o + stipend o := hgm _ _ _ _ hr
            refine ⟨?_, hout, ?_, hpost.2⟩
            · simp only [callDone, incorporate]; split <;> exact hm.output
            · rw [callDone_memory k m o child w hml, ← hml]
              have : (callDone (callMid k m o) (callArgs k m o) child w).evm.gasLeft = (callMid k m o).evm.gasLeft + child.gasLeft := by
                simp only [callDone, incorporate]; split <;> rfl
              rw [this]; omega
    · obtain ⟨m1, h1, h2⟩ := callOp_oog (pm := pm) hm.memory ho (by omega)
      rw [h1]; exact ⟨(clean_halt _).tame, fun _ => by rw [h2]; exact hm.output⟩

theorem create_space (hm : Fits f D m) (o : CreateOperands) (hg : createCharges m o ≤ m.evm.gasLeft) :
    (createMid m o).evm.memory.length + 32 * (createMid m o).evm.gasLeft ≤ D := by
  have hs := hm.space
  have ha : m.evm.memory.length % 32 = 0 := hm.memory
  have h1 := memoryPrice_diff (a := m.evm.memory.length / 32) (b := max (m.evm.memory.length / 32) (wordsFor o.start o.size)) (by omega)
  have h2 : memoryPrice (max (m.evm.memory.length / 32) (wordsFor o.start o.size)) - memoryPrice (m.evm.memory.length / 32)
      ≤ createCharges m o := by unfold createCharges; omega
  simp only [createMid, createFrame, List.length_append, List.length_replicate]
  omega

theorem create_step {E : Env} {pm pcm : Sub} (hpcm : CreateFits f D pcm) (hgcm : SubGas pcm) (hm : Fits f D m)
    (hc : m.evm.code ≠ []) (k : Bool) : StepFits f D (opStep E pm pcm (createInstr k) m) := by
  match ho : createOperands k m.evm.stack with
  | none =>
    obtain ⟨x, m1, h1, h2⟩ := opStep_underflow E pm pcm (createInstr k) (by cases k <;> simp [createInstr]) m (createOperands_none ho)
    rw [h1]; exact ⟨(clean_halt _).tame, fun _ => by rw [h2]; exact hm.output⟩
  | some o =>
    rw [opStep_createOp]
    by_cases hg : createCharges m o ≤ m.evm.gasLeft
    · rw [createOp_cases hm.memory hm.stack ho hg]
      have hsp := create_space hm o hg
      simp only
      split
      · exact ⟨(clean_halt _).tame, fun _ => hm.output⟩
      · rename_i hlen
        split
        · exact ⟨(clean_halt _).tame, fun _ => hm.output⟩
        · rename_i hst
          split
          · exact ⟨hm.output, Nat.zero_le _, hsp, hm.codes⟩
          · rename_i hno
            have hdep : m.evm.message.depth + 1 ≤ 1024 := by simp only [STACK_DEPTH_LIMIT] at hno; omega
            have hcodes : ∀ a, (getAccount (incrementNonce m.world.state m.self) a).code.length ≤ D := by
              intro a; rw [(incNonce_account _ _ _).1]; exact hm.codes a
            split
            · refine ⟨hm.output, Nat.zero_le _, ?_, hcodes⟩
              show (createMid m o).evm.memory.length + 32 * ((createMid m o).evm.gasLeft - createMessageGas m.world.state.fork (createMid m o).evm.gasLeft) ≤ D
              omega
            · rename_i hfree
              have hp := fun hf => create_preCreate (hm.good hf).toPre hc hdep (by simpa using hfree)
              have hmax : createMessageGas m.world.state.fork (createMid m o).evm.gasLeft ≤ (createMid m o).evm.gasLeft := by
                unfold createMessageGas maxMessageCallGas; split <;> omega
              have hfork : (incrementNonce m.world.state m.self).fork = f := by
                have := hm.isFork; simpa [incrementNonce] using this
              have hf : MsgFits f D (createMessage (createMid m o) o.value (createAddress E m o) (initCode m o))
                  (creating (createMid m o) (createAddress E m o)).world := by
                refine ⟨(modifyState'_default _ _ _).trans hm.default, hdep, ?_, ?_, Nat.zero_le _, hcodes, ?_, hfork, fun _ => ?_⟩
                · show 32 * createMessageGas m.world.state.fork (createMid m o).evm.gasLeft ≤ D
                  omega
                · show (initCode m o).length ≤ D
                  exact Nat.le_trans (memoryReadBytes_le _ _ _) (by omega)
                · show Verif.supply (incrementNonce m.world.state m.self) < _
                  rw [incNonce_supply hm.default]; exact hm.supply
                · show o.value ≤ (getAccount (incrementNonce m.world.state m.self) m.self).balance
                  rw [(incNonce_account _ _ _).2.2]
                  have hno' : ¬ ((getAccount m.world.state m.self).balance < o.value) := fun h => hno (.inl h)
                  simpa [BitVec.lt_def, BitVec.le_def] using hno'
              have hpost := hpcm _ _ hp hf
              match hr : pcm (createMessage (createMid m o) o.value (createAddress E m o) (initCode m o))
                  (creating (createMid m o) (createAddress E m o)).world with
              | .error (e, w) =>
                rw [hr] at hpost
                exact ⟨hpost.1, fun he => absurd he hpost.2⟩
              | .ok (child, w) =>
                rw [hr] at hpost
                have hout : child.output.length ≤ D := hpost.1
                have hgas : child.gasLeft ≤ createMessageGas m.world.state.fork (createMid m o).evm.gasLeft := hgcm _ _ _ _ hr
                refine ⟨?_, ?_, ?_, hpost.2⟩
                · simp only [incorporate]; split <;> exact hm.output
                · simp only; split
                  · exact hout
                  · exact Nat.zero_le _
                · have e1 : (incorporate (creating (createMid m o) (createAddress E m o)) child w).gasLeft =
                      (createMid m o).evm.gasLeft - createMessageGas m.world.state.fork (createMid m o).evm.gasLeft + child.gasLeft := by
                    simp only [incorporate]; split <;> rfl
                  have e2 : (incorporate (creating (createMid m o) (createAddress E m o)) child w).memory = (createMid m o).evm.memory := by
                    simp only [incorporate]; split <;> rfl
                  simp only [e1, e2]; omega
    · obtain ⟨m1, h1, h2⟩ := createOp_oog (E := E) (pcm := pcm) hm.memory ho (by omega)
      rw [h1]; exact ⟨(clean_halt _).tame, fun _ => by rw [h2]; exact hm.output⟩
end

/-- One instruction: no internal error, and the lengths stay bounded. -/
theorem opStep_fits {E : Env} {pm pcm : Sub} {f : Fork} {D : Nat} (hD : D < 2 ^ 256)
    (hpm : SubFits f D pm) (hpcm : CreateFits f D pcm) (hgm : SubGas pm) (hgcm : SubGas pcm)
    (hum : SubUncaught pm) (hucm : SubUncaught pcm) {m : Mach} (hm : Fits f D m) (hE : EnvFits m.world.state.fork E)
    (hpc : m.evm.pc < m.evm.code.length) (op : Op) : StepFits f D (opStep E pm pcm op m) := by
  have hc : m.evm.code ≠ [] := by intro h; rw [h] at hpc; simp at hpc
  by_cases h1 : ∃ k : CallKind, op = k.op
  · obtain ⟨k, rfl⟩ := h1; exact call_step hpm hgm hD hm hc k
  · by_cases h2 : ∃ k, op = createInstr k
    · obtain ⟨k, rfl⟩ := h2; exact create_step hpcm hgcm hm hc k
    · have h1 : ∀ k : CallKind, op ≠ k.op := fun k hk => h1 ⟨k, hk⟩
      have h2 : ∀ k, op ≠ createInstr k := fun k hk => h2 ⟨k, hk⟩
      have h := opStep_nc' pm pcm hD hm hE hpc op h1 h2
      have hk : kindOf op ≠ .call ∧ kindOf op ≠ .create := by
        cases op <;> simp [kindOf]
        case create => exact h2 false rfl
        case create2 => exact h2 true rfl
        case call => exact h1 .call rfl
        case callcode => exact h1 .callcode rfl
        case delegatecall => exact h1 .delegatecall rfl
        case staticcall => exact h1 .staticcall rfl
      have hg := (step_gas hgm hgcm hum hucm (opStep_effect E pm pcm op m hm.stack)).1
      match hr : opStep E pm pcm op m with
      | .ok _ m' =>
        rw [hr] at h hg
        have := opStep_space E pm pcm op h1 h2 hm.memory hg.1 hr
        have hs := hm.space
        exact ⟨h.1.output, h.1.returnData, by omega, fun a => by rw [step_codes hk hm.stack hr]; exact hm.codes a⟩
      | .err e m' => rw [hr] at h; exact ⟨h.1.tame, fun _ => h.2⟩

end Verif
