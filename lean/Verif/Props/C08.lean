import Verif.Lemmas.Agree
import Verif.Spec.Sample
/-!
Property C08: the gas given to callees, and what callers keep.

The theorems are about one instruction in an arbitrary frame with at most 1024 stack items and word-aligned memory; C12
proves that these two conditions hold at every point of every execution. `pm` and `pcm` are the procedures that run the
messages (arbitrary here, so the theorems hold for whatever the children do). The specification of operands and charges
is in `Verif/Spec/Calls.lean`.
-/
namespace Verif.Props
open Verif Verif.Spec

section
variable (E : Env) (pm pcm : Sub) (m m' : Mach) (hs : m.evm.stack.length ≤ 1024) (ha : m.evm.memory.length % 32 = 0)
include hs ha

omit hs in
/-- **C08**, a call that cannot pay its charges, and before tangerine_whistle the gas it asks for, runs out of gas. -/
theorem C08_call_unpayable (k : CallKind) (o : CallOperands) (ho : callOperands k m.evm.stack = some o)
    (h : m.evm.gasLeft < forwarded k m o + callCharges k m o) : ∃ m', opStep E pm pcm k.op m = .err (.halt .outOfGas) m' := by
  rw [opStep_callOp]; exact (callOp_oog ha ho h).imp fun _ h => h.1

/-- **C08**, the gas given to the callee of a call is exactly the forwarded amount plus the stipend: the instruction's
result does not depend on what would become of any other message. -/
theorem C08_call_sends (k : CallKind) (o : CallOperands) (ho : callOperands k m.evm.stack = some o) :
    OnlySends (fun msg => msg.gas = forwarded k m o + stipend o) (fun pm => opStep E pm pcm k.op m) := by
  intro pm pm' h
  refine call_agree pm pm' pcm pcm ha hs fun o' ho' _ _ => h _ _ ?_
  rw [ho] at ho'; cases ho'; rfl

omit hs ha in
/-- **C08**, what is forwarded is at most all but one 64th of what is left after the other charges, since tangerine_whistle, and at
most what was asked for; and the stipend is 2300 exactly when the call has a non-zero value operand. Charges that can be paid leave
enough for what is forwarded; before tangerine_whistle exactly what is asked for is forwarded. -/
theorem C08_forwarded_bound (k : CallKind) (o : CallOperands) :
    (m.world.state.fork.since .tangerineWhistle = true →
      forwarded k m o ≤ m.evm.gasLeft - callCharges k m o - (m.evm.gasLeft - callCharges k m o) / 64 ∧
      (callCharges k m o ≤ m.evm.gasLeft → forwarded k m o + callCharges k m o ≤ m.evm.gasLeft)) ∧
    (m.world.state.fork.since .tangerineWhistle = false → forwarded k m o = o.gas.toNat) ∧
    forwarded k m o ≤ o.gas.toNat ∧ stipend o = (if o.value = 0 then 0 else 2300) := by
  refine ⟨fun hf => ⟨?_, affordable hf⟩, fun hf => ?_, ?_, by unfold stipend; split <;> simp_all⟩
  · unfold forwarded; rw [if_pos hf]; exact Nat.min_le_right _ _
  · unfold forwarded; rw [if_neg (by rw [hf]; simp)]
  · unfold forwarded; split
    · exact Nat.min_le_left _ _
    · exact Nat.le_refl _

/-- **C08**, accounting of the calls: nothing is lost or made. A call is refused, when the caller cannot pay the value
or is at depth 1024 already: nothing is forwarded, but the stipend is credited. Otherwise the callee runs with exactly
the gas of `C08_call_sends`, and the caller is left with what it had, less charges and forwarded gas, plus whatever the
callee returns. In both cases it keeps at least one 64th of what the charges left, since tangerine_whistle. -/
theorem C08_call_accounting (k : CallKind) (h : opStep E pm pcm k.op m = .ok () m') :
    ∃ o, callOperands k m.evm.stack = some o ∧ callCharges k m o ≤ m.evm.gasLeft ∧
      (m.world.state.fork.since .tangerineWhistle = true → (m.evm.gasLeft - callCharges k m o) / 64 ≤ m'.evm.gasLeft) ∧
      if (getAccount m.world.state m.evm.message.currentTarget).balance < o.value ∨ m.evm.message.depth ≥ 1024 then
        m'.evm.gasLeft = m.evm.gasLeft - callCharges k m o + stipend o ∧ m'.evm.stack = 0 :: o.rest ∧ m'.world = m.world
      else ∃ msg child w, pm msg m.world = .ok (child, w) ∧ msg.gas = forwarded k m o + stipend o ∧ m'.world = w ∧
        m'.evm.gasLeft + forwarded k m o + callCharges k m o = m.evm.gasLeft + child.gasLeft ∧
        m'.evm.stack = (if child.error.isSome then 0 else 1) :: o.rest := by
  rw [opStep_callOp] at h
  obtain ⟨o, ho, hg, -, hc⟩ := callOp_inv ha hs h
  have hfw := fun hf => ((C08_forwarded_bound m k o).1 hf).1
  refine ⟨o, ho, by omega, ?_⟩
  rcases hc with ⟨hno, rfl⟩ | ⟨hyes, child, w, hp, rfl⟩
  · rw [if_pos (by rcases hno with h | h; exact .inl h; exact .inr (by simp [STACK_DEPTH_LIMIT] at h; omega))]
    refine ⟨fun _ => ?_, rfl, rfl, rfl⟩
    show _ ≤ m.evm.gasLeft - callCharges k m o + stipend o
    omega
  · rw [if_neg (by
      intro h; apply hyes
      rcases h with h | h
      · exact .inl h
      · exact .inr (by simp [STACK_DEPTH_LIMIT]; omega))]
    have hgas : (callDone (callMid k m o) (callArgs k m o) child w).evm.gasLeft =
        m.evm.gasLeft - (forwarded k m o + callCharges k m o) + child.gasLeft := by
      unfold callDone incorporate; simp only; split <;> rfl
    rw [hgas]
    exact ⟨fun hf => by have := hfw hf; omega, _, child, w, hp, rfl, rfl, by omega, rfl⟩

omit hs in
/-- **C08**, a create that cannot pay its charges runs out of gas. -/
theorem C08_create_unpayable (k : Bool) (o : CreateOperands) (ho : createOperands k m.evm.stack = some o)
    (h : m.evm.gasLeft < createCharges m o) : ∃ m', opStep E pm pcm (createInstr k) m = .err (.halt .outOfGas) m' := by
  rw [opStep_createOp]; exact (createOp_oog ha ho h).imp fun _ h => h.1

/-- **C08**, a create gives its init code exactly `createForwarded`: all but one 64th of what the charges leave, and all of it before
tangerine_whistle. -/
theorem C08_create_sends (k : Bool) (o : CreateOperands) (ho : createOperands k m.evm.stack = some o) :
    OnlySends (fun msg => msg.gas = createForwarded m o) (fun pcm => opStep E pm pcm (createInstr k) m) := by
  intro pcm pcm' h
  refine create_agree pm pm pcm pcm' ha hs fun o' ho' _ _ _ => h _ _ ?_
  rw [ho] at ho'; cases ho'; rfl

/-- **C08**, accounting of the creates. A create is refused without further charge when the creator cannot pay the
endowment, has the maximal nonce or is at depth 1024 already. Otherwise all but one 64th (before tangerine_whistle, all) is taken away,
and what the init code leaves comes back; nothing comes back when the address is occupied. -/
theorem C08_create_accounting (k : Bool) (h : opStep E pm pcm (createInstr k) m = .ok () m') :
    ∃ o, createOperands k m.evm.stack = some o ∧ createCharges m o ≤ m.evm.gasLeft ∧
      (m.world.state.fork.since .tangerineWhistle = true → (m.evm.gasLeft - createCharges m o) / 64 ≤ m'.evm.gasLeft) ∧
      if (getAccount m.world.state m.evm.message.currentTarget).balance < o.value ∨
          (getAccount m.world.state m.evm.message.currentTarget).nonce = 2 ^ 64 - 1 ∨ m.evm.message.depth ≥ 1024 then
        m'.evm.gasLeft + createCharges m o = m.evm.gasLeft ∧ m'.evm.stack = 0 :: o.rest ∧ m'.world = m.world
      else (m'.evm.gasLeft + createForwarded m o + createCharges m o = m.evm.gasLeft ∧ m'.evm.stack = 0 :: o.rest) ∨
        ∃ msg w0 child w, pcm msg w0 = .ok (child, w) ∧ msg.gas = createForwarded m o ∧ m'.world = w ∧
          m'.evm.gasLeft + createForwarded m o + createCharges m o = m.evm.gasLeft + child.gasLeft ∧
          m'.evm.stack = (if child.error.isSome then 0 else addressWord child.message.currentTarget) :: o.rest := by
  rw [opStep_createOp] at h
  obtain ⟨o, ho, hg, -, -, hc⟩ := createOp_inv ha hs h
  have hfw : m.world.state.fork.since .tangerineWhistle = true → createForwarded m o =
    m.evm.gasLeft - createCharges m o - (m.evm.gasLeft - createCharges m o) / 64 := fun hf => if_pos hf
  have hle : createForwarded m o ≤ m.evm.gasLeft - createCharges m o := by
    unfold createForwarded allButOne64th; split <;> omega
  have hmax : createMessageGas (createMid m o).world.state.fork (createMid m o).evm.gasLeft = createForwarded m o := rfl
  have hmid : (createMid m o).evm.gasLeft = m.evm.gasLeft - createCharges m o := rfl
  refine ⟨o, ho, hg, ?_⟩
  have hcond : ∀ x y : Prop, (x ∨ y ∨ m.evm.message.depth + 1 > STACK_DEPTH_LIMIT ↔ x ∨ y ∨ m.evm.message.depth ≥ 1024) := by
    intro x y
    have : m.evm.message.depth + 1 > STACK_DEPTH_LIMIT ↔ m.evm.message.depth ≥ 1024 := by simp only [STACK_DEPTH_LIMIT]; omega
    rw [this]
  simp only [hcond] at hc
  rcases hc with ⟨hno, rfl⟩ | ⟨hyes, -, rfl⟩ | ⟨hyes, -, child, w, hp, rfl⟩
  · rw [if_pos hno]
    refine ⟨fun _ => ?_, ?_, rfl, rfl⟩
    · show _ ≤ (createMid m o).evm.gasLeft; omega
    · show (createMid m o).evm.gasLeft + _ = _; omega
  · rw [if_neg hyes]
    have hgas : (creating (createMid m o) (createAddress E m o)).evm.gasLeft =
        (createMid m o).evm.gasLeft - createForwarded m o := rfl
    refine ⟨fun hf => ?_, .inl ⟨?_, rfl⟩⟩
    · have := hfw hf
      show _ ≤ (creating (createMid m o) (createAddress E m o)).evm.gasLeft; omega
    · show (creating (createMid m o) (createAddress E m o)).evm.gasLeft + _ + _ = _; omega
  · rw [if_neg hyes]
    have hgas : (incorporate (creating (createMid m o) (createAddress E m o)) child w).gasLeft =
        (createMid m o).evm.gasLeft - createForwarded m o + child.gasLeft := by
      unfold incorporate; split <;> rfl
    refine ⟨fun hf => ?_, .inr ⟨_, _, child, w, hp, hmax, rfl, ?_, rfl⟩⟩
    · have := hfw hf
      show _ ≤ (incorporate (creating (createMid m o) (createAddress E m o)) child w).gasLeft; omega
    · show (incorporate (creating (createMid m o) (createAddress E m o)) child w).gasLeft + _ + _ = _; omega

end

/-! ### Concrete cases -/
section Examples
open Verif.Sample

/-- A frame of `0xaa` (balance 50) with the given stack. -/
def frame (gas : Nat) (stack : List Word) : Mach :=
  let w := worldOf [eoa, (0xaa, ⟨1, 50, [0]⟩), (0xbb, ⟨1, 0, [0x5f, 0x5f, 0xfd]⟩)] []
  ⟨{ initEvm (callTo w 0xaa gas 0) with stack := stack }, w⟩

/-- CALL of a cold account with value 3: 2600 for the access, 9000 for the value and 3 for a word of memory; of the
remaining 8397 at most 8266 can be forwarded, and the callee gets 2300 more. -/
example : callOperands .call (frame 20000 [0xffffff, 0xbb, 3, 0, 32, 0, 0]).evm.stack =
      some ⟨0xffffff, 0xbb, 3, 0, 32, 0, 0, []⟩ := by decide
example : callCharges .call (frame 20000 [0xffffff, 0xbb, 3, 0, 32, 0, 0]) ⟨0xffffff, 0xbb, 3, 0, 32, 0, 0, []⟩ = 11603 := by
  decide +kernel
example : forwarded .call (frame 20000 [0xffffff, 0xbb, 3, 0, 32, 0, 0]) ⟨0xffffff, 0xbb, 3, 0, 32, 0, 0, []⟩ = 8266 := by
  decide +kernel

/-- The callee (PUSH0, PUSH0, REVERT) uses 4 units; 131 kept + 8266 + 2300 - 4. -/
example : (match opStep env (processMessage env (exec env)) (processCreateMessage env (exec env)) .call
      (frame 20000 [0xffffff, 0xbb, 3, 0, 32, 0, 0]) with
    | .ok _ m => some (m.evm.gasLeft, m.evm.stack)
    | .err _ _ => none) = some (10693, [0]) := by decide +kernel

/-- A refused call (value 51, balance 50). -/
example : (match opStep env (processMessage env (exec env)) (processCreateMessage env (exec env)) .call
      (frame 20000 [0xffffff, 0xbb, 51, 0, 32, 0, 0]) with
    | .ok _ m => some (m.evm.gasLeft, m.evm.stack)
    | .err _ _ => none) = some (10697, [0]) := by decide +kernel

/-- CREATE with empty init code: 32000 charged, the rest comes back. -/
example : (match opStep env (processMessage env (exec env)) (processCreateMessage env (exec env)) .create
      (frame 40000 [5, 0, 0]) with
    | .ok _ m => some (m.evm.gasLeft, m.evm.stack.length)
    | .err _ _ => none) = some (8000, 1) := by decide +kernel

/-- Out of gas. -/
example : (frame 11602 [0xffffff, 0xbb, 3, 0, 32, 0, 0]).evm.gasLeft <
    callCharges .call (frame 11602 [0xffffff, 0xbb, 3, 0, 32, 0, 0]) ⟨0xffffff, 0xbb, 3, 0, 32, 0, 0, []⟩ := by decide +kernel

end Examples
end Verif.Props
