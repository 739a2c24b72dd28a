import Verif.Lemmas.Fuel
import Verif.Lemmas.CallSpec
import Verif.Lemmas.Arity
/-! The results of call and create instructions depend on the message processor only at the message they send. -/
namespace Verif
open Spec

/-- The instruction of a call. -/
def _root_.Verif.Spec.CallKind.op : CallKind → Op
  | .call => .call | .callcode => .callcode | .delegatecall => .delegatecall | .staticcall => .staticcall

/-- The instruction of a create. -/
def _root_.Verif.Spec.createInstr : Bool → Op
  | false => .create | true => .create2

theorem opStep_callOp (E : Env) (pm pcm : Sub) (k : CallKind) : opStep E pm pcm k.op = callOp pm k := by
  cases k <;> rfl
theorem opStep_createOp (E : Env) (pm pcm : Sub) (k : Bool) : opStep E pm pcm (createInstr k) = createOp E pcm k := by
  cases k <;> rfl

/-- A processor that gives up. -/
def noSub : Sub := fun _ w => .error (.outOfFuel, w)
theorem leS_noSub (s : Sub) : LeS noSub s := fun _ w => .inl ⟨w, rfl⟩

/-- If an instruction gives a result without sending a message, this is its result for every processor. -/
theorem opStep_indep {E : Env} {op : Op} {m : Mach} (pm pm' pcm pcm' : Sub)
    (h : ∀ m', opStep E noSub noSub op m ≠ .err .outOfFuel m') : opStep E pm pcm op m = opStep E pm' pcm' op m := by
  have h1 := leM_opStep E (leS_noSub pm) (leS_noSub pcm) op m
  have h2 := leM_opStep E (leS_noSub pm') (leS_noSub pcm') op m
  rcases h1 with ⟨m', e⟩ | e
  · exact absurd e (h m')
  · rcases h2 with ⟨m', e'⟩ | e'
    · exact absurd e' (h m')
    · rw [← e, ← e']

theorem callOperands_none {k : CallKind} {s : List Word} (h : callOperands k s = none) : s.length < removed k.op := by
  rcases Nat.lt_or_ge s.length (removed k.op) with h' | h'
  · exact h'
  · exfalso
    cases k <;> simp only [removed, CallKind.op] at h' <;> unfold callOperands at h <;>
    (match s, h' with
     | _ :: _ :: _ :: _ :: _ :: _ :: r, h' =>
       first
       | (simp at h; done)
       | (match r, h' with
          | _ :: _, _ => simp at h
          | [], h' => simp at h'))

theorem createOperands_none {k : Bool} {s : List Word} (h : createOperands k s = none) :
    s.length < removed (createInstr k) := by
  rcases Nat.lt_or_ge s.length (removed (createInstr k)) with h' | h'
  · exact h'
  · exfalso
    cases k <;> simp only [removed, createInstr] at h' <;> unfold createOperands at h <;>
    (match s, h' with
     | _ :: _ :: _ :: r, h' =>
       first
       | (simp at h; done)
       | (match r, h' with
          | _ :: _, _ => simp at h
          | [], h' => simp at h'))

/-- The result of a call depends on the processor only at the message of the call. -/
theorem call_agree {E : Env} {k : CallKind} {m : Mach} (pm pm' pcm pcm' : Sub) (ha : Aligned m.evm.memory)
    (hlen : m.evm.stack.length ≤ 1024)
    (h : ∀ o, callOperands k m.evm.stack = some o → forwarded k m o + callCharges k m o ≤ m.evm.gasLeft →
      ¬ (m.evm.message.depth + 1 > STACK_DEPTH_LIMIT) →
      pm (callMessage (callMid k m o) (callArgs k m o)) m.world = pm' (callMessage (callMid k m o) (callArgs k m o)) m.world) :
    opStep E pm pcm k.op m = opStep E pm' pcm' k.op m := by
  match ho : callOperands k m.evm.stack with
  | none =>
    refine opStep_indep _ _ _ _ fun m' e => ?_
    obtain ⟨x, m1, h1, _⟩ := opStep_underflow E noSub noSub k.op (by cases k <;> simp [CallKind.op]) m (callOperands_none ho)
    rw [h1] at e; cases e
  | some o =>
    by_cases hg : forwarded k m o + callCharges k m o ≤ m.evm.gasLeft
    · rw [opStep_callOp, opStep_callOp, callOp_cases ha hlen ho hg, callOp_cases ha hlen ho hg]
      by_cases h3 : m.evm.message.depth + 1 > STACK_DEPTH_LIMIT
      · simp only [h3, or_true, if_true]
      · rw [h o ho hg h3]
    · refine opStep_indep _ _ _ _ fun m' e => ?_
      obtain ⟨m1, h1, _⟩ := callOp_oog (pm := noSub) ha ho (by omega)
      rw [opStep_callOp, h1] at e; cases e

/-- The result of a create depends on the processor only at the message of the create. -/
theorem create_agree {E : Env} {k : Bool} {m : Mach} (pm pm' pcm pcm' : Sub) (ha : Aligned m.evm.memory)
    (hlen : m.evm.stack.length ≤ 1024)
    (h : ∀ o, createOperands k m.evm.stack = some o → createCharges m o ≤ m.evm.gasLeft →
      ¬ (m.evm.message.depth + 1 > STACK_DEPTH_LIMIT) → m.evm.message.isStatic = false →
      let a := createAddress E m o
      let msg := createMessage (createMid m o) o.value a (initCode m o)
      pcm msg (creating (createMid m o) a).world = pcm' msg (creating (createMid m o) a).world) :
    opStep E pm pcm (createInstr k) m = opStep E pm' pcm' (createInstr k) m := by
  match ho : createOperands k m.evm.stack with
  | none =>
    refine opStep_indep _ _ _ _ fun m' e => ?_
    obtain ⟨x, m1, h1, _⟩ := opStep_underflow E noSub noSub (createInstr k) (by cases k <;> simp [createInstr]) m
      (createOperands_none ho)
    rw [h1] at e; cases e
  | some o =>
    by_cases hg : createCharges m o ≤ m.evm.gasLeft
    · rw [opStep_createOp, opStep_createOp, createOp_cases ha hlen ho hg, createOp_cases ha hlen ho hg]
      by_cases hs : m.evm.message.isStatic = true
      · simp only [hs, if_true]
      · by_cases h3 : m.evm.message.depth + 1 > STACK_DEPTH_LIMIT
        · simp only [h3, or_true, if_true]
        · have := h o ho hg h3 (by simpa using hs)
          simp only [this]
    · refine opStep_indep _ _ _ _ fun m' e => ?_
      obtain ⟨m1, h1, _⟩ := createOp_oog (E := E) (pcm := noSub) ha ho (by omega)
      rw [opStep_createOp, h1] at e; cases e

/-- The other instructions do not use the processors. -/
theorem other_agree (E : Env) (pm pm' pcm pcm' : Sub) (op : Op) (h1 : ∀ k : CallKind, op ≠ k.op)
    (h2 : ∀ k, op ≠ createInstr k) : opStep E pm pcm op = opStep E pm' pcm' op := by
  cases op
  case create => exact absurd rfl (h2 false)
  case create2 => exact absurd rfl (h2 true)
  case call => exact absurd rfl (h1 .call)
  case callcode => exact absurd rfl (h1 .callcode)
  case delegatecall => exact absurd rfl (h1 .delegatecall)
  case staticcall => exact absurd rfl (h1 .staticcall)
  all_goals rfl

theorem createOp_inv {E : Env} {pcm : Sub} {k : Bool} {m m' : Mach} (ha : Aligned m.evm.memory)
    (hlen : m.evm.stack.length ≤ 1024) (h : createOp E pcm k m = .ok () m') :
    ∃ o, createOperands k m.evm.stack = some o ∧ createCharges m o ≤ m.evm.gasLeft ∧
      (m.world.state.fork.since .shanghai = true → (initCode m o).length ≤ MAX_INIT_CODE_SIZE) ∧ m.evm.message.isStatic = false ∧
      let a := createAddress E m o
      let m1 := createMid m o
      let no := (getAccount m.world.state m.self).balance < o.value ∨
        (getAccount m.world.state m.self).nonce = 2 ^ 64 - 1 ∨ m.evm.message.depth + 1 > STACK_DEPTH_LIMIT
      let full := (accountHasCodeOrNonce m.world.state a || accountHasStorage m.world.state a) = true
      ((no ∧ m' = ⟨{ m1.evm with returnData := [], stack := 0 :: o.rest, pc := m.evm.pc + 1 }, m.world⟩) ∨
       (¬ no ∧ full ∧
        m' = { creating m1 a with evm := { (creating m1 a).evm with stack := 0 :: o.rest, pc := m.evm.pc + 1 } }) ∨
       (¬ no ∧ ¬ full ∧ ∃ child w,
        pcm (createMessage m1 o.value a (initCode m o)) (creating m1 a).world = .ok (child, w) ∧
        m' = ⟨{ incorporate (creating m1 a) child w with
            pc := m.evm.pc + 1
            returnData := if child.error.isSome then child.output else []
            stack := (if child.error.isSome then 0 else addressWord child.message.currentTarget) :: o.rest }, w⟩)) := by
  obtain ⟨o, ho⟩ := createOperands_of_ok h
  by_cases hg : createCharges m o ≤ m.evm.gasLeft
  · refine ⟨o, ho, hg, ?_⟩
    rw [createOp_cases ha hlen ho hg] at h
    simp only at h
    split at h
    · cases h
    · rename_i h1
      split at h
      · cases h
      · rename_i h2
        refine ⟨fun hf => Nat.le_of_not_gt fun h => h1 ⟨hf, h⟩, by simpa using h2, ?_⟩
        split at h
        · rename_i h3; cases h; exact .inl ⟨h3, rfl⟩
        · rename_i h3
          split at h
          · rename_i h4; cases h; exact .inr (.inl ⟨h3, h4, rfl⟩)
          · rename_i h4
            split at h
            · cases h
            · rename_i child w hp
              cases h
              exact .inr (.inr ⟨h3, h4, child, w, hp, rfl⟩)
  · obtain ⟨m1, h1, _⟩ := createOp_oog (E := E) (pcm := pcm) ha ho (by omega)
    rw [h1] at h; cases h

end Verif
