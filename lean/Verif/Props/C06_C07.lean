import Verif.Lemmas.Fuel
import Verif.Spec.Sample
/-!
Properties C06 and C07: execution of any message ends, and never manufactures gas.

The only hypothesis on a frame in the middle of its execution is that its stack has at most 1024 items; C12 proves that
every frame of every execution has this property. New frames start with an empty stack, so the statements about whole
messages have no hypothesis at all.
-/
namespace Verif.Props
open Verif

/-- **C06**, the interpreter computes a value for every frame: `exec` solves the recursion equation of the main loop,
in which a frame executes one instruction (running any number of child frames by the same loop) and continues. -/
theorem C06_solves_recursion (E : Env) (m : Mach) (hs : m.evm.stack.length ≤ 1024) :
    exec E m = loopBody E (exec E) m := exec_eq E m hs

/-- **C06**, and it is the only solution: the recursion of the code is well founded, so there is no frame whose
execution could be left undefined (as it would be for a loop that does not end). -/
theorem C06_unique (E : Env) (f : Mach → Res Unit)
    (hf : ∀ m, m.evm.stack.length ≤ 1024 → f m = loopBody E f m)
    (m : Mach) (hs : m.evm.stack.length ≤ 1024) : f m = exec E m := exec_unique E f hf m hs

/-- **C06**, the bound. `run E n` is the interpreter that gives up (`outOfFuel`) when it would have to go through more
than `n` nested iterations of the main loop on a path, where an iteration of a child frame is nested in the instruction
that made the call, and each following iteration in the previous one. With `n` two more than the gas of the frame it
never gives up and has the result of the unbounded interpreter. -/
theorem C06_frame_bound (E : Env) (m : Mach) (hs : m.evm.stack.length ≤ 1024) (n : Nat) (hn : m.evm.gasLeft + 2 ≤ n) :
    run E n m = exec E m ∧ ∀ m', run E n m ≠ .err .outOfFuel m' :=
  ⟨run_eq_exec E n m hs hn, run_enough E n m hs (.inl hn)⟩

/-- **C06**, for whole top-level messages, whatever the message, the code, the state and the environment: an interpreter
allowed `gas + 2` nested iterations gives the same result as the unbounded one. -/
theorem C06_message_bound (E : Env) (msg : Message) (w : World) (n : Nat) (hn : msg.gas + 2 ≤ n) :
    processMessageCallWith E (run E n) msg w = processMessageCall E msg w := by
  refine processMessageCallWith_congr (fun msg' hg w' => ?_) w
  exact run_eq_exec E n _ (by simp [initEvm]) (by simp [initEvm, hg]; omega)

/-- **C06**, and processing a message never ends by giving up. -/
theorem C06_message_terminates (E : Env) (msg : Message) (w w' : World) :
    processMessageCall E msg w ≠ .error (.outOfFuel, w') := by
  have key : ∀ (msg : Message) (w w' : World), ∀ pm ∈ [processMessage E (exec E), processCreateMessage E (exec E)],
      pm msg w ≠ .error (.outOfFuel, w') := by
    intro msg w w' pm hpm h
    simp only [List.mem_cons, List.not_mem_nil, or_false] at hpm
    rcases hpm with rfl | rfl
    · obtain ⟨w1, m', h'⟩ := processMessage_fuel h
      exact exec_enough E _ (by simp [initEvm]) m' h'
    · obtain ⟨w1, m', h'⟩ := processCreateMessage_fuel h
      exact exec_enough E _ (by simp [initEvm]) m' h'
  intro h
  unfold processMessageCall processMessageCallWith at h
  split at h
  · split at h
    · cases h
    · split at h
      · rename_i e he; cases h; exact key _ _ _ _ (by simp) he
      · split at h <;> cases h
  · split at h
    · cases h
    · simp only at h
      split at h
      · rename_i e he; cases h; exact key _ _ _ _ (by simp) he
      · split at h <;> cases h

/-- The code that runs in the interpreter: child frames are run by the interpreter itself. -/
abbrev step (E : Env) (op : Op) : M Unit := opStep E (processMessage E (exec E)) (processCreateMessage E (exec E)) op

theorem step_post (E : Env) (op : Op) (m : Mach) (hs : m.evm.stack.length ≤ 1024) :
    GasPost m (step E op m) ∧ Progress m (step E op m) :=
  step_gas (processMessage_gas (exec_gas E)) (processCreateMessage_gas (exec_gas E)) (processMessage_uncaught E _)
    (processCreateMessage_uncaught E _) (opStep_effect E _ _ op m hs)

/-- **C07**, instruction by instruction, child frames included: gas never grows, and an instruction after which the
frame goes on costs at least one unit. -/
theorem C07_instruction (E : Env) (op : Op) (m m' : Mach) (hs : m.evm.stack.length ≤ 1024)
    (h : step E op m = .ok () m') :
    m'.evm.gasLeft ≤ m.evm.gasLeft ∧ (m'.evm.running = true → m'.evm.gasLeft + 1 ≤ m.evm.gasLeft) := by
  have := step_post E op m hs
  rw [h] at this
  refine ⟨this.1.1, fun hr => ?_⟩
  rcases this.2 with h' | h'
  · exact h'
  · rw [h'.1] at hr; cases hr

/-- **C07**, an instruction that ends the frame with an exceptional halt or a revert does not add gas either. -/
theorem C07_instruction_raises (E : Env) (op : Op) (m m' : Mach) (hs : m.evm.stack.length ≤ 1024) (e : Exn)
    (he : e = .revert ∨ ∃ x, e = .halt x) (h : step E op m = .err e m') : m'.evm.gasLeft ≤ m.evm.gasLeft := by
  have := (step_post E op m hs).1
  rw [h] at this
  refine this ?_
  rcases he with rfl | ⟨x, rfl⟩ <;> trivial

/-- **C07**, a whole frame from any point on. -/
theorem C07_frame (E : Env) (m m' : Mach) (hs : m.evm.stack.length ≤ 1024) (h : exec E m = .ok () m') :
    m'.evm.gasLeft ≤ m.evm.gasLeft := by
  have := exec_gas E m hs
  rw [h] at this
  exact this.1

/-- **C07**, a call message hands back at most the gas it was given, whatever it is and however it ends. -/
theorem C07_message (E : Env) (msg : Message) (w w' : World) (child : Evm)
    (h : processMessage E (exec E) msg w = .ok (child, w')) : child.gasLeft ≤ msg.gas :=
  processMessage_gas (exec_gas E) _ _ _ _ h

/-- **C07**, and so does a create message. -/
theorem C07_create_message (E : Env) (msg : Message) (w w' : World) (child : Evm)
    (h : processCreateMessage E (exec E) msg w = .ok (child, w')) : child.gasLeft ≤ msg.gas :=
  processCreateMessage_gas (exec_gas E) _ _ _ _ h

/-- **C07**, and so does a whole top-level message. -/
theorem C07_message_call (E : Env) (msg : Message) (w w' : World) (out : MessageCallOutput)
    (h : processMessageCall E msg w = .ok (out, w')) : out.gasLeft ≤ msg.gas := by
  have hout : ∀ (r : Word) (evm : Evm) o, messageCallOutput r evm = .ok o → o.gasLeft = evm.gasLeft := by
    intro r evm o ho
    unfold messageCallOutput at ho
    split at ho
    · cases ho; rfl
    · split at ho
      · cases ho
      · split at ho <;> cases ho; rfl
  unfold processMessageCall processMessageCallWith at h
  split at h
  · split at h
    · cases h; exact Nat.zero_le _
    · split at h
      · cases h
      · rename_i evm w2 hc
        split at h
        · cases h
        · rename_i o ho; cases h
          rw [hout _ _ _ ho]; exact C07_create_message E _ _ _ _ hc
  · split at h
    · cases h
    · rename_i r msg1 s1 hd
      simp only at h
      split at h
      · cases h
      · rename_i evm w2 hc
        split at h
        · cases h
        · rename_i o ho; cases h
          rw [hout _ _ _ ho]
          have hg : (resolveDelegation msg1 s1).gas = msg.gas := by
            have h1 : msg1.gas = msg.gas := by
              split at hd
              · unfold setDelegation at hd
                simp only at hd
                split at hd
                · cases hd
                · split at hd
                  · cases hd
                  · cases hd; rfl
              · cases hd; rfl
            unfold resolveDelegation; (repeat' split) <;> simp [h1]
          have := C07_message E _ _ _ _ hc
          have ht : ∀ s a (e : Evm), (touchTarget s a e).gasLeft = e.gasLeft := fun _ _ _ => rfl
          rw [ht]
          omega

/-! ### Concrete cases -/
section Examples
open Verif.Sample

/-- An endless loop (JUMPDEST, PUSH0, JUMP) runs out of gas. -/
def loopWorld : World := worldOf [eoa, (0xaa, ⟨1, 0, [0x5b, 0x5f, 0x56]⟩)] []

example : (match processMessageCall env (callTo loopWorld 0xaa 3000 5) loopWorld with
    | .ok (o, w) => some (o.gasLeft, o.error, (getAccount w.state 0xaa).balance)
    | .error _ => none) = some (0, some (.halt .outOfGas), 0) := by decide +kernel

/-- A contract that calls itself for ever: PUSH0 x5, ADDRESS, GAS, CALL, PUSH0, PUSH0, REVERT. -/
def selfCallWorld : World :=
  worldOf [eoa, (0xaa, ⟨1, 0, [0x5f, 0x5f, 0x5f, 0x5f, 0x5f, 0x30, 0x5a, 0xf1, 0x5f, 0x5f, 0xfd]⟩)] []

example : (match processMessageCall env (callTo selfCallWorld 0xaa 9000 0) selfCallWorld with
    | .ok (o, _) => some (o.gasLeft, o.error)
    | .error _ => none) = some (1662, some .revert) := by decide +kernel

/-- With too little fuel the bounded interpreter does give up: the bound of C06 says something. -/
example : (match processMessageCallWith env (run env 20) (callTo loopWorld 0xaa 3000 5) loopWorld with
    | .error (.outOfFuel, _) => true
    | _ => false) = true := by decide +kernel

/-- A frame in the middle of its execution meets the hypotheses of `C07_instruction`. -/
example : ∃ m m', m.evm.stack.length ≤ 1024 ∧ step env .add m = .ok () m' ∧ m'.evm.gasLeft + 3 = m.evm.gasLeft :=
  ⟨⟨{ initEvm (callTo loopWorld 0xaa 3000 5) with stack := [2, 3] }, loopWorld⟩, _, by decide, rfl, by decide⟩

end Examples
end Verif.Props
