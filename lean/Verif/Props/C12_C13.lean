import Verif.Lemmas.Monitor
import Verif.Spec.Sample
/-!
Properties C12 and C13: the limits of stack, memory and call depth.

"At every point of every execution" is expressed by the monitored interpreter of `Verif/Spec/Monitor.lean`, which checks
every frame, of any depth, before each of its instructions.
-/
namespace Verif.Props
open Verif Verif.Spec

/-- **C12, C13**: at every point of every execution of any message (of any transaction, in any state) the stack of every
frame holds at most 1024 items, its memory is a whole number of words, and its depth is at most 1024. -/
theorem C12_limits_hold (E : Env) (bad : Loop) (msg : Message) (w : World) :
    processMessageCallWith E (execChecked E WithinLimits bad) msg w = processMessageCall E msg w :=
  checked_call E _ bad init_limits (fun _ _ _ _ _ hm _ _ _ he => opStep_limits hm he) msg w

/-- **C12**, for the message processor itself (as the call and create instructions and system transactions use it). -/
theorem C12_limits_hold_message (E : Env) (bad : Loop) :
    processMessage E (execChecked E WithinLimits bad) = processMessage E (exec E) ∧
    processCreateMessage E (execChecked E WithinLimits bad) = processCreateMessage E (exec E) :=
  checked_message E _ bad init_limits (fun _ _ _ _ _ hm _ _ _ he => opStep_limits hm he)

/-- **C12**, stack effect of each instruction that returns, whatever its children do: it had its operands, replaces them
by its results and leaves the rest of the stack alone. The numbers are those of `Verif/Spec/Arity.lean`. Every byte of
code that is an instruction decodes to one covered here (`C12_decoded`). -/
theorem C12_stack_effect (E : Env) (pm pcm : Sub) (op : Op) (hop : op ≠ .dup 0) (m m' : Mach)
    (h : opStep E pm pcm op m = .ok () m') :
    removed op ≤ m.evm.stack.length ∧ m'.evm.stack.length + removed op = m.evm.stack.length + added op ∧
    m'.evm.stack.drop (added op) = m.evm.stack.drop (removed op) :=
  opStep_arity E pm pcm op hop m () m' h

/-- **C12**, an instruction without enough operands ends the frame with an exceptional halt. -/
theorem C12_underflow_halts (E : Env) (pm pcm : Sub) (op : Op) (hop : op ≠ .dup 0) (m : Mach)
    (h : m.evm.stack.length < removed op) : ∃ x m', opStep E pm pcm op m = .err (.halt x) m' :=
  (opStep_underflow E pm pcm op hop m h).imp fun _ h => h.imp fun _ h => h.1

/-- **C12**, an instruction that would leave more than 1024 items does not return: the frame ends. -/
theorem C12_overflow_ends (E : Env) (pm pcm : Sub) (op : Op) (hop : op ≠ .dup 0) (m : Mach)
    (hs : m.evm.stack.length ≤ 1024) (h : 1024 + removed op < m.evm.stack.length + added op) :
    ∀ m', opStep E pm pcm op m ≠ .ok () m' := by
  intro m' he
  have h1 := opStep_arity E pm pcm op hop m () m' he
  have h2 := ((opStep_effect E pm pcm op m hs).frameLoc he).stack hs
  omega

/-- Instruction bytes never decode to the operation excluded above. -/
theorem C12_decoded (b : UInt8) : decodeOp b ≠ some (.dup 0) := by
  have h : ∀ n < 256, decodeOp (UInt8.ofNat n) ≠ some (.dup 0) := by decide +kernel
  have := h b.toNat b.toNat_lt
  simpa using this

/-- **C13**, the messages sent by an instruction of a frame at depth `d ≤ 1024` have depth `d + 1 ≤ 1024`: what the
processors of messages do with any other message does not matter. In particular they are never given a message too deep,
on which alone they raise the depth-limit error (`C13_depth_error`). -/
theorem C13_sends (E : Env) (op : Op) (m : Mach) (hm : WithinLimits m) (pm pm' pcm pcm' : Sub)
    (h : ∀ msg w, msg.depth = m.evm.message.depth + 1 ∧ msg.depth ≤ 1024 → pm msg w = pm' msg w ∧ pcm msg w = pcm' msg w) :
    opStep E pm pcm op m = opStep E pm' pcm' op m := by
  by_cases h1 : ∃ k : CallKind, op = k.op
  · obtain ⟨k, rfl⟩ := h1
    refine call_agree pm pm' pcm pcm' hm.memory hm.stack fun o _ _ hd => (h _ _ ⟨rfl, ?_⟩).1
    show m.evm.message.depth + 1 ≤ 1024
    simp only [STACK_DEPTH_LIMIT] at hd; omega
  · by_cases h2 : ∃ k, op = createInstr k
    · obtain ⟨k, rfl⟩ := h2
      refine create_agree pm pm' pcm pcm' hm.memory hm.stack fun o _ _ hd _ => (h _ _ ⟨rfl, ?_⟩).2
      show m.evm.message.depth + 1 ≤ 1024
      simp only [STACK_DEPTH_LIMIT] at hd; omega
    · rw [other_agree E pm pm' pcm pcm' op (fun k hk => h1 ⟨k, hk⟩) (fun k hk => h2 ⟨k, hk⟩)]

/-- **C13**, processing a message of depth at most 1024 does not end with the depth-limit error, nor with any other
exceptional halt (those are caught and reported in the result). -/
theorem C13_depth_error (E : Env) (msg : Message) (hd : msg.depth ≤ 1024) (w w' : World) (x : Halt) :
    processMessage E (exec E) msg w ≠ .error (.halt x, w') ∧ processCreateMessage E (exec E) msg w ≠ .error (.halt x, w') :=
  ⟨fun h => processMessage_uncaught E _ msg w _ w' hd h trivial,
   fun h => processCreateMessage_uncaught E _ msg w _ w' hd h trivial⟩

/-- **C13**, a call at depth 1024 that can pay its charges and the gas it forwards (and, for CALL with value, is not in a static frame) pushes
zero, and nothing else happens in the world. -/
theorem C13_call_at_limit (E : Env) (pm pcm : Sub) (m : Mach) (hm : WithinLimits m) (hd : m.evm.message.depth = 1024)
    (k : CallKind) (o : CallOperands) (ho : callOperands k m.evm.stack = some o)
    (hg : forwarded k m o + callCharges k m o ≤ m.evm.gasLeft) (hst : m.evm.message.isStatic = false ∨ o.value = 0) :
    ∃ m', opStep E pm pcm k.op m = .ok () m' ∧ m'.evm.stack = 0 :: o.rest ∧ m'.world = m.world ∧
      m'.evm.pc = m.evm.pc + 1 := by
  rw [opStep_callOp, callOp_cases hm.memory hm.stack ho hg, if_neg, if_pos]
  · exact ⟨_, rfl, rfl, rfl, rfl⟩
  · exact .inr (by simp [STACK_DEPTH_LIMIT, hd])
  · rintro ⟨-, h, h'⟩
    rcases hst with h1 | h1
    · rw [h1] at h; cases h
    · exact h' h1

/-- **C13**, and so does a create at depth 1024 that can pay its charges, with init code within the limit, in a frame that
is not static. -/
theorem C13_create_at_limit (E : Env) (pm pcm : Sub) (m : Mach) (hm : WithinLimits m) (hd : m.evm.message.depth = 1024)
    (k : Bool) (o : CreateOperands) (ho : createOperands k m.evm.stack = some o)
    (hg : createCharges m o ≤ m.evm.gasLeft) (hst : m.evm.message.isStatic = false) (hsize : o.size.toNat ≤ 49152) :
    ∃ m', opStep E pm pcm (createInstr k) m = .ok () m' ∧ m'.evm.stack = 0 :: o.rest ∧ m'.world = m.world ∧
      m'.evm.pc = m.evm.pc + 1 := by
  have hl : (initCode m o).length ≤ o.size.toNat := by
    exact slice_length _ _ _
  rw [opStep_createOp, createOp_cases hm.memory hm.stack ho hg]
  simp only
  rw [if_neg (by simp only [MAX_INIT_CODE_SIZE, MAX_CODE_SIZE]; omega), if_neg (by rw [hst]; simp), if_pos]
  · exact ⟨_, rfl, rfl, rfl, rfl⟩
  · exact .inr (.inr (by simp [STACK_DEPTH_LIMIT, hd]))

/-! ### Concrete cases -/
section Examples
open Verif.Sample

/-- A frame at the depth limit. -/
def deep (stack : List Word) : Mach :=
  let w := worldOf [eoa, (0xaa, ⟨1, 50, [0]⟩)] []
  ⟨{ initEvm { callTo w 0xaa 50000 0 with depth := 1024 } with stack := stack }, w⟩

example : WithinLimits (deep [1000, 0xbb, 0, 0, 0, 0, 0]) := ⟨by decide, by decide, by decide⟩
example : callCharges .call (deep [1000, 0xbb, 0, 0, 0, 0, 0]) ⟨1000, 0xbb, 0, 0, 0, 0, 0, []⟩ ≤
    (deep [1000, 0xbb, 0, 0, 0, 0, 0]).evm.gasLeft := by decide +kernel
example : createCharges (deep [0, 0, 64]) ⟨0, 0, 64, none, []⟩ ≤ (deep [0, 0, 64]).evm.gasLeft := by decide +kernel

/-- PUSH0 with 1024 items, and ADD with one. -/
example : (match opStep env (processMessage env (exec env)) (processCreateMessage env (exec env)) (.push 0)
      (deep (List.replicate 1024 0)) with
    | .err (.halt .stackOverflow) _ => true
    | _ => false) = true := by decide +kernel
example : (match opStep env (processMessage env (exec env)) (processCreateMessage env (exec env)) .add (deep [1]) with
    | .err (.halt .stackUnderflow) _ => true
    | _ => false) = true := by decide +kernel

/-- A check that fails is noticed, here "the stack is empty". -/
example (bad : Loop) : execChecked env (fun m => m.evm.stack = []) bad (deep [1]) = bad (deep [1]) := by
  simp [execChecked, runChecked, deep]

end Examples
end Verif.Props
