import Verif.Lemmas.Work
import Verif.Spec.Sample
/-!
Property C96: the work of a message is proportional to its gas.

C06 bounds the nesting of the main loop. Here all instructions are counted, those of all called frames and of theirs included
(`Spec.Work`): a frame executes at most two instructions per unit of gas, and one more. The factor two is due to the instructions that cost
nothing and end a frame (STOP, RETURN, REVERT, a failing instruction): each frame can have one, and to start a frame costs gas. C12 proves
the hypothesis on the stack for every frame of every execution.
-/
namespace Verif.Props
open Verif Spec

/-- **C96**, for any frame, in the middle of its execution or at its start, whatever its outcome. -/
theorem C96_frame (E : Env) (m : Mach) (hs : m.evm.stack.length ≤ 1024) : ∃ n, Work E m n ∧ n ≤ 2 * m.evm.gasLeft + 1 := by
  obtain ⟨n, hn, h⟩ := exec_work E _ m (Nat.le_refl _) hs
  exact ⟨n, hn, by omega⟩

/-- **C96**, what was not spent does not count: a frame that ends, or reverts, with some of its gas left has executed at most two
instructions per unit of gas that it spent, and one more. -/
theorem C96_spent (E : Env) (m m' : Mach) (hs : m.evm.stack.length ≤ 1024)
    (h : exec E m = .ok () m' ∨ exec E m = .err .revert m') :
    ∃ n, Work E m n ∧ n ≤ 2 * (m.evm.gasLeft - m'.evm.gasLeft) + 1 := by
  obtain ⟨n, hn, hle⟩ := exec_work E _ m (Nat.le_refl _) hs
  refine ⟨n, hn, ?_⟩
  have hg := exec_gas E m hs
  rcases h with h | h
  · rw [h] at hle hg; have := hg.1; simp only [endGas] at hle; omega
  · rw [h] at hle hg; have := hg trivial; simp only [endGas] at hle; omega

/-- **C96**, for whole top-level messages, calls and creations, whatever the code and the state. -/
theorem C96_message (E : Env) (msg : Message) (w : World) : ∃ n, MessageWork E msg w n ∧ n ≤ 2 * msg.gas + 1 :=
  message_work E msg w

/-! ### Concrete cases -/
section Examples
open Verif.Sample

/-- An account with one JUMPDEST as its code. -/
def destWorld : World := worldOf [eoa, (0xaa, ⟨1, 0, [0x5b]⟩)] []
def destFrame : Mach := ⟨initEvm (callTo destWorld 0xaa 7 0), destWorld⟩
def destEnd : Mach := ⟨{ destFrame.evm with pc := 1, gasLeft := 6 }, destWorld⟩

/-- Its execution is one instruction, after which the frame has run past its code. -/
example : destFrame.evm.stack.length ≤ 1024 ∧ exec env destFrame = .ok () destEnd ∧ Work env destFrame 1 := by
  have hs : destFrame.evm.stack.length ≤ 1024 := by decide
  have hs' : destEnd.evm.stack.length ≤ 1024 := by decide
  have hbody : ∀ f : Loop, loopBody env f destFrame = f destEnd := by
    intro f
    have hb : destFrame.evm.code[destFrame.evm.pc]? = some 0x5b := by decide
    have hd : decodeOpIn destFrame.world.state.fork 0x5b = some .jumpdest := by decide
    have hr : destFrame.evm.running = true := rfl
    unfold loopBody
    simp only [hr, if_true, hb, hd]
    rfl
  have hend : exec env destEnd = .ok () destEnd := by rw [exec_eq env _ hs']; rfl
  have hx : exec env destFrame = exec env destEnd := by rw [exec_eq env _ hs, hbody]
  exact ⟨hs, hx.trans hend, .next _ destEnd 0 (fun f hf => by rw [hbody, hf, hx]) (.done _ (.inr rfl))⟩

/-- And not none. -/
example : ¬ Work env destFrame 0 := by
  intro h
  cases h with
  | done _ h => rcases h with h | h <;> revert h <;> decide

end Examples
end Verif.Props
