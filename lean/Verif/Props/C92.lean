import Verif.Props.C61
import Verif.Lemmas.CallSpec
import Verif.Spec.Services
import Verif.Model.Interpreter
import Verif.Lemmas.SampleFrame
/-! C92: the SHA-256, RIPEMD-160 and identity precompiles. -/
namespace Verif
open Spec Spec.Curve

private theorem words_eq (n : Nat) : ceil32 n / 32 = (n + 31) / 32 := by rw [ceil32_eq]; omega

private theorem service_run (b k : Nat) (out : Bytes) (m : Mach) (n : Nat) :
    (chargeGas (b + k * (ceil32 n / 32)) >>= fun _ => setOutput out) m =
      if m.evm.gasLeft < b + k * ((n + 31) / 32) then .err (.halt .outOfGas) m
      else .ok () (returned m (b + k * ((n + 31) / 32)) out) := by
  rw [charge_then, words_eq]
  split
  · rfl
  · exact setOutput_paid _ _ _

/-- **C92.** In every fork each of the three is there, and for every input it charges exactly its price (or is out of gas, having changed nothing),
returns exactly its answer and changes nothing else. -/
theorem C92_outcome (E : Env) (f : Fork) (a : Address) (s : Service) (h : (a, s) ∈ services E.crypto) :
    ∃ p, precompile E f a = some p ∧ ∀ m : Mach,
      p m = if m.evm.gasLeft < s.price m.evm.message.data then .err (.halt .outOfGas) m
            else .ok () { m with evm := { m.evm with
              gasLeft := m.evm.gasLeft - s.price m.evm.message.data, output := s.answer m.evm.message.data } } := by
  have hf : f.since .frontier = true := by cases f <;> rfl
  simp only [services, List.mem_cons, List.not_mem_nil, or_false, Prod.mk.injEq] at h
  rcases h with ⟨rfl, rfl⟩ | ⟨rfl, rfl⟩ | ⟨rfl, rfl⟩
  · refine ⟨pSha256 E, ?_, fun m => ?_⟩
    · unfold precompile; rw [if_pos (show f.since (precompileFirstFork 2) = true from hf)]; rfl
    · unfold Service.price
      dsimp only
      rw [← toBE_eq_bytesBE]
      exact service_run 60 12 _ m _
  · refine ⟨pRipemd160 E, ?_, fun m => ?_⟩
    · unfold precompile; rw [if_pos (show f.since (precompileFirstFork 3) = true from hf)]; rfl
    · unfold Service.price
      dsimp only
      rw [← toBE_eq_bytesBE]
      have e : leftPad (addressBytes (E.crypto.ripemd160 m.evm.message.data)) 32 =
          List.replicate 12 0 ++ toBE 20 (E.crypto.ripemd160 m.evm.message.data).toNat := by
        unfold leftPad; rw [addressBytes_length]; rfl
      rw [← e]
      exact service_run 600 120 _ m _
  · refine ⟨pIdentity, ?_, fun m => ?_⟩
    · unfold precompile; rw [if_pos (show f.since (precompileFirstFork 4) = true from hf)]; rfl
    · unfold Service.price
      dsimp only
      exact service_run 15 3 _ m _

/-- **C92.** What the caller sees, whatever code the account itself has: with too little gas the frame fails, all its gas is gone and it returns
nothing; otherwise it succeeds, keeps the gas beyond the price and returns the answer. The world is the same either way. -/
theorem C92_frame (E : Env) (loop : Loop) (msg : Message) (w : World) (a : Address) (s : Service) (h : (a, s) ∈ services E.crypto)
    (ha : msg.codeAddress = some a) (hd : msg.disablePrecompiles = false) :
    executeCode E loop msg w =
      if msg.gas < s.price msg.data then .ok ({ initEvm msg with gasLeft := 0, output := [], error := some (.halt .outOfGas) }, w)
      else .ok ({ initEvm msg with gasLeft := msg.gas - s.price msg.data, output := s.answer msg.data }, w) := by
  obtain ⟨p, hp, hr⟩ := C92_outcome E w.state.fork a s h
  unfold executeCode precompileOf
  rw [ha]
  dsimp only
  rw [hp]
  dsimp only
  rw [if_neg (by simp [hd]), hr]
  show catchFrame (if msg.gas < s.price msg.data then _ else _) = _
  split
  · have e : haltOutput w.state.fork [] = [] := by unfold haltOutput; split <;> rfl
    show Except.ok ({ initEvm msg with gasLeft := 0, output := haltOutput w.state.fork [], error := some (.halt .outOfGas) }, w) = _
    rw [e]
  · rfl

/-- **C92.** Answers have 32 bytes for the two hashes. -/
theorem C92_sizes (C : Crypto) (a : Address) (s : Service) (h : (a, s) ∈ services C) (d : Bytes) :
    (a ≠ 4 → (s.answer d).length = 32) ∧ (a = 4 → s.answer d = d) := by
  simp only [services, List.mem_cons, List.not_mem_nil, or_false, Prod.mk.injEq] at h
  rcases h with ⟨rfl, rfl⟩ | ⟨rfl, rfl⟩ | ⟨rfl, rfl⟩
  · refine ⟨fun _ => ?_, fun h => absurd h (by decide)⟩
    simp [bytesBE]
  · refine ⟨fun _ => ?_, fun h => absurd h (by decide)⟩
    simp [bytesBE]
  · exact ⟨fun h => absurd rfl h, fun _ => rfl⟩

/-! ### the hypotheses are met -/
section Examples
open Verif.Sample

/-- 33 bytes are two words: 21 gas for a copy, 84 for SHA-256, 840 for RIPEMD-160. -/
example : ((services crypto).map fun x => x.2.price (List.replicate 33 7)) = [84, 840, 21] := by decide +kernel

/-- A frame to address 4 in frontier and one in osaka, with 18 gas for 3 bytes and with 17. -/
example : (∃ s, ((4 : Address), s) ∈ services env.crypto ∧ s.price [1, 2, 3] = 18 ∧ s.answer [1, 2, 3] = [1, 2, 3]) := by
  refine ⟨_, by simp [services]; rfl, by decide +kernel, rfl⟩

end Examples

end Verif
