import Verif.Props.C49
import Verif.Lemmas.SampleFrame
import Verif.Model.Interpreter
/-! C65: the MODEXP precompile before osaka, and the internal error it can raise. -/
namespace Verif
open Spec

private theorem rounds_berlin (e h : Nat) : modexpIterationsBerlin e h = max 1 (8 * (e - 32) + Nat.log2 h) := by
  unfold modexpIterationsBerlin bitLength
  by_cases h0 : h = 0
  · subst h0
    by_cases he : e ≤ 32
    · rw [if_pos ⟨he, rfl⟩, Nat.sub_eq_zero_of_le he]; simp
    · simp [he]; omega
  · by_cases he : e ≤ 32
    · simp [he, h0, Nat.max_comm]
    · simp [he, h0, Nat.max_comm]

private theorem rounds_byzantium (e h : Nat) : modexpIterationsByzantium e h = max 1 (8 * (e - 32) + Nat.log2 h) := by
  unfold modexpIterationsByzantium bitLength
  by_cases h0 : h = 0
  · subst h0
    by_cases he : e < 32
    · simp [he]; omega
    · simp [he]; omega
  · by_cases he : e < 32
    · simp [he, h0, Nat.max_comm]; omega
    · simp [he, h0, Nat.max_comm]

/-- The price of the given fork before osaka. -/
def modexpPriceOld (f : Fork) (i : ModexpInput) : Nat := if f.since .berlin then modexpPrice2565 i else modexpPrice198 i

private theorem cost_old (f : Fork) (d : Bytes) :
    modexpGasCostOld f (number d 0 32) (number d 64 32) (number d 32 32) (number d (96 + number d 0 32) (min 32 (number d 32 32)))
      = modexpPriceOld f (modexpInput d) := by
  unfold modexpGasCostOld modexpPriceOld modexpPrice2565 modexpPrice198 modexpRoundsOld modexpInput
  dsimp only
  split
  · rw [rounds_berlin]; unfold modexpComplexityBerlin; rw [Nat.pow_two]
  · rw [rounds_byzantium]; unfold modexpComplexityByzantium modexpWork198; dsimp only; rw [Nat.pow_two]

namespace Props

/-- **C65.** MODEXP in the forks from byzantium to prague, for every input: if the length of the base is within 96 of 2^256, the
code raises an `OverflowError`, whatever the gas; otherwise too little gas is out of gas; otherwise, if base and modulus have length 0,
the output is empty; if the offset of the modulus does not fit 256 bits the code raises an `OverflowError`; and in all other cases
exactly the price is charged and the output is `base ^ exp mod modulus` in as many bytes as the modulus has. -/
theorem C65_modexp (E : Env) (f : Fork) (hf : f.since .byzantium = true ∧ f.since .osaka = false) (p : M Unit)
    (hp : precompile E f 5 = some p) (m : Mach) :
    let i := modexpInput m.evm.message.data
    let price := if f.since .berlin then modexpPrice2565 i else modexpPrice198 i
    (2 ^ 256 ≤ 96 + i.baseLen → p m = .err (.crash .overflowError) m) ∧
    (96 + i.baseLen < 2 ^ 256 → m.evm.gasLeft < price → p m = .err (.halt .outOfGas) m) ∧
    (96 + i.baseLen < 2 ^ 256 → price ≤ m.evm.gasLeft → (i.baseLen ≠ 0 ∨ i.modLen ≠ 0) → 2 ^ 256 ≤ 96 + i.baseLen + i.expLen →
      ∃ m', p m = .err (.crash .overflowError) m') ∧
    (96 + i.baseLen < 2 ^ 256 → price ≤ m.evm.gasLeft → (i.baseLen = 0 ∧ i.modLen = 0 ∨ 96 + i.baseLen + i.expLen < 2 ^ 256) →
      ∃ out : Bytes, p m = .ok () { m with evm := { m.evm with gasLeft := m.evm.gasLeft - price, output := out } } ∧
      out.length = i.modLen ∧ number out 0 out.length = modexpResult i) := by
  intro i price
  have hp' : p = pModexpOld f := by
    have : precompileFn E f 5 = some (pModexp f) := rfl
    rw [(precompileFn_of hp).2] at this
    have := Option.some.inj this
    rw [this, pModexp, hf.2]; rfl
  subst hp'
  have hprice : price = modexpPriceOld f i := rfl
  have hi : i = modexpInput m.evm.message.data := rfl
  clear_value price i
  subst hprice
  generalize hd : m.evm.message.data = d at hi
  have run : pModexpOld f m = if 96 + i.baseLen < 2 ^ 256 then
        if m.evm.gasLeft < modexpPriceOld f i then .err (.halt .outOfGas) m
        else if i.baseLen = 0 ∧ i.modLen = 0 then
          .ok () { m with evm := { m.evm with gasLeft := m.evm.gasLeft - modexpPriceOld f i, output := [] } }
        else if 96 + i.baseLen + i.expLen < 2 ^ 256 then
          .ok () { m with evm := { m.evm with
            gasLeft := m.evm.gasLeft - modexpPriceOld f i, output := modexpOutput d i.baseLen i.expLen i.modLen } }
        else .err (.crash .overflowError) { m with evm := { m.evm with gasLeft := m.evm.gasLeft - modexpPriceOld f i } }
      else .err (.crash .overflowError) m := by
    subst hi
    simp only [pModexpOld, bind_eq, getEvm]
    rw [hd]
    simp only [fromBE_bufferRead]
    rw [show (modexpInput d).baseLen = number d 0 32 from rfl, show (modexpInput d).expLen = number d 32 32 from rfl,
      show (modexpInput d).modLen = number d 64 32 from rfl, ← cost_old f d]
    have hu : ∀ n m, u256 n m = if n < 2 ^ 256 then .ok (BitVec.ofNat 256 n) m else .err (.crash .overflowError) m := fun _ _ => rfl
    rw [hu]
    by_cases h1 : 96 + number d 0 32 < 2 ^ 256
    · rw [if_pos h1, if_pos h1]
      simp only [chargeGas, BitVec.toNat_ofNat, Nat.mod_eq_of_lt h1]
      by_cases h4 : m.evm.gasLeft < modexpGasCostOld f (number d 0 32) (number d 64 32) (number d 32 32)
          (number d (96 + number d 0 32) (min 32 (number d 32 32)))
      · simp only [if_pos h4]
      · simp only [if_neg h4]
        by_cases h5 : number d 0 32 = 0 ∧ number d 64 32 = 0
        · rw [if_pos h5, if_pos h5]; rfl
        · rw [if_neg h5, if_neg h5, bind_eq, hu]
          by_cases h6 : 96 + number d 0 32 + number d 32 32 < 2 ^ 256
          · rw [if_pos h6, if_pos h6]; rfl
          · rw [if_neg h6, if_neg h6]
    · rw [if_neg h1, if_neg h1]
  refine ⟨fun h => ?_, fun h hg => ?_, fun h hg h0 h2 => ?_, fun h hg h0 => ?_⟩
  · rw [run, if_neg (by omega)]
  · rw [run, if_pos h, if_pos hg]
  · rw [run, if_pos h, if_neg (by omega), if_neg (by omega), if_neg (by omega)]; exact ⟨_, rfl⟩
  · have ho := modexpOutput_eq d
    rw [← hi] at ho
    by_cases h5 : i.baseLen = 0 ∧ i.modLen = 0
    · refine ⟨[], by rw [run, if_pos h, if_neg (by omega), if_pos h5], h5.2.symm, ?_⟩
      unfold modexpResult
      have : i.modulus = 0 := by
        rw [hi] at h5 ⊢
        show number d _ (number d 64 32) = 0
        rw [show number d 64 32 = 0 from h5.2]; rfl
      rw [if_pos this]; rfl
    · refine ⟨modexpOutput d i.baseLen i.expLen i.modLen, by rw [run, if_pos h, if_neg (by omega), if_neg h5, if_pos (by omega)], ?_, ?_⟩
      · subst hi; exact ho.1
      · rw [← fromBE_number]; subst hi; exact ho.2

/-- **C65.** With less than 2^240 gas the first of the two errors is the only one: if the length of the base is not within 96 of 2^256, MODEXP
raises no internal error. -/
theorem C65_only (E : Env) (f : Fork) (hf : f.since .byzantium = true ∧ f.since .osaka = false) (p : M Unit)
    (hp : precompile E f 5 = some p) (m : Mach) (hg : m.evm.gasLeft < 2 ^ 240)
    (hb : 96 + (modexpInput m.evm.message.data).baseLen < 2 ^ 256) : ∀ c m', p m ≠ .err (.crash c) m' := by
  obtain ⟨-, h2, -, h4⟩ := C65_modexp E f hf p hp m
  intro c m' h
  generalize modexpInput m.evm.message.data = i at *
  generalize hpr : (if f.since .berlin then modexpPrice2565 i else modexpPrice198 i) = price at *
  by_cases hlt : m.evm.gasLeft < price
  · rw [h2 hb hlt] at h; cases h
  · by_cases h0 : i.baseLen = 0 ∧ i.modLen = 0 ∨ 96 + i.baseLen + i.expLen < 2 ^ 256
    · obtain ⟨out, ho, -⟩ := h4 hb (by omega) h0
      rw [ho] at h; cases h
    · exfalso
      apply hlt
      apply Nat.lt_of_lt_of_le hg
      have hr : 1 ≤ modexpRoundsOld i ∧ 8 * (i.expLen - 32) ≤ modexpRoundsOld i := by unfold modexpRoundsOld; omega
      have hx : 1 ≤ max i.baseLen i.modLen ∧ i.baseLen ≤ max i.baseLen i.modLen := by omega
      generalize hmx : max i.baseLen i.modLen = x at hx
      have key : ∀ wk : Nat, 1 ≤ wk → x ≤ 16 * wk → 2 ^ 240 ≤ wk * modexpRoundsOld i / 20 := by
        intro wk h1 h2
        have a1 : wk * 1 ≤ wk * modexpRoundsOld i := Nat.mul_le_mul_left _ hr.1
        have a2 : 1 * modexpRoundsOld i ≤ wk * modexpRoundsOld i := Nat.mul_le_mul_right _ h1
        generalize wk * modexpRoundsOld i = z at *
        omega
      have hsq : ∀ n : Nat, 1 ≤ n → n ≤ n * n := fun n h => by have := Nat.mul_le_mul_left n h; omega
      subst hpr
      split
      · unfold modexpPrice2565
        rw [hmx]
        have h1 : 1 ≤ (x + 7) / 8 := by omega
        have h2 := hsq _ h1
        have h3 := key ((x + 7) / 8 * ((x + 7) / 8)) (by omega) (by omega)
        generalize (x + 7) / 8 * ((x + 7) / 8) * modexpRoundsOld i = z at *
        omega
      · unfold modexpPrice198
        rw [hmx]
        have h2 := hsq x hx.1
        apply key
        · unfold modexpWork198
          generalize x * x = z at *
          split <;> [skip; split] <;> omega
        · unfold modexpWork198
          generalize x * x = z at *
          split <;> [skip; split] <;> omega

/-- **C65.** So in these forks anyone can make the specification raise an uncaught `OverflowError`: every message addressed to MODEXP that
transfers no value and whose data begin with 32 bytes `ff`, with any gas, makes `process_message` fail. -/
theorem C65_message (E : Env) (loop : Loop) (msg : Message) (w : World)
    (hf : w.state.fork.since .byzantium = true ∧ w.state.fork.since .osaka = false) (ha : msg.codeAddress = some 5)
    (hp : msg.disablePrecompiles = false) (hd : msg.depth ≤ 1024) (hv : msg.value = 0)
    (hx : ∃ rest, msg.data = List.replicate 32 0xff ++ rest) :
    ∃ w', processMessage E loop msg w = .error (.crash .overflowError, w') := by
  obtain ⟨p, hpre⟩ : ∃ p, precompile E w.state.fork 5 = some p := by
    unfold precompile; rw [if_pos (show w.state.fork.since (precompileFirstFork 5) = true from hf.1)]; exact ⟨_, rfl⟩
  obtain ⟨rest, hx⟩ := hx
  have hlen : 2 ^ 256 ≤ 96 + (modexpInput msg.data).baseLen := by
    show 2 ^ 256 ≤ 96 + number msg.data 0 32
    have : number msg.data 0 32 = 2 ^ 256 - 1 := by
      rw [hx, ← fromBE_bufferRead]
      have e : bufferRead (List.replicate 32 0xff ++ rest) 0 32 = List.replicate 32 (0xff : UInt8) := by
        unfold bufferRead slice rightPad
        simp
      rw [e]; decide +kernel
    omega
  have hrun := (C65_modexp E _ hf p hpre ⟨initEvm msg, { beginTransaction w with state := touchIn (beginTransaction w).state msg.currentTarget }⟩).1 hlen
  unfold processMessage
  rw [if_neg (show ¬ msg.depth > STACK_DEPTH_LIMIT from Nat.not_lt.mpr hd)]
  dsimp only
  rw [if_neg (by simp [hv])]
  dsimp only
  have hfk : (touchIn (beginTransaction w).state msg.currentTarget).fork = w.state.fork := touchIn_fork _ _
  have : executeCode E loop msg { beginTransaction w with state := touchIn (beginTransaction w).state msg.currentTarget } = .error (.crash .overflowError, { beginTransaction w with state := touchIn (beginTransaction w).state msg.currentTarget }) := by
    unfold executeCode precompileOf
    rw [ha]
    dsimp only
    rw [hfk, hpre]
    dsimp only
    rw [if_neg (by simp [hp]), hrun]
    rfl
  rw [this]
  exact ⟨_, rfl⟩

/-! ### Concrete cases -/
section Examples
open Verif.Sample

example : Fork.prague.since .byzantium = true ∧ Fork.prague.since .osaka = false ∧ (precompile env .prague 5).isSome = true :=
  ⟨by decide, by decide, rfl⟩

/-- 3^5 mod 100 in prague. -/
example : 96 + (modexpInput modexpCase).baseLen < 2 ^ 256 ∧ modexpPrice2565 (modexpInput modexpCase) = 200 ∧
    modexpPrice198 (modexpInput modexpCase) = 0 ∧ modexpResult (modexpInput modexpCase) = 43 := by decide +kernel

/-- A program of 10 instructions that calls MODEXP with the fatal input: `process_message_call` fails in prague; in osaka the call fails and the
program goes on. -/
def fatal (f : Fork) : World :=
  let w := worldOf [eoa, (0xaa, ⟨1, 50, [0x5f, 0x19, 0x5f, 0x52, 0x5f, 0x5f, 0x60, 32, 0x5f, 0x5f, 0x60, 5, 0x5a, 0xf1, 0x5f, 0x55]⟩)] []
  { w with state := { w.state with fork := f } }

example : ((processMessageCall env (callTo (fatal .prague) 0xaa 100000 0) (fatal .prague)).toOption.isSome,
    (processMessageCall env (callTo (fatal .osaka) 0xaa 100000 0) (fatal .osaka)).toOption.isSome) = (false, true) := by decide +kernel

end Examples

end Props
end Verif
