import Verif.Model.Precompiles
import Verif.Spec.Modexp
import Verif.Lemmas.Bytes
import Verif.Lemmas.Precompile
import Verif.Lemmas.Memory
import Verif.Lemmas.SampleFrame
/-! C49: the MODEXP precompile. -/
namespace Verif
open Spec

private theorem bufferRead_succ (d : Bytes) (start len : Nat) :
    bufferRead d start (len + 1) = bufferRead d start len ++ [d.getD (start + len) 0] := by
  unfold bufferRead rightPad slice
  rw [Nat.add_sub_cancel_left, Nat.add_sub_cancel_left]
  apply List.ext_getElem?
  intro i
  simp only [List.getElem?_append, List.getElem?_replicate, List.length_take, List.length_drop, List.length_append,
    List.length_replicate, List.getElem?_take, List.getElem?_drop, List.getD_eq_getElem?_getD]
  by_cases h1 : i < len
  · by_cases h2 : i < d.length - start
    · rw [if_pos (by omega), if_pos (by omega), if_pos (by omega), if_pos (by omega), if_pos (by omega)]
    · rw [if_neg (by omega), if_pos (by omega), if_pos (by omega), if_neg (by omega), if_pos (by omega)]
  · by_cases h2 : i = len
    · subst h2
      rw [if_neg (c := i < min i _ + _) (by omega)]
      have e : i - (min i (d.length - start) + (i - min i (d.length - start))) = 0 := by omega
      rw [e]
      by_cases h3 : i < d.length - start
      · rw [if_pos (by omega), if_pos (by omega), List.getElem?_eq_getElem (by omega)]; rfl
      · rw [if_neg (by omega)]
        have : d[start + i]? = none := List.getElem?_eq_none (by omega)
        rw [this, if_pos (by omega)]; rfl
    · rw [if_neg (by omega), if_neg (by omega), if_neg (by omega)]
      symm; apply List.getElem?_eq_none; simp; omega

theorem fromBE_bufferRead (d : Bytes) (start : Nat) : ∀ len, fromBE (bufferRead d start len) = number d start len
  | 0 => by simp [bufferRead, rightPad, slice, fromBE, number]
  | len + 1 => by
    rw [bufferRead_succ, number, ← fromBE_bufferRead d start len]
    simp only [fromBE, List.foldl_append, List.foldl_cons, List.foldl_nil]
    rw [Nat.mul_comm]

theorem fromBE_number (b : Bytes) : fromBE b = number b 0 b.length := by
  rw [← fromBE_bufferRead]
  simp [bufferRead, slice, rightPad]

private theorem iterations_eq (e h : Nat) (hh : e = 0 → h = 0) :
    modexpIterations e h = max 1 (16 * (e - 32) + Nat.log2 h) := by
  unfold modexpIterations bitLength
  by_cases h0 : h = 0
  · subst h0
    by_cases he : e ≤ 32
    · rw [if_pos ⟨he, rfl⟩, Nat.sub_eq_zero_of_le he]; simp
    · simp [he]; omega
  · by_cases he : e ≤ 32
    · simp [he, h0, Nat.max_comm]
    · simp [he, h0, Nat.max_comm]

private theorem cost_eq (d : Bytes) :
    modexpGasCost (number d 0 32) (number d 64 32) (number d 32 32) (number d (96 + number d 0 32) (min 32 (number d 32 32)))
      = modexpPrice (modexpInput d) := by
  unfold modexpGasCost modexpPrice modexpRounds modexpInput
  dsimp only
  rw [iterations_eq _ _ (by intro h; rw [h]; rfl)]
  congr 2
  unfold modexpComplexity modexpWork
  dsimp only
  by_cases h : max (number d 0 32) (number d 64 32) > 32
  · rw [if_pos h, if_neg (by omega), Nat.pow_two]
  · rw [if_neg h, if_pos (by omega)]

private theorem output_aux (x y m l : Nat) (hlt : m < 256 ^ l) :
    (if m = 0 then List.replicate l 0 else toBE l (powMod x y m) : Bytes).length = l ∧
    fromBE (if m = 0 then List.replicate l 0 else toBE l (powMod x y m)) = if m = 0 then 0 else x ^ y % m := by
  by_cases hz : m = 0
  · rw [if_pos hz, if_pos hz]
    refine ⟨by simp, ?_⟩
    clear hlt
    induction l with
    | zero => rfl
    | succ n ih => simpa [List.replicate_succ, fromBE] using ih
  · rw [if_neg hz, if_neg hz, fromBE_toBE, toBE_length, powMod]
    exact ⟨rfl, Nat.mod_eq_of_lt (Nat.lt_trans (Nat.mod_lt _ (by omega)) hlt)⟩

theorem modexpOutput_eq (d : Bytes) :
    (modexpOutput d (number d 0 32) (number d 32 32) (number d 64 32)).length = (modexpInput d).modLen ∧
    fromBE (modexpOutput d (number d 0 32) (number d 32 32) (number d 64 32)) = modexpResult (modexpInput d) := by
  unfold modexpOutput modexpResult modexpInput
  dsimp only
  simp only [fromBE_bufferRead]
  generalize number d 0 32 = b
  generalize number d 32 32 = e
  generalize number d 64 32 = l
  by_cases h0 : b = 0 ∧ l = 0
  · rw [if_pos h0, h0.2]; simp [number, fromBE]
  rw [if_neg h0]
  have hlt : number d (96 + b + e) l < 256 ^ l := by
    rw [← fromBE_bufferRead]
    have := fromBE_lt (bufferRead d (96 + b + e) l)
    rwa [bufferRead_length] at this
  exact output_aux _ _ _ _ hlt

/-- **C49.** For every input: a length above 1024 halts the call exceptionally; too little gas is out of gas; and otherwise
exactly the price is charged, nothing else changes, and the output is `base ^ exp mod modulus` (0 for modulus 0) in exactly as
many bytes as the modulus has. Input that is missing reads as zeros. -/
theorem C49_modexp (E : Env) (p : M Unit) (hp : precompile E .osaka 5 = some p) (m : Mach) :
    let i := modexpInput m.evm.message.data
    (¬ modexpFits i → p m = .err (.halt .exceptionalHalt) m) ∧
    (modexpFits i → m.evm.gasLeft < modexpPrice i → p m = .err (.halt .outOfGas) m) ∧
    (modexpFits i → modexpPrice i ≤ m.evm.gasLeft → ∃ out : Bytes,
      p m = .ok () { m with evm := { m.evm with gasLeft := m.evm.gasLeft - modexpPrice i, output := out } } ∧
      out.length = i.modLen ∧ number out 0 out.length = modexpResult i) := by
  intro i
  have hp' : p = pModexpOsaka := by
    have : precompileFn E .osaka 5 = some pModexpOsaka := rfl
    rw [(precompileFn_of hp).2] at this; exact Option.some.inj this
  subst hp'
  have hi : i = modexpInput m.evm.message.data := rfl
  clear_value i
  generalize hd : m.evm.message.data = d at hi
  have run : pModexpOsaka m = if i.baseLen > 1024 then .err (.halt .exceptionalHalt) m
      else if i.expLen > 1024 then .err (.halt .exceptionalHalt) m
      else if i.modLen > 1024 then .err (.halt .exceptionalHalt) m
      else if m.evm.gasLeft < modexpPrice i then .err (.halt .outOfGas) m
      else .ok () { m with evm := { m.evm with
        gasLeft := m.evm.gasLeft - modexpPrice i, output := modexpOutput d i.baseLen i.expLen i.modLen } } := by
    subst hi
    simp only [pModexpOsaka, bind_eq, getEvm]
    rw [hd]
    simp only [fromBE_bufferRead]
    rw [show (modexpInput d).baseLen = number d 0 32 from rfl, show (modexpInput d).expLen = number d 32 32 from rfl,
      show (modexpInput d).modLen = number d 64 32 from rfl, ← cost_eq d]
    by_cases h1 : number d 0 32 > 1024
    · rw [if_pos h1, if_pos h1]; rfl
    rw [if_neg h1, if_neg h1]
    by_cases h2 : number d 32 32 > 1024
    · rw [if_pos h2, if_pos h2]; rfl
    rw [if_neg h2, if_neg h2]
    by_cases h3 : number d 64 32 > 1024
    · rw [if_pos h3, if_pos h3]; rfl
    rw [if_neg h3, if_neg h3]
    simp only [bind_eq, chargeGas]
    by_cases h4 : m.evm.gasLeft < modexpGasCost (number d 0 32) (number d 64 32) (number d 32 32)
        (number d (96 + number d 0 32) (min 32 (number d 32 32)))
    · simp only [if_pos h4]
    · simp only [if_neg h4]; rfl
  have hf : modexpFits i ↔ ¬ i.baseLen > 1024 ∧ ¬ i.expLen > 1024 ∧ ¬ i.modLen > 1024 := by unfold modexpFits; omega
  refine ⟨fun h => ?_, fun h hg => ?_, fun h hg => ?_⟩
  · rw [run]
    repeat' split
    all_goals first | rfl | (exfalso; apply h; rw [hf]; exact ⟨by assumption, by assumption, by assumption⟩)
  · rw [hf] at h
    rw [run, if_neg h.1, if_neg h.2.1, if_neg h.2.2, if_pos hg]
  · rw [hf] at h
    refine ⟨modexpOutput d i.baseLen i.expLen i.modLen, ?_, ?_, ?_⟩
    · rw [run, if_neg h.1, if_neg h.2.1, if_neg h.2.2, if_neg (by omega)]
    · subst hi; exact (modexpOutput_eq d).1
    · rw [← fromBE_number]; subst hi; exact (modexpOutput_eq d).2

/-- **C49.** The price is at least 500 gas, and never falls when a length or the head of the exponent grows. -/
theorem C49_price (i j : ModexpInput) (hb : i.baseLen ≤ j.baseLen) (he : i.expLen ≤ j.expLen) (hm : i.modLen ≤ j.modLen)
    (hh : i.expHead ≤ j.expHead) : 500 ≤ modexpPrice i ∧ modexpPrice i ≤ modexpPrice j := by
  refine ⟨Nat.le_max_left _ _, ?_⟩
  unfold modexpPrice modexpRounds
  have hlog : Nat.log2 i.expHead ≤ Nat.log2 j.expHead := by
    by_cases h0 : i.expHead = 0
    · rw [h0]; simp
    · exact (Nat.le_log2 (by omega)).mpr (Nat.le_trans (Nat.log2_self_le h0) hh)
  have hw : modexpWork (max i.baseLen i.modLen) ≤ modexpWork (max j.baseLen j.modLen) := by
    have hx : max i.baseLen i.modLen ≤ max j.baseLen j.modLen := by omega
    unfold modexpWork
    by_cases h1 : max i.baseLen i.modLen ≤ 32
    · rw [if_pos h1]
      by_cases h2 : max j.baseLen j.modLen ≤ 32
      · rw [if_pos h2]
      · rw [if_neg h2]
        have : 5 * 5 ≤ (max j.baseLen j.modLen + 7) / 8 * ((max j.baseLen j.modLen + 7) / 8) :=
          Nat.mul_le_mul (by omega) (by omega)
        omega
    · rw [if_neg h1, if_neg (by omega)]
      exact Nat.mul_le_mul_left _ (Nat.mul_le_mul (by omega) (by omega))
  have hr : max 1 (16 * (i.expLen - 32) + Nat.log2 i.expHead) ≤ max 1 (16 * (j.expLen - 32) + Nat.log2 j.expHead) := by omega
  have := Nat.mul_le_mul hw hr
  omega

/-- 3 ^ 5 mod 100 = 43, with one byte for each number: 3 costs the minimum. -/
def modexpCase : Bytes := toBE 32 1 ++ toBE 32 1 ++ toBE 32 2 ++ [3, 5, 0, 100]

example : modexpFits (modexpInput modexpCase) ∧ modexpPrice (modexpInput modexpCase) = 500 ∧
    (modexpInput modexpCase).modLen = 2 ∧ modexpResult (modexpInput modexpCase) = 43 ∧
    modexpOutput modexpCase 1 1 2 = [0, 43] := by
  unfold modexpFits; decide +kernel

/-- A truncated input: the missing last byte of the modulus 1000 reads as zero (768), and 3 ^ 5 mod 768 = 243. -/
example : modexpResult (modexpInput (toBE 32 1 ++ toBE 32 1 ++ toBE 32 2 ++ [3, 5, 3])) = 243 := by decide +kernel

/-- A length above the limit. -/
example : ¬ modexpFits (modexpInput (toBE 32 1025)) := by unfold modexpFits; decide +kernel

end Verif
