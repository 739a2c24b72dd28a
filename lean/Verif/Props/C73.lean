import Verif.Lemmas.MemoryRun
import Verif.Lemmas.Jumps
import Verif.Spec.Sample
/-!
Property C73: the instructions that move words on the stack, and JUMPDEST and STOP, in every fork and every frame.
-/
namespace Verif.Props
open Verif Spec

variable (E : Env) (pm pcm : Sub) (m : Mach)

/-- **C73**, PUSH0 to PUSH32: the bytes of the code after the instruction, read as a big-endian number with zeros past the end of the code.
PUSH0 costs 2, the others 3. A position that is no 256-bit number is an OverflowError; no code is that long. -/
theorem C73_push (n : Nat) (hn : n ≤ 32) :
    let price := if n = 0 then 2 else 3
    if m.evm.gasLeft < price then opStep E pm pcm (.push n) m = .err (.halt .outOfGas) m
    else if 2 ^ 256 ≤ m.evm.pc + 1 then ∃ m', opStep E pm pcm (.push n) m = .err (.crash .overflowError) m'
    else if m.evm.stack.length = 1024 then ∃ m', opStep E pm pcm (.push n) m = .err (.halt .stackOverflow) m'
    else ∃ w : Word, w.toNat = number m.evm.code (m.evm.pc + 1) n ∧ opStep E pm pcm (.push n) m = .ok () { m with evm :=
      { m.evm with stack := w :: m.evm.stack, gasLeft := m.evm.gasLeft - price, pc := m.evm.pc + 1 + n } } := by
  intro price
  have hu : ∀ k m, u256 k m = if k < 2 ^ 256 then .ok (BitVec.ofNat 256 k) m else .err (.crash .overflowError) m := fun _ _ => rfl
  rw [show opStep E pm pcm (.push n) = opPush n from rfl]
  simp only [opPush, bind_eq, chargeGas, GAS_BASE, GAS_VERY_LOW]
  by_cases hg : m.evm.gasLeft < price
  · rw [if_pos hg, if_pos hg]
  rw [if_neg hg, if_neg hg]
  simp only [getEvm, hu]
  by_cases hp : 2 ^ 256 ≤ m.evm.pc + 1
  · rw [if_pos hp, if_neg (Nat.not_lt.mpr hp)]; exact ⟨_, rfl⟩
  have hp' := Nat.lt_of_not_le hp
  rw [if_neg hp, if_pos hp']
  simp only [BitVec.toNat_ofNat, Nat.mod_eq_of_lt hp', fromBE_bufferRead]
  unfold push
  by_cases hs : m.evm.stack.length = 1024
  · rw [if_pos hs, if_pos (by exact hs)]; exact ⟨_, rfl⟩
  rw [if_neg hs, if_neg (by exact hs)]
  refine ⟨_, ?_, by rw [Nat.add_assoc]; rfl⟩
  rw [BitVec.toNat_ofNat, Nat.mod_eq_of_lt]
  rw [← fromBE_bufferRead]
  refine Nat.lt_of_lt_of_le (fromBE_lt _) ?_
  rw [bufferRead_length, show (2 : Nat) ^ 256 = 256 ^ 32 from by decide]
  exact Nat.pow_le_pow_right (by decide) hn

/-- **C73**, DUP1 to DUP16: a copy of item `n`, where item 1 is the top. -/
theorem C73_dup (n : Nat) (hn : 1 ≤ n) :
    if m.evm.gasLeft < 3 then opStep E pm pcm (.dup n) m = .err (.halt .outOfGas) m
    else if m.evm.stack.length < n then ∃ m', opStep E pm pcm (.dup n) m = .err (.halt .stackUnderflow) m'
    else if m.evm.stack.length = 1024 then ∃ m', opStep E pm pcm (.dup n) m = .err (.halt .stackOverflow) m'
    else ∃ w, m.evm.stack[n - 1]? = some w ∧ opStep E pm pcm (.dup n) m = .ok () { m with evm :=
      { m.evm with stack := w :: m.evm.stack, gasLeft := m.evm.gasLeft - 3, pc := m.evm.pc + 1 } } := by
  rw [show opStep E pm pcm (.dup n) = opDup (n - 1) from rfl]
  simp only [opDup, bind_eq, chargeGas, GAS_VERY_LOW]
  by_cases hg : m.evm.gasLeft < 3
  · rw [if_pos hg, if_pos hg]
  rw [if_neg hg, if_neg hg]
  simp only [getEvm]
  by_cases hd : m.evm.stack.length < n
  · rw [if_pos hd, List.getElem?_eq_none (by omega)]; exact ⟨_, rfl⟩
  rw [if_neg hd, List.getElem?_eq_getElem (by omega)]
  simp only [bind_eq]
  unfold push
  by_cases hs : m.evm.stack.length = 1024
  · rw [if_pos hs, if_pos (by exact hs)]; exact ⟨_, rfl⟩
  rw [if_neg hs, if_neg (by exact hs)]
  exact ⟨_, rfl, rfl⟩

/-- **C73**, SWAP1 to SWAP16: the top and the item `n` below it change places, and all other items stay. -/
theorem C73_swap (n : Nat) (hn : 1 ≤ n) :
    if m.evm.gasLeft < 3 then opStep E pm pcm (.swap n) m = .err (.halt .outOfGas) m
    else if m.evm.stack.length ≤ n then ∃ m', opStep E pm pcm (.swap n) m = .err (.halt .stackUnderflow) m'
    else ∃ st', opStep E pm pcm (.swap n) m = .ok () { m with evm :=
        { m.evm with stack := st', gasLeft := m.evm.gasLeft - 3, pc := m.evm.pc + 1 } } ∧
      st'.length = m.evm.stack.length ∧ st'[0]? = m.evm.stack[n]? ∧ st'[n]? = m.evm.stack[0]? ∧
      ∀ i, i ≠ 0 → i ≠ n → st'[i]? = m.evm.stack[i]? := by
  rw [show opStep E pm pcm (.swap n) = opSwap n from rfl]
  simp only [opSwap, bind_eq, chargeGas, GAS_VERY_LOW]
  by_cases hg : m.evm.gasLeft < 3
  · rw [if_pos hg, if_pos hg]
  rw [if_neg hg, if_neg hg]
  simp only [getEvm]
  by_cases hd : m.evm.stack.length ≤ n
  · rw [if_pos hd, List.getElem?_eq_none hd]
    cases m.evm.stack[0]? <;> exact ⟨_, rfl⟩
  rw [if_neg hd, List.getElem?_eq_getElem (by omega : 0 < m.evm.stack.length), List.getElem?_eq_getElem (by omega : n < m.evm.stack.length)]
  refine ⟨_, rfl, by simp, ?_, ?_, fun i h0 hi => ?_⟩
  · rw [List.getElem?_set_ne (by omega), List.getElem?_set_self (by omega)]
  · rw [List.getElem?_set_self (by simp; omega)]
  · rw [List.getElem?_set_ne (Ne.symm hi), List.getElem?_set_ne (Ne.symm h0)]

/-- **C73**, POP. -/
theorem C73_pop :
    match m.evm.stack with
    | [] => opStep E pm pcm .pop m = .err (.halt .stackUnderflow) m
    | _ :: rest =>
      if m.evm.gasLeft < 2 then ∃ m', opStep E pm pcm .pop m = .err (.halt .outOfGas) m'
      else opStep E pm pcm .pop m =
        .ok () { m with evm := { m.evm with stack := rest, gasLeft := m.evm.gasLeft - 2, pc := m.evm.pc + 1 } } := by
  rw [show opStep E pm pcm .pop = opPop from rfl]
  simp only [opPop, bind_eq, pop, chargeGas, GAS_BASE]
  match m.evm.stack with
  | [] => rfl
  | _ :: rest =>
    dsimp only
    by_cases hg : m.evm.gasLeft < 2
    · rw [if_pos hg, if_pos hg]; exact ⟨_, rfl⟩
    · rw [if_neg hg, if_neg hg]; rfl

/-- **C73**, JUMPDEST costs 1 and does nothing; STOP is free and ends the frame, with whatever it had for output. -/
theorem C73_jumpdest : opStep E pm pcm .jumpdest m =
    if m.evm.gasLeft < 1 then .err (.halt .outOfGas) m
    else .ok () { m with evm := { m.evm with gasLeft := m.evm.gasLeft - 1, pc := m.evm.pc + 1 } } := by
  rw [show opStep E pm pcm .jumpdest = opJumpdest from rfl]
  simp only [opJumpdest, bind_eq, chargeGas, GAS_JUMPDEST]
  by_cases hg : m.evm.gasLeft < 1
  · rw [if_pos hg, if_pos hg]
  · rw [if_neg hg, if_neg hg]; rfl

theorem C73_stop : opStep E pm pcm .stop m =
    .ok () { m with evm := { m.evm with running := false, pc := m.evm.pc + 1 } } := rfl

/-! ### Concrete cases -/

/-- A frame with three words, whose code ends within the data of its PUSH4. -/
def stackFrame (gas : Nat) (stack : List Word) : Mach :=
  let w := Sample.worldOf [(0xaa, ⟨1, 55, [0x63, 0xab, 0xcd]⟩)] []
  { evm := { initEvm (Sample.callTo w 0xaa gas 3) with stack := stack }, world := w }

def moved (m : Mach) (op : Op) : Option Exn × Option (List Word × Nat × Nat) :=
  match opStep Sample.env (fun _ _ => .error (.outOfFuel, m.world)) (fun _ _ => .error (.outOfFuel, m.world)) op m with
  | .ok _ m' => (none, some (m'.evm.stack, m'.evm.gasLeft, m'.evm.pc))
  | .err e _ => (some e, none)

example : moved (stackFrame 9 [7, 8, 9]) (.push 4) = (none, some ([0xabcd0000, 7, 8, 9], 6, 5)) ∧
    moved (stackFrame 9 [7, 8, 9]) (.push 0) = (none, some ([0, 7, 8, 9], 7, 1)) ∧
    moved (stackFrame 9 [7, 8, 9]) (.dup 3) = (none, some ([9, 7, 8, 9], 6, 1)) ∧
    moved (stackFrame 9 [7, 8, 9]) (.dup 4) = (some (.halt .stackUnderflow), none) ∧
    moved (stackFrame 9 (List.replicate 1024 1)) (.dup 4) = (some (.halt .stackOverflow), none) ∧
    moved (stackFrame 9 [7, 8, 9]) (.swap 2) = (none, some ([9, 8, 7], 6, 1)) ∧
    moved (stackFrame 9 [7, 8, 9]) (.swap 3) = (some (.halt .stackUnderflow), none) ∧
    moved (stackFrame 2 []) (.swap 3) = (some (.halt .outOfGas), none) ∧
    moved (stackFrame 2 [7, 8, 9]) .pop = (none, some ([8, 9], 0, 1)) := by
  refine ⟨?_, ?_, ?_, ?_, ?_, ?_, ?_, ?_, ?_⟩ <;> decide +kernel

end Verif.Props
