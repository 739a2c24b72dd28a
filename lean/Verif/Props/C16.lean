import Verif.Lemmas.Arith
import Verif.Spec.Sample
/-!
Property C16: the arithmetic, comparison and bitwise instructions compute the functions of `Spec.unary`, `Spec.binary`
and `Spec.ternary`. The only hypothesis on the frame is the bound on the stack, which C12 proves for all frames.
-/
namespace Verif.Props
open Verif Spec

variable (E : Env) (pm pcm : Sub) (m : Mach) (hlen : m.evm.stack.length ≤ 1024)
include hlen

/-- **C16**, instructions with one operand: they run out of gas if the price cannot be paid; otherwise they replace the
operand by the result, pay the price, go on with the next instruction, and change nothing else. -/
theorem C16_unary (op : Op) (price : Nat) (f : Word → Word) (h : unary op = some (price, f))
    (x : Word) (rest : List Word) (hst : m.evm.stack = x :: rest) :
    if m.evm.gasLeft < price then ∃ m', opStep E pm pcm op m = .err (.halt .outOfGas) m'
    else opStep E pm pcm op m = .ok () { m with evm :=
      { m.evm with stack := f x :: rest, gasLeft := m.evm.gasLeft - price, pc := m.evm.pc + 1 } } := by
  have hl : rest.length ≤ 1023 := by rw [hst] at hlen; simpa using hlen
  cases op <;> simp only [unary, reduceCtorEq, Option.some.injEq, Prod.mk.injEq] at h <;> obtain ⟨rfl, rfl⟩ := h
  all_goals
    simp only [opStep, opIszero, opNot, opClz, bind_eq, pop, hst, chargeGas, GAS_VERY_LOW, GAS_LOW]
    split
    · exact ⟨_, rfl⟩
    · simp only; rw [push_run (by simpa using hl)]; simp only [incPc]
      simp only [bool_eq, not_eq, clz_eq, word_zero_iff]

/-- **C16**, instructions with two operands. -/
theorem C16_binary (op : Op) (price : Word → Word → Nat) (f : Word → Word → Word) (h : binary m.world.state.fork op = some (price, f))
    (x y : Word) (rest : List Word) (hst : m.evm.stack = x :: y :: rest) :
    if m.evm.gasLeft < price x y then ∃ m', opStep E pm pcm op m = .err (.halt .outOfGas) m'
    else opStep E pm pcm op m = .ok () { m with evm :=
      { m.evm with stack := f x y :: rest, gasLeft := m.evm.gasLeft - price x y, pc := m.evm.pc + 1 } } := by
  have hl : rest.length ≤ 1023 := by rw [hst] at hlen; simp at hlen; omega
  cases op <;> simp only [binary, reduceCtorEq, Option.some.injEq, Prod.mk.injEq] at h <;> obtain ⟨rfl, rfl⟩ := h
  all_goals
    simp only [opStep, opAdd, opMul, opSub, opDiv, opSdiv, opMod, opSmod, opExp, opSignextend, opLt, opGt, opSlt, opSgt,
      opEq, opAnd, opOr, opXor, opByte, opShl, opShr, opSar, bind_eq, pop, hst, chargeGas, GAS_VERY_LOW, GAS_LOW,
      expBytes_eq, GAS_EXPONENTIATION, gasExponentiationPerByte, GAS_EXPONENTIATION_PER_BYTE, getState]
    try generalize (if m.world.state.fork.since .spuriousDragon = true then 50 else 10) = perByte
    split
    · exact ⟨_, rfl⟩
    · simp only; rw [push_run (by simpa using hl)]; simp only [incPc]
      simp only [bool_eq, add_eq, mul_eq, sub_eq, div_eq, sdiv_eq, mod_eq, smod_eq, exp_eq, signextend_eq, and_eq, or_eq,
        xor_eq, byte_eq, shl_eq, shr_eq, sar_eq, BitVec.lt_def, gt_iff_lt, ← BitVec.toNat_inj]

/-- **C16**, instructions with three operands. -/
theorem C16_ternary (op : Op) (price : Nat) (f : Word → Word → Word → Word) (h : ternary op = some (price, f))
    (x y z : Word) (rest : List Word) (hst : m.evm.stack = x :: y :: z :: rest) :
    if m.evm.gasLeft < price then ∃ m', opStep E pm pcm op m = .err (.halt .outOfGas) m'
    else opStep E pm pcm op m = .ok () { m with evm :=
      { m.evm with stack := f x y z :: rest, gasLeft := m.evm.gasLeft - price, pc := m.evm.pc + 1 } } := by
  have hl : rest.length ≤ 1023 := by rw [hst] at hlen; simp at hlen; omega
  cases op <;> simp only [ternary, reduceCtorEq, Option.some.injEq, Prod.mk.injEq] at h <;> obtain ⟨rfl, rfl⟩ := h
  all_goals
    simp only [opStep, opAddmod, opMulmod, bind_eq, pop, hst, chargeGas, GAS_MID]
    split
    · exact ⟨_, rfl⟩
    · simp only; rw [push_run (by simpa using hl)]; simp only [incPc]
      simp only [addmod_eq, mulmod_eq]

omit hlen

/-- **C16**, the bytes of these instructions in the code are those of the yellow paper. -/
theorem C16_opcodes : (List.range 256).filterMap (fun b => (decodeOp (UInt8.ofNat b)).bind fun op =>
      if (unary op).isSome ∨ (binary .osaka op).isSome ∨ (ternary op).isSome then some (b, op) else none) =
    [(0x01, .add), (0x02, .mul), (0x03, .sub), (0x04, .div), (0x05, .sdiv), (0x06, .mod), (0x07, .smod), (0x08, .addmod),
     (0x09, .mulmod), (0x0a, .exp), (0x0b, .signextend), (0x10, .lt), (0x11, .gt), (0x12, .slt), (0x13, .sgt), (0x14, .eq),
     (0x15, .iszero), (0x16, .and), (0x17, .or), (0x18, .xor), (0x19, .not), (0x1a, .byte), (0x1b, .shl), (0x1c, .shr),
     (0x1d, .sar), (0x1e, .clz)] := by decide +kernel

/-- The specification itself on some operands: minimal signed number by -1, arithmetic shift of -5, sign extension of 0xff,
the remainder of -7 by 3, and overflow of the sum in ADDMOD. -/
example : ((binary .osaka .sdiv).map (·.2 (2 ^ 255) (-1))) = some (2 ^ 255) ∧ ((binary .osaka .sar).map (·.2 1 (-5))) = some (-3) ∧
    ((binary .osaka .signextend).map (·.2 0 0xff)) = some (-1) ∧ ((binary .osaka .smod).map (·.2 (-7) 3)) = some (-1) ∧
    ((ternary .addmod).map (·.2 (-1) (-1) 10)) = some 0 ∧ ((unary .clz).map (·.2 0xff)) = some 248 := by decide +kernel

end Verif.Props
