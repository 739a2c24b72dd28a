import Verif.Model.Evm
/-! Where the instructions of a code begin (yellow paper, section 9.4.3), from the bytes alone. -/
namespace Verif.Spec

/-- Number of data bytes that follow an instruction byte: PUSH1 (0x60) to PUSH32 (0x7f) have 1 to 32. -/
def dataBytes (b : UInt8) : Nat := if 0x60 ≤ b.toNat ∧ b.toNat ≤ 0x7f then b.toNat - 0x5f else 0

/-- `p` is the offset of an instruction: 0 is, and so is the offset after an instruction and its data. Bytes that are no
instruction count as instructions without data. -/
inductive InstrStart (code : Bytes) : Nat → Prop
  | zero : InstrStart code 0
  | next (p : Nat) (b : UInt8) : InstrStart code p → code[p]? = some b → InstrStart code (p + 1 + dataBytes b)

/-- `p` holds a JUMPDEST instruction. -/
def JumpDest (code : Bytes) (p : Nat) : Prop := InstrStart code p ∧ code[p]? = some 0x5b

/-- The check of C14: a frame about to execute something is at the start of an instruction of its code. -/
def AtInstr (m : Mach) : Prop := m.evm.running = true → InstrStart m.evm.code m.evm.pc

end Verif.Spec
