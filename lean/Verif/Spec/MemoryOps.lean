import Verif.Spec.Calls
import Verif.Spec.Access
import Verif.Spec.Modexp
/-!
Memory as the yellow paper has it: an endless array of bytes, zero at first. The instructions that write to it or read a range of it,
with their prices (appendix H; EIP-211 RETURNDATACOPY, EIP-5656 MCOPY) apart from the price of making it longer.
-/
namespace Verif.Spec

/-- Byte `i` of memory, of call data or of code; zero past the end. -/
def cell (b : Bytes) (i : Nat) : UInt8 := b.getD i 0
/-- The bytes of a range. -/
def bytesAt (b : Bytes) (start size : Nat) : Bytes := (List.range size).map fun k => cell b (start + k)
/-- Byte `k` of a word, the most significant being byte 0. -/
def byteOf (w : Word) (k : Nat) : UInt8 := UInt8.ofNat (w.toNat / 256 ^ (31 - k))

/-- `mem'` has the given number of words and the same bytes as `mem`, except that the range from `start` holds `byte 0, …`. -/
structure Written (mem mem' : Bytes) (words start size : Nat) (byte : Nat → UInt8) : Prop where
  length : mem'.length = 32 * words
  cells : ∀ i, cell mem' i = if start ≤ i ∧ i < start + size then byte (i - start) else cell mem i

/-- The number of words of memory once `needed` words of it were used. -/
def wordsAfter (m : Mach) (needed : Nat) : Nat := max (m.evm.memory.length / 32) needed
/-- The price of the words that were not used before. -/
def growthPrice (m : Mach) (needed : Nat) : Nat := memoryPrice (wordsAfter m needed) - memoryPrice (m.evm.memory.length / 32)

/-- A write: its range, its price without the growth of memory, the words that it needs, what it writes, and the stack left. -/
structure Write where
  start : Word
  size : Word
  price : Nat
  needed : Nat
  byte : Nat → UInt8
  rest : List Word

/-- The instructions that write. MCOPY reads all of its source before it writes. -/
def writeOf (m : Mach) : Op → List Word → Option Write
  | .mstore, a :: v :: rest => some ⟨a, 32, 3, wordsFor a 32, byteOf v, rest⟩
  | .mstore8, a :: v :: rest => some ⟨a, 1, 3, wordsFor a 1, fun _ => byteOf v 31, rest⟩
  | .calldatacopy, a :: b :: n :: rest =>
    some ⟨a, n, 3 + 3 * wordsFor 0 n, wordsFor a n, fun k => cell m.evm.message.data (b.toNat + k), rest⟩
  | .codecopy, a :: b :: n :: rest => some ⟨a, n, 3 + 3 * wordsFor 0 n, wordsFor a n, fun k => cell m.evm.code (b.toNat + k), rest⟩
  | .mcopy, a :: b :: n :: rest =>
    some ⟨a, n, 3 + 3 * wordsFor 0 n, max (wordsFor b n) (wordsFor a n), fun k => cell m.evm.memory (b.toNat + k), rest⟩
  | .returndatacopy, a :: b :: n :: rest =>
    some ⟨a, n, 3 + 3 * wordsFor 0 n, wordsFor a n, fun k => cell m.evm.returnData (b.toNat + k), rest⟩
  | _, _ => none

/-- RETURNDATACOPY, unlike the others, may not read past the end (EIP-211). -/
def PastEnd (m : Mach) : Op → Prop
  | .returndatacopy => ∃ a b n rest, m.evm.stack = a :: b :: n :: rest ∧ m.evm.returnData.length < b.toNat + n.toNat
  | _ => False

/-- A read: its range, its price without the growth of memory, the word that it gives, and the stack left. -/
structure Read where
  start : Word
  size : Word
  price : Nat
  result : Word
  rest : List Word

/-- The instructions that put what they read from memory on the stack. -/
def readOf (E : Env) (m : Mach) : Op → List Word → Option Read
  | .mload, a :: rest => some ⟨a, 32, 3, BitVec.ofNat 256 (number m.evm.memory a.toNat 32), rest⟩
  | .keccak, a :: n :: rest =>
    some ⟨a, n, 30 + 6 * wordsFor 0 n, E.crypto.keccak256 (bytesAt m.evm.memory a.toNat n.toNat), rest⟩
  | _, _ => none

end Verif.Spec
