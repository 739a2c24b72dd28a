import Verif.Model.Base
/-! Numeric helpers (src/ethereum/utils/numeric.py). `ceil32` and `get_sign` are in Model/Base.lean, `taylor_exponential` in
Model/Gas.lean. -/
namespace Verif

/-- ethereum_types `U32`. -/
abbrev U32 := BitVec 32

/-- `Uint.from_le_bytes` (ethereum_types). -/
def fromLE : Bytes → Nat
  | [] => 0
  | b :: r => b.toNat + 256 * fromLE r

/-- `to_le_bytes` with a fixed number of bytes (ethereum_types), for a number that fits. -/
def toLE : Nat → Nat → Bytes
  | 0, _ => []
  | n + 1, x => UInt8.ofNat x :: toLE n (x / 256)

/-- utils/numeric.py:66-90 `is_prime`. The bound of the search is `int(number**0.5)`; the floating-point root is modelled by
the exact integer root, which it equals for numbers below 2^52 (all the sizes of ethash.py for any realistic epoch are). -/
def isPrime (number : Nat) : Bool :=
  if number ≤ 1 then false
  else (List.range' 2 (Nat.sqrt number + 1 - 2)).all fun x => number % x != 0

/-- utils/numeric.py:93-115 `le_bytes_to_uint32_sequence`: one number for each (possibly short) group of four bytes. -/
def leWords : Bytes → List U32
  | a :: b :: c :: d :: r => BitVec.ofNat 32 (fromLE [a, b, c, d]) :: leWords r
  | [] => []
  | short => [BitVec.ofNat 32 (fromLE short)]

/-- utils/numeric.py:118-147 `le_uint32_sequence_to_bytes`. -/
def leWordsToBytes (sequence : List U32) : Bytes := sequence.flatMap fun item => toLE 4 item.toNat

/-- utils/numeric.py:150-168 `le_uint32_sequence_to_uint`. -/
def leWordsToNat (sequence : List U32) : Nat := fromLE (leWordsToBytes sequence)

end Verif
