import Verif.Model.Base
/-
Recursive length prefix encoding. The package `ethereum_rlp` is external to /repo; `/repo` calls `rlp.encode` and
`rlp.decode_to`. The package's source is not available here: this follows the definition of RLP (Yellow Paper, appendix B)
and was not compared with the package.
-/
namespace Verif

/-- `Extended` values: byte strings and sequences. Integers are encoded as their minimal big-endian bytes. -/
inductive Rlp where
  | bytes (b : Bytes)
  | list (l : List Rlp)

namespace Rlp

/-- An unsigned integer as an RLP item. -/
def ofNat (n : Nat) : Rlp := .bytes (natBytes n)
/-- A fixed-size 32 byte string. -/
def ofWord32 (w : Word) : Rlp := .bytes (wordBytes w)
/-- A 20-byte address. -/
def ofAddress (a : Address) : Rlp := .bytes (addressBytes a)

/-- Length prefix with the given offset: 0x80 for strings, 0xc0 for lists. -/
def lengthPrefix (offset : Nat) (len : Nat) : Bytes :=
  if len < 56 then [UInt8.ofNat (offset + len)]
  else
    let l := natBytes len
    UInt8.ofNat (offset + 55 + l.length) :: l

/-- `rlp.encode_bytes`. -/
def encodeBytes (b : Bytes) : Bytes :=
  match b with
  | [x] => if x < 0x80 then [x] else lengthPrefix 0x80 1 ++ [x]
  | b => lengthPrefix 0x80 b.length ++ b

mutual
/-- `rlp.encode`. -/
def encode : Rlp → Bytes
  | .bytes b => encodeBytes b
  | .list l => let body := encodeSeq l; lengthPrefix 0xc0 body.length ++ body
/-- Concatenated encodings of a sequence. -/
def encodeSeq : List Rlp → Bytes
  | [] => []
  | x :: r => encode x ++ encodeSeq r
end

end Rlp
end Verif
