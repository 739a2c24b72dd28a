import Verif.Model.Base
/-!
src/ethereum/utils/hexadecimal.py and the functions of src/ethereum/<fork>/utils/hexadecimal.py (the same text in all forks).
A `str` is a list of characters. `none` stands for the exception (ValueError of a malformed string or of a wrong length,
OverflowError of a number that is too large).

Simplification: Python's `int` also accepts a sign, single underscores between digits, surrounding white space, a second `0x` and
decimal digits of other scripts, and `bytes.fromhex` skips white space between bytes. Such strings are malformed here.
-/
namespace Verif.Hex
open Verif

/-- A `str`. -/
abbrev Str := List Char

/-- The digits in order. -/
def alphabet : Str := ['0', '1', '2', '3', '4', '5', '6', '7', '8', '9', 'a', 'b', 'c', 'd', 'e', 'f']

/-- The value of a digit; upper and lower case are the same. -/
def digit (c : Char) : Option Nat := alphabet.idxOf? c.toLower

/-- utils/hexadecimal.py:20-34 `has_hex_prefix`. -/
def hasHexPrefix (s : Str) : Bool := ['0', 'x'].isPrefixOf s

/-- utils/hexadecimal.py:37-55 `remove_hex_prefix`. -/
def removeHexPrefix (s : Str) : Str := if hasHexPrefix s then s.drop 2 else s

/-- Python's `str.rjust(width, "0")`. -/
def rjust (width : Nat) (s : Str) : Str := List.replicate (width - s.length) '0' ++ s

/-- Python's `bytes.fromhex`: two digits for each byte. -/
def fromHex : Str → Option Bytes
  | [] => some []
  | [_] => none
  | a :: b :: r =>
    match digit a, digit b, fromHex r with
    | some x, some y, some l => some (UInt8.ofNat (16 * x + y) :: l)
    | _, _, _ => none

/-- The digits of a string in the given base, or `none` if another character occurs. -/
def digits (base : Nat) : Str → Option (List Nat)
  | [] => some []
  | c :: r =>
    match digit c, digits base r with
    | some d, some l => if d < base then some (d :: l) else none
    | _, _ => none

/-- Python's `int(s, base)`: at least one digit. -/
def int (base : Nat) (s : Str) : Option Nat :=
  match s, digits base s with
  | [], _ => none
  | _, none => none
  | _, some l => some (l.foldl (fun n d => n * base + d) 0)

/-- The constructor of a fixed length byte string. -/
def fixed (n : Nat) : Option Bytes → Option Bytes
  | some b => if b.length = n then some b else none
  | none => none

/-- utils/hexadecimal.py:58-72 `hex_to_bytes`. -/
def hexToBytes (s : Str) : Option Bytes := fromHex (removeHexPrefix s)
/-- utils/hexadecimal.py:75-89 `hex_to_bytes8`. -/
def hexToBytes8 (s : Str) : Option Bytes := fixed 8 (fromHex (rjust 16 (removeHexPrefix s)))
/-- utils/hexadecimal.py:92-106 `hex_to_bytes32`. -/
def hexToBytes32 (s : Str) : Option Bytes := fixed 32 (fromHex (rjust 64 (removeHexPrefix s)))
/-- utils/hexadecimal.py:109-125 `hex_to_bytes256`. -/
def hexToBytes256 (s : Str) : Option Bytes := fixed 256 (fromHex (rjust 512 (removeHexPrefix s)))
/-- utils/hexadecimal.py:128-142 `hex_to_hash`; <fork>/utils/hexadecimal.py:22-36 `hex_to_root`. -/
def hexToHash (s : Str) : Option Bytes := fixed 32 (fromHex (removeHexPrefix s))
/-- <fork>/utils/hexadecimal.py:39-53 `hex_to_address`. -/
def hexToAddress (s : Str) : Option Bytes := fixed 20 (fromHex (rjust 40 (removeHexPrefix s)))

/-- The constructor of an unsigned integer type with the given number of bits. -/
def bounded (bits : Nat) : Option Nat → Option Nat
  | some n => if n < 2 ^ bits then some n else none
  | none => none

/-- utils/hexadecimal.py:145-159 `hex_to_uint`. -/
def hexToUint (s : Str) : Option Nat := int 16 (removeHexPrefix s)
/-- utils/hexadecimal.py:162-176 `hex_to_u8`. -/
def hexToU8 (s : Str) : Option Nat := bounded 8 (int 16 (removeHexPrefix s))
/-- utils/hexadecimal.py:179-193 `hex_to_u64`. -/
def hexToU64 (s : Str) : Option Nat := bounded 64 (int 16 (removeHexPrefix s))
/-- utils/hexadecimal.py:196-210 `hex_to_u256`. -/
def hexToU256 (s : Str) : Option Nat := bounded 256 (int 16 (removeHexPrefix s))

/-- genesis.py:116-123 `hex_or_base_10_str_to_u256`. -/
def hexOrBase10StrToU256 (s : Str) : Option Nat := if hasHexPrefix s then hexToU256 s else bounded 256 (int 10 s)

end Verif.Hex
