import Verif.Model.Base
/-! Hex-prefix encoding (Yellow Paper, appendix C), read backwards. -/
namespace Verif.Spec

/-- The two nibbles of a byte, high one first. -/
def nibblesOf (b : UInt8) : Bytes := [b / 16, b % 16]

/-- Decode a hex-prefix string: the first nibble holds the leaf flag (2) and the odd flag (1). -/
def hexPrefixDecode : Bytes → Option (Bytes × Bool)
  | [] => none
  | c :: r =>
    match (c / 16).toNat with
    | 0 => some (r.flatMap nibblesOf, false)
    | 1 => some (c % 16 :: r.flatMap nibblesOf, false)
    | 2 => some (r.flatMap nibblesOf, true)
    | 3 => some (c % 16 :: r.flatMap nibblesOf, true)
    | _ => none

end Verif.Spec
