import Verif.Model.Precompiles
import Verif.Spec.CurvePoints
/-! What the precompiles 2, 3 and 4 charge and return. -/
namespace Verif
open Spec.Curve

namespace Spec

/-- What a precompile that always succeeds charges and returns for its input: so much, and so much per (started) word of 32 bytes. -/
structure Service where
  base : Nat
  perWord : Nat
  answer : Bytes → Bytes

/-- The price for an input. -/
def Service.price (s : Service) (input : Bytes) : Nat := s.base + s.perWord * ((input.length + 31) / 32)

/-- Yellow paper, appendix E.1: 2 is SHA-256, 3 is RIPEMD-160 with 12 zero bytes in front, 4 returns its input. -/
def services (C : Crypto) : List (Address × Service) :=
  [(2, ⟨60, 12, fun d => bytesBE 32 (C.sha256 d).toNat⟩),
   (3, ⟨600, 120, fun d => List.replicate 12 0 ++ bytesBE 20 (C.ripemd160 d).toNat⟩),
   (4, ⟨15, 3, fun d => d⟩)]

end Spec

end Verif
