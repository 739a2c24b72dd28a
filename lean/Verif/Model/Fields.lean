import Verif.Model.Base
/-!
The number types of py_ecc that the precompiles use: prime fields, their quadratic extensions, projective points. py_ecc is an
external package; the arithmetic of `FQ` and `FQ2` and the test `is_on_curve` are modelled, the group operations, the pairing and
the maps to the curve are parameters (`CurveLib`).
-/
namespace Verif

/-- py_ecc `bn128.field_modulus`. -/
def BN_P : Nat := 21888242871839275222246405745257275088696311157297823662689037894645226208583
/-- py_ecc `bn128.curve_order`. -/
def BN_N : Nat := 21888242871839275222246405745257275088548364400416034343698204186575808495617
/-- py_ecc `bls12_381` `FQ.field_modulus`. -/
def BLS_P : Nat :=
  0x1a0111ea397fe69a4b1ba7b6434bacd764774b84f38512bf6730d2a0f6b0f6241eabfffeb153ffffb9feffffffffaaab
/-- py_ecc `bls12_381.curve_order`; also crypto/kzg.py:61 and point_evaluation.py:28 `BLS_MODULUS`. -/
def BLS_MODULUS : Nat := 52435875175126190479447740508185965837690552500527637822603658699938581184513

instance : NeZero BN_P := ⟨by decide⟩
instance : NeZero BLS_P := ⟨by decide⟩

/-- py_ecc `FQ`: a number modulo the field modulus. -/
abbrev Fq (p : Nat) := Fin p

/-- py_ecc `FQ2`: `c0 + c1 * u` with `u ^ 2 = -1` (`FQ2_modulus_coeffs = (1, 0)` for both curves). -/
structure Fq2 (p : Nat) where
  c0 : Fq p
  c1 : Fq p
  deriving DecidableEq

namespace Fq2
variable {p : Nat} [NeZero p]
instance : Zero (Fq2 p) := ⟨⟨0, 0⟩⟩
instance : One (Fq2 p) := ⟨⟨1, 0⟩⟩
instance : Sub (Fq2 p) := ⟨fun a b => ⟨a.c0 - b.c0, a.c1 - b.c1⟩⟩
instance : Mul (Fq2 p) := ⟨fun a b => ⟨a.c0 * b.c0 - a.c1 * b.c1, a.c0 * b.c1 + a.c1 * b.c0⟩⟩
end Fq2

/-- py_ecc `Optimized_Point3D`. -/
structure Point3D (F : Type) where
  x : F
  y : F
  z : F
  deriving DecidableEq

/-- py_ecc `is_inf`. -/
def isInf {F : Type} [Zero F] [DecidableEq F] (P : Point3D F) : Bool := P.z = 0

/-- py_ecc `is_on_curve`: `y**2 * z - x**3 == b * z**3`, or the point at infinity. -/
def isOnCurve {F : Type} [Zero F] [Sub F] [Mul F] [DecidableEq F] (P : Point3D F) (b : F) : Bool :=
  isInf P || decide (P.y * P.y * P.z - P.x * P.x * P.x = b * (P.z * P.z * P.z))

/-- py_ecc `FQ12`: twelve coefficients. -/
abbrev Fq12 (p : Nat) := List (Fq p)

/-- The operations of a py_ecc curve module that are not interpreted. -/
structure CurveLib (p : Nat) where
  /-- `add`, `multiply` and `normalize` on the curve over `FQ` -/
  add1 : Point3D (Fq p) → Point3D (Fq p) → Point3D (Fq p)
  mul1 : Point3D (Fq p) → Nat → Point3D (Fq p)
  normalize1 : Point3D (Fq p) → Fq p × Fq p
  /-- the same on the twist over `FQ2` -/
  add2 : Point3D (Fq2 p) → Point3D (Fq2 p) → Point3D (Fq2 p)
  mul2 : Point3D (Fq2 p) → Nat → Point3D (Fq2 p)
  normalize2 : Point3D (Fq2 p) → Fq2 p × Fq2 p
  /-- `pairing(Q, P)` for points on the curves (it raises ValueError for others), `FQ12.one()`, multiplication in `FQ12` -/
  pairing : Point3D (Fq2 p) → Point3D (Fq p) → Fq12 p
  one12 : Fq12 p
  mul12 : Fq12 p → Fq12 p → Fq12 p

/-- Further operations of py_ecc on BLS12-381: hashing to the curve and what KZG proofs need. -/
structure BlsLib where
  curve : CurveLib BLS_P
  /-- `clear_cofactor_G1(map_to_curve_G1(x))`, `clear_cofactor_G2(map_to_curve_G2(x))` -/
  mapToG1 : Fq BLS_P → Point3D (Fq BLS_P)
  mapToG2 : Fq2 BLS_P → Point3D (Fq2 BLS_P)
  /-- `G2ProofOfPossession.KeyValidate` and `pubkey_to_G1` (`none`: raises) -/
  keyValidate : Bytes → Bool
  pubkeyToG1 : Bytes → Option (Point3D (Fq BLS_P))
  /-- `G1`, `G2` and the point `signature_to_G2(KZG_SETUP_G2_MONOMIAL_1)` -/
  genG1 : Point3D (Fq BLS_P)
  genG2 : Point3D (Fq2 BLS_P)
  setupG2 : Point3D (Fq2 BLS_P)
  /-- `neg` on the twist -/
  neg2 : Point3D (Fq2 BLS_P) → Point3D (Fq2 BLS_P)
  /-- `pairing(Q, P, final_exponentiate=False)` and `final_exponentiate` -/
  miller : Point3D (Fq2 BLS_P) → Point3D (Fq BLS_P) → Fq12 BLS_P
  finalExponentiate : Fq12 BLS_P → Fq12 BLS_P

end Verif
