import Verif.Spec.CurvePoints
/-! The two ECDSA curves, in integers. -/
namespace Verif.Spec.Ecdsa

/-- SEC 2: field modulus of secp256k1. -/
def k1Prime : Nat := 2 ^ 256 - 2 ^ 32 - 977
/-- SEC 2: order of secp256k1. -/
def k1Order : Nat := 0xFFFFFFFFFFFFFFFFFFFFFFFFFFFFFFFEBAAEDCE6AF48A03BBFD25E8CD0364141

/-- `x` is the first coordinate of a point of `y ^ 2 = x ^ 3 + 7`. -/
def OnK1 (x : Nat) : Prop := ∃ y, y < k1Prime ∧ y ^ 2 % k1Prime = (x ^ 3 + 7) % k1Prime

/-- FIPS 186-4: field modulus of P-256. -/
def r1Prime : Nat := 2 ^ 256 - 2 ^ 224 + 2 ^ 192 + 2 ^ 96 - 1
/-- FIPS 186-4: order of P-256. -/
def r1Order : Nat := 0xFFFFFFFF00000000FFFFFFFFFFFFFFFFBCE6FAADA7179E84F3B9CAC2FC632551
/-- FIPS 186-4: the coefficient `b` of P-256; `a` is -3. -/
def r1B : Nat := 0x5AC635D8AA3A93E7B3EBBD55769886BC651D06B0CC53B0F63BCE3C3E27D2604B

/-- `(x, y)` is a point of P-256, `y ^ 2 = x ^ 3 - 3 x + b`, with coordinates in range. -/
def OnR1 (x y : Nat) : Prop := x < r1Prime ∧ y < r1Prime ∧ (y ^ 2 + 3 * x) % r1Prime = (x ^ 3 + r1B) % r1Prime

instance (x y : Nat) : Decidable (OnR1 x y) := inferInstanceAs (Decidable (_ ∧ _ ∧ _))

end Verif.Spec.Ecdsa
