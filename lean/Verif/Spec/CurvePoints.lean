import Verif.Spec.Modexp
import Verif.Model.Fields
/-!
Points of the pairing curves as the precompiles encode them (EIP-196, EIP-197, EIP-2537), with integers instead of field elements.
`number d o n` (Spec/Modexp) is the big-endian number in the `n` bytes of `d` from offset `o` on, with zeros past the end.
-/
namespace Verif.Spec.Curve

/-- EIP-196: the field modulus of alt_bn128. -/
def bnPrime : Nat := 0x30644e72e131a029b85045b68181585d97816a916871ca8d3c208c16d87cfd47

/-- EIP-2537: the field modulus of BLS12-381. -/
def blsPrime : Nat :=
  0x1a0111ea397fe69a4b1ba7b6434bacd764774b84f38512bf6730d2a0f6b0f6241eabfffeb153ffffb9feffffffffaaab

/-- EIP-197 and EIP-2537: the orders of the groups. -/
def bnOrder : Nat := 0x30644e72e131a029b85045b68181585d2833e84879b9709143e1f593f0000001
def blsOrder : Nat := 0x73eda753299d7d483339d80809a1d80553bda402fffe5bfeffffffff00000001

/-! ### the curves `y ^ 2 = x ^ 3 + b` over the integers modulo `p` -/

/-- Coordinates that stand for a point: both in range, and both zero (the point at infinity) or on the curve. -/
def IsPoint (p b : Nat) (x y : Nat) : Prop :=
  x < p ∧ y < p ∧ (x = 0 ∧ y = 0 ∨ y ^ 2 % p = (x ^ 3 + b) % p)

instance (p b x y : Nat) : Decidable (IsPoint p b x y) := inferInstanceAs (Decidable (_ ∧ _ ∧ (_ ∨ _)))

/-- py_ecc's representation of the point: projective, with third coordinate 0 at infinity and 1 elsewhere. -/
def libPoint (p : Nat) [NeZero p] (x y : Nat) : Point3D (Fq p) :=
  ⟨Fin.ofNat p x, Fin.ofNat p y, if x = 0 ∧ y = 0 then 0 else 1⟩

/-! ### the twists, over the complex integers modulo `p` (a pair is `(real part, imaginary part)`) -/

def mul (a b : Int × Int) : Int × Int := (a.1 * b.1 - a.2 * b.2, a.1 * b.2 + a.2 * b.1)
def sub (a b : Int × Int) : Int × Int := (a.1 - b.1, a.2 - b.2)
/-- Equal modulo `p`. -/
def Same (p : Nat) (a b : Int × Int) : Prop := a.1 % p = b.1 % p ∧ a.2 % p = b.2 % p

instance (p : Nat) (a b : Int × Int) : Decidable (Same p a b) := inferInstanceAs (Decidable (_ ∧ _))

/-- EIP-197: `Y ^ 2 = X ^ 3 + 3 / (i + 9)`. -/
def BnTwist (X Y : Int × Int) : Prop :=
  Same bnPrime (mul (9, 1) (sub (mul Y Y) (mul X (mul X X)))) (3, 0)

/-- EIP-2537: `Y ^ 2 = X ^ 3 + 4 * (i + 1)`. -/
def BlsTwist (X Y : Int × Int) : Prop :=
  Same blsPrime (sub (mul Y Y) (mul X (mul X X))) (4, 4)

instance (X Y : Int × Int) : Decidable (BnTwist X Y) := inferInstanceAs (Decidable (Same _ _ _))
instance (X Y : Int × Int) : Decidable (BlsTwist X Y) := inferInstanceAs (Decidable (Same _ _ _))

/-- A pair of natural numbers as a complex integer. -/
def complex (re im : Nat) : Int × Int := ((re : Int), (im : Int))

/-- Coordinates that stand for a point of the twist: all parts in range; all zero (infinity) or on the curve. -/
def IsPoint2 (p : Nat) (curve : Int × Int → Int × Int → Prop) (xr xi yr yi : Nat) : Prop :=
  (xr < p ∧ xi < p ∧ yr < p ∧ yi < p) ∧ ((xr = 0 ∧ xi = 0 ∧ yr = 0 ∧ yi = 0) ∨ curve (complex xr xi) (complex yr yi))

instance (p : Nat) (curve : Int × Int → Int × Int → Prop) [∀ X Y, Decidable (curve X Y)] (xr xi yr yi : Nat) :
    Decidable (IsPoint2 p curve xr xi yr yi) := inferInstanceAs (Decidable ((_ ∧ _ ∧ _ ∧ _) ∧ (_ ∨ _)))

/-- py_ecc's representation. -/
def libPoint2 (p : Nat) [NeZero p] (xr xi yr yi : Nat) : Point3D (Fq2 p) :=
  ⟨⟨Fin.ofNat p xr, Fin.ofNat p xi⟩, ⟨Fin.ofNat p yr, Fin.ofNat p yi⟩,
   if xr = 0 ∧ xi = 0 ∧ yr = 0 ∧ yi = 0 then ⟨0, 0⟩ else ⟨1, 0⟩⟩

/-! ### alt_bn128 points in the input -/

/-- The 64 bytes at `o` encode a point of `y ^ 2 = x ^ 3 + 3`: `x`, `y`. -/
def BnG1 (d : Bytes) (o : Nat) : Prop := IsPoint bnPrime 3 (number d o 32) (number d (o + 32) 32)
/-- That point. -/
def bnG1 (d : Bytes) (o : Nat) : Point3D (Fq BN_P) := libPoint BN_P (number d o 32) (number d (o + 32) 32)

/-- The 128 bytes at `o` encode a point of the twist: imaginary and real part of `x`, then of `y`. -/
def BnG2 (d : Bytes) (o : Nat) : Prop :=
  IsPoint2 bnPrime BnTwist (number d (o + 32) 32) (number d o 32) (number d (o + 96) 32) (number d (o + 64) 32)
/-- That point. -/
def bnG2 (d : Bytes) (o : Nat) : Point3D (Fq2 BN_P) :=
  libPoint2 BN_P (number d (o + 32) 32) (number d o 32) (number d (o + 96) 32) (number d (o + 64) 32)

instance (d : Bytes) (o : Nat) : Decidable (BnG1 d o) := inferInstanceAs (Decidable (IsPoint _ _ _ _))
instance (d : Bytes) (o : Nat) : Decidable (BnG2 d o) := inferInstanceAs (Decidable (IsPoint2 _ _ _ _ _ _))

/-! ### BLS12-381 points in the input -/

/-- The 128 bytes at `o` encode a point of `y ^ 2 = x ^ 3 + 4`: `x`, `y`, 64 bytes each. -/
def BlsG1 (d : Bytes) (o : Nat) : Prop := IsPoint blsPrime 4 (number d o 64) (number d (o + 64) 64)
/-- That point. -/
def blsG1 (d : Bytes) (o : Nat) : Point3D (Fq BLS_P) := libPoint BLS_P (number d o 64) (number d (o + 64) 64)

/-- The 256 bytes at `o` encode a point of the twist: real and imaginary part of `x`, then of `y`. -/
def BlsG2 (d : Bytes) (o : Nat) : Prop :=
  IsPoint2 blsPrime BlsTwist (number d o 64) (number d (o + 64) 64) (number d (o + 128) 64) (number d (o + 192) 64)
/-- That point. -/
def blsG2 (d : Bytes) (o : Nat) : Point3D (Fq2 BLS_P) :=
  libPoint2 BLS_P (number d o 64) (number d (o + 64) 64) (number d (o + 128) 64) (number d (o + 192) 64)

instance (d : Bytes) (o : Nat) : Decidable (BlsG1 d o) := inferInstanceAs (Decidable (IsPoint _ _ _ _))
instance (d : Bytes) (o : Nat) : Decidable (BlsG2 d o) := inferInstanceAs (Decidable (IsPoint2 _ _ _ _ _ _))

/-- `n` as `k` bytes, the most significant first. -/
def bytesBE (k n : Nat) : Bytes := (List.range k).map fun i => UInt8.ofNat (n / 256 ^ (k - 1 - i))

end Verif.Spec.Curve
