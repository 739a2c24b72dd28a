import Mathlib.Data.ZMod.Basic
import Verif.Model.Fields
import Verif.Spec.CurvePoints
/-!
KZG openings (EIP-4844) in the exponent. Every point of the two subgroups is a multiple of the generator; its discrete logarithm is a
number modulo the group order `r`. The library is correct if its operations and pairings act on logarithms as they should.
-/
namespace Verif.Spec.Kzg

/-- EIP-4844: the order of the groups. -/
def r : Nat := 0x73eda753299d7d483339d80809a1d80553bda402fffe5bfeffffffff00000001

/-- The library computes in groups of order `r` with a bilinear, non-degenerate pairing: `log1` and `log2` are the discrete
logarithms of the points `Ok1` and `Ok2` of the subgroups, `decodes` says that validated encodings give points of the subgroup, and
`pairing` says that a product of two pairings is one exactly if the products of the logarithms add up to zero. -/
structure Correct (L : BlsLib) (validated : Bytes → Prop) where
  Ok1 : Point3D (Fq BLS_P) → Prop
  Ok2 : Point3D (Fq2 BLS_P) → Prop
  log1 : Point3D (Fq BLS_P) → ZMod r
  log2 : Point3D (Fq2 BLS_P) → ZMod r
  gen1 : Ok1 L.genG1 ∧ log1 L.genG1 = 1
  gen2 : Ok2 L.genG2 ∧ log2 L.genG2 = 1
  setup : Ok2 L.setupG2
  add1 : ∀ P Q, Ok1 P → Ok1 Q → Ok1 (L.curve.add1 P Q) ∧ log1 (L.curve.add1 P Q) = log1 P + log1 Q
  mul1 : ∀ P n, Ok1 P → Ok1 (L.curve.mul1 P n) ∧ log1 (L.curve.mul1 P n) = n * log1 P
  add2 : ∀ P Q, Ok2 P → Ok2 Q → Ok2 (L.curve.add2 P Q) ∧ log2 (L.curve.add2 P Q) = log2 P + log2 Q
  mul2 : ∀ P n, Ok2 P → Ok2 (L.curve.mul2 P n) ∧ log2 (L.curve.mul2 P n) = n * log2 P
  neg2 : ∀ P, Ok2 P → Ok2 (L.neg2 P) ∧ log2 (L.neg2 P) = - log2 P
  decodes : ∀ b, validated b → ∃ P, L.pubkeyToG1 b = some P ∧ Ok1 P
  pairing : ∀ P Q P' Q', Ok1 P → Ok2 Q → Ok1 P' → Ok2 Q' →
    (L.finalExponentiate (L.curve.mul12 (L.miller Q P) (L.miller Q' P')) = L.curve.one12 ↔ log1 P * log2 Q + log1 P' * log2 Q' = 0)

/-- The logarithm of an encoded point. -/
noncomputable def Correct.log {L : BlsLib} {v : Bytes → Prop} (H : Correct L v) (b : Bytes) : ZMod r :=
  match L.pubkeyToG1 b with
  | some P => H.log1 P
  | none => 0

/-- The secret of the trusted setup. -/
noncomputable def Correct.secret {L : BlsLib} {v : Bytes → Prop} (H : Correct L v) : ZMod r := H.log2 L.setupG2

end Verif.Spec.Kzg
