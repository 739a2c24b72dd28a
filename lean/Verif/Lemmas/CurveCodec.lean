import Mathlib.Data.Int.ModEq
import Mathlib.Tactic.Ring
import Mathlib.Tactic.LinearCombination
import Verif.Lemmas.Curves
import Verif.Lemmas.Bytes
import Verif.Spec.CurvePoints
import Verif.Props.C49
/-! The point decoders against the elementary description of the curves. -/
namespace Verif
open Spec Spec.Curve

section
variable {p : Nat} [NeZero p]

private theorem fin_mul (a b : Fin p) {x y : Int} (ha : (a.val : Int) ≡ x [ZMOD p]) (hb : (b.val : Int) ≡ y [ZMOD p]) :
    ((a * b).val : Int) ≡ x * y [ZMOD p] := by
  rw [Fin.val_mul]
  refine Int.ModEq.trans ?_ (ha.mul hb)
  push_cast
  exact Int.mod_modEq _ _

private theorem fin_add (a b : Fin p) {x y : Int} (ha : (a.val : Int) ≡ x [ZMOD p]) (hb : (b.val : Int) ≡ y [ZMOD p]) :
    ((a + b).val : Int) ≡ x + y [ZMOD p] := by
  rw [Fin.val_add]
  refine Int.ModEq.trans ?_ (ha.add hb)
  push_cast
  exact Int.mod_modEq _ _

private theorem fin_sub (a b : Fin p) {x y : Int} (ha : (a.val : Int) ≡ x [ZMOD p]) (hb : (b.val : Int) ≡ y [ZMOD p]) :
    ((a - b).val : Int) ≡ x - y [ZMOD p] := by
  rw [Fin.sub_def]
  refine Int.ModEq.trans ?_ (ha.sub hb)
  simp only
  push_cast
  refine (Int.mod_modEq _ _).trans ?_
  rw [Nat.cast_sub (Nat.le_of_lt b.isLt)]
  have : ((p : Int) - (b.val : Int) + (a.val : Int)) = ((a.val : Int) - (b.val : Int)) + p * 1 := by ring
  rw [this]
  exact Int.modEq_add_fac_self

private theorem fin_ofNat (x : Nat) : ((toFq x : Fq p).val : Int) ≡ x [ZMOD p] := by
  show (((x % p : Nat) : Int)) ≡ x [ZMOD p]
  push_cast
  exact Int.mod_modEq _ _

private theorem fin_eq (a b : Fin p) {x y : Int} (ha : (a.val : Int) ≡ x [ZMOD p]) (hb : (b.val : Int) ≡ y [ZMOD p]) :
    a = b ↔ x ≡ y [ZMOD p] := by
  constructor
  · rintro rfl; exact ha.symm.trans hb
  · intro h
    have h2 : (a.val : Int) ≡ b.val [ZMOD p] := ha.trans (h.trans hb.symm)
    have h3 := (Int.natCast_modEq_iff).mp h2
    exact Fin.ext (Nat.ModEq.eq_of_lt_of_lt h3 a.isLt b.isLt)

private theorem toFq_zero_iff {x : Nat} (hx : x < p) : (toFq x : Fq p) = 0 ↔ x = 0 := by
  constructor
  · intro h
    have := congrArg Fin.val h
    have h0 : (toFq x : Fq p).val = x := Nat.mod_eq_of_lt hx
    rw [h0] at this
    simpa using this
  · rintro rfl; rfl

theorem isOnCurve1 (hp : 1 < p) (x y b : Nat) :
    isOnCurve (⟨toFq x, toFq y, toFq 1⟩ : Point3D (Fq p)) (toFq b) = true ↔ y ^ 2 % p = (x ^ 3 + b) % p := by
  have h1 : ((toFq 1 : Fq p)) ≠ 0 := fun h => absurd ((toFq_zero_iff hp).mp h) (by decide)
  unfold isOnCurve isInf
  simp only [Bool.or_eq_true, decide_eq_true_eq, h1, false_or]
  have fx := fin_ofNat (p := p) x
  have fy := fin_ofNat (p := p) y
  have fb := fin_ofNat (p := p) b
  have f1 := fin_ofNat (p := p) 1
  rw [fin_eq _ _ (fin_sub _ _ (fin_mul _ _ (fin_mul _ _ fy fy) f1) (fin_mul _ _ (fin_mul _ _ fx fx) fx))
    (fin_mul _ _ fb (fin_mul _ _ (fin_mul _ _ f1 f1) f1))]
  show _ ↔ Nat.ModEq p _ _
  rw [← Int.natCast_modEq_iff]
  push_cast
  constructor
  · intro h
    have := h.add (Int.ModEq.refl (n := (p : Int)) ((x : Int) ^ 3))
    ring_nf at this ⊢
    exact this
  · intro h
    have := h.sub (Int.ModEq.refl (n := (p : Int)) ((x : Int) ^ 3))
    ring_nf at this ⊢
    exact this

/-! ### the quadratic extension -/

/-- `z` is the class of the complex integer `a`. -/
private def Rep (z : Fq2 p) (a : Int × Int) : Prop := (z.c0.val : Int) ≡ a.1 [ZMOD p] ∧ (z.c1.val : Int) ≡ a.2 [ZMOD p]

private theorem rep_mul {z w : Fq2 p} {a b : Int × Int} (hz : Rep z a) (hw : Rep w b) : Rep (z * w) (mul a b) :=
  ⟨fin_sub _ _ (fin_mul _ _ hz.1 hw.1) (fin_mul _ _ hz.2 hw.2), fin_add _ _ (fin_mul _ _ hz.1 hw.2) (fin_mul _ _ hz.2 hw.1)⟩

private theorem rep_sub {z w : Fq2 p} {a b : Int × Int} (hz : Rep z a) (hw : Rep w b) : Rep (z - w) (sub a b) :=
  ⟨fin_sub _ _ hz.1 hw.1, fin_sub _ _ hz.2 hw.2⟩

private theorem rep_eq {z w : Fq2 p} {a b : Int × Int} (hz : Rep z a) (hw : Rep w b) : z = w ↔ Same p a b := by
  have h1 := fin_eq _ _ hz.1 hw.1
  have h2 := fin_eq _ _ hz.2 hw.2
  constructor
  · rintro rfl; exact ⟨h1.mp rfl, h2.mp rfl⟩
  · rintro ⟨g1, g2⟩
    cases z; cases w
    simp only [Fq2.mk.injEq]
    exact ⟨h1.mpr g1, h2.mpr g2⟩

private theorem rep_of (a b : Nat) : Rep (⟨toFq a, toFq b⟩ : Fq2 p) (complex a b) := ⟨fin_ofNat a, fin_ofNat b⟩

private theorem rep_one (hp : 1 < p) : Rep (1 : Fq2 p) (1, 0) := by
  have e1 : ((1 : Fq p)).val = 1 := by
    show 1 % p = 1
    exact Nat.mod_eq_of_lt hp
  refine ⟨?_, ?_⟩
  · show (((1 : Fq p).val : Int)) ≡ 1 [ZMOD p]
    rw [e1]; rfl
  · show (((0 : Fq p).val : Int)) ≡ 0 [ZMOD p]
    simp only [Fin.val_zero]; rfl

theorem isOnCurve2 (hp : 1 < p) (xr xi yr yi br bi : Nat) :
    isOnCurve (⟨⟨toFq xr, toFq xi⟩, ⟨toFq yr, toFq yi⟩, 1⟩ : Point3D (Fq2 p)) ⟨toFq br, toFq bi⟩ = true ↔
      Same p (sub (mul (complex yr yi) (complex yr yi)) (mul (complex xr xi) (mul (complex xr xi) (complex xr xi)))) (complex br bi) := by
  have h1 : ((1 : Fq2 p)) ≠ 0 := by
    intro h
    have := congrArg Fq2.c0 h
    have h0 : (1 : Fq p) = 0 := this
    have e1 : ((1 : Fq p)).val = 1 := by
      show 1 % p = 1
      exact Nat.mod_eq_of_lt hp
    rw [h0] at e1
    simp at e1
  unfold isOnCurve isInf
  simp only [Bool.or_eq_true, decide_eq_true_eq, h1, false_or]
  have X := rep_of (p := p) xr xi
  have Y := rep_of (p := p) yr yi
  have B := rep_of (p := p) br bi
  have O := rep_one hp
  rw [rep_eq (rep_sub (rep_mul (rep_mul Y Y) O) (rep_mul (rep_mul X X) X)) (rep_mul B (rep_mul (rep_mul O O) O))]
  have e1 : sub (mul (mul (complex yr yi) (complex yr yi)) (1, 0)) (mul (mul (complex xr xi) (complex xr xi)) (complex xr xi)) =
      sub (mul (complex yr yi) (complex yr yi)) (mul (complex xr xi) (mul (complex xr xi) (complex xr xi))) := by
    unfold sub mul complex
    simp only [Prod.mk.injEq]
    constructor <;> ring
  have e2 : mul (complex br bi) (mul (mul (1, 0) (1, 0)) (1, 0)) = complex br bi := by
    unfold mul complex
    simp only [Prod.mk.injEq]
    constructor <;> ring
  rw [e1, e2]

end

/-! ### numbers in the input -/

theorem number_bufferRead (d : Bytes) (o n s : Nat) : ∀ k, s + k ≤ n → number (bufferRead d o n) s k = number d (o + s) k
  | 0, _ => rfl
  | k + 1, h => by
    rw [number, number, number_bufferRead d o n s k (by omega)]
    congr 2
    unfold bufferRead rightPad slice
    simp only [List.getD_eq_getElem?_getD, List.getElem?_append, List.getElem?_take, List.length_take, List.length_drop,
      List.getElem?_drop, List.getElem?_replicate]
    by_cases h1 : s + k < min (o + n - o) (d.length - o)
    · rw [if_pos h1, if_pos (by omega), Nat.add_assoc]
    · rw [if_neg h1]
      have : d[o + s + k]? = none := List.getElem?_eq_none (by omega)
      rw [this]
      split <;> rfl

theorem fromBE_bufferRead2 (d : Bytes) (o n s k : Nat) (h : s + k ≤ n) :
    fromBE (bufferRead (bufferRead d o n) s k) = number d (o + s) k := by
  rw [fromBE_bufferRead, number_bufferRead d o n s k h]

/-- Within the data, `buffer_read` is a slice. -/
theorem bufferRead_eq_slice (d : Bytes) (o n : Nat) (h : o + n ≤ d.length) : bufferRead d o n = slice d o (o + n) := by
  unfold bufferRead rightPad
  have : (slice d o (o + n)).length = n := by
    unfold slice; rw [List.length_take, List.length_drop]; omega
  rw [this, Nat.sub_self]
  simp

theorem slice_bufferRead (d : Bytes) (o n s k : Nat) (h : s + k ≤ n) :
    slice (bufferRead d o n) s (s + k) = bufferRead d (o + s) k := by
  rw [← bufferRead_eq_slice _ _ _ (by rw [bufferRead_length]; exact h)]
  apply fromBE_inj (by rw [bufferRead_length, bufferRead_length])
  rw [fromBE_bufferRead2 d o n s k h, fromBE_bufferRead]

/-! ### alt_bn128 -/

theorem bnPrime_eq : bnPrime = BN_P := by decide +kernel
theorem blsPrime_eq : blsPrime = BLS_P := rfl

attribute [local irreducible] BN_P BLS_P bnPrime blsPrime

theorem bnBytesToG1_eq (d : Bytes) (o : Nat) :
    bnBytesToG1 (bufferRead d o 64) =
      if IsPoint bnPrime 3 (number d o 32) (number d (o + 32) 32) then
        some (libPoint BN_P (number d o 32) (number d (o + 32) 32))
      else none := by
  unfold bnBytesToG1
  rw [if_neg (by rw [bufferRead_length]; decide), fromBE_bufferRead2 d o 64 0 32 (by decide),
    fromBE_bufferRead2 d o 64 32 32 (by decide), Nat.add_zero]
  generalize number d o 32 = x
  generalize number d (o + 32) 32 = y
  rw [bnPrime_eq]
  have hp : 1 < BN_P := by decide +kernel
  simp only
  by_cases hx : x ≥ BN_P
  · rw [if_pos hx, if_neg (fun h => absurd h.1 (Nat.not_lt.mpr hx))]
  rw [if_neg hx]
  by_cases hy : y ≥ BN_P
  · rw [if_pos hy, if_neg (fun h => absurd h.2.1 (Nat.not_lt.mpr hy))]
  rw [if_neg hy]
  by_cases h0 : x = 0 ∧ y = 0
  · obtain ⟨rfl, rfl⟩ := h0
    have h0 : (0 = 0 ∧ 0 = 0) := ⟨rfl, rfl⟩
    rw [if_pos (c := IsPoint _ _ _ _) ⟨Nat.not_le.mp hx, Nat.not_le.mp hy, Or.inl ⟨rfl, rfl⟩⟩, if_pos h0, if_neg]
    · unfold libPoint; rw [if_pos h0]; rfl
    · simp [isOnCurve, isInf, toFq]
  · rw [if_neg h0]
    have hl : libPoint BN_P x y = ⟨toFq x, toFq y, toFq 1⟩ := by
      unfold libPoint; rw [if_neg h0]; rfl
    have hc := isOnCurve1 hp x y 3
    by_cases he : y ^ 2 % BN_P = (x ^ 3 + 3) % BN_P
    · rw [if_neg (not_not_intro (hc.mpr he)), if_pos ⟨Nat.not_le.mp hx, Nat.not_le.mp hy, Or.inr he⟩, hl]
    · rw [if_pos (fun h => he (hc.mp h)), if_neg]
      rintro ⟨_, _, h | h⟩
      · exact h0 h
      · exact he h

/-- Multiplying by `9 + i`, whose norm 82 is invertible, does not change the solutions. -/
theorem bnTwist_iff (X Y : Int × Int) :
    BnTwist X Y ↔ Same BN_P (sub (mul Y Y) (mul X (mul X X)))
      (complex 19485874751759354771024239261021720505790618469301721065564631296452457478373
        266929791119991161246907387137283842545076965332900288569378510910307636690) := by
  unfold BnTwist
  rw [bnPrime_eq]
  generalize sub (mul Y Y) (mul X (mul X X)) = W
  obtain ⟨u, v⟩ := W
  have inv : (82 : Int) * 7207104360239761353666499452706663748717078063988307791373219794578306190631 ≡ 1 [ZMOD (BN_P : Int)] := by decide +kernel
  have c1 : (9 : Int) * 19485874751759354771024239261021720505790618469301721065564631296452457478373
      - 266929791119991161246907387137283842545076965332900288569378510910307636690 ≡ 3 [ZMOD (BN_P : Int)] := by decide +kernel
  have c2 : (19485874751759354771024239261021720505790618469301721065564631296452457478373 : Int)
      + 9 * 266929791119991161246907387137283842545076965332900288569378510910307636690 ≡ 0 [ZMOD (BN_P : Int)] := by decide +kernel
  have cr : (27 : Int) * 7207104360239761353666499452706663748717078063988307791373219794578306190631 ≡ 19485874751759354771024239261021720505790618469301721065564631296452457478373
      [ZMOD (BN_P : Int)] := by decide +kernel
  have ci : (-3 : Int) * 7207104360239761353666499452706663748717078063988307791373219794578306190631 ≡ 266929791119991161246907387137283842545076965332900288569378510910307636690
      [ZMOD (BN_P : Int)] := by decide +kernel
  show (_ ≡ _ [ZMOD (BN_P : Int)] ∧ _ ≡ _ [ZMOD (BN_P : Int)]) ↔ (_ ≡ _ [ZMOD (BN_P : Int)] ∧ _ ≡ _ [ZMOD (BN_P : Int)])
  simp only [mul, complex]
  push_cast
  generalize (7207104360239761353666499452706663748717078063988307791373219794578306190631 : Int) = k at inv cr ci
  generalize (19485874751759354771024239261021720505790618469301721065564631296452457478373 : Int) = r at *
  generalize (266929791119991161246907387137283842545076965332900288569378510910307636690 : Int) = i at *
  generalize (BN_P : Int) = q at *
  constructor
  · rintro ⟨h1, h2⟩
    refine ⟨?_, ?_⟩
    · have a := ((h1.mul_left 9).add h2).mul_right k
      have b := inv.mul_right u
      ring_nf at a b cr
      exact (b.symm.trans a).trans cr
    · have a := ((h2.mul_left 9).sub h1).mul_right k
      have b := inv.mul_right v
      ring_nf at a b ci
      exact (b.symm.trans a).trans ci
  · rintro ⟨h1, h2⟩
    refine ⟨?_, ?_⟩
    · have a := ((h1.mul_left 9).sub h2).trans c1
      ring_nf at a ⊢
      exact a
    · have a := (h1.add (h2.mul_left 9)).trans c2
      ring_nf at a ⊢
      exact a

private theorem fq2_zero_iff {p : Nat} [NeZero p] {a b : Nat} (ha : a < p) (hb : b < p) :
    ((⟨toFq a, toFq b⟩ : Fq2 p) = 0) ↔ (a = 0 ∧ b = 0) := by
  rw [← toFq_zero_iff ha, ← toFq_zero_iff hb]
  constructor
  · intro h; exact ⟨congrArg Fq2.c0 h, congrArg Fq2.c1 h⟩
  · rintro ⟨h1, h2⟩; rw [h1, h2]; rfl

/-- The common part of the two decoders for twists. -/
theorem twist_decode {p : Nat} [NeZero p] (hp : 1 < p) (curve : Int × Int → Int × Int → Prop) [∀ X Y, Decidable (curve X Y)]
    (br bi : Nat) (hcurve : ∀ X Y, curve X Y ↔ Same p (sub (mul Y Y) (mul X (mul X X))) (complex br bi)) (xr xi yr yi : Nat)
    (hxr : xr < p) (hxi : xi < p) (hyr : yr < p) (hyi : yi < p) :
    (if ¬ isOnCurve (⟨⟨toFq xr, toFq xi⟩, ⟨toFq yr, toFq yi⟩,
        if (⟨toFq xr, toFq xi⟩ : Fq2 p) = 0 ∧ (⟨toFq yr, toFq yi⟩ : Fq2 p) = 0 then 0 else 1⟩ : Point3D (Fq2 p)) ⟨toFq br, toFq bi⟩
      then none else some (⟨⟨toFq xr, toFq xi⟩, ⟨toFq yr, toFq yi⟩,
        if (⟨toFq xr, toFq xi⟩ : Fq2 p) = 0 ∧ (⟨toFq yr, toFq yi⟩ : Fq2 p) = 0 then 0 else 1⟩ : Point3D (Fq2 p))) =
    if IsPoint2 p curve xr xi yr yi then some (libPoint2 p xr xi yr yi) else none := by
  have hz : ((⟨toFq xr, toFq xi⟩ : Fq2 p) = 0 ∧ (⟨toFq yr, toFq yi⟩ : Fq2 p) = 0) ↔ (xr = 0 ∧ xi = 0 ∧ yr = 0 ∧ yi = 0) := by
    rw [fq2_zero_iff hxr hxi, fq2_zero_iff hyr hyi, and_assoc]
  by_cases h0 : xr = 0 ∧ xi = 0 ∧ yr = 0 ∧ yi = 0
  · rw [if_pos (hz.mpr h0), if_neg (by simp [isOnCurve, isInf]), if_pos ⟨⟨hxr, hxi, hyr, hyi⟩, Or.inl h0⟩]
    unfold libPoint2
    rw [if_pos h0]; rfl
  · rw [if_neg (fun h => h0 (hz.mp h))]
    have hl : libPoint2 p xr xi yr yi = ⟨⟨toFq xr, toFq xi⟩, ⟨toFq yr, toFq yi⟩, 1⟩ := by
      unfold libPoint2; rw [if_neg h0]; rfl
    have hc := isOnCurve2 hp xr xi yr yi br bi
    rw [← hcurve] at hc
    by_cases he : curve (complex xr xi) (complex yr yi)
    · rw [if_neg (not_not_intro (hc.mpr he)), if_pos ⟨⟨hxr, hxi, hyr, hyi⟩, Or.inr he⟩, hl]
    · rw [if_pos (fun h => he (hc.mp h)), if_neg]
      rintro ⟨_, h | h⟩
      · exact h0 h
      · exact he h

theorem bnBytesToG2_eq (d : Bytes) (o : Nat) :
    bnBytesToG2 (bufferRead d o 128) =
      if IsPoint2 bnPrime BnTwist (number d (o + 32) 32) (number d o 32) (number d (o + 96) 32) (number d (o + 64) 32) then
        some (libPoint2 BN_P (number d (o + 32) 32) (number d o 32) (number d (o + 96) 32) (number d (o + 64) 32))
      else none := by
  unfold bnBytesToG2
  rw [if_neg (by rw [bufferRead_length]; decide), fromBE_bufferRead2 d o 128 0 32 (by decide),
    fromBE_bufferRead2 d o 128 32 32 (by decide), fromBE_bufferRead2 d o 128 64 32 (by decide),
    fromBE_bufferRead2 d o 128 96 32 (by decide), Nat.add_zero]
  generalize number d o 32 = xi
  generalize number d (o + 32) 32 = xr
  generalize number d (o + 64) 32 = yi
  generalize number d (o + 96) 32 = yr
  rw [bnPrime_eq]
  have hp : 1 < BN_P := by decide +kernel
  simp only
  by_cases hx : xi ≥ BN_P ∨ xr ≥ BN_P
  · rw [if_pos hx, if_neg]
    rintro ⟨⟨h1, h2, _⟩, _⟩
    omega
  rw [if_neg hx]
  by_cases hy : yi ≥ BN_P ∨ yr ≥ BN_P
  · rw [if_pos hy, if_neg]
    rintro ⟨⟨_, _, h3, h4⟩, _⟩
    omega
  rw [if_neg hy]
  exact twist_decode hp BnTwist _ _ bnTwist_iff xr xi yr yi (by omega) (by omega) (by omega) (by omega)

/-! ### BLS12-381 -/

theorem take_bufferRead (d : Bytes) (o n k : Nat) (h : k ≤ n) : (bufferRead d o n).take k = bufferRead d o k := by
  have := slice_bufferRead d o n 0 k (by omega)
  unfold slice at this
  simpa using this

theorem drop_bufferRead (d : Bytes) (o n k : Nat) (h : k ≤ n) : (bufferRead d o n).drop k = bufferRead d (o + k) (n - k) := by
  have := slice_bufferRead d o n k (n - k) (by omega)
  unfold slice at this
  rw [Nat.add_sub_cancel_left, List.take_of_length_le] at this
  · exact this
  · rw [List.length_drop, bufferRead_length]

theorem bytesToFq_eq (d : Bytes) (o : Nat) :
    bytesToFq (bufferRead d o 64) = if number d o 64 < BLS_P then some (toFq (number d o 64)) else none := by
  unfold bytesToFq
  rw [if_neg (by rw [bufferRead_length]; decide), take_bufferRead _ _ _ _ (Nat.le_refl _), fromBE_bufferRead]
  simp only
  by_cases h : number d o 64 < BLS_P
  · rw [if_neg (Nat.not_le.mpr h), if_pos h]
  · rw [if_pos (Nat.not_lt.mp h), if_neg h]

theorem bytesToFq2_eq (d : Bytes) (o : Nat) :
    bytesToFq2 (bufferRead d o 128) = if number d o 64 < BLS_P ∧ number d (o + 64) 64 < BLS_P then
      some ⟨toFq (number d o 64), toFq (number d (o + 64) 64)⟩ else none := by
  unfold bytesToFq2
  rw [if_neg (by rw [bufferRead_length]; decide), take_bufferRead _ _ _ _ (by decide), drop_bufferRead _ _ _ _ (by decide),
    fromBE_bufferRead, fromBE_bufferRead]
  simp only
  by_cases h : number d o 64 < BLS_P
  · rw [if_neg (Nat.not_le.mpr h)]
    by_cases h2 : number d (o + 64) 64 < BLS_P
    · rw [if_neg (Nat.not_le.mpr h2), if_pos ⟨h, h2⟩]
    · rw [if_pos (Nat.not_lt.mp h2), if_neg (fun g => h2 g.2)]
  · rw [if_pos (Nat.not_lt.mp h), if_neg (fun g => h g.1)]

private theorem blsG1_aux (C : Crypto) (x y : Nat) (chk : Bool) :
    (match if x < BLS_P then some (toFq x : Fq BLS_P) else none with
      | none => none
      | some x =>
        match if y < BLS_P then some (toFq y : Fq BLS_P) else none with
        | none => none
        | some y =>
          let z := if x = 0 ∧ y = 0 then 0 else 1
          let point : Point3D (Fq BLS_P) := ⟨x, y, toFq z⟩
          if ¬ isOnCurve point (toFq 4) then none
          else if chk ∧ ¬ isInf (C.bls.curve.mul1 point BLS_MODULUS) then none
          else some point) =
      if IsPoint blsPrime 4 x y ∧ (chk = true → (C.bls.curve.mul1 (libPoint BLS_P x y) BLS_MODULUS).z = 0) then
        some (libPoint BLS_P x y) else none := by
  rw [blsPrime_eq]
  have hp : 1 < BLS_P := by decide +kernel
  by_cases hx : x < BLS_P
  case neg => rw [if_neg hx, if_neg (c := IsPoint BLS_P 4 x y ∧ _) (fun h => hx h.1.1)]
  rw [if_pos hx]
  by_cases hy : y < BLS_P
  case neg =>
    rw [if_neg hy, if_neg (c := IsPoint BLS_P 4 x y ∧ _) (fun h => hy h.1.2.1)]
  rw [if_pos hy]
  simp only [toFq_zero_iff hx, toFq_zero_iff hy]
  have key : ∀ P : Point3D (Fq BLS_P), (if chk = true ∧ ¬ isInf (C.bls.curve.mul1 P BLS_MODULUS) = true then none else some P) =
      if (chk = true → (C.bls.curve.mul1 P BLS_MODULUS).z = 0) then some P else none := by
    intro P
    have e : isInf (C.bls.curve.mul1 P BLS_MODULUS) = true ↔ (C.bls.curve.mul1 P BLS_MODULUS).z = 0 := by simp [isInf]
    by_cases h1 : chk = true
    · by_cases h2 : (C.bls.curve.mul1 P BLS_MODULUS).z = 0
      · rw [if_neg (fun h => h.2 (e.mpr h2)), if_pos (fun _ => h2)]
      · rw [if_pos ⟨h1, fun h => h2 (e.mp h)⟩, if_neg (fun h => h2 (h h1))]
    · rw [if_neg (fun h => h1 h.1), if_pos (fun h => absurd h h1)]
  by_cases h0 : x = 0 ∧ y = 0
  · have hl : libPoint BLS_P x y = ⟨toFq x, toFq y, toFq 0⟩ := by
      unfold libPoint; rw [if_pos h0]; rfl
    rw [if_pos h0, if_neg (by simp [isOnCurve, isInf, toFq]), key, hl]
    have hI : IsPoint BLS_P 4 x y := ⟨hx, hy, Or.inl h0⟩
    simp only [hI, true_and]
  · have hl : libPoint BLS_P x y = ⟨toFq x, toFq y, toFq 1⟩ := by
      unfold libPoint; rw [if_neg h0]; rfl
    have hc := isOnCurve1 hp x y 4
    rw [if_neg h0, hl]
    by_cases he : y ^ 2 % BLS_P = (x ^ 3 + 4) % BLS_P
    · rw [if_neg (not_not_intro (hc.mpr he)), key]
      have hI : IsPoint BLS_P 4 x y := ⟨hx, hy, Or.inr he⟩
      simp only [hI, true_and]
    · rw [if_pos (fun h => he (hc.mp h)), if_neg]
      rintro ⟨⟨_, _, h | h⟩, _⟩
      · exact h0 h
      · exact he h

theorem blsG1_decode (C : Crypto) (d : Bytes) (o : Nat) (chk : Bool) :
    blsBytesToG1 C (bufferRead d o 128) chk =
      if BlsG1 d o ∧ (chk = true → (C.bls.curve.mul1 (blsG1 d o) BLS_MODULUS).z = 0) then some (blsG1 d o) else none := by
  unfold blsBytesToG1
  rw [if_neg (by rw [bufferRead_length]; decide), take_bufferRead _ _ _ _ (by decide), drop_bufferRead _ _ _ _ (by decide),
    bytesToFq_eq, bytesToFq_eq]
  exact blsG1_aux C _ _ chk

theorem blsTwist_iff (X Y : Int × Int) :
    BlsTwist X Y ↔ Same BLS_P (sub (mul Y Y) (mul X (mul X X))) (complex 4 4) := by
  unfold BlsTwist
  rw [blsPrime_eq]
  rfl

private theorem blsG2_aux (C : Crypto) (xr xi yr yi : Nat) (chk : Bool) :
    (match if xr < BLS_P ∧ xi < BLS_P then some (⟨toFq xr, toFq xi⟩ : Fq2 BLS_P) else none with
      | none => none
      | some x =>
        match if yr < BLS_P ∧ yi < BLS_P then some (⟨toFq yr, toFq yi⟩ : Fq2 BLS_P) else none with
        | none => none
        | some y =>
          let z : Fq2 BLS_P := if x = 0 ∧ y = 0 then 0 else 1
          let point : Point3D (Fq2 BLS_P) := ⟨x, y, z⟩
          if ¬ isOnCurve point ⟨toFq 4, toFq 4⟩ then none
          else if chk ∧ ¬ isInf (C.bls.curve.mul2 point BLS_MODULUS) then none
          else some point) =
      if IsPoint2 blsPrime BlsTwist xr xi yr yi ∧
          (chk = true → (C.bls.curve.mul2 (libPoint2 BLS_P xr xi yr yi) BLS_MODULUS).z = 0) then
        some (libPoint2 BLS_P xr xi yr yi) else none := by
  rw [blsPrime_eq]
  have hp : 1 < BLS_P := by decide +kernel
  by_cases hx : xr < BLS_P ∧ xi < BLS_P
  case neg => rw [if_neg hx, if_neg (c := IsPoint2 BLS_P BlsTwist xr xi yr yi ∧ _) (fun h => hx ⟨h.1.1.1, h.1.1.2.1⟩)]
  rw [if_pos hx]
  by_cases hy : yr < BLS_P ∧ yi < BLS_P
  case neg => rw [if_neg hy, if_neg (c := IsPoint2 BLS_P BlsTwist xr xi yr yi ∧ _) (fun h => hy h.1.1.2.2)]
  rw [if_pos hy]
  have key : ∀ P : Point3D (Fq2 BLS_P), (if chk = true ∧ ¬ isInf (C.bls.curve.mul2 P BLS_MODULUS) = true then none else some P) =
      if (chk = true → (C.bls.curve.mul2 P BLS_MODULUS).z = 0) then some P else none := by
    intro P
    have e : isInf (C.bls.curve.mul2 P BLS_MODULUS) = true ↔ (C.bls.curve.mul2 P BLS_MODULUS).z = 0 := by simp [isInf]
    by_cases h1 : chk = true
    · by_cases h2 : (C.bls.curve.mul2 P BLS_MODULUS).z = 0
      · rw [if_neg (fun h => h.2 (e.mpr h2)), if_pos (fun _ => h2)]
      · rw [if_pos ⟨h1, fun h => h2 (e.mp h)⟩, if_neg (fun h => h2 (h h1))]
    · rw [if_neg (fun h => h1 h.1), if_pos (fun h => absurd h h1)]
  have ht := twist_decode hp BlsTwist 4 4 blsTwist_iff xr xi yr yi hx.1 hx.2 hy.1 hy.2
  simp only
  by_cases hI : IsPoint2 BLS_P BlsTwist xr xi yr yi
  · rw [if_pos hI] at ht
    by_cases hon : isOnCurve (⟨⟨toFq xr, toFq xi⟩, ⟨toFq yr, toFq yi⟩,
        if (⟨toFq xr, toFq xi⟩ : Fq2 BLS_P) = 0 ∧ (⟨toFq yr, toFq yi⟩ : Fq2 BLS_P) = 0 then 0 else 1⟩ : Point3D (Fq2 BLS_P))
        ⟨toFq 4, toFq 4⟩ = true
    · rw [if_neg (not_not_intro hon)] at ht ⊢
      rw [key, Option.some.inj ht]
      simp only [hI, true_and]
    · rw [if_pos hon] at ht
      exact absurd ht (by simp)
  · rw [if_neg hI] at ht
    rw [if_neg (c := IsPoint2 BLS_P BlsTwist xr xi yr yi ∧ _) (fun h => hI h.1)]
    by_cases hon : isOnCurve (⟨⟨toFq xr, toFq xi⟩, ⟨toFq yr, toFq yi⟩,
        if (⟨toFq xr, toFq xi⟩ : Fq2 BLS_P) = 0 ∧ (⟨toFq yr, toFq yi⟩ : Fq2 BLS_P) = 0 then 0 else 1⟩ : Point3D (Fq2 BLS_P))
        ⟨toFq 4, toFq 4⟩ = true
    · rw [if_neg (not_not_intro hon)] at ht
      exact absurd ht (by simp)
    · rw [if_pos hon]

theorem blsG2_decode (C : Crypto) (d : Bytes) (o : Nat) (chk : Bool) :
    blsBytesToG2 C (bufferRead d o 256) chk =
      if BlsG2 d o ∧ (chk = true → (C.bls.curve.mul2 (blsG2 d o) BLS_MODULUS).z = 0) then some (blsG2 d o) else none := by
  unfold blsBytesToG2
  rw [if_neg (by rw [bufferRead_length]; decide), take_bufferRead _ _ _ _ (by decide), drop_bufferRead _ _ _ _ (by decide),
    bytesToFq2_eq, bytesToFq2_eq]
  exact blsG2_aux C _ _ _ _ chk

end Verif
