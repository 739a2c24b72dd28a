import Verif.Props.C61
import Verif.Spec.Bls
/-! C62: the BLS12-381 precompiles. -/
namespace Verif
open Spec Spec.Curve

/-- In the subgroup of order `blsOrder`, as far as the library's multiplication tells. -/
def BlsSub1 (C : Crypto) (P : Point3D (Fq BLS_P)) : Prop := (C.bls.curve.mul1 P blsOrder).z = 0
def BlsSub2 (C : Crypto) (P : Point3D (Fq2 BLS_P)) : Prop := (C.bls.curve.mul2 P blsOrder).z = 0
instance (C : Crypto) (P) : Decidable (BlsSub1 C P) := inferInstanceAs (Decidable (_ = _))
instance (C : Crypto) (P) : Decidable (BlsSub2 C P) := inferInstanceAs (Decidable (_ = _))

/-- The bytes of a result: affine coordinates of 64 bytes each; real parts before imaginary parts. -/
def blsBytes1 (C : Crypto) (P : Point3D (Fq BLS_P)) : Bytes :=
  let r := C.bls.curve.normalize1 P
  bytesBE 64 r.1.val ++ bytesBE 64 r.2.val
def blsBytes2 (C : Crypto) (P : Point3D (Fq2 BLS_P)) : Bytes :=
  let r := C.bls.curve.normalize2 P
  (bytesBE 64 r.1.c0.val ++ bytesBE 64 r.1.c1.val) ++ (bytesBE 64 r.2.c0.val ++ bytesBE 64 r.2.c1.val)

/-- The shape of all results: a wrong length fails before gas is charged, bad contents after; both consume all gas of the call. -/
def blsOutcome (m : Mach) (lengthOk : Prop) [Decidable lengthOk] (price : Nat) (contentOk : Prop) [Decidable contentOk]
    (out : Bytes) : Res Unit :=
  if ¬ lengthOk then .err (.halt .invalidParameter) m
  else if m.evm.gasLeft < price then .err (.halt .outOfGas) m
  else if contentOk then .ok () (returned m price out)
  else .err (.halt .invalidParameter) (paid m price)

theorem blsOrder_eq : BLS_MODULUS = blsOrder := by decide +kernel

attribute [local irreducible] BlsG1 BlsG2 blsG1 blsG2 BLS_P BLS_MODULUS blsOrder

theorem blsOutput1_eq (E : Env) (m : Mach) (g : Nat) (ok : Prop) [Decidable ok] (P : Point3D (Fq BLS_P)) :
    blsOutput1 E (if ok then some P else none) (paid m g) =
      if ok then .ok () (returned m g (blsBytes1 E.crypto P)) else .err (.halt .invalidParameter) (paid m g) := by
  by_cases h : ok
  · rw [if_pos h, if_pos h]
    unfold blsOutput1 blsBytes1
    simp only [toBE_eq_bytesBE]
    exact setOutput_paid _ _ _
  · rw [if_neg h, if_neg h]; rfl

theorem blsOutput2_eq (E : Env) (m : Mach) (g : Nat) (ok : Prop) [Decidable ok] (P : Point3D (Fq2 BLS_P)) :
    blsOutput2 E (if ok then some P else none) (paid m g) =
      if ok then .ok () (returned m g (blsBytes2 E.crypto P)) else .err (.halt .invalidParameter) (paid m g) := by
  by_cases h : ok
  · rw [if_pos h, if_pos h]
    unfold blsOutput2 blsBytes2 fq2ToBytes
    simp only [toBE_eq_bytesBE]
    exact setOutput_paid _ _ _
  · rw [if_neg h, if_neg h]; rfl

/-- Length check, gas, result. -/
theorem bls_shape1 (E : Env) (m : Mach) (bad lengthOk : Prop) [Decidable bad] [Decidable lengthOk] (hb : bad ↔ ¬ lengthOk) (price : Nat)
    (ok : Prop) [Decidable ok] (P : Point3D (Fq BLS_P)) (res : Option (Point3D (Fq BLS_P)))
    (hr : lengthOk → res = if ok then some P else none) :
    (if bad then raiseHalt .invalidParameter else chargeGas price >>= fun _ => blsOutput1 E res : M Unit) m =
      blsOutcome m lengthOk price ok (blsBytes1 E.crypto P) := by
  unfold blsOutcome
  by_cases hl : lengthOk
  · rw [if_neg (fun h => hb.mp h hl), if_neg (not_not_intro hl), charge_then, hr hl, blsOutput1_eq]
  · rw [if_pos (hb.mpr hl), if_pos hl]; rfl

theorem bls_shape2 (E : Env) (m : Mach) (bad lengthOk : Prop) [Decidable bad] [Decidable lengthOk] (hb : bad ↔ ¬ lengthOk) (price : Nat)
    (ok : Prop) [Decidable ok] (P : Point3D (Fq2 BLS_P)) (res : Option (Point3D (Fq2 BLS_P)))
    (hr : lengthOk → res = if ok then some P else none) :
    (if bad then raiseHalt .invalidParameter else chargeGas price >>= fun _ => blsOutput2 E res : M Unit) m =
      blsOutcome m lengthOk price ok (blsBytes2 E.crypto P) := by
  unfold blsOutcome
  by_cases hl : lengthOk
  · rw [if_neg (fun h => hb.mp h hl), if_neg (not_not_intro hl), charge_then, hr hl, blsOutput2_eq]
  · rw [if_pos (hb.mpr hl), if_pos hl]; rfl

/-! ### additions: no subgroup check -/

/-- C62. G1ADD: two points of the curve (not necessarily of the subgroup) are added. -/
theorem C62_g1_add (E : Env) (f : Fork) (p : M Unit) (hp : precompile E f 0x0b = some p) (m : Mach) :
    let d := m.evm.message.data
    p m = blsOutcome m (d.length = 256) 375 (BlsG1 d 0 ∧ BlsG1 d 128)
      (blsBytes1 E.crypto (E.crypto.bls.curve.add1 (blsG1 d 0) (blsG1 d 128))) := by
  intro d
  have hp' : p = pBlsG1Add E := by
    have : precompileFn E f 0x0b = some (pBlsG1Add E) := rfl
    rw [(precompileFn_of hp).2] at this; exact Option.some.inj this
  subst hp'
  refine bls_shape1 E m (d.length ≠ 256) (d.length = 256) Iff.rfl 375 _ _ (E.crypto.blsG1Add d) (fun _ => ?_)
  unfold Crypto.blsG1Add
  rw [blsG1_decode, blsG1_decode]
  simp only [Bool.false_eq_true, false_implies, and_true]
  by_cases h0 : BlsG1 d 0
  · rw [if_pos h0]
    by_cases h1 : BlsG1 d 128
    · rw [if_pos h1, if_pos ⟨h0, h1⟩]
    · rw [if_neg h1, if_neg (c := BlsG1 d 0 ∧ BlsG1 d 128) (fun h => h1 h.2)]
  · rw [if_neg h0, if_neg (c := BlsG1 d 0 ∧ BlsG1 d 128) (fun h => h0 h.1)]

/-- C62. G2ADD: two points of the twist (not necessarily of the subgroup) are added. -/
theorem C62_g2_add (E : Env) (f : Fork) (p : M Unit) (hp : precompile E f 0x0d = some p) (m : Mach) :
    let d := m.evm.message.data
    p m = blsOutcome m (d.length = 512) 600 (BlsG2 d 0 ∧ BlsG2 d 256)
      (blsBytes2 E.crypto (E.crypto.bls.curve.add2 (blsG2 d 0) (blsG2 d 256))) := by
  intro d
  have hp' : p = pBlsG2Add E := by
    have : precompileFn E f 0x0d = some (pBlsG2Add E) := rfl
    rw [(precompileFn_of hp).2] at this; exact Option.some.inj this
  subst hp'
  refine bls_shape2 E m (d.length ≠ 512) (d.length = 512) Iff.rfl 600 _ _ (E.crypto.blsG2Add d) (fun _ => ?_)
  unfold Crypto.blsG2Add
  rw [blsG2_decode, blsG2_decode]
  simp only [Bool.false_eq_true, false_implies, and_true]
  by_cases h0 : BlsG2 d 0
  · rw [if_pos h0]
    by_cases h1 : BlsG2 d 256
    · rw [if_pos h1, if_pos ⟨h0, h1⟩]
    · rw [if_neg h1, if_neg (c := BlsG2 d 0 ∧ BlsG2 d 256) (fun h => h1 h.2)]
  · rw [if_neg h0, if_neg (c := BlsG2 d 0 ∧ BlsG2 d 256) (fun h => h0 h.1)]

/-! ### multi-scalar multiplications -/

/-- The loop after the first iteration. -/
theorem msmLoop_some {F : Type} {decode : Bytes → Option (Point3D F × Nat)} {add : Point3D F → Point3D F → Point3D F}
    {mul : Point3D F → Nat → Point3D F} {len : Nat} {d : Bytes} (ok : Nat → Prop) [DecidablePred ok] (pt : Nat → Point3D F)
    (sc : Nat → Nat) (n : Nat)
    (hdec : ∀ i, i < n → decode (slice d (i * len) (i * len + len)) = if ok i then some (pt i, sc i) else none) :
    ∀ k i, i + 1 + k = n → msmLoop decode add mul len d (i + 1) k (some (sum add (fun j => mul (pt j) (sc j)) i)) =
      if ∀ j, i + 1 ≤ j → j < n → ok j then some (some (sum add (fun j => mul (pt j) (sc j)) (n - 1))) else none
  | 0, i, h => by
    rw [if_pos (by intro j h1 h2; omega)]
    unfold msmLoop
    rw [show n - 1 = i by omega]
  | k + 1, i, h => by
    unfold msmLoop
    rw [hdec (i + 1) (by omega)]
    by_cases hok : ok (i + 1)
    · rw [if_pos hok]
      simp only
      have ih := msmLoop_some (add := add) (mul := mul) ok pt sc n hdec k (i + 1) (by omega)
      rw [sum] at ih
      rw [ih]
      have hall : (∀ j, i + 1 + 1 ≤ j → j < n → ok j) ↔ (∀ j, i + 1 ≤ j → j < n → ok j) := by
        constructor
        · intro hk j h1 h2
          by_cases hj : j = i + 1
          · rw [hj]; exact hok
          · exact hk j (by omega) h2
        · intro hk j h1 h2; exact hk j (by omega) h2
      by_cases hk : ∀ j, i + 1 ≤ j → j < n → ok j
      · rw [if_pos hk, if_pos (hall.mpr hk)]
      · rw [if_neg hk, if_neg (fun h => hk (hall.mp h))]
    · rw [if_neg hok, if_neg (fun hk => hok (hk (i + 1) (by omega) (by omega)))]

theorem msmLoop_closed {F : Type} {decode : Bytes → Option (Point3D F × Nat)} {add : Point3D F → Point3D F → Point3D F}
    {mul : Point3D F → Nat → Point3D F} {len : Nat} {d : Bytes} (ok : Nat → Prop) [DecidablePred ok] (pt : Nat → Point3D F)
    (sc : Nat → Nat) (n : Nat) (hn : 0 < n)
    (hdec : ∀ i, i < n → decode (slice d (i * len) (i * len + len)) = if ok i then some (pt i, sc i) else none) :
    (msmLoop decode add mul len d 0 n none).join =
      if ∀ j, j < n → ok j then some (sum add (fun j => mul (pt j) (sc j)) (n - 1)) else none := by
  obtain ⟨k, rfl⟩ : ∃ k, n = k + 1 := ⟨n - 1, by omega⟩
  unfold msmLoop
  rw [hdec 0 (by omega)]
  by_cases hok : ok 0
  · rw [if_pos hok]
    simp only
    have h1 := msmLoop_some (add := add) (mul := mul) ok pt sc (k + 1) hdec k 0 (by omega)
    rw [sum] at h1
    rw [h1]
    have hall : (∀ j, 0 + 1 ≤ j → j < k + 1 → ok j) ↔ (∀ j, j < k + 1 → ok j) := by
      constructor
      · intro hk j h2
        by_cases hj : j = 0
        · rw [hj]; exact hok
        · exact hk j (by omega) h2
      · intro hk j h1 h2; exact hk j h2
    by_cases hk : ∀ j, j < k + 1 → ok j
    · rw [if_pos hk, if_pos (hall.mpr hk)]; rfl
    · rw [if_neg hk, if_neg (fun h => hk (hall.mp h))]; rfl
  · rw [if_neg hok, if_neg (fun hk => hok (hk 0 (by omega)))]; rfl

theorem slice_slice (d : Bytes) (o n : Nat) (h : o + n ≤ d.length) : slice d o (o + n) = bufferRead d o n :=
  (bufferRead_eq_slice d o n h).symm

theorem msmGas_eq1 (k : Nat) (hk : 0 < k) : msmGas G1_K_DISCOUNT G1_MAX_DISCOUNT GAS_BLS_G1_MUL k = msmPrice discountG1 12000 k := by
  have ht : G1_K_DISCOUNT = discountG1 := rfl
  unfold msmGas msmPrice
  rw [ht]
  simp only
  show k * 12000 * _ / 1000 = _
  by_cases h : k ≤ 128
  · rw [if_pos h, Nat.min_eq_left h, List.getD_eq_getElem?_getD]
    have hl : k - 1 < discountG1.length := by show k - 1 < 128; omega
    rw [List.getElem?_eq_getElem hl]; rfl
  · rw [if_neg h, Nat.min_eq_right (by omega)]; rfl

theorem msmGas_eq2 (k : Nat) (hk : 0 < k) : msmGas G2_K_DISCOUNT G2_MAX_DISCOUNT GAS_BLS_G2_MUL k = msmPrice discountG2 22500 k := by
  have ht : G2_K_DISCOUNT = discountG2 := rfl
  unfold msmGas msmPrice
  rw [ht]
  simp only
  show k * 22500 * _ / 1000 = _
  by_cases h : k ≤ 128
  · rw [if_pos h, Nat.min_eq_left h, List.getD_eq_getElem?_getD]
    have hl : k - 1 < discountG2.length := by show k - 1 < 128; omega
    rw [List.getElem?_eq_getElem hl]; rfl
  · rw [if_neg h, Nat.min_eq_right (by omega)]; rfl

theorem decodeG1ScalarPair_eq (C : Crypto) (d : Bytes) (i : Nat) (h : i * 160 + 160 ≤ d.length) :
    decodeG1ScalarPair C (slice d (i * 160) (i * 160 + 160)) =
      if BlsG1 d (160 * i) ∧ BlsSub1 C (blsG1 d (160 * i)) then some (blsG1 d (160 * i), number d (160 * i + 128) 32) else none := by
  unfold decodeG1ScalarPair
  rw [slice_slice _ _ _ h, take_bufferRead _ _ _ _ (by decide), blsG1_decode, fromBE_bufferRead2 _ _ _ _ _ (by decide),
    Nat.mul_comm i 160]
  simp only [forall_const, blsOrder_eq]
  by_cases hc : BlsG1 d (160 * i) ∧ (C.bls.curve.mul1 (blsG1 d (160 * i)) blsOrder).z = 0
  · rw [if_pos hc, if_pos (c := BlsG1 d (160 * i) ∧ BlsSub1 C (blsG1 d (160 * i))) hc]
  · rw [if_neg hc, if_neg (c := BlsG1 d (160 * i) ∧ BlsSub1 C (blsG1 d (160 * i))) hc]

theorem decodeG2ScalarPair_eq (C : Crypto) (d : Bytes) (i : Nat) (h : i * 288 + 288 ≤ d.length) :
    decodeG2ScalarPair C (slice d (i * 288) (i * 288 + 288)) =
      if BlsG2 d (288 * i) ∧ BlsSub2 C (blsG2 d (288 * i)) then some (blsG2 d (288 * i), number d (288 * i + 256) 32) else none := by
  unfold decodeG2ScalarPair
  rw [slice_slice _ _ _ h, take_bufferRead _ _ _ _ (by decide), blsG2_decode, slice_bufferRead d _ 288 256 32 (by decide),
    fromBE_bufferRead, Nat.mul_comm i 288]
  simp only [forall_const, blsOrder_eq]
  by_cases hc : BlsG2 d (288 * i) ∧ (C.bls.curve.mul2 (blsG2 d (288 * i)) blsOrder).z = 0
  · rw [if_pos hc, if_pos (c := BlsG2 d (288 * i) ∧ BlsSub2 C (blsG2 d (288 * i))) hc]
  · rw [if_neg hc, if_neg (c := BlsG2 d (288 * i) ∧ BlsSub2 C (blsG2 d (288 * i))) hc]

/-- C62. G1MSM: `k` pairs of a point of the subgroup and a scalar; the result is the sum of the products. -/
theorem C62_g1_msm (E : Env) (f : Fork) (p : M Unit) (hp : precompile E f 0x0c = some p) (m : Mach) :
    let d := m.evm.message.data
    let k := d.length / 160
    let lib := E.crypto.bls.curve
    p m = blsOutcome m (0 < k ∧ d.length = 160 * k) (msmPrice discountG1 12000 k)
      (∀ i, i < k → BlsG1 d (160 * i) ∧ BlsSub1 E.crypto (blsG1 d (160 * i)))
      (blsBytes1 E.crypto (sum lib.add1 (fun i => lib.mul1 (blsG1 d (160 * i)) (number d (160 * i + 128) 32)) (k - 1))) := by
  intro d k lib
  have hp' : p = pBlsG1Msm E := by
    have : precompileFn E f 0x0c = some (pBlsG1Msm E) := rfl
    rw [(precompileFn_of hp).2] at this; exact Option.some.inj this
  subst hp'
  by_cases hk : 0 < k
  · rw [← msmGas_eq1 k hk]
    refine bls_shape1 E m (d.length = 0 ∨ d.length % 160 ≠ 0) (0 < k ∧ d.length = 160 * k) (by omega) _ _ _ (E.crypto.blsG1Msm d)
      (fun hl => ?_)
    exact msmLoop_closed (fun i => BlsG1 d (160 * i) ∧ BlsSub1 E.crypto (blsG1 d (160 * i))) (fun i => blsG1 d (160 * i))
      (fun i => number d (160 * i + 128) 32) k hk (fun i hi => decodeG1ScalarPair_eq E.crypto d i (by omega))
  · unfold blsOutcome
    rw [if_pos (fun h => hk h.1)]
    show (if d.length = 0 ∨ d.length % 160 ≠ 0 then raiseHalt .invalidParameter else _ : M Unit) m = _
    rw [if_pos (by omega)]; rfl

/-- C62. G2MSM. -/
theorem C62_g2_msm (E : Env) (f : Fork) (p : M Unit) (hp : precompile E f 0x0e = some p) (m : Mach) :
    let d := m.evm.message.data
    let k := d.length / 288
    let lib := E.crypto.bls.curve
    p m = blsOutcome m (0 < k ∧ d.length = 288 * k) (msmPrice discountG2 22500 k)
      (∀ i, i < k → BlsG2 d (288 * i) ∧ BlsSub2 E.crypto (blsG2 d (288 * i)))
      (blsBytes2 E.crypto (sum lib.add2 (fun i => lib.mul2 (blsG2 d (288 * i)) (number d (288 * i + 256) 32)) (k - 1))) := by
  intro d k lib
  have hp' : p = pBlsG2Msm E := by
    have : precompileFn E f 0x0e = some (pBlsG2Msm E) := rfl
    rw [(precompileFn_of hp).2] at this; exact Option.some.inj this
  subst hp'
  by_cases hk : 0 < k
  · rw [← msmGas_eq2 k hk]
    refine bls_shape2 E m (d.length = 0 ∨ d.length % 288 ≠ 0) (0 < k ∧ d.length = 288 * k) (by omega) _ _ _ (E.crypto.blsG2Msm d)
      (fun hl => ?_)
    exact msmLoop_closed (fun i => BlsG2 d (288 * i) ∧ BlsSub2 E.crypto (blsG2 d (288 * i))) (fun i => blsG2 d (288 * i))
      (fun i => number d (288 * i + 256) 32) k hk (fun i hi => decodeG2ScalarPair_eq E.crypto d i (by omega))
  · unfold blsOutcome
    rw [if_pos (fun h => hk h.1)]
    show (if d.length = 0 ∨ d.length % 288 ≠ 0 then raiseHalt .invalidParameter else _ : M Unit) m = _
    rw [if_pos (by omega)]; rfl

/-! ### maps to the curve -/

/-- C62. MAP_FP_TO_G1: one field element below the modulus. -/
theorem C62_map_g1 (E : Env) (f : Fork) (p : M Unit) (hp : precompile E f 0x10 = some p) (m : Mach) :
    let d := m.evm.message.data
    p m = blsOutcome m (d.length = 64) 5500 (number d 0 64 < blsPrime)
      (blsBytes1 E.crypto (E.crypto.bls.mapToG1 (Fin.ofNat BLS_P (number d 0 64)))) := by
  intro d
  have hp' : p = pBlsMapFpToG1 E := by
    have : precompileFn E f 0x10 = some (pBlsMapFpToG1 E) := rfl
    rw [(precompileFn_of hp).2] at this; exact Option.some.inj this
  subst hp'
  refine bls_shape1 E m (d.length ≠ 64) (d.length = 64) Iff.rfl 5500 _ _ (E.crypto.blsMapFpToG1 d) (fun hl => ?_)
  unfold Crypto.blsMapFpToG1
  rw [fromBE_number, hl, blsPrime_eq]
  simp only
  by_cases h : number d 0 64 < BLS_P
  · rw [if_neg (Nat.not_le.mpr h), if_pos h]; rfl
  · rw [if_pos (Nat.not_lt.mp h), if_neg h]

/-- C62. MAP_FP2_TO_G2: real part, then imaginary part, both below the modulus. -/
theorem C62_map_g2 (E : Env) (f : Fork) (p : M Unit) (hp : precompile E f 0x11 = some p) (m : Mach) :
    let d := m.evm.message.data
    p m = blsOutcome m (d.length = 128) 23800 (number d 0 64 < blsPrime ∧ number d 64 64 < blsPrime)
      (blsBytes2 E.crypto (E.crypto.bls.mapToG2 ⟨Fin.ofNat BLS_P (number d 0 64), Fin.ofNat BLS_P (number d 64 64)⟩)) := by
  intro d
  have hp' : p = pBlsMapFp2ToG2 E := by
    have : precompileFn E f 0x11 = some (pBlsMapFp2ToG2 E) := rfl
    rw [(precompileFn_of hp).2] at this; exact Option.some.inj this
  subst hp'
  refine bls_shape2 E m (d.length ≠ 128) (d.length = 128) Iff.rfl 23800 _ _ (E.crypto.blsMapFp2ToG2 d) (fun hl => ?_)
  unfold Crypto.blsMapFp2ToG2
  have hd : d = bufferRead d 0 128 := by
    rw [bufferRead_eq_slice _ _ _ (by omega)]
    unfold slice
    rw [List.drop_zero, List.take_of_length_le (by omega)]
  have hq := bytesToFq2_eq d 0
  rw [← hd, Nat.zero_add] at hq
  rw [hq, blsPrime_eq]
  by_cases h : number d 0 64 < BLS_P ∧ number d 64 64 < BLS_P
  · rw [if_pos h, if_pos h]; rfl
  · rw [if_neg h, if_neg h]

/-! ### pairing -/

/-- The `i`-th pair: points of the curve and the twist, both in the subgroups. -/
def BlsPairOk (C : Crypto) (d : Bytes) (i : Nat) : Prop :=
  (BlsG1 d (384 * i) ∧ BlsSub1 C (blsG1 d (384 * i))) ∧ (BlsG2 d (384 * i + 128) ∧ BlsSub2 C (blsG2 d (384 * i + 128)))

instance (C : Crypto) (d : Bytes) (i : Nat) : Decidable (BlsPairOk C d i) := inferInstanceAs (Decidable (_ ∧ _))

theorem blsPair_closed (C : Crypto) (d : Bytes) (i : Nat) (hi : 384 * i + 384 ≤ d.length) :
    C.blsPair d i = .ok (if BlsPairOk C d i then some (C.bls.curve.pairing (blsG2 d (384 * i + 128)) (blsG1 d (384 * i))) else none) := by
  rw [blsPair_eq]
  unfold Crypto.blsPoints
  rw [show 384 * i + 384 = 384 * i + 128 + 256 from rfl, slice_slice _ _ _ (by omega), slice_slice _ _ _ (by omega), blsG1_decode,
    blsG2_decode]
  simp only [Bool.false_eq_true, false_implies, and_true]
  by_cases h1 : BlsG1 d (384 * i)
  · by_cases h2 : BlsG2 d (384 * i + 128)
    · rw [if_pos h1, if_pos h2]
      simp only [isInf_iff, blsOrder_eq]
      by_cases h3 : (C.bls.curve.mul1 (blsG1 d (384 * i)) blsOrder).z = 0 ∧ (C.bls.curve.mul2 (blsG2 d (384 * i + 128)) blsOrder).z = 0
      · rw [if_pos h3, if_pos (c := BlsPairOk C d i) ⟨⟨h1, h3.1⟩, ⟨h2, h3.2⟩⟩]; rfl
      · rw [if_neg h3, if_neg (c := BlsPairOk C d i) (fun h => h3 ⟨h.1.2, h.2.2⟩)]; rfl
    · rw [if_pos h1, if_neg h2, if_neg (c := BlsPairOk C d i) (fun h => h2 h.2.1)]; rfl
  · rw [if_neg h1, if_neg (c := BlsPairOk C d i) (fun h => h1 h.1.1)]
    by_cases h2 : BlsG2 d (384 * i + 128)
    · rw [if_pos h2]; rfl
    · rw [if_neg h2]; rfl

/-- The loop only looks at its own iterations. -/
theorem pairingLoop_congr {F : Type} {pair pair' : Nat → Except Crash (Option F)} {mul : F → F → F} :
    ∀ k i r, (∀ j, i ≤ j → j < i + k → pair j = pair' j) → pairingLoop pair mul i k r = pairingLoop pair' mul i k r
  | 0, _, _, _ => rfl
  | k + 1, i, r, h => by
    unfold pairingLoop
    rw [h i (Nat.le_refl _) (by omega)]
    cases pair' i with
    | error e => rfl
    | ok x =>
      cases x with
      | none => rfl
      | some g => exact pairingLoop_congr k (i + 1) _ (fun j h1 h2 => h j (by omega) (by omega))

/-- C62. PAIRING_CHECK: 37700 gas and 32600 per pair; the result is 1 if the product of all pairings is one, 0 otherwise. -/
theorem C62_pairing (E : Env) (f : Fork) (p : M Unit) (hp : precompile E f 0x0f = some p) (m : Mach) :
    let d := m.evm.message.data
    let k := d.length / 384
    let lib := E.crypto.bls.curve
    let product := (List.range k).foldl
      (fun acc i => lib.mul12 acc (lib.pairing (blsG2 d (384 * i + 128)) (blsG1 d (384 * i)))) lib.one12
    p m = blsOutcome m (0 < k ∧ d.length = 384 * k) (32600 * k + 37700) (∀ i, i < k → BlsPairOk E.crypto d i)
      (bytesBE 32 (if product = lib.one12 then 1 else 0)) := by
  intro d k lib product
  have hp' : p = pBlsPairing E := by
    have : precompileFn E f 0x0f = some (pBlsPairing E) := rfl
    rw [(precompileFn_of hp).2] at this; exact Option.some.inj this
  subst hp'
  have hstep : pBlsPairing E m = (if d.length = 0 ∨ d.length % 384 ≠ 0 then raiseHalt .invalidParameter
      else chargeGas (32600 * k + 37700) >>= fun _ =>
        liftCrash (pairingLoop (E.crypto.blsPair d) lib.mul12 0 k lib.one12) >>= fun result =>
        match result with
        | none => raiseHalt .invalidParameter
        | some r => setOutput (wordBytes (boolWord (r = lib.one12))) : M Unit) m := rfl
  rw [hstep]
  unfold blsOutcome
  by_cases hl : 0 < k ∧ d.length = 384 * k
  case neg =>
    rw [if_pos (by omega), if_pos hl]; rfl
  rw [if_neg (by omega), if_neg (not_not_intro hl), charge_then]
  by_cases hg : m.evm.gasLeft < 32600 * k + 37700
  · rw [if_pos hg, if_pos hg]
  rw [if_neg hg, if_neg hg]
  have hloop : pairingLoop (E.crypto.blsPair d) lib.mul12 0 k lib.one12 =
      .ok (if ∀ i, i < k → BlsPairOk E.crypto d i then some product else none) := by
    rw [pairingLoop_congr (pair' := fun i => .ok (if BlsPairOk E.crypto d i then
      some (lib.pairing (blsG2 d (384 * i + 128)) (blsG1 d (384 * i))) else none)) k 0 _
      (fun j _ hj => blsPair_closed E.crypto d j (by omega))]
    rw [pairingLoop_closed lib.mul12 (BlsPairOk E.crypto d) (fun i => lib.pairing (blsG2 d (384 * i + 128)) (blsG1 d (384 * i)))
      (fun i => rfl)]
    simp only [Nat.zero_add]
    rfl
  rw [hloop]
  by_cases ha : ∀ i, i < k → BlsPairOk E.crypto d i
  · rw [if_pos ha, if_pos ha]
    show setOutput (wordBytes (boolWord (product = lib.one12))) (paid m (32600 * k + 37700)) = _
    rw [boolOut]
    exact setOutput_paid _ _ _
  · rw [if_neg ha, if_neg ha]; rfl

/-! ### the hypotheses are met: the generators of the two groups -/

private def blsGenerators : Bytes :=
  bytesBE 64
    0x17f1d3a73197d7942695638c4fa9ac0fc3688c4f9774b905a14e3a3f171bac586c55e83ff97a1aeffb3af00adb22c6bb ++ bytesBE 64
    0x08b3f481e3aaa0f1a09e30ed741d8ae4fcf5e095d5d00af600db18cb2c04b3edd03cc744a2888ae40caa232946c5e7e1 ++ bytesBE 64
    0x024aa2b2f08f0a91260805272dc51051c6e47ad4fa403b02b4510b647ae3d1770bac0326a805bbefd48056c8c121bdb8 ++ bytesBE 64
    0x13e02b6052719f607dacd3a088274f65596bd0d09920b61ab5da61bbdc7f5049334cf11213945d57e5ac7d055d042b7e ++ bytesBE 64
    0x0ce5d527727d6e118cc9cdc6da2e351aadfd9baa8cbdd3a76d429a695160d12c923ac9cc3baca289e193548608b82801 ++ bytesBE 64
    0x0606c4a02ea734cc32acd2b02bc28b99cb3e287e85a763af267492ab572e99ab3f370d275cec1da1aaa9075ff05f79be

example : blsGenerators.length = 384 ∧ BlsPairOk Sample.crypto blsGenerators 0 := by decide +kernel
example : let d := blsGenerators.take 128 ++ bytesBE 32 5
    (0 < d.length / 160 ∧ d.length = 160 * (d.length / 160)) ∧ BlsG1 d 0 ∧ BlsSub1 Sample.crypto (blsG1 d 0) ∧ number d 128 32 = 5 := by
  decide +kernel
/-- 128 zero bytes are the point at infinity; a coordinate off the curve or above the modulus is refused. -/
example : BlsG1 (List.replicate 128 0) 0 ∧ ¬ BlsG1 (bytesBE 64 1 ++ bytesBE 64 2) 0 ∧ ¬ BlsG1 (bytesBE 64 blsPrime ++ bytesBE 64 2) 0 := by
  decide +kernel

end Verif
