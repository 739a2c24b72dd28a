import Verif.Model.Evm
/-!
src/ethereum/crypto/elliptic_curve.py, src/ethereum/crypto/kzg.py and the point codecs and loops of
osaka/vm/precompiled_contracts/alt_bn128.py and bls12_381/*.py. The functions return `none` where the code raises
`InvalidParameter` (or, in KZG, any exception: the caller catches all).
-/
namespace Verif

/-! ### crypto/elliptic_curve.py -/

/-- Python's three-argument `pow` by repeated squaring, for exponents below `2 ^ bits`; `modPow_eq` (Lemmas/Curves.lean) shows that
it is `b ^ e % m`. (The library computes the same value; this form can be evaluated for large exponents.) -/
def modPow (m : Nat) : Nat → Nat → Nat → Nat
  | 0, _, _ => 1 % m
  | bits + 1, b, e => (if e % 2 = 1 then b else 1) * modPow m bits (b * b % m) (e / 2) % m

/-- crypto/elliptic_curve.py:20-23 `SECP256K1P` (and `SECP256K1B = 7`). -/
def SECP256K1P : Nat := 0xFFFFFFFFFFFFFFFFFFFFFFFFFFFFFFFFFFFFFFFFFFFFFFFFFFFFFFFEFFFFFC2F

/-- crypto/elliptic_curve.py:49-53 `is_square`. (The sum fits U256: `P + 7 < 2 ^ 256`.) -/
def secp256k1IsSquare (r : Word) : Nat :=
  modPow SECP256K1P 256 (modPow SECP256K1P 2 r.toNat 3 + 7) ((SECP256K1P - 1) / 2)

/-- crypto/elliptic_curve.py:29-79 `secp256k1_recover`. The signature handed to coincurve is `r || s || v`. `none` is
InvalidSignatureError. -/
def Crypto.secp256k1Recover (C : Crypto) (r s v : Word) (msgHash : Word) : Option Bytes :=
  if secp256k1IsSquare r ≠ 1 then none
  else C.coincurveRecover (wordBytes r ++ wordBytes s ++ [UInt8.ofNat v.toNat]) msgHash

/-- crypto/elliptic_curve.py:85-93 `SECP256R1P`, `SECP256R1A`, `SECP256R1B`. -/
def SECP256R1P : Word := 0xFFFFFFFF00000001000000000000000000000000FFFFFFFFFFFFFFFFFFFFFFFF
def SECP256R1A : Word := 0xFFFFFFFF00000001000000000000000000000000FFFFFFFFFFFFFFFFFFFFFFFC
def SECP256R1B : Word := 0x5AC635D8AA3A93E7B3EBBD55769886BC651D06B0CC53B0F63BCE3C3E27D2604B

/-- crypto/elliptic_curve.py:137-171 `is_on_curve_secp256r1`. -/
def isOnCurveP256 (x y : Word) : Bool :=
  let p := SECP256R1P.toNat
  let ySquared := y.toNat * y.toNat % p
  let xCubed := x.toNat * x.toNat * x.toNat % p
  let ax := SECP256R1A.toNat * x.toNat % p
  let rightSide := (xCubed + ax + SECP256R1B.toNat) % p
  ySquared = rightSide

/-- crypto/elliptic_curve.py:96-134 `secp256r1_verify`: `.ok false` is InvalidSignatureError. The library refuses to build a public
key from coordinates that are out of range or not on the curve (ValueError, not caught). -/
def Crypto.secp256r1Verify (C : Crypto) (r s x y : Word) (msgHash : Word) : Except Crash Bool :=
  if x ≥ SECP256R1P ∨ y ≥ SECP256R1P ∨ ¬ isOnCurveP256 x y then .error .valueError
  else .ok (C.p256Verify r s x y msgHash)

/-! ### osaka/vm/precompiled_contracts/alt_bn128.py -/

/-- `FQ(x)`, here only for `x` below the modulus. -/
def toFq {p : Nat} [NeZero p] (x : Nat) : Fq p := Fin.ofNat p x

/-- alt_bn128.py:39-81 `bytes_to_g1` (py_ecc `b = FQ(3)`). -/
def bnBytesToG1 (data : Bytes) : Option (Point3D (Fq BN_P)) :=
  if data.length ≠ 64 then none
  else
    let x := fromBE (bufferRead data 0 32)
    let y := fromBE (bufferRead data 32 32)
    if x ≥ BN_P then none
    else if y ≥ BN_P then none
    else
      let z := if x = 0 ∧ y = 0 then 0 else 1
      let point : Point3D (Fq BN_P) := ⟨toFq x, toFq y, toFq z⟩
      if ¬ isOnCurve point (toFq 3) then none
      else some point

/-- py_ecc `bn128.b2 = FQ2([3, 0]) / FQ2([9, 1])`. -/
def bnB2 : Fq2 BN_P :=
  ⟨toFq 19485874751759354771024239261021720505790618469301721065564631296452457478373,
   toFq 266929791119991161246907387137283842545076965332900288569378510910307636690⟩

/-- alt_bn128.py:84-134 `bytes_to_g2`: the imaginary parts come first. -/
def bnBytesToG2 (data : Bytes) : Option (Point3D (Fq2 BN_P)) :=
  if data.length ≠ 128 then none
  else
    let x0 := fromBE (bufferRead data 0 32)
    let x1 := fromBE (bufferRead data 32 32)
    let y0 := fromBE (bufferRead data 64 32)
    let y1 := fromBE (bufferRead data 96 32)
    if x0 ≥ BN_P ∨ x1 ≥ BN_P then none
    else if y0 ≥ BN_P ∨ y1 ≥ BN_P then none
    else
      let x : Fq2 BN_P := ⟨toFq x1, toFq x0⟩
      let y : Fq2 BN_P := ⟨toFq y1, toFq y0⟩
      let z : Fq2 BN_P := if x = 0 ∧ y = 0 then 0 else 1
      let point : Point3D (Fq2 BN_P) := ⟨x, y, z⟩
      if ¬ isOnCurve point bnB2 then none
      else some point

/-- alt_bn128.py:152-159: the operation of `alt_bn128_add`, normalized. -/
def Crypto.bnAdd (C : Crypto) (data : Bytes) : Option (Fq BN_P × Fq BN_P) :=
  match bnBytesToG1 (bufferRead data 0 64) with
  | none => none
  | some p0 =>
    match bnBytesToG1 (bufferRead data 64 64) with
    | none => none
    | some p1 => some (C.bn.normalize1 (C.bn.add1 p0 p1))

/-- alt_bn128.py:179-186: the operation of `alt_bn128_mul`, normalized. -/
def Crypto.bnMul (C : Crypto) (data : Bytes) : Option (Fq BN_P × Fq BN_P) :=
  match bnBytesToG1 (bufferRead data 0 64) with
  | none => none
  | some p0 =>
    let n := fromBE (bufferRead data 64 32)
    some (C.bn.normalize1 (C.bn.mul1 p0 n))

/-- py_ecc `pairing(Q, P)`: ValueError if a point is not on its curve. -/
def CurveLib.pairingChecked {p : Nat} [NeZero p] (L : CurveLib p) (b : Fq p) (b2 : Fq2 p) (Q : Point3D (Fq2 p))
    (P : Point3D (Fq p)) : Except Crash (Fq12 p) :=
  if ¬ isOnCurve Q b2 then .error .valueError
  else if ¬ isOnCurve P b then .error .valueError
  else .ok (L.pairing Q P)

/-- alt_bn128.py:210-220: the pairing of the `i`-th pair of points. `none` is OutOfGasError. -/
def Crypto.bnPair (C : Crypto) (data : Bytes) (i : Nat) : Except Crash (Option (Fq12 BN_P)) :=
  match bnBytesToG1 (bufferRead data (192 * i) 64) with
  | none => .ok none
  | some P =>
    match bnBytesToG2 (bufferRead data (192 * i + 64) 128) with
    | none => .ok none
    | some Q =>
      if ¬ isInf (C.bn.mul1 P BN_N) then .ok none
      else if ¬ isInf (C.bn.mul2 Q BN_N) then .ok none
      else (C.bn.pairingChecked (toFq 3) bnB2 Q P).map some

/-- The loops over the pairs, from the `i`-th on for `k` iterations (alt_bn128.py:208-220, bls12_381_pairing.py:47-65). -/
def pairingLoop {F : Type} (pair : Nat → Except Crash (Option F)) (mul : F → F → F) : Nat → Nat → F → Except Crash (Option F)
  | _, 0, result => .ok (some result)
  | i, k + 1, result =>
    match pair i with
    | .error e => .error e
    | .ok none => .ok none
    | .ok (some g) => pairingLoop pair mul (i + 1) k (mul result g)

/-! ### osaka/vm/precompiled_contracts/bls12_381 -/

/-- bls12_381/__init__.py:425-452 `bytes_to_fq`. -/
def bytesToFq (data : Bytes) : Option (Fq BLS_P) :=
  if data.length ≠ 64 then none
  else
    let c := fromBE (data.take 64)
    if c ≥ BLS_P then none else some (toFq c)

/-- bls12_381/__init__.py:455-484 `bytes_to_fq2`. -/
def bytesToFq2 (data : Bytes) : Option (Fq2 BLS_P) :=
  if data.length ≠ 128 then none
  else
    let c0 := fromBE (data.take 64)
    let c1 := fromBE (data.drop 64)
    if c0 ≥ BLS_P then none
    else if c1 ≥ BLS_P then none
    else some ⟨toFq c0, toFq c1⟩

/-- bls12_381/__init__.py:309-370 `bytes_to_g1` (py_ecc `b = FQ(4)`). The comparisons of `x` and `y` with the modulus after
`bytes_to_fq` cannot succeed and are left out. The cache does not change the result. -/
def blsBytesToG1 (C : Crypto) (data : Bytes) (subgroupCheck : Bool) : Option (Point3D (Fq BLS_P)) :=
  if data.length ≠ 128 then none
  else
    match bytesToFq (data.take 64) with
    | none => none
    | some x =>
      match bytesToFq (data.drop 64) with
      | none => none
      | some y =>
        let z := if x = 0 ∧ y = 0 then 0 else 1
        let point : Point3D (Fq BLS_P) := ⟨x, y, toFq z⟩
        if ¬ isOnCurve point (toFq 4) then none
        else if subgroupCheck ∧ ¬ isInf (C.bls.curve.mul1 point BLS_MODULUS) then none
        else some point

/-- bls12_381/__init__.py:491-547 `bytes_to_g2` (py_ecc `b2 = FQ2((4, 4))`). -/
def blsBytesToG2 (C : Crypto) (data : Bytes) (subgroupCheck : Bool) : Option (Point3D (Fq2 BLS_P)) :=
  if data.length ≠ 256 then none
  else
    match bytesToFq2 (data.take 128) with
    | none => none
    | some x =>
      match bytesToFq2 (data.drop 128) with
      | none => none
      | some y =>
        let z : Fq2 BLS_P := if x = 0 ∧ y = 0 then 0 else 1
        let point : Point3D (Fq2 BLS_P) := ⟨x, y, z⟩
        if ¬ isOnCurve point ⟨toFq 4, toFq 4⟩ then none
        else if subgroupCheck ∧ ¬ isInf (C.bls.curve.mul2 point BLS_MODULUS) then none
        else some point

/-- bls12_381/__init__.py:394-422 `decode_g1_scalar_pair`. (The exception for a wrong length is built but not raised.) -/
def decodeG1ScalarPair (C : Crypto) (data : Bytes) : Option (Point3D (Fq BLS_P) × Nat) :=
  match blsBytesToG1 C (data.take 128) true with
  | none => none
  | some point => some (point, fromBE (bufferRead data 128 32))

/-- bls12_381/__init__.py:588-615 `decode_g2_scalar_pair`. -/
def decodeG2ScalarPair (C : Crypto) (data : Bytes) : Option (Point3D (Fq2 BLS_P) × Nat) :=
  match blsBytesToG2 C (data.take 256) true with
  | none => none
  | some point => some (point, fromBE (slice data 256 288))

/-- bls12_381_g1.py:65-70: the operation of `bls12_g1_add`. -/
def Crypto.blsG1Add (C : Crypto) (data : Bytes) : Option (Point3D (Fq BLS_P)) :=
  match blsBytesToG1 C (bufferRead data 0 128) false with
  | none => none
  | some p1 =>
    match blsBytesToG1 C (bufferRead data 128 128) false with
    | none => none
    | some p2 => some (C.bls.curve.add1 p1 p2)

/-- bls12_381_g2.py:66-71: the operation of `bls12_g2_add`. -/
def Crypto.blsG2Add (C : Crypto) (data : Bytes) : Option (Point3D (Fq2 BLS_P)) :=
  match blsBytesToG2 C (bufferRead data 0 256) false with
  | none => none
  | some p1 =>
    match blsBytesToG2 C (bufferRead data 256 256) false with
    | none => none
    | some p2 => some (C.bls.curve.add2 p1 p2)

/-- bls12_381_g1.py:106-117, bls12_381_g2.py:107-118: the loop of the multi-scalar multiplications, from iteration `i` on for `k`
iterations; `result` is unbound (`none`) before the first. -/
def msmLoop {F : Type} (decode : Bytes → Option (Point3D F × Nat)) (add : Point3D F → Point3D F → Point3D F)
    (multiply : Point3D F → Nat → Point3D F) (len : Nat) (data : Bytes) :
    Nat → Nat → Option (Point3D F) → Option (Option (Point3D F))
  | _, 0, result => some result
  | i, k + 1, result =>
    match decode (slice data (i * len) (i * len + len)) with
    | none => none
    | some (p, m) =>
      let product := multiply p m
      match result with
      | none => msmLoop decode add multiply len data (i + 1) k (some product)
      | some r => msmLoop decode add multiply len data (i + 1) k (some (add r product))

/-- bls12_381_g1.py:105-117; the inner `none` (no iteration) is excluded by the check for empty data. -/
def Crypto.blsG1Msm (C : Crypto) (data : Bytes) : Option (Point3D (Fq BLS_P)) :=
  (msmLoop (decodeG1ScalarPair C) C.bls.curve.add1 C.bls.curve.mul1 160 data 0 (data.length / 160) none).join

/-- bls12_381_g2.py:106-118. -/
def Crypto.blsG2Msm (C : Crypto) (data : Bytes) : Option (Point3D (Fq2 BLS_P)) :=
  (msmLoop (decodeG2ScalarPair C) C.bls.curve.add2 C.bls.curve.mul2 288 data 0 (data.length / 288) none).join

/-- bls12_381_g1.py:143-148: the operation of `bls12_map_fp_to_g1`. -/
def Crypto.blsMapFpToG1 (C : Crypto) (data : Bytes) : Option (Point3D (Fq BLS_P)) :=
  let fp := fromBE data
  if fp ≥ BLS_P then none else some (C.bls.mapToG1 (toFq fp))

/-- bls12_381_g2.py:144-150: the operation of `bls12_map_fp2_to_g2`. -/
def Crypto.blsMapFp2ToG2 (C : Crypto) (data : Bytes) : Option (Point3D (Fq2 BLS_P)) :=
  match bytesToFq2 data with
  | none => none
  | some fp2 => some (C.bls.mapToG2 fp2)

/-- bls12_381_pairing.py:49-65: the pairing of the `i`-th pair of points. `none` is InvalidParameter. -/
def Crypto.blsPair (C : Crypto) (data : Bytes) (i : Nat) : Except Crash (Option (Fq12 BLS_P)) :=
  match blsBytesToG1 C (slice data (384 * i) (384 * i + 128)) false with
  | none => .ok none
  | some P =>
    if ¬ isInf (C.bls.curve.mul1 P BLS_MODULUS) then .ok none
    else
      match blsBytesToG2 C (slice data (384 * i + 128) (384 * i + 384)) false with
      | none => .ok none
      | some Q =>
        if ¬ isInf (C.bls.curve.mul2 Q BLS_MODULUS) then .ok none
        else (C.bls.curve.pairingChecked (toFq 4) ⟨toFq 4, toFq 4⟩ Q P).map some

/-! ### crypto/kzg.py -/

/-- crypto/kzg.py:67-76 `kzg_commitment_to_versioned_hash`. -/
def Crypto.kzgVersionedHash (C : Crypto) (commitment : Bytes) : Bytes :=
  [1] ++ (wordBytes (C.sha256 commitment)).drop 1

/-- crypto/kzg.py:79-87 `validate_kzg_g1`: whether it returns (otherwise AssertionError). -/
def Crypto.validateKzgG1 (C : Crypto) (b : Bytes) : Bool :=
  b = 0xc0 :: List.replicate 47 0 || C.bls.keyValidate b

/-- crypto/kzg.py:98-106 `bytes_to_bls_field`. -/
def bytesToBlsField (b : Bytes) : Option Nat :=
  let fieldElement := fromBE b
  if fieldElement < BLS_MODULUS then some fieldElement else none

/-- crypto/kzg.py:117-126 `pairing_check`. -/
def Crypto.kzgPairingCheck (C : Crypto) (P1 : Point3D (Fq BLS_P)) (Q1 : Point3D (Fq2 BLS_P)) (P2 : Point3D (Fq BLS_P))
    (Q2 : Point3D (Fq2 BLS_P)) : Bool :=
  C.bls.finalExponentiate (C.bls.curve.mul12 (C.bls.miller Q1 P1) (C.bls.miller Q2 P2)) = C.bls.curve.one12

/-- crypto/kzg.py:154-178 `verify_kzg_proof_impl`; `none`: `pubkey_to_G1` raises. -/
def Crypto.verifyKzgProofImpl (C : Crypto) (commitment : Bytes) (z y : Nat) (proof : Bytes) : Option Bool :=
  let xMinusZ := C.bls.curve.add2 C.bls.setupG2 (C.bls.curve.mul2 C.bls.genG2 ((BLS_MODULUS - z) % BLS_MODULUS))
  match C.bls.pubkeyToG1 commitment with
  | none => none
  | some P =>
    let pMinusY := C.bls.curve.add1 P (C.bls.curve.mul1 C.bls.genG1 ((BLS_MODULUS - y) % BLS_MODULUS))
    match C.bls.pubkeyToG1 proof with
    | none => none
    | some Q => some (C.kzgPairingCheck pMinusY (C.bls.neg2 C.bls.genG2) Q xMinusZ)

/-- crypto/kzg.py:129-151 `verify_kzg_proof`; `none`: an assertion or the library raises. -/
def Crypto.verifyKzgProof (C : Crypto) (commitment z y proof : Bytes) : Option Bool :=
  if ¬ (commitment.length = 48 ∧ z.length = 32 ∧ y.length = 32 ∧ proof.length = 48) then none
  else if ¬ C.validateKzgG1 commitment then none
  else
    match bytesToBlsField z with
    | none => none
    | some z =>
      match bytesToBlsField y with
      | none => none
      | some y =>
        if ¬ C.validateKzgG1 proof then none
        else C.verifyKzgProofImpl commitment z y proof

end Verif
