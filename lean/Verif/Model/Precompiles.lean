import Verif.Model.System
import Verif.Model.Curves
import Verif.Model.Blake2
/-
osaka/vm/precompiled_contracts/*.py. The point codecs and loops are in Model/Curves.lean, BLAKE2 in Model/Blake2.lean; hashes, group
operations and pairings are the uninterpreted fields of `Crypto`.
-/
namespace Verif

/-- The first fork whose `PRE_COMPILED_CONTRACTS` has the address (src/ethereum/<fork>/vm/precompiled_contracts/mapping.py). -/
def precompileFirstFork (a : Address) : Fork :=
  if a ≤ 4 then .frontier
  else if a ≤ 8 then .byzantium
  else if a = 9 then .istanbul
  else if a = 0x0a then .cancun
  else if a ≤ 0x11 then .prague
  else .osaka

/-- osaka/vm/precompiled_contracts/mapping.py:58-77: addresses (values from `__init__.py:39-56`), in the given fork. -/
def precompileAddresses (f : Fork) : List Address :=
  [1, 2, 3, 4, 5, 6, 7, 8, 9, 0x0a, 0x0b, 0x0c, 0x0d, 0x0e, 0x0f, 0x10, 0x11, 0x100].filter
    fun a => f.since (precompileFirstFork a)

/-- Order of secp256k1, crypto/elliptic_curve.py `SECP256K1N`. -/
def SECP256K1N : Word :=
  115792089237316195423570985008687907852837564279074904382605163141518161494337
/-- crypto/elliptic_curve.py `SECP256R1N`. -/
def SECP256R1N : Word :=
  115792089210356248762697446949407573529996955224135760342422259061068512044369
/-- `U256.from_be_bytes(buffer_read(data, start, 32))`. -/
def readWord (data : Bytes) (start : Nat) : Word := BitVec.ofNat 256 (fromBE (bufferRead data start 32))

/-- ecrecover.py:26-63 -/
def pEcrecover (E : Env) : M Unit := do
  let evm ← getEvm
  let data := evm.message.data
  chargeGas GAS_ECRECOVER
  let hash := readWord data 0
  let v := readWord data 32
  let r := readWord data 64
  let s := readWord data 96
  if v ≠ 27 ∧ v ≠ 28 then pure ()
  else if r = 0 ∨ r ≥ SECP256K1N then pure ()
  else if s = 0 ∨ s ≥ SECP256K1N then pure ()
  else match E.crypto.secp256k1Recover r s (v - 27) hash with
    | none => pure ()
    | some publicKey =>
      setOutput (leftPad ((wordBytes (E.crypto.keccak256 publicKey)).drop 12) 32)

/-- sha256.py:24-40 -/
def pSha256 (E : Env) : M Unit := do
  let evm ← getEvm
  let data := evm.message.data
  chargeGas (GAS_SHA256 + GAS_SHA256_WORD * (ceil32 data.length / 32))
  setOutput (wordBytes (E.crypto.sha256 data))

/-- ripemd160.py:25-43 -/
def pRipemd160 (E : Env) : M Unit := do
  let evm ← getEvm
  let data := evm.message.data
  chargeGas (GAS_RIPEMD160 + GAS_RIPEMD160_WORD * (ceil32 data.length / 32))
  setOutput (leftPad (addressBytes (E.crypto.ripemd160 data)) 32)

/-- identity.py:22-38 -/
def pIdentity : M Unit := do
  let evm ← getEvm
  let data := evm.message.data
  chargeGas (GAS_IDENTITY + GAS_IDENTITY_WORD * (ceil32 data.length / 32))
  setOutput data

/-- modexp.py:75-99 `complexity`. -/
def modexpComplexity (baseLength modulusLength : Nat) : Nat :=
  let maxLength := max baseLength modulusLength
  let words := (maxLength + 7) / 8
  if maxLength > 32 then 2 * words ^ 2 else 16

/-- modexp.py:102-141 `iterations`. -/
def modexpIterations (exponentLength : Nat) (exponentHead : Nat) : Nat :=
  let count :=
    if exponentLength ≤ 32 ∧ exponentHead = 0 then 0
    else if exponentLength ≤ 32 then
      let bl := bitLength exponentHead
      if bl > 0 then bl - 1 else bl
    else
      let lengthPart := 16 * (exponentLength - 32)
      let bitsPart := bitLength exponentHead
      let bitsPart := if bitsPart > 0 then bitsPart - 1 else bitsPart
      lengthPart + bitsPart
  max count 1

/-- modexp.py:144-178 `gas_cost`. -/
def modexpGasCost (baseLength modulusLength exponentLength exponentHead : Nat) : Nat :=
  max 500 (modexpComplexity baseLength modulusLength * modexpIterations exponentLength exponentHead)

/-- prague/vm/precompiled_contracts/modexp.py:68-89 `complexity`, the same in every fork from berlin to prague. -/
def modexpComplexityBerlin (baseLength modulusLength : Nat) : Nat :=
  ((max baseLength modulusLength + 7) / 8) ^ 2

/-- istanbul/vm/precompiled_contracts/modexp.py:68-101 `complexity`, the same in every fork from byzantium to muir_glacier. The
subtractions cannot underflow (`max_length` exceeds 64 and 1024). -/
def modexpComplexityByzantium (baseLength modulusLength : Nat) : Nat :=
  let maxLength := max baseLength modulusLength
  if maxLength ≤ 64 then maxLength ^ 2
  else if maxLength ≤ 1024 then maxLength ^ 2 / 4 + 96 * maxLength - 3072
  else maxLength ^ 2 / 16 + 480 * maxLength - 199680

/-- prague/vm/precompiled_contracts/modexp.py:92-131 `iterations`. -/
def modexpIterationsBerlin (exponentLength : Nat) (exponentHead : Nat) : Nat :=
  let count :=
    if exponentLength ≤ 32 ∧ exponentHead = 0 then 0
    else if exponentLength ≤ 32 then
      let bl := bitLength exponentHead
      if bl > 0 then bl - 1 else bl
    else
      let lengthPart := 8 * (exponentLength - 32)
      let bitsPart := bitLength exponentHead
      let bitsPart := if bitsPart > 0 then bitsPart - 1 else bitsPart
      lengthPart + bitsPart
  max count 1

/-- istanbul/vm/precompiled_contracts/modexp.py:104-133 `iterations`; `max(0, n - 1)` on Python ints. -/
def modexpIterationsByzantium (exponentLength : Nat) (exponentHead : Nat) : Nat :=
  let adjusted :=
    if exponentLength < 32 then bitLength exponentHead - 1
    else 8 * (exponentLength - 32) + (bitLength exponentHead - 1)
  max adjusted 1

/-- `gas_cost` before osaka: prague/vm/precompiled_contracts/modexp.py:134-169 (from berlin on) and
istanbul/vm/precompiled_contracts/modexp.py:136-171 (before); `GQUADDIVISOR` is 3 and 20. -/
def modexpGasCostOld (f : Fork) (baseLength modulusLength exponentLength exponentHead : Nat) : Nat :=
  if f.since .berlin then
    max 200 (modexpComplexityBerlin baseLength modulusLength * modexpIterationsBerlin exponentLength exponentHead / 3)
  else modexpComplexityByzantium baseLength modulusLength * modexpIterationsByzantium exponentLength exponentHead / 20

/-- modexp.py:55-72: the output, given the three lengths (each at most 1024 since osaka). -/
def modexpOutput (data : Bytes) (baseLength expLength modulusLength : Nat) : Bytes :=
  if baseLength = 0 ∧ modulusLength = 0 then []
  else
    let base := fromBE (bufferRead data 96 baseLength)
    let expStart := 96 + baseLength
    let exp := fromBE (bufferRead data expStart expLength)
    let modulusStart := expStart + expLength
    let modulus := fromBE (bufferRead data modulusStart modulusLength)
    if modulus = 0 then List.replicate modulusLength 0
    else toBE modulusLength (powMod base exp modulus)

/-- prague/vm/precompiled_contracts/modexp.py:24-65 `modexp`, in the forks before osaka. The lengths are U256 and so are their sums:
they are checked. -/
def pModexpOld (f : Fork) : M Unit := do
  let evm ← getEvm
  let data := evm.message.data
  let baseLength := fromBE (bufferRead data 0 32)
  let expLength := fromBE (bufferRead data 32 32)
  let modulusLength := fromBE (bufferRead data 64 32)
  let expStart ← u256 (96 + baseLength)
  let expHead := fromBE (bufferRead data expStart.toNat (min 32 expLength))
  chargeGas (modexpGasCostOld f baseLength modulusLength expLength expHead)
  if baseLength = 0 ∧ modulusLength = 0 then setOutput []
  else do
    let _ ← u256 (expStart.toNat + expLength)
    setOutput (modexpOutput data baseLength expLength modulusLength)

/-- modexp.py:23-72 `modexp`. -/
def pModexpOsaka : M Unit := do
  let evm ← getEvm
  let data := evm.message.data
  let baseLength := fromBE (bufferRead data 0 32)
  if baseLength > 1024 then raiseHalt .exceptionalHalt
  else do
    let expLength := fromBE (bufferRead data 32 32)
    if expLength > 1024 then raiseHalt .exceptionalHalt
    else do
      let modulusLength := fromBE (bufferRead data 64 32)
      if modulusLength > 1024 then raiseHalt .exceptionalHalt
      else do
        let expStart := 96 + baseLength
        let expHead := fromBE (bufferRead data expStart (min 32 expLength))
        chargeGas (modexpGasCost baseLength modulusLength expLength expHead)
        setOutput (modexpOutput data baseLength expLength modulusLength)

/-- `modexp` of the given fork. -/
def pModexp (f : Fork) : M Unit := if f.since .osaka then pModexpOsaka else pModexpOld f

/-- alt_bn128.py:137-161; the price before istanbul is in constantinople/vm/precompiled_contracts/alt_bn128.py:149. -/
def pBnAdd (E : Env) (f : Fork) : M Unit := do
  let evm ← getEvm
  chargeGas (if f.since .istanbul then 150 else 500)
  match E.crypto.bnAdd evm.message.data with
  | none => raiseHalt .outOfGas
  | some (x, y) => setOutput (toBE 32 x.val ++ toBE 32 y.val)

/-- alt_bn128.py:164-188; the price before istanbul is in constantinople/vm/precompiled_contracts/alt_bn128.py:176. -/
def pBnMul (E : Env) (f : Fork) : M Unit := do
  let evm ← getEvm
  chargeGas (if f.since .istanbul then 6000 else 40000)
  match E.crypto.bnMul evm.message.data with
  | none => raiseHalt .outOfGas
  | some (x, y) => setOutput (toBE 32 x.val ++ toBE 32 y.val)

/-- alt_bn128.py:191-225; the price before istanbul is in constantinople/vm/precompiled_contracts/alt_bn128.py:203. -/
def pBnPairing (E : Env) (f : Fork) : M Unit := do
  let evm ← getEvm
  let data := evm.message.data
  chargeGas (if f.since .istanbul then 34000 * (data.length / 192) + 45000 else 80000 * (data.length / 192) + 100000)
  if data.length % 192 ≠ 0 then raiseHalt .outOfGas
  else do
    let result ← liftCrash (pairingLoop (E.crypto.bnPair data) E.crypto.bn.mul12 0 (data.length / 192) E.crypto.bn.one12)
    match result with
    | none => raiseHalt .outOfGas
    | some r => setOutput (wordBytes (boolWord (r = E.crypto.bn.one12)))

/-- blake2f.py:21-41 -/
def pBlake2f : M Unit := do
  let evm ← getEvm
  let data := evm.message.data
  if data.length ≠ 213 then raiseHalt .invalidParameter
  else do
    let (rounds, h, m, t0, t1, f) := Blake2.getParameters data
    chargeGas (GAS_BLAKE2_PER_ROUND * rounds)
    if f ≠ 0 ∧ f ≠ 1 then raiseHalt .invalidParameter
    else do
      let out ← liftCrash (blake2b.compress rounds h m t0 t1 (f ≠ 0))
      setOutput out

/-- point_evaluation.py:32-72 -/
def pPointEvaluation (E : Env) : M Unit := do
  let evm ← getEvm
  let data := evm.message.data
  if data.length ≠ 192 then raiseHalt .kzgProofError
  else do
    let versionedHash := slice data 0 32
    let z := slice data 32 64
    let y := slice data 64 96
    let commitment := slice data 96 144
    let proof := slice data 144 192
    chargeGas GAS_POINT_EVALUATION
    if E.crypto.kzgVersionedHash commitment ≠ versionedHash then raiseHalt .kzgProofError
    else match E.crypto.verifyKzgProof commitment z y proof with
      | none => raiseHalt .kzgProofError
      | some kzgProofVerification =>
        if kzgProofVerification then setOutput (toBE 32 4096 ++ toBE 32 BLS_MODULUS)
        else raiseHalt .kzgProofError

/-- bls12_381/__init__.py:36-167 `G1_K_DISCOUNT` and `G1_MAX_DISCOUNT`. -/
def G1_K_DISCOUNT : List Nat := 
  [1000, 949, 848, 797, 764, 750, 738, 728, 719, 712, 705, 698, 692, 687, 682, 677, 673, 669, 665, 661,
   658, 654, 651, 648, 645, 642, 640, 637, 635, 632, 630, 627, 625, 623, 621, 619, 617, 615, 613, 611,
   609, 608, 606, 604, 603, 601, 599, 598, 596, 595, 593, 592, 591, 589, 588, 586, 585, 584, 582, 581,
   580, 579, 577, 576, 575, 574, 573, 572, 570, 569, 568, 567, 566, 565, 564, 563, 562, 561, 560, 559,
   558, 557, 556, 555, 554, 553, 552, 551, 550, 549, 548, 547, 547, 546, 545, 544, 543, 542, 541, 540,
   540, 539, 538, 537, 536, 536, 535, 534, 533, 532, 532, 531, 530, 529, 528, 528, 527, 526, 525, 525,
   524, 523, 522, 522, 521, 520, 520, 519]
def G1_MAX_DISCOUNT := 519
/-- bls12_381/__init__.py:169-300 `G2_K_DISCOUNT` and `G2_MAX_DISCOUNT`. -/
def G2_K_DISCOUNT : List Nat := 
  [1000, 1000, 923, 884, 855, 832, 812, 796, 782, 770, 759, 749, 740, 732, 724, 717, 711, 704, 699, 693,
   688, 683, 679, 674, 670, 666, 663, 659, 655, 652, 649, 646, 643, 640, 637, 634, 632, 629, 627, 624,
   622, 620, 618, 615, 613, 611, 609, 607, 606, 604, 602, 600, 598, 597, 595, 593, 592, 590, 589, 587,
   586, 584, 583, 582, 580, 579, 578, 576, 575, 574, 573, 571, 570, 569, 568, 567, 566, 565, 563, 562,
   561, 560, 559, 558, 557, 556, 555, 554, 553, 552, 552, 551, 550, 549, 548, 547, 546, 545, 545, 544,
   543, 542, 541, 541, 540, 539, 538, 537, 537, 536, 535, 535, 534, 533, 532, 532, 531, 530, 530, 529,
   528, 528, 527, 526, 526, 525, 524, 524]
def G2_MAX_DISCOUNT := 524
/-- bls12_381/__init__.py `MULTIPLIER`. -/
def BLS_MULTIPLIER := 1000

/-- Gas of a multi-scalar multiplication of `k` pairs (bls12_381_g1.py:97-103, bls12_381_g2.py:98-104). -/
def msmGas (table : List Nat) (maxDiscount mulGas k : Nat) : Nat :=
  let discount := if k ≤ 128 then (match table[k - 1]? with | some d => d | none => maxDiscount) else maxDiscount
  k * mulGas * discount / BLS_MULTIPLIER

/-- Common tail of the G1 operations: InvalidParameter, or the output of bls12_381/__init__.py:373-391 `g1_to_bytes`. -/
def blsOutput1 (E : Env) : Option (Point3D (Fq BLS_P)) → M Unit
  | none => raiseHalt .invalidParameter
  | some P => setOutput (toBE 64 (E.crypto.bls.curve.normalize1 P).1.val ++ toBE 64 (E.crypto.bls.curve.normalize1 P).2.val)

/-- bls12_381/__init__.py:550-565 `FQ2_to_bytes`. -/
def fq2ToBytes (x : Fq2 BLS_P) : Bytes := toBE 64 x.c0.val ++ toBE 64 x.c1.val

/-- Common tail of the G2 operations, with bls12_381/__init__.py:568-585 `g2_to_bytes`. -/
def blsOutput2 (E : Env) : Option (Point3D (Fq2 BLS_P)) → M Unit
  | none => raiseHalt .invalidParameter
  | some P => setOutput (fq2ToBytes (E.crypto.bls.curve.normalize2 P).1 ++ fq2ToBytes (E.crypto.bls.curve.normalize2 P).2)

/-- bls12_381_g1.py:44-71 -/
def pBlsG1Add (E : Env) : M Unit := do
  let evm ← getEvm
  let data := evm.message.data
  if data.length ≠ 256 then raiseHalt .invalidParameter
  else do
    chargeGas GAS_BLS_G1_ADD
    blsOutput1 E (E.crypto.blsG1Add data)
/-- bls12_381_g1.py:74-119 -/
def pBlsG1Msm (E : Env) : M Unit := do
  let evm ← getEvm
  let data := evm.message.data
  if data.length = 0 ∨ data.length % 160 ≠ 0 then raiseHalt .invalidParameter
  else do
    chargeGas (msmGas G1_K_DISCOUNT G1_MAX_DISCOUNT GAS_BLS_G1_MUL (data.length / 160))
    blsOutput1 E (E.crypto.blsG1Msm data)
/-- bls12_381_g1.py:122-149 -/
def pBlsMapFpToG1 (E : Env) : M Unit := do
  let evm ← getEvm
  let data := evm.message.data
  if data.length ≠ 64 then raiseHalt .invalidParameter
  else do
    chargeGas GAS_BLS_G1_MAP
    blsOutput1 E (E.crypto.blsMapFpToG1 data)
/-- bls12_381_g2.py:45-72 -/
def pBlsG2Add (E : Env) : M Unit := do
  let evm ← getEvm
  let data := evm.message.data
  if data.length ≠ 512 then raiseHalt .invalidParameter
  else do
    chargeGas GAS_BLS_G2_ADD
    blsOutput2 E (E.crypto.blsG2Add data)
/-- bls12_381_g2.py:75-120 -/
def pBlsG2Msm (E : Env) : M Unit := do
  let evm ← getEvm
  let data := evm.message.data
  if data.length = 0 ∨ data.length % 288 ≠ 0 then raiseHalt .invalidParameter
  else do
    chargeGas (msmGas G2_K_DISCOUNT G2_MAX_DISCOUNT GAS_BLS_G2_MUL (data.length / 288))
    blsOutput2 E (E.crypto.blsG2Msm data)
/-- bls12_381_g2.py:123-151 -/
def pBlsMapFp2ToG2 (E : Env) : M Unit := do
  let evm ← getEvm
  let data := evm.message.data
  if data.length ≠ 128 then raiseHalt .invalidParameter
  else do
    chargeGas GAS_BLS_G2_MAP
    blsOutput2 E (E.crypto.blsMapFp2ToG2 data)
/-- bls12_381_pairing.py:26-70 -/
def pBlsPairing (E : Env) : M Unit := do
  let evm ← getEvm
  let data := evm.message.data
  if data.length = 0 ∨ data.length % 384 ≠ 0 then raiseHalt .invalidParameter
  else do
    chargeGas (32600 * (data.length / 384) + 37700)
    let result ← liftCrash (pairingLoop (E.crypto.blsPair data) E.crypto.bls.curve.mul12 0 (data.length / 384) E.crypto.bls.curve.one12)
    match result with
    | none => raiseHalt .invalidParameter
    | some r => setOutput (wordBytes (boolWord (r = E.crypto.bls.curve.one12)))

/-- p256verify.py:28-84 -/
def pP256verify (E : Env) : M Unit := do
  let evm ← getEvm
  let data := evm.message.data
  chargeGas GAS_P256VERIFY
  if data.length ≠ 160 then pure ()
  else
    let hash := readWord data 0
    let r := readWord data 32
    let s := readWord data 64
    let x := readWord data 96
    let y := readWord data 128
    if r = 0 ∨ r ≥ SECP256R1N then pure ()
    else if s = 0 ∨ s ≥ SECP256R1N then pure ()
    else if x ≥ SECP256R1P then pure ()
    else if y ≥ SECP256R1P then pure ()
    else if ¬ isOnCurveP256 x y then pure ()
    else if x = 0 ∧ y = 0 then pure ()
    else do
      let valid ← liftCrash (E.crypto.secp256r1Verify r s x y hash)
      if valid then setOutput (leftPad [1] 32) else pure ()

/-- osaka/vm/precompiled_contracts/mapping.py:58-77: the functions in `PRE_COMPILED_CONTRACTS`, in the version of the given fork. -/
def precompileFn (E : Env) (f : Fork) (a : Address) : Option (M Unit) :=
  if a = 1 then some (pEcrecover E)
  else if a = 2 then some (pSha256 E)
  else if a = 3 then some (pRipemd160 E)
  else if a = 4 then some pIdentity
  else if a = 5 then some (pModexp f)
  else if a = 6 then some (pBnAdd E f)
  else if a = 7 then some (pBnMul E f)
  else if a = 8 then some (pBnPairing E f)
  else if a = 9 then some pBlake2f
  else if a = 0x0a then some (pPointEvaluation E)
  else if a = 0x0b then some (pBlsG1Add E)
  else if a = 0x0c then some (pBlsG1Msm E)
  else if a = 0x0d then some (pBlsG2Add E)
  else if a = 0x0e then some (pBlsG2Msm E)
  else if a = 0x0f then some (pBlsPairing E)
  else if a = 0x10 then some (pBlsMapFpToG1 E)
  else if a = 0x11 then some (pBlsMapFp2ToG2 E)
  else if a = 0x100 then some (pP256verify E)
  else none

/-- `PRE_COMPILED_CONTRACTS` of the given fork (src/ethereum/<fork>/vm/precompiled_contracts/mapping.py). -/
def precompile (E : Env) (f : Fork) (a : Address) : Option (M Unit) :=
  if f.since (precompileFirstFork a) then precompileFn E f a else none

end Verif
