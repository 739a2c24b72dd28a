import Verif.Lemmas.CurveCodec
import Verif.Spec.Sample
/-! C61: the alt_bn128 precompiles. -/
namespace Verif
open Spec Spec.Curve

theorem toBE_eq_bytesBE : ∀ k n, toBE k n = bytesBE k n
  | 0, n => rfl
  | k + 1, n => by
    rw [toBE_head, toBE_eq_bytesBE k n]
    unfold bytesBE
    rw [List.range_succ_eq_map, List.map_cons, List.map_map]
    congr 1
    apply List.map_congr_left
    intro i _
    simp only [Function.comp]
    congr 3
    omega

theorem bnG1_decode (d : Bytes) (o : Nat) :
    bnBytesToG1 (bufferRead d o 64) = if BnG1 d o then some (bnG1 d o) else none := bnBytesToG1_eq d o

theorem bnG2_decode (d : Bytes) (o : Nat) :
    bnBytesToG2 (bufferRead d o 128) = if BnG2 d o then some (bnG2 d o) else none := bnBytesToG2_eq d o

/-- The frame after paying. -/
def paid (m : Mach) (g : Nat) : Mach := { m with evm := { m.evm with gasLeft := m.evm.gasLeft - g } }

/-- The frame after paying and producing output. -/
def returned (m : Mach) (g : Nat) (out : Bytes) : Mach :=
  { m with evm := { m.evm with gasLeft := m.evm.gasLeft - g, output := out } }

theorem charge_then {α : Type} (g : Nat) (k : M α) (m : Mach) :
    (chargeGas g >>= fun _ => k) m = if m.evm.gasLeft < g then .err (.halt .outOfGas) m else k (paid m g) := by
  rw [bind_eq]
  unfold chargeGas
  by_cases h : m.evm.gasLeft < g
  · rw [if_pos h, if_pos h]
  · rw [if_neg h, if_neg h]; rfl

theorem setOutput_paid (m : Mach) (g : Nat) (out : Bytes) : setOutput out (paid m g) = .ok () (returned m g out) := rfl

theorem bnOrder_eq : BN_N = bnOrder := by decide +kernel

attribute [local irreducible] BnG1 BnG2 bnG1 bnG2 BN_P BN_N bnOrder

/-- C61. ECADD: 150 gas (500 before istanbul); both 64-byte strings (missing bytes are zeros, further bytes ignored) must be points, or the call fails as
if out of gas; the result is the affine form of the library's sum. -/
theorem C61_add (E : Env) (f : Fork) (p : M Unit) (hp : precompile E f 6 = some p) (m : Mach) :
    let d := m.evm.message.data
    let price := if f.since .istanbul then 150 else 500
    p m =
      if m.evm.gasLeft < price then .err (.halt .outOfGas) m
      else if BnG1 d 0 ∧ BnG1 d 64 then
        let r := E.crypto.bn.normalize1 (E.crypto.bn.add1 (bnG1 d 0) (bnG1 d 64))
        .ok () (returned m price (bytesBE 32 r.1.val ++ bytesBE 32 r.2.val))
      else .err (.halt .outOfGas) (paid m price) := by
  intro d price
  have hp' : p = pBnAdd E f := by
    have : precompileFn E f 6 = some (pBnAdd E f) := rfl
    rw [(precompileFn_of hp).2] at this; exact Option.some.inj this
  subst hp'
  have hstep : pBnAdd E f m = (chargeGas price >>= fun _ =>
      match E.crypto.bnAdd d with
      | none => raiseHalt .outOfGas
      | some (x, y) => setOutput (toBE 32 x.val ++ toBE 32 y.val)) m := by
    rfl
  rw [hstep, charge_then]
  by_cases hg : m.evm.gasLeft < price
  · rw [if_pos hg, if_pos hg]
  rw [if_neg hg, if_neg hg]
  unfold Crypto.bnAdd
  rw [bnG1_decode, bnG1_decode]
  by_cases h0 : BnG1 d 0
  · rw [if_pos h0]
    by_cases h1 : BnG1 d 64
    · rw [if_pos h1, if_pos ⟨h0, h1⟩]
      simp only [toBE_eq_bytesBE]
      exact setOutput_paid _ _ _
    · rw [if_neg h1, if_neg (c := BnG1 d 0 ∧ BnG1 d 64) (fun h => h1 h.2)]; rfl
  · rw [if_neg h0, if_neg (c := BnG1 d 0 ∧ BnG1 d 64) (fun h => h0 h.1)]; rfl

/-- C61. ECMUL: 6000 gas (40000 before istanbul); the scalar is any 256-bit number. -/
theorem C61_mul (E : Env) (f : Fork) (p : M Unit) (hp : precompile E f 7 = some p) (m : Mach) :
    let d := m.evm.message.data
    let price := if f.since .istanbul then 6000 else 40000
    p m =
      if m.evm.gasLeft < price then .err (.halt .outOfGas) m
      else if BnG1 d 0 then
        let r := E.crypto.bn.normalize1 (E.crypto.bn.mul1 (bnG1 d 0) (number d 64 32))
        .ok () (returned m price (bytesBE 32 r.1.val ++ bytesBE 32 r.2.val))
      else .err (.halt .outOfGas) (paid m price) := by
  intro d price
  have hp' : p = pBnMul E f := by
    have : precompileFn E f 7 = some (pBnMul E f) := rfl
    rw [(precompileFn_of hp).2] at this; exact Option.some.inj this
  subst hp'
  have hstep : pBnMul E f m = (chargeGas price >>= fun _ =>
      match E.crypto.bnMul d with
      | none => raiseHalt .outOfGas
      | some (x, y) => setOutput (toBE 32 x.val ++ toBE 32 y.val)) m := by
    rfl
  rw [hstep, charge_then]
  by_cases hg : m.evm.gasLeft < price
  · rw [if_pos hg, if_pos hg]
  rw [if_neg hg, if_neg hg]
  unfold Crypto.bnMul
  rw [bnG1_decode, fromBE_bufferRead]
  by_cases h0 : BnG1 d 0
  · rw [if_pos h0, if_pos h0]
    simp only [toBE_eq_bytesBE]
    exact setOutput_paid _ _ _
  · rw [if_neg h0, if_neg h0]; rfl

/-- The `i`-th pair of the pairing check: both are points, and both are in the subgroup of order `bnOrder`. -/
def BnPairOk (C : Crypto) (d : Bytes) (i : Nat) : Prop :=
  BnG1 d (192 * i) ∧ BnG2 d (192 * i + 64) ∧
    (C.bn.mul1 (bnG1 d (192 * i)) bnOrder).z = 0 ∧ (C.bn.mul2 (bnG2 d (192 * i + 64)) bnOrder).z = 0

instance (C : Crypto) (d : Bytes) (i : Nat) : Decidable (BnPairOk C d i) := inferInstanceAs (Decidable (_ ∧ _ ∧ _ ∧ _))

theorem isInf_iff {F : Type} [Zero F] [DecidableEq F] (P : Point3D F) : isInf P = true ↔ P.z = 0 := by simp [isInf]

theorem bnPair_closed (C : Crypto) (d : Bytes) (i : Nat) :
    C.bnPair d i = .ok (if BnPairOk C d i then some (C.bn.pairing (bnG2 d (192 * i + 64)) (bnG1 d (192 * i))) else none) := by
  rw [bnPair_eq]
  unfold Crypto.bnPoints
  rw [bnG1_decode, bnG2_decode]
  by_cases h1 : BnG1 d (192 * i)
  · by_cases h2 : BnG2 d (192 * i + 64)
    · rw [if_pos h1, if_pos h2]
      simp only [isInf_iff, bnOrder_eq]
      by_cases h3 : (C.bn.mul1 (bnG1 d (192 * i)) bnOrder).z = 0 ∧ (C.bn.mul2 (bnG2 d (192 * i + 64)) bnOrder).z = 0
      · rw [if_pos h3, if_pos ⟨h1, h2, h3.1, h3.2⟩]; rfl
      · rw [if_neg h3, if_neg (fun h => h3 ⟨h.2.2.1, h.2.2.2⟩)]; rfl
    · rw [if_pos h1, if_neg h2, if_neg (c := BnPairOk C d i) (fun h => h2 h.2.1)]; rfl
  · rw [if_neg h1, if_neg (c := BnPairOk C d i) (fun h => h1 h.1)]
    by_cases h2 : BnG2 d (192 * i + 64)
    · rw [if_pos h2]; rfl
    · rw [if_neg h2]; rfl

/-- The loop multiplies the values of all pairs, if all are acceptable. -/
theorem pairingLoop_closed {F : Type} {pair : Nat → Except Crash (Option F)} (mul : F → F → F) (ok : Nat → Prop) [DecidablePred ok]
    (val : Nat → F) (hpair : ∀ i, pair i = .ok (if ok i then some (val i) else none)) :
    ∀ k i r, pairingLoop pair mul i k r =
      .ok (if ∀ j, j < k → ok (i + j) then some ((List.range k).foldl (fun acc j => mul acc (val (i + j))) r) else none)
  | 0, i, r => by
    rw [if_pos (by intro j hj; exact absurd hj (Nat.not_lt_zero _))]; rfl
  | k + 1, i, r => by
    unfold pairingLoop
    rw [hpair i]
    by_cases h : ok i
    · rw [if_pos h]
      simp only
      rw [pairingLoop_closed mul ok val hpair k (i + 1) (mul r (val i))]
      have hall : (∀ j, j < k → ok (i + 1 + j)) ↔ (∀ j, j < k + 1 → ok (i + j)) := by
        constructor
        · intro hk j hj
          cases j with
          | zero => exact h
          | succ j => have := hk j (by omega); rwa [show i + 1 + j = i + (j + 1) by omega] at this
        · intro hk j hj
          have := hk (j + 1) (by omega); rwa [show i + (j + 1) = i + 1 + j by omega] at this
      by_cases hk : ∀ j, j < k + 1 → ok (i + j)
      · rw [if_pos (hall.mpr hk), if_pos hk, List.range_succ_eq_map, List.foldl_cons, List.foldl_map]
        simp only [Nat.succ_eq_add_one, Nat.add_zero, Nat.add_assoc, Nat.add_comm 1]
      · rw [if_neg (fun h => hk (hall.mp h)), if_neg hk]
    · rw [if_neg h, if_neg (fun hk => h (hk 0 (by omega)))]

theorem boolOut (b : Prop) [Decidable b] : wordBytes (boolWord b) = bytesBE 32 (if b then 1 else 0) := by
  rw [← toBE_eq_bytesBE]
  by_cases hb : b
  · simp only [boolWord, hb, if_true]; rfl
  · simp only [boolWord, hb, if_false]; rfl

/-- C61. The pairing check: 45000 gas and 34000 per pair (before istanbul 100000 and 80000); the input must be whole pairs of points of the right subgroups, or the call
fails as if out of gas; the result is 1 if the product of the pairings of all pairs is one, 0 otherwise. No input makes the library
raise. -/
theorem C61_pairing (E : Env) (f : Fork) (p : M Unit) (hp : precompile E f 8 = some p) (m : Mach) :
    let d := m.evm.message.data
    let k := d.length / 192
    let price := if f.since .istanbul then 34000 * k + 45000 else 80000 * k + 100000
    let lib := E.crypto.bn
    let product := (List.range k).foldl
      (fun acc i => lib.mul12 acc (lib.pairing (bnG2 d (192 * i + 64)) (bnG1 d (192 * i)))) lib.one12
    p m =
      if m.evm.gasLeft < price then .err (.halt .outOfGas) m
      else if d.length = 192 * k ∧ ∀ i, i < k → BnPairOk E.crypto d i then
        .ok () (returned m price (bytesBE 32 (if product = lib.one12 then 1 else 0)))
      else .err (.halt .outOfGas) (paid m price) := by
  intro d k price lib product
  have hp' : p = pBnPairing E f := by
    have : precompileFn E f 8 = some (pBnPairing E f) := rfl
    rw [(precompileFn_of hp).2] at this; exact Option.some.inj this
  subst hp'
  have hstep : pBnPairing E f m = (chargeGas price >>= fun _ =>
      if d.length % 192 ≠ 0 then raiseHalt .outOfGas
      else liftCrash (pairingLoop (E.crypto.bnPair d) lib.mul12 0 k lib.one12) >>= fun result =>
        match result with
        | none => raiseHalt .outOfGas
        | some r => setOutput (wordBytes (boolWord (r = lib.one12)))) m := by
    rfl
  rw [hstep, charge_then]
  by_cases hg : m.evm.gasLeft < price
  · rw [if_pos hg, if_pos hg]
  rw [if_neg hg, if_neg hg]
  by_cases hl : d.length % 192 ≠ 0
  · rw [if_pos hl, if_neg]
    · rfl
    · rintro ⟨h, _⟩; omega
  rw [if_neg hl, pairingLoop_closed lib.mul12 (BnPairOk E.crypto d) _ (bnPair_closed E.crypto d)]
  simp only [Nat.zero_add]
  by_cases ha : ∀ i, i < k → BnPairOk E.crypto d i
  · rw [if_pos ha, if_pos ⟨by omega, ha⟩]
    show setOutput (wordBytes (boolWord (product = lib.one12))) (paid m price) = _
    rw [boolOut]
    exact setOutput_paid _ _ _
  · rw [if_neg ha, if_neg (fun h => ha h.2)]; rfl

/-- C61. Every point has one encoding: coordinates that are accepted and denote the same point are the same numbers. -/
theorem C61_unique (d d' : Bytes) (o o' : Nat) (h : BnG1 d o) (h' : BnG1 d' o') (he : bnG1 d o = bnG1 d' o') :
    number d o 32 = number d' o' 32 ∧ number d (o + 32) 32 = number d' (o' + 32) 32 := by
  unfold BnG1 IsPoint at h h'
  rw [bnPrime_eq] at h h'
  unfold bnG1 libPoint at he
  injection he with hx hy _
  have hx' := congrArg Fin.val hx
  have hy' := congrArg Fin.val hy
  simp only [Fin.ofNat] at hx' hy'
  rw [Nat.mod_eq_of_lt h.1, Nat.mod_eq_of_lt h'.1] at hx'
  rw [Nat.mod_eq_of_lt h.2.1, Nat.mod_eq_of_lt h'.2.1] at hy'
  exact ⟨hx', hy'⟩

/-! ### the hypotheses are met: the generators `(1, 2)` and `P2` of EIP-197 -/

private def generators : Bytes :=
  bytesBE 32 1 ++ bytesBE 32 2 ++
  bytesBE 32 11559732032986387107991004021392285783925812861821192530917403151452391805634 ++
  bytesBE 32 10857046999023057135944570762232829481370756359578518086990519993285655852781 ++
  bytesBE 32 4082367875863433681332203403145435568316851327593401208105741076214120093531 ++
  bytesBE 32 8495653923123431417604973247489272438418190587263600148770280649306958101930

example : generators.length = 192 ∧ BnPairOk Sample.crypto generators 0 := by decide +kernel
example : BnG1 (bytesBE 32 1 ++ bytesBE 32 2 ++ bytesBE 32 0) 0 ∧ BnG1 (bytesBE 32 1 ++ bytesBE 32 2 ++ bytesBE 32 0) 64 := by
  decide +kernel
/-- Off the curve, or with a coordinate of `p + 1` instead of 1, it is not a point. -/
example : ¬ BnG1 (bytesBE 32 1 ++ bytesBE 32 3) 0 ∧ ¬ BnG1 (bytesBE 32 (bnPrime + 1) ++ bytesBE 32 2) 0 := by decide +kernel

end Verif
