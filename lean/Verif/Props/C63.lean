import Verif.Lemmas.Primes
import Mathlib.Algebra.Polynomial.Div
import Mathlib.Tactic.Ring
import Mathlib.Tactic.LinearCombination
import Verif.Props.C61
import Verif.Spec.Kzg
/-! C63: the point evaluation precompile accepts exactly the valid KZG openings. -/
namespace Verif
open Spec Spec.Curve Spec.Kzg

/-- The two 48-byte strings accepted by the library as encodings of points of the subgroup, plus the point at infinity. -/
def ValidG1 (C : Crypto) (b : Bytes) : Prop := b = 0xc0 :: List.replicate 47 0 ∨ C.bls.keyValidate b = true

/-- The request in 192 bytes: versioned hash, `z`, `y`, commitment, proof. -/
structure Opening where
  hash : Bytes
  z : Nat
  y : Nat
  commitment : Bytes
  proof : Bytes

def opening (d : Bytes) : Opening :=
  ⟨d.take 32, number d 32 32, number d 64 32, (d.drop 96).take 48, (d.drop 144).take 48⟩

/-- What must hold besides the pairing equation: EIP-4844 versioned hash, canonical field elements, valid points. -/
def WellFormed (C : Crypto) (o : Opening) : Prop :=
  o.hash = 1 :: (bytesBE 32 (C.sha256 o.commitment).toNat).drop 1 ∧ o.z < r ∧ o.y < r ∧ ValidG1 C o.commitment ∧ ValidG1 C o.proof

/-- `commitment - y` and `proof * (s - z)` agree, as far as the library's pairing tells. -/
def PairingHolds (C : Crypto) (o : Opening) : Prop :=
  ∃ P Q, C.bls.pubkeyToG1 o.commitment = some P ∧ C.bls.pubkeyToG1 o.proof = some Q ∧
    let L := C.bls
    L.finalExponentiate (L.curve.mul12
      (L.miller (L.neg2 L.genG2) (L.curve.add1 P (L.curve.mul1 L.genG1 ((r - o.y) % r))))
      (L.miller (L.curve.add2 L.setupG2 (L.curve.mul2 L.genG2 ((r - o.z) % r))) Q)) = L.curve.one12

theorem r_eq : r = BLS_MODULUS := by decide +kernel

attribute [local irreducible] BLS_MODULUS BLS_P

theorem validate_iff (C : Crypto) (b : Bytes) : C.validateKzgG1 b = true ↔ ValidG1 C b := by
  unfold Crypto.validateKzgG1 ValidG1
  rw [Bool.or_eq_true, decide_eq_true_eq]

theorem verify_iff (C : Crypto) (o : Opening) (z y : Bytes) (hz : fromBE z = o.z) (hy : fromBE y = o.y)
    (hl : o.commitment.length = 48 ∧ z.length = 32 ∧ y.length = 32 ∧ o.proof.length = 48) :
    C.verifyKzgProof o.commitment z y o.proof = some true ↔
      (o.z < r ∧ o.y < r ∧ ValidG1 C o.commitment ∧ ValidG1 C o.proof) ∧ PairingHolds C o := by
  unfold Crypto.verifyKzgProof
  rw [if_neg (not_not_intro hl)]
  by_cases h1 : C.validateKzgG1 o.commitment = true
  case neg =>
    rw [if_pos h1]
    constructor
    · intro h; cases h
    · rintro ⟨⟨_, _, h, _⟩, _⟩; exact absurd ((validate_iff C _).mpr h) h1
  rw [if_neg (not_not_intro h1)]
  unfold bytesToBlsField
  rw [hz, hy, ← r_eq]
  simp only
  by_cases h2 : o.z < r
  case neg =>
    rw [if_neg h2]
    constructor
    · intro h; cases h
    · rintro ⟨⟨h, _⟩, _⟩; exact absurd h h2
  rw [if_pos h2]
  simp only
  by_cases h3 : o.y < r
  case neg =>
    rw [if_neg h3]
    constructor
    · intro h; cases h
    · rintro ⟨⟨_, h, _⟩, _⟩; exact absurd h h3
  rw [if_pos h3]
  simp only
  by_cases h4 : C.validateKzgG1 o.proof = true
  case neg =>
    rw [if_pos h4]
    constructor
    · intro h; cases h
    · rintro ⟨⟨_, _, _, h⟩, _⟩; exact absurd ((validate_iff C _).mpr h) h4
  rw [if_neg (not_not_intro h4)]
  unfold Crypto.verifyKzgProofImpl PairingHolds
  rw [← r_eq]
  simp only
  cases hP : C.bls.pubkeyToG1 o.commitment with
  | none =>
    constructor
    · intro h; cases h
    · rintro ⟨_, P, Q, h, _⟩; cases h
  | some P =>
    cases hQ : C.bls.pubkeyToG1 o.proof with
    | none =>
      constructor
      · intro h; cases h
      · rintro ⟨_, P, Q, _, h, _⟩; cases h
    | some Q =>
      simp only [Option.some.injEq]
      unfold Crypto.kzgPairingCheck
      rw [decide_eq_true_eq]
      constructor
      · intro h
        exact ⟨⟨h2, h3, (validate_iff C _).mp h1, (validate_iff C _).mp h4⟩, P, Q, rfl, rfl, h⟩
      · rintro ⟨_, P', Q', rfl, rfl, h⟩
        exact h

theorem length_slices (d : Bytes) (hl : d.length = 192) :
    (slice d 96 144).length = 48 ∧ (slice d 32 64).length = 32 ∧ (slice d 64 96).length = 32 ∧ (slice d 144 192).length = 48 := by
  unfold slice
  simp only [List.length_take, List.length_drop, hl]
  decide

/-- C63. The outcome for every input: the length is checked first; then 50000 gas is charged; the constants 4096 and `r` are returned
exactly if the request is well formed and the pairing equation holds; in all other cases, including every exception in the library,
the call fails. -/
theorem C63_outcome (E : Env) (f : Fork) (p : M Unit) (hp : precompile E f 0x0a = some p) (m : Mach) :
    let d := m.evm.message.data
    (d.length ≠ 192 → p m = .err (.halt .kzgProofError) m) ∧
    (d.length = 192 → m.evm.gasLeft < 50000 → p m = .err (.halt .outOfGas) m) ∧
    (d.length = 192 → 50000 ≤ m.evm.gasLeft → (WellFormed E.crypto (opening d) ∧ PairingHolds E.crypto (opening d)) →
      p m = .ok () (returned m 50000 (bytesBE 32 4096 ++ bytesBE 32 r))) ∧
    (d.length = 192 → 50000 ≤ m.evm.gasLeft → ¬ (WellFormed E.crypto (opening d) ∧ PairingHolds E.crypto (opening d)) →
      p m = .err (.halt .kzgProofError) (paid m 50000)) := by
  intro d
  have hp' : p = pPointEvaluation E := by
    have : precompileFn E f 0x0a = some (pPointEvaluation E) := rfl
    rw [(precompileFn_of hp).2] at this; exact Option.some.inj this
  subst hp'
  have hstep : pPointEvaluation E m = (if d.length ≠ 192 then raiseHalt .kzgProofError else
      chargeGas 50000 >>= fun _ =>
        if E.crypto.kzgVersionedHash (slice d 96 144) ≠ slice d 0 32 then raiseHalt .kzgProofError
        else match E.crypto.verifyKzgProof (slice d 96 144) (slice d 32 64) (slice d 64 96) (slice d 144 192) with
          | none => raiseHalt .kzgProofError
          | some ok => if ok then setOutput (toBE 32 4096 ++ toBE 32 BLS_MODULUS) else raiseHalt .kzgProofError : M Unit) m := rfl
  have hfail : d.length ≠ 192 → pPointEvaluation E m = .err (.halt .kzgProofError) m := by
    intro h; rw [hstep, if_pos h]; rfl
  refine ⟨hfail, ?_⟩
  by_cases hl : d.length = 192
  case neg => exact ⟨fun h => absurd h hl, fun h => absurd h hl, fun h => absurd h hl⟩
  rw [hstep, if_neg (not_not_intro hl), charge_then]
  have hnum : ∀ a, a + 32 ≤ 192 → fromBE (slice d a (a + 32)) = number d a 32 := by
    intro a ha
    rw [← bufferRead_eq_slice _ _ _ (by omega), fromBE_bufferRead]
  have hv := verify_iff E.crypto (opening d) (slice d 32 64) (slice d 64 96) (hnum 32 (by decide)) (hnum 64 (by decide))
    (length_slices d hl)
  have hh : E.crypto.kzgVersionedHash (slice d 96 144) = slice d 0 32 ↔
      (opening d).hash = 1 :: (bytesBE 32 (E.crypto.sha256 (opening d).commitment).toNat).drop 1 := by
    have e1 : (opening d).hash = slice d 0 32 := by unfold slice opening; simp
    have e2 : ∀ c, E.crypto.kzgVersionedHash c = 1 :: (toBE 32 (E.crypto.sha256 c).toNat).drop 1 := by
      intro c; unfold Crypto.kzgVersionedHash wordBytes; exact List.singleton_append
    have e3 : (opening d).commitment = slice d 96 144 := rfl
    rw [e1, e2, e3, ← toBE_eq_bytesBE]
    exact eq_comm
  have hv' : E.crypto.verifyKzgProof (opening d).commitment (slice d 32 64) (slice d 64 96) (opening d).proof =
      E.crypto.verifyKzgProof (slice d 96 144) (slice d 32 64) (slice d 64 96) (slice d 144 192) := rfl
  rw [hv'] at hv
  refine ⟨fun _ hg => by rw [if_pos hg], fun _ hg h => ?_, fun _ hg h => ?_⟩
  · rw [if_neg (Nat.not_lt.mpr hg), if_neg (not_not_intro (hh.mpr h.1.1)), hv.mpr ⟨h.1.2, h.2⟩]
    simp only [if_true]
    rw [toBE_eq_bytesBE, toBE_eq_bytesBE, r_eq]
    exact setOutput_paid _ _ _
  · rw [if_neg (Nat.not_lt.mpr hg)]
    by_cases h1 : E.crypto.kzgVersionedHash (slice d 96 144) = slice d 0 32
    case neg => rw [if_pos h1]; rfl
    rw [if_neg (not_not_intro h1)]
    cases hc : E.crypto.verifyKzgProof (slice d 96 144) (slice d 32 64) (slice d 64 96) (slice d 144 192) with
    | none => rfl
    | some b =>
      cases b with
      | false => rfl
      | true =>
        have := hv.mp hc
        exact absurd ⟨⟨hh.mp h1, this.1⟩, this.2⟩ h

/-! ### what the pairing equation means -/

theorem cast_neg (a : Nat) (h : a < r) : (((r - a) % r : Nat) : ZMod r) = - (a : ZMod r) := by
  rw [ZMod.natCast_mod, Nat.cast_sub (Nat.le_of_lt h), ZMod.natCast_self, zero_sub]

/-- C63. With a correct library, a well-formed request is accepted exactly if `c - y = q * (s - z)` modulo the group order, where `c` and
`q` are the logarithms of commitment and proof and `s` is the secret of the trusted setup. -/
theorem C63_equation (C : Crypto) (H : Correct C.bls (ValidG1 C)) (o : Opening) (hw : WellFormed C o) :
    PairingHolds C o ↔ H.log o.commitment - o.y = H.log o.proof * (H.secret - o.z) := by
  obtain ⟨_, hz, hy, hc, hq⟩ := hw
  obtain ⟨P, hP, okP⟩ := H.decodes _ hc
  obtain ⟨Q, hQ, okQ⟩ := H.decodes _ hq
  have lP : H.log o.commitment = H.log1 P := by unfold Correct.log; rw [hP]
  have lQ : H.log o.proof = H.log1 Q := by unfold Correct.log; rw [hQ]
  have a1 := H.mul1 C.bls.genG1 ((r - o.y) % r) H.gen1.1
  have a2 := H.add1 P _ okP a1.1
  have b1 := H.mul2 C.bls.genG2 ((r - o.z) % r) H.gen2.1
  have b2 := H.add2 _ _ H.setup b1.1
  have n := H.neg2 _ H.gen2.1
  have e1 : H.log1 (C.bls.curve.add1 P (C.bls.curve.mul1 C.bls.genG1 ((r - o.y) % r))) = H.log1 P - o.y := by
    rw [a2.2, a1.2, H.gen1.2, cast_neg _ hy]; ring
  have e2 : H.log2 (C.bls.curve.add2 C.bls.setupG2 (C.bls.curve.mul2 C.bls.genG2 ((r - o.z) % r))) = H.secret - o.z := by
    rw [b2.2, b1.2, H.gen2.2, cast_neg _ hz]
    show H.secret + _ = _
    ring
  have key := H.pairing _ _ _ _ a2.1 n.1 okQ b2.1
  rw [e1, e2, n.2, H.gen2.2] at key
  have hiff : (H.log1 P - o.y) * -1 + H.log1 Q * (H.secret - o.z) = 0 ↔ H.log1 P - o.y = H.log1 Q * (H.secret - o.z) := by
    constructor
    · intro h; linear_combination -h
    · intro h; linear_combination -h
  rw [lP, lQ, ← hiff, ← key]
  constructor
  · rintro ⟨P', Q', hP', hQ', h⟩
    rw [hP] at hP'; rw [hQ] at hQ'
    cases hP'; cases hQ'
    exact h
  · intro h
    exact ⟨P, Q, hP, hQ, h⟩

/-- C63. One commitment and one proof open to at most one value at a point. -/
theorem C63_one_value (C : Crypto) (H : Correct C.bls (ValidG1 C)) (o o' : Opening) (hw : WellFormed C o) (hw' : WellFormed C o')
    (hc : o'.commitment = o.commitment) (hq : o'.proof = o.proof) (hz : o'.z = o.z) (h : PairingHolds C o) (h' : PairingHolds C o') :
    o'.y = o.y := by
  have e := (C63_equation C H o hw).mp h
  have e' := (C63_equation C H o' hw').mp h'
  rw [hc, hq, hz] at e'
  have : (o'.y : ZMod r) = (o.y : ZMod r) := by linear_combination e - e'
  have hm := (ZMod.natCast_eq_natCast_iff _ _ _).mp this
  exact Nat.ModEq.eq_of_lt_of_lt hm hw'.2.2.1 hw.2.2.1

/-- C63. The honest prover is accepted: for every polynomial `f` and every point `z`, the value `f(z)` together with a proof that
encodes the quotient of `f - f(z)` by `X - z` at the secret. -/
theorem C63_complete (C : Crypto) (H : Correct C.bls (ValidG1 C)) (o : Opening) (hw : WellFormed C o) (f : Polynomial (ZMod r))
    (hc : H.log o.commitment = f.eval H.secret) (hy : (o.y : ZMod r) = f.eval (o.z : ZMod r))
    (hq : H.log o.proof = (f /ₘ (Polynomial.X - Polynomial.C (o.z : ZMod r))).eval H.secret) : PairingHolds C o := by
  rw [C63_equation C H o hw, hc, hy, hq]
  have h := Polynomial.modByMonic_add_div f (Polynomial.X - Polynomial.C (o.z : ZMod r))
  rw [Polynomial.modByMonic_X_sub_C_eq_C_eval] at h
  have := congrArg (Polynomial.eval H.secret) h
  simp only [Polynomial.eval_add, Polynomial.eval_mul, Polynomial.eval_sub, Polynomial.eval_X, Polynomial.eval_C] at this
  linear_combination -this

instance : Fact (Nat.Prime r) := ⟨blsOrder_prime⟩

/-- C63. Whoever opens a commitment at a point to two different values has two proofs from which the inverse of `s - z` follows: they
differ by `(y' - y) / (s - z)` (and `z` is not the secret). Finding such proofs is as hard as the strong Diffie-Hellman problem. -/
theorem C63_binding (C : Crypto) (H : Correct C.bls (ValidG1 C)) (o o' : Opening) (hw : WellFormed C o) (hw' : WellFormed C o')
    (hc : o'.commitment = o.commitment) (hz : o'.z = o.z) (h : PairingHolds C o) (h' : PairingHolds C o') (hne : o'.y ≠ o.y) :
    H.secret ≠ o.z ∧ H.log o.proof ≠ H.log o'.proof ∧
      (H.secret - o.z)⁻¹ = (H.log o.proof - H.log o'.proof) / ((o'.y : ZMod r) - o.y) := by
  have e := (C63_equation C H o hw).mp h
  have e' := (C63_equation C H o' hw').mp h'
  rw [hc, hz] at e'
  have key : (H.log o.proof - H.log o'.proof) * (H.secret - o.z) = (o'.y : ZMod r) - o.y := by linear_combination e' - e
  have hy : (o'.y : ZMod r) - o.y ≠ 0 := by
    intro h0
    have hm := (ZMod.natCast_eq_natCast_iff _ _ _).mp (sub_eq_zero.mp h0)
    exact hne (Nat.ModEq.eq_of_lt_of_lt hm hw'.2.2.1 hw.2.2.1)
  have hs : H.secret - o.z ≠ 0 := fun h0 => hy (by rw [← key, h0, mul_zero])
  have hq : H.log o.proof - H.log o'.proof ≠ 0 := fun h0 => hy (by rw [← key, h0, zero_mul])
  refine ⟨fun h0 => hs (sub_eq_zero.mpr h0), fun h0 => hq (sub_eq_zero.mpr h0), ?_⟩
  rw [← key, eq_div_iff (mul_ne_zero hq hs)]
  field_simp

/-- C63. Away from the secret, a true or false claim has at most one accepted proof, up to encoding of the group element. -/
theorem C63_one_proof (C : Crypto) (H : Correct C.bls (ValidG1 C)) (o o' : Opening) (hw : WellFormed C o) (hw' : WellFormed C o')
    (hc : o'.commitment = o.commitment) (hz : o'.z = o.z) (hy : o'.y = o.y) (hs : H.secret ≠ o.z)
    (h : PairingHolds C o) (h' : PairingHolds C o') : H.log o'.proof = H.log o.proof := by
  have e := (C63_equation C H o hw).mp h
  have e' := (C63_equation C H o' hw').mp h'
  rw [hc, hz, hy] at e'
  exact mul_right_cancel₀ (sub_ne_zero.mpr hs) (e'.symm.trans e)

/-! ### the hypotheses are met: a toy library whose points are their own logarithms -/

namespace ToyKzg

/-- The point with logarithm `n`, in both groups. -/
def pt1 (n : Nat) : Point3D (Fq BLS_P) := ⟨Fin.ofNat BLS_P (n % r), 0, 0⟩
def pt2 (n : Nat) : Point3D (Fq2 BLS_P) := ⟨⟨Fin.ofNat BLS_P (n % r), 0⟩, 0, 0⟩

/-- The secret of the setup is 7. A byte string stands for the point whose logarithm is its big-endian value. -/
def lib : BlsLib where
  curve :=
    { Sample.curveLib with
      add1 := fun P Q => pt1 (P.x.val + Q.x.val), mul1 := fun P n => pt1 (P.x.val * n)
      add2 := fun P Q => pt2 (P.x.c0.val + Q.x.c0.val), mul2 := fun P n => pt2 (P.x.c0.val * n)
      mul12 := fun a b => [Fin.ofNat BLS_P (((a.map Fin.val).sum + (b.map Fin.val).sum) % r)], one12 := [0] }
  mapToG1 _ := pt1 0
  mapToG2 _ := pt2 0
  keyValidate _ := true
  pubkeyToG1 b := some (pt1 (fromBE b))
  genG1 := pt1 1
  genG2 := pt2 1
  setupG2 := pt2 7
  neg2 P := pt2 ((r - 1) * P.x.c0.val)
  miller Q P := [Fin.ofNat BLS_P (Q.x.c0.val * P.x.val % r)]
  finalExponentiate x := x

theorem val_mod (n : Nat) : (Fin.ofNat BLS_P (n % r)).val = n % r := by
  have h : n % r < BLS_P := Nat.lt_trans (Nat.mod_lt n (by decide +kernel)) (by decide +kernel)
  exact Nat.mod_eq_of_lt h

theorem r_minus_one : ((r - 1 : Nat) : ZMod r) = -1 := by
  rw [Nat.cast_sub (by decide +kernel), ZMod.natCast_self]; simp

theorem correct (v : Bytes → Prop) : ∃ H : Correct lib v, H.secret = 7 ∧ ∀ b, H.log b = (fromBE b : ZMod r) := by
  have l1 : ∀ n, ((pt1 n).x.val : ZMod r) = n := by
    intro n; show (((Fin.ofNat BLS_P (n % r)).val : Nat) : ZMod r) = n; rw [val_mod, ZMod.natCast_mod]
  have l2 : ∀ n, ((pt2 n).x.c0.val : ZMod r) = n := by
    intro n; show (((Fin.ofNat BLS_P (n % r)).val : Nat) : ZMod r) = n; rw [val_mod, ZMod.natCast_mod]
  refine ⟨{ Ok1 := fun _ => True, Ok2 := fun _ => True, log1 := fun P => (P.x.val : ZMod r), log2 := fun P => (P.x.c0.val : ZMod r)
            gen1 := ⟨trivial, ?_⟩, gen2 := ⟨trivial, ?_⟩, setup := trivial
            add1 := fun P Q _ _ => ⟨trivial, ?_⟩, mul1 := fun P n _ => ⟨trivial, ?_⟩
            add2 := fun P Q _ _ => ⟨trivial, ?_⟩, mul2 := fun P n _ => ⟨trivial, ?_⟩
            neg2 := fun P _ => ⟨trivial, ?_⟩, decodes := fun b _ => ⟨_, rfl, trivial⟩
            pairing := fun P Q P' Q' _ _ _ _ => ?_ }, ?_, ?_⟩
  · exact (l1 1).trans (by simp)
  · exact (l2 1).trans (by simp)
  · exact (l1 _).trans (by push_cast; rfl)
  · exact (l1 _).trans (by push_cast; ring)
  · exact (l2 _).trans (by push_cast; rfl)
  · exact (l2 _).trans (by push_cast; ring)
  · exact (l2 _).trans (by rw [Nat.cast_mul, r_minus_one]; ring)
  · show [Fin.ofNat BLS_P ((((Fin.ofNat BLS_P (Q.x.c0.val * P.x.val % r)).val + 0) +
      ((Fin.ofNat BLS_P (Q'.x.c0.val * P'.x.val % r)).val + 0)) % r)] = [0] ↔ _
    rw [val_mod, val_mod, Nat.add_zero, Nat.add_zero, ← Nat.add_mod]
    have h1 : ([Fin.ofNat BLS_P ((Q.x.c0.val * P.x.val + Q'.x.c0.val * P'.x.val) % r)] = [0]) ↔
        (Q.x.c0.val * P.x.val + Q'.x.c0.val * P'.x.val) % r = 0 := by
      rw [List.cons.injEq]
      constructor
      · intro h
        have := congrArg Fin.val h.1
        rw [val_mod] at this
        simpa using this
      · intro h; rw [h]; exact ⟨rfl, rfl⟩
    rw [h1, ← Nat.dvd_iff_mod_eq_zero, ← ZMod.natCast_eq_zero_iff]
    push_cast
    constructor <;> intro h <;> linear_combination h
  · exact (l2 7).trans (by simp)
  · intro b; exact l1 _

/-- The polynomial `x ^ 2 + 1`: its commitment is 50, its value at 3 is 10, the quotient `x + 3` at the secret is 10. -/
def crypto : Crypto := { Sample.crypto with bls := lib }

theorem correct' : ∃ H : Correct crypto.bls (ValidG1 crypto), H.secret = 7 ∧ ∀ b, H.log b = (fromBE b : ZMod r) := correct _

/-- The request. -/
def data : Bytes := 1 :: bytesBE 31 50 ++ bytesBE 32 3 ++ bytesBE 32 10 ++ bytesBE 48 50 ++ bytesBE 48 10

example : data.length = 192 ∧ WellFormed crypto (opening data) ∧ PairingHolds crypto (opening data) := by
  have hw : WellFormed crypto (opening data) := by
    refine ⟨by decide +kernel, by decide +kernel, by decide +kernel, Or.inr rfl, Or.inr rfl⟩
  refine ⟨by decide +kernel, hw, ?_⟩
  obtain ⟨H, hs, hl⟩ := correct'
  refine (C63_equation crypto H _ hw).mpr ?_
  rw [hs, hl, hl]
  have e1 : fromBE (opening data).commitment = 50 := by decide +kernel
  have e2 : fromBE (opening data).proof = 10 := by decide +kernel
  have e3 : (opening data).y = 10 := by decide +kernel
  have e4 : (opening data).z = 3 := by decide +kernel
  rw [e1, e2, e3, e4]
  push_cast
  ring

/-- Another value is refused. -/
example : ¬ PairingHolds crypto ⟨(opening data).hash, (opening data).z, 11, (opening data).commitment, (opening data).proof⟩ := by
  have hw : WellFormed crypto ⟨(opening data).hash, (opening data).z, 11, (opening data).commitment, (opening data).proof⟩ := by
    refine ⟨by decide +kernel, by decide +kernel, by decide +kernel, Or.inr rfl, Or.inr rfl⟩
  have hw' : WellFormed crypto (opening data) := by
    refine ⟨by decide +kernel, by decide +kernel, by decide +kernel, Or.inr rfl, Or.inr rfl⟩
  obtain ⟨H, hs, hl⟩ := correct'
  intro h
  have e := (C63_equation crypto H _ hw).mp h
  rw [hs, hl, hl] at e
  have e1 : fromBE (opening data).commitment = 50 := by decide +kernel
  have e2 : fromBE (opening data).proof = 10 := by decide +kernel
  have e4 : (opening data).z = 3 := by decide +kernel
  rw [e1, e2, e4] at e
  have : ((1 : Nat) : ZMod r) = 0 := by push_cast at e ⊢; linear_combination -e
  rw [ZMod.natCast_eq_zero_iff] at this
  exact absurd (Nat.le_of_dvd (by decide) this) (by decide +kernel)

/-- Here the secret is public, so a false value can be opened: the case of `C63_binding`. -/
example : let o : Opening := ⟨(opening data).hash, 3, 14, (opening data).commitment, bytesBE 48 9⟩
    WellFormed crypto o ∧ PairingHolds crypto o ∧ o.commitment = (opening data).commitment ∧ o.z = (opening data).z ∧
      o.y ≠ (opening data).y := by
  intro o
  have hw : WellFormed crypto o := by
    refine ⟨by decide +kernel, by decide +kernel, by decide +kernel, Or.inr rfl, Or.inr rfl⟩
  refine ⟨hw, ?_, rfl, by decide +kernel, by decide +kernel⟩
  obtain ⟨H, hs, hl⟩ := correct'
  refine (C63_equation crypto H _ hw).mpr ?_
  rw [hs, hl, hl]
  have e1 : fromBE o.commitment = 50 := by decide +kernel
  have e2 : fromBE o.proof = 9 := by decide +kernel
  rw [e1, e2]
  show ((50 : Nat) : ZMod r) - ((14 : Nat) : ZMod r) = ((9 : Nat) : ZMod r) * (7 - ((3 : Nat) : ZMod r))
  push_cast
  ring

end ToyKzg

end Verif
