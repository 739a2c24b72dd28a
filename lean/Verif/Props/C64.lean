import Mathlib.NumberTheory.LegendreSymbol.Basic
import Verif.Lemmas.Primes
import Verif.Lemmas.CurveCodec
import Verif.Spec.Ecdsa
import Verif.Props.C61
/-! C64: public key recovery and P-256 verification. -/
namespace Verif
open Spec Spec.Ecdsa Spec.Curve

theorem k1Prime_eq : k1Prime = SECP256K1P := by decide +kernel

instance : Fact (Nat.Prime SECP256K1P) := ⟨secp256k1_prime⟩

/-- -7 is not a cube, so no point of secp256k1 has second coordinate 0. -/
theorem no_root (x : ZMod SECP256K1P) : x ^ 3 + 7 ≠ 0 := by
  intro h
  have hx0 : x ≠ 0 := by
    rintro rfl
    rw [zero_pow (by decide), zero_add] at h
    have h' : ((7 : Nat) : ZMod SECP256K1P) = 0 := h
    rw [ZMod.natCast_eq_zero_iff] at h'
    exact absurd (Nat.le_of_dvd (by decide) h') (by decide +kernel)
  have h3 : x ^ 3 = ((SECP256K1P - 7 : Nat) : ZMod SECP256K1P) := by
    rw [Nat.cast_sub (by decide +kernel), ZMod.natCast_self]
    have : ((7 : Nat) : ZMod SECP256K1P) = 7 := rfl
    rw [this]; linear_combination h
  have hf := ZMod.pow_card_sub_one_eq_one hx0
  have he : SECP256K1P - 1 = 3 * ((SECP256K1P - 1) / 3) := by decide +kernel
  rw [he, pow_mul, h3, pow_eq_one_iff (by decide +kernel) (by decide +kernel) _ _ (by decide +kernel)] at hf
  exact absurd hf (by decide +kernel)

/-- Euler's criterion: what the code computes says whether there is a point. -/
theorem isSquare_iff (r : Word) : secp256k1IsSquare r = 1 ↔ OnK1 r.toNat := by
  have hlt : (SECP256K1P - 1) / 2 < SECP256K1P := by decide +kernel
  unfold secp256k1IsSquare
  rw [← pow_eq_one_iff (by decide +kernel) (by decide +kernel) _ _ hlt, modPow_eq _ 2 _ _ (by decide)]
  have hcast : ((r.toNat ^ 3 % SECP256K1P + 7 : Nat) : ZMod SECP256K1P) = (r.toNat : ZMod SECP256K1P) ^ 3 + 7 := by
    rw [Nat.cast_add, ZMod.natCast_mod, Nat.cast_pow]; rfl
  rw [hcast, show (SECP256K1P - 1) / 2 = SECP256K1P / 2 by decide +kernel, ← ZMod.euler_criterion _ (no_root _)]
  unfold OnK1
  rw [k1Prime_eq]
  constructor
  · rintro ⟨y, hy⟩
    refine ⟨y.val, ZMod.val_lt y, ?_⟩
    apply (ZMod.natCast_eq_natCast_iff _ _ _).mp
    rw [Nat.cast_pow, ZMod.natCast_zmod_val, Nat.cast_add, Nat.cast_pow, pow_two, ← hy]; rfl
  · rintro ⟨y, _, hy⟩
    refine ⟨(y : ZMod SECP256K1P), ?_⟩
    have := (ZMod.natCast_eq_natCast_iff (y ^ 2) (r.toNat ^ 3 + 7) SECP256K1P).mpr hy
    rw [Nat.cast_pow, Nat.cast_add, Nat.cast_pow, pow_two] at this
    exact this.symm

/-- C64. Public key recovery refuses every `r` that is not the first coordinate of a point of secp256k1, and asks the library with the
65-byte signature otherwise. -/
theorem C64_recover (C : Crypto) (r s v hash : Word) :
    (¬ OnK1 r.toNat → C.secp256k1Recover r s v hash = none) ∧
    (OnK1 r.toNat → C.secp256k1Recover r s v hash =
      C.coincurveRecover (bytesBE 32 r.toNat ++ bytesBE 32 s.toNat ++ [UInt8.ofNat v.toNat]) hash) := by
  unfold Crypto.secp256k1Recover
  rw [← isSquare_iff, ← toBE_eq_bytesBE, ← toBE_eq_bytesBE]
  exact ⟨fun h => if_pos h, fun h => if_neg (not_not_intro h)⟩

/-! ### ECRECOVER -/

theorem number_lt (d : Bytes) (o : Nat) : ∀ n, number d o n < 256 ^ n
  | 0 => by simp [number]
  | n + 1 => by
    rw [number, Nat.pow_succ]
    have h1 := number_lt d o n
    have h2 := (d.getD (o + n) 0).toNat_lt
    omega

theorem number32_lt (d : Bytes) (o : Nat) : number d o 32 < 2 ^ 256 := number_lt d o 32

theorem readWord_toNat (d : Bytes) (o : Nat) : (readWord d o).toNat = number d o 32 := by
  unfold readWord
  rw [BitVec.toNat_ofNat, fromBE_bufferRead, Nat.mod_eq_of_lt (number32_lt d o)]

/-- What ECRECOVER asks the library, if anything. -/
def recoveryRequest (d : Bytes) : Prop :=
  (number d 32 32 = 27 ∨ number d 32 32 = 28) ∧ (0 < number d 64 32 ∧ number d 64 32 < k1Order) ∧
    (0 < number d 96 32 ∧ number d 96 32 < k1Order) ∧ OnK1 (number d 64 32)

/-- The 65 bytes of the signature in the input. -/
def recoverySignature (d : Bytes) : Bytes :=
  bytesBE 32 (number d 64 32) ++ bytesBE 32 (number d 96 32) ++ [UInt8.ofNat (number d 32 32 - 27)]

theorem k1Order_eq : SECP256K1N.toNat = k1Order := by decide +kernel
theorem r1Order_eq : SECP256R1N.toNat = r1Order := by decide +kernel
theorem r1Prime_eq : SECP256R1P.toNat = r1Prime := by decide +kernel

theorem word_range {w n : Word} : ¬ (w = 0 ∨ w ≥ n) ↔ 0 < w.toNat ∧ w.toNat < n.toNat := by
  have h0 : w = 0 ↔ w.toNat = 0 := by
    constructor
    · rintro rfl; rfl
    · intro h; exact BitVec.eq_of_toNat_eq h
  rw [h0, ge_iff_le, BitVec.le_def]
  omega

theorem pay_pure {α : Type} (m : Mach) (g : Nat) (a : α) : (pure a : M α) (paid m g) = .ok a (paid m g) := rfl

section
attribute [local irreducible] readWord Crypto.secp256k1Recover leftPad SECP256K1N

theorem pEcrecover_eq (E : Env) (m : Mach) (d : Bytes) (hd : d = m.evm.message.data) : 
    pEcrecover E m = (chargeGas 3000 >>= fun _ =>
      (if readWord d 32 ≠ 27 ∧ readWord d 32 ≠ 28 then pure ()
      else if readWord d 64 = 0 ∨ readWord d 64 ≥ SECP256K1N then pure ()
      else if readWord d 96 = 0 ∨ readWord d 96 ≥ SECP256K1N then pure ()
      else match E.crypto.secp256k1Recover (readWord d 64) (readWord d 96) (readWord d 32 - 27) (readWord d 0) with
        | none => pure ()
        | some publicKey => setOutput (leftPad ((wordBytes (E.crypto.keccak256 publicKey)).drop 12) 32) : M Unit)) m := by
  subst hd; rfl
end

/-- C64. ECRECOVER: 3000 gas; for a well-formed request the library recovers a key from, the output is the address of that key, padded
to 32 bytes; in every other case the call succeeds without output. -/
theorem C64_ecrecover (E : Env) (f : Fork) (p : M Unit) (hp : precompile E f 1 = some p) (m : Mach) :
    let d := m.evm.message.data
    let hash := BitVec.ofNat 256 (number d 0 32)
    (m.evm.gasLeft < 3000 → p m = .err (.halt .outOfGas) m) ∧
    (3000 ≤ m.evm.gasLeft → ¬ recoveryRequest d → p m = .ok () (paid m 3000)) ∧
    (3000 ≤ m.evm.gasLeft → recoveryRequest d → E.crypto.coincurveRecover (recoverySignature d) hash = none →
      p m = .ok () (paid m 3000)) ∧
    (3000 ≤ m.evm.gasLeft → recoveryRequest d → ∀ key, E.crypto.coincurveRecover (recoverySignature d) hash = some key →
      p m = .ok () (returned m 3000 (List.replicate 12 0 ++ (bytesBE 32 (E.crypto.keccak256 key).toNat).drop 12))) := by
  intro d hash
  have hp' : p = pEcrecover E := by
    have : precompileFn E f 1 = some (pEcrecover E) := rfl
    rw [(precompileFn_of hp).2] at this; exact Option.some.inj this
  subst hp'
  have hv := readWord_toNat d 32
  have hr := readWord_toNat d 64
  have hs := readWord_toNat d 96
  have hh : readWord d 0 = hash := by
    apply BitVec.eq_of_toNat_eq
    rw [readWord_toNat, BitVec.toNat_ofNat, Nat.mod_eq_of_lt (number32_lt d 0)]
  rw [pEcrecover_eq E m d rfl, charge_then, hh]
  have h27 : readWord d 32 = 27 ↔ number d 32 32 = 27 := by
    rw [← hv]; exact ⟨fun h => by rw [h]; rfl, fun h => BitVec.eq_of_toNat_eq h⟩
  have h28 : readWord d 32 = 28 ↔ number d 32 32 = 28 := by
    rw [← hv]; exact ⟨fun h => by rw [h]; rfl, fun h => BitVec.eq_of_toNat_eq h⟩
  have hR := word_range (w := readWord d 64) (n := SECP256K1N)
  have hS := word_range (w := readWord d 96) (n := SECP256K1N)
  rw [hr, k1Order_eq] at hR
  rw [hs, k1Order_eq] at hS
  obtain ⟨hn, hy⟩ := C64_recover E.crypto (readWord d 64) (readWord d 96) (readWord d 32 - 27) hash
  rw [hr] at hn hy
  refine ⟨fun h => if_pos h, fun h hbad => ?_, fun h hok hno => ?_, fun h hok key hkey => ?_⟩
  · rw [if_neg (by omega)]
    by_cases c1 : readWord d 32 ≠ 27 ∧ readWord d 32 ≠ 28
    · rw [if_pos c1]; rfl
    rw [if_neg c1]
    by_cases c2 : readWord d 64 = 0 ∨ readWord d 64 ≥ SECP256K1N
    · rw [if_pos c2]; rfl
    rw [if_neg c2]
    by_cases c3 : readWord d 96 = 0 ∨ readWord d 96 ≥ SECP256K1N
    · rw [if_pos c3]; rfl
    rw [if_neg c3]
    have c4 : ¬ OnK1 (number d 64 32) := by
      intro h4
      refine hbad ⟨?_, hR.mp c2, hS.mp c3, h4⟩
      rw [← h27, ← h28]
      by_cases e : readWord d 32 = 27
      · exact .inl e
      · exact .inr (Decidable.not_not.mp fun e' => c1 ⟨e, e'⟩)
    rw [hn c4]; rfl
  all_goals
    obtain ⟨k1, k2, k3, k4⟩ := hok
    rw [if_neg (by omega), if_neg (by rw [← h27, ← h28] at k1; exact fun h => k1.elim h.1 h.2), if_neg (hR.mpr k2), if_neg (hS.mpr k3),
      hy k4]
    have hsub : (readWord d 32 - 27).toNat = number d 32 32 - 27 := by
      rcases k1 with k | k
      · rw [h27.mpr k, k]; rfl
      · rw [h28.mpr k, k]; rfl
    rw [hs, hsub]
  · have : E.crypto.coincurveRecover (bytesBE 32 (number d 64 32) ++ bytesBE 32 (number d 96 32) ++
        [UInt8.ofNat (number d 32 32 - 27)]) hash = none := hno
    rw [this]; rfl
  · have : E.crypto.coincurveRecover (bytesBE 32 (number d 64 32) ++ bytesBE 32 (number d 96 32) ++
        [UInt8.ofNat (number d 32 32 - 27)]) hash = some key := hkey
    rw [this]
    simp only
    have hl : ((wordBytes (E.crypto.keccak256 key)).drop 12).length = 20 := by
      rw [List.length_drop]; simp [wordBytes, toBE_length]
    have hpad : leftPad ((wordBytes (E.crypto.keccak256 key)).drop 12) 32 =
        List.replicate 12 0 ++ (bytesBE 32 (E.crypto.keccak256 key).toNat).drop 12 := by
      unfold leftPad; rw [hl, ← toBE_eq_bytesBE]; rfl
    rw [hpad, setOutput_paid]

/-! ### P256VERIFY -/

/-- A request P256VERIFY passes on to the library: 160 bytes with hash, `r`, `s` and a point of the curve. -/
def verificationRequest (d : Bytes) : Prop :=
  d.length = 160 ∧ (0 < number d 32 32 ∧ number d 32 32 < r1Order) ∧ (0 < number d 64 32 ∧ number d 64 32 < r1Order) ∧
    OnR1 (number d 96 32) (number d 128 32)

instance (d : Bytes) : Decidable (verificationRequest d) := inferInstanceAs (Decidable (_ ∧ _ ∧ _ ∧ _))

theorem onR1_iff (x y : Word) : OnR1 x.toNat y.toNat ↔ ¬ x ≥ SECP256R1P ∧ ¬ y ≥ SECP256R1P ∧ isOnCurveP256 x y = true := by
  rw [ge_iff_le, ge_iff_le, BitVec.le_def, BitVec.le_def, r1Prime_eq]
  unfold OnR1 isOnCurveP256
  rw [r1Prime_eq]
  generalize x.toNat = a
  generalize y.toNat = b
  have hb : SECP256R1B.toNat = r1B := by decide +kernel
  have ha : SECP256R1A.toNat + 3 = r1Prime := by decide +kernel
  rw [hb, Nat.not_le, Nat.not_le, decide_eq_true_eq]
  suffices (b ^ 2 + 3 * a) % r1Prime = (a ^ 3 + r1B) % r1Prime ↔
      b * b % r1Prime = (a * a * a % r1Prime + SECP256R1A.toNat * a % r1Prime + r1B) % r1Prime by rw [this]
  generalize SECP256R1A.toNat = k at ha
  have h1 : (a * a * a % r1Prime + k * a % r1Prime + r1B) % r1Prime = (a ^ 3 + k * a + r1B) % r1Prime := by
    rw [show a ^ 3 = a * a * a by ring]
    exact ((Nat.mod_modEq _ _).add (Nat.mod_modEq _ _)).add_right _
  rw [h1]
  change Nat.ModEq _ _ _ ↔ Nat.ModEq _ _ _
  have h2 : a ^ 3 + k * a + r1B + 3 * a = (a ^ 3 + r1B) + r1Prime * a := by rw [← ha]; ring
  constructor
  · intro h
    apply Nat.ModEq.add_right_cancel' (3 * a)
    rw [h2, show b * b = b ^ 2 by ring]
    exact h.trans (Nat.ModEq.symm (by unfold Nat.ModEq; rw [Nat.add_mul_mod_self_left]))
  · intro h
    have := h.add_right (3 * a)
    rw [h2, show b * b = b ^ 2 by ring] at this
    exact this.trans (by unfold Nat.ModEq; rw [Nat.add_mul_mod_self_left])

/-- C64. P256VERIFY: 6900 gas; the output is the word 1 exactly for a well-formed request the library verifies, and empty otherwise; the
call never fails for another reason than gas, and the library is never asked about coordinates it would raise an exception for. -/
theorem C64_p256verify (E : Env) (f : Fork) (p : M Unit) (hp : precompile E f 0x100 = some p) (m : Mach) :
    let d := m.evm.message.data
    let w := fun o => BitVec.ofNat 256 (number d o 32)
    p m =
      if m.evm.gasLeft < 6900 then .err (.halt .outOfGas) m
      else if verificationRequest d ∧ E.crypto.p256Verify (w 32) (w 64) (w 96) (w 128) (w 0) = true then
        .ok () (returned m 6900 (bytesBE 32 1))
      else .ok () (paid m 6900) := by
  intro d w
  have hp' : p = pP256verify E := by
    have : precompileFn E f 0x100 = some (pP256verify E) := rfl
    rw [(precompileFn_of hp).2] at this; exact Option.some.inj this
  subst hp'
  have hw : ∀ o, readWord d o = w o := by
    intro o
    apply BitVec.eq_of_toNat_eq
    rw [readWord_toNat, BitVec.toNat_ofNat, Nat.mod_eq_of_lt (number32_lt d o)]
  have hn : ∀ o, (w o).toNat = number d o 32 := fun o => by rw [← hw, readWord_toNat]
  have hstep : pP256verify E m = (chargeGas 6900 >>= fun _ =>
      (if d.length ≠ 160 then pure ()
      else if readWord d 32 = 0 ∨ readWord d 32 ≥ SECP256R1N then pure ()
      else if readWord d 64 = 0 ∨ readWord d 64 ≥ SECP256R1N then pure ()
      else if readWord d 96 ≥ SECP256R1P then pure ()
      else if readWord d 128 ≥ SECP256R1P then pure ()
      else if ¬ isOnCurveP256 (readWord d 96) (readWord d 128) then pure ()
      else if readWord d 96 = 0 ∧ readWord d 128 = 0 then pure ()
      else do
        let valid ← liftCrash (E.crypto.secp256r1Verify (readWord d 32) (readWord d 64) (readWord d 96) (readWord d 128) (readWord d 0))
        if valid then setOutput (leftPad [1] 32) else pure () : M Unit)) m := rfl
  rw [hstep, charge_then]
  simp only [hw]
  by_cases hg : m.evm.gasLeft < 6900
  · rw [if_pos hg, if_pos hg]
  rw [if_neg hg, if_neg hg]
  have hR := word_range (w := w 32) (n := SECP256R1N)
  have hS := word_range (w := w 64) (n := SECP256R1N)
  rw [hn, r1Order_eq] at hR hS
  have hC := onR1_iff (w 96) (w 128)
  rw [hn, hn] at hC
  have no : ¬ verificationRequest d → ∀ b : Prop, ¬ (verificationRequest d ∧ b) := fun h b hb => h hb.1
  by_cases c1 : d.length ≠ 160
  · rw [if_pos c1, if_neg (fun h => c1 h.1.1)]; rfl
  rw [if_neg c1]
  by_cases c2 : w 32 = 0 ∨ w 32 ≥ SECP256R1N
  · rw [if_pos c2, if_neg (fun h => hR.mpr h.1.2.1 c2)]; rfl
  rw [if_neg c2]
  by_cases c3 : w 64 = 0 ∨ w 64 ≥ SECP256R1N
  · rw [if_pos c3, if_neg (fun h => hS.mpr h.1.2.2.1 c3)]; rfl
  rw [if_neg c3]
  by_cases c4 : w 96 ≥ SECP256R1P
  · rw [if_pos c4, if_neg (fun h => (hC.mp h.1.2.2.2).1 c4)]; rfl
  rw [if_neg c4]
  by_cases c5 : w 128 ≥ SECP256R1P
  · rw [if_pos c5, if_neg (fun h => (hC.mp h.1.2.2.2).2.1 c5)]; rfl
  rw [if_neg c5]
  by_cases c6 : ¬ isOnCurveP256 (w 96) (w 128) = true
  · rw [if_pos c6, if_neg (fun h => c6 (hC.mp h.1.2.2.2).2.2)]; rfl
  rw [if_neg c6]
  have c6' := Decidable.not_not.mp c6
  have c7 : ¬ (w 96 = 0 ∧ w 128 = 0) := by
    rintro ⟨e1, e2⟩
    rw [e1, e2] at c6'
    exact absurd c6' (by decide +kernel)
  rw [if_neg c7, bind_eq]
  have hok : verificationRequest d := ⟨Decidable.not_not.mp c1, hR.mp c2, hS.mp c3, hC.mpr ⟨c4, c5, c6'⟩⟩
  unfold Crypto.secp256r1Verify
  rw [if_neg (by rintro (h | h | h); exacts [c4 h, c5 h, h c6'])]
  cases hv : E.crypto.p256Verify (w 32) (w 64) (w 96) (w 128) (w 0) with
  | false => rw [if_neg (fun h => by simp at h)]; rfl
  | true =>
    rw [if_pos ⟨hok, rfl⟩]
    have hpad : leftPad [1] 32 = bytesBE 32 1 := by decide +kernel
    change setOutput (leftPad [1] 32) (paid m 6900) = _
    rw [hpad, setOutput_paid]

/-! ### the hypotheses are met -/

/-- The generator of secp256k1: its first coordinate. -/
example : OnK1 0x79BE667EF9DCBBAC55A06295CE870B07029BFCDB2DCE28D959F2815B16F81798 :=
  ⟨0x483ADA7726A3C4655DA4FBFC0E1108A8FD17B448A68554199C47D08FFB10D4B8, by decide +kernel, by decide +kernel⟩

/-- There is no point with first coordinate 5. -/
example : ¬ OnK1 5 := by
  have := isSquare_iff 5
  rw [show (5 : Word).toNat = 5 from rfl] at this
  rw [← this]
  decide +kernel

/-- A well-formed request for the generator of P-256, and one with a point that is not on the curve. -/
example : verificationRequest (bytesBE 32 0 ++ bytesBE 32 1 ++ bytesBE 32 2 ++
      bytesBE 32 0x6B17D1F2E12C4247F8BCE6E563A440F277037D812DEB33A0F4A13945D898C296 ++
      bytesBE 32 0x4FE342E2FE1A7F9B8EE7EB4A7C0F9E162BCE33576B315ECECBB6406837BF51F5) ∧
    ¬ verificationRequest (bytesBE 32 0 ++ bytesBE 32 1 ++ bytesBE 32 2 ++ bytesBE 32 0 ++ bytesBE 32 0) := by decide +kernel

end Verif
