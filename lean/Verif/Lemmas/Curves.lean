import Verif.Model.Precompiles
import Verif.Lemmas.Blake2
/-! The library functions behind the precompiles are called within their preconditions. -/
namespace Verif

attribute [local irreducible] isOnCurve isInf bnBytesToG1 bnBytesToG2 blsBytesToG1 blsBytesToG2 BN_N BLS_MODULUS

theorem bnBytesToG1_on {d : Bytes} {P : Point3D (Fq BN_P)} (h : bnBytesToG1 d = some P) : isOnCurve P (toFq 3) = true := by
  unfold bnBytesToG1 at h
  grind

theorem bnBytesToG2_on {d : Bytes} {P : Point3D (Fq2 BN_P)} (h : bnBytesToG2 d = some P) : isOnCurve P bnB2 = true := by
  unfold bnBytesToG2 at h
  grind

theorem blsBytesToG1_on {C : Crypto} {d : Bytes} {c : Bool} {P : Point3D (Fq BLS_P)} (h : blsBytesToG1 C d c = some P) :
    isOnCurve P (toFq 4) = true := by
  unfold blsBytesToG1 at h
  grind

theorem blsBytesToG2_on {C : Crypto} {d : Bytes} {c : Bool} {P : Point3D (Fq2 BLS_P)} (h : blsBytesToG2 C d c = some P) :
    isOnCurve P ⟨toFq 4, toFq 4⟩ = true := by
  unfold blsBytesToG2 at h
  grind

theorem pairingChecked_ok {p : Nat} [NeZero p] {L : CurveLib p} {b : Fq p} {b2 : Fq2 p} {Q : Point3D (Fq2 p)} {P : Point3D (Fq p)}
    (hQ : isOnCurve Q b2 = true) (hP : isOnCurve P b = true) : L.pairingChecked b b2 Q P = .ok (L.pairing Q P) := by
  unfold CurveLib.pairingChecked
  rw [if_neg (not_not_intro hQ), if_neg (not_not_intro hP)]

theorem modPow_eq (m : Nat) : ∀ bits b e, e < 2 ^ bits → modPow m bits b e = b ^ e % m
  | 0, b, e, h => by
    have : e = 0 := by omega
    subst this; rfl
  | bits + 1, b, e, h => by
    have ih := modPow_eq m bits (b * b % m) (e / 2) (by omega)
    have hp : (b * b % m) ^ (e / 2) % m = b ^ (2 * (e / 2)) % m := by
      rw [← Nat.pow_mod, Nat.pow_mul, Nat.pow_two]
    unfold modPow
    rw [ih, hp, Nat.mul_mod, Nat.mod_mod, ← Nat.mul_mod]
    by_cases h1 : e % 2 = 1
    · rw [if_pos h1, ← Nat.pow_succ', show (2 * (e / 2)).succ = e by omega]
    · rw [if_neg h1, Nat.one_mul, show 2 * (e / 2) = e by omega]

/-- The pair of points of one iteration, if it passes all checks. -/
def Crypto.bnPoints (C : Crypto) (data : Bytes) (i : Nat) : Option (Point3D (Fq BN_P) × Point3D (Fq2 BN_P)) :=
  match bnBytesToG1 (bufferRead data (192 * i) 64), bnBytesToG2 (bufferRead data (192 * i + 64) 128) with
  | some P, some Q => if isInf (C.bn.mul1 P BN_N) ∧ isInf (C.bn.mul2 Q BN_N) then some (P, Q) else none
  | _, _ => none

theorem bnPair_eq (C : Crypto) (data : Bytes) (i : Nat) :
    C.bnPair data i = .ok ((C.bnPoints data i).map fun x => C.bn.pairing x.2 x.1) := by
  unfold Crypto.bnPair Crypto.bnPoints
  cases hP : bnBytesToG1 (bufferRead data (192 * i) 64) with
  | none => rfl
  | some P =>
    cases hQ : bnBytesToG2 (bufferRead data (192 * i + 64) 128) with
    | none => rfl
    | some Q =>
      simp only
      by_cases h1 : isInf (C.bn.mul1 P BN_N) = true
      · rw [if_neg (not_not_intro h1)]
        by_cases h2 : isInf (C.bn.mul2 Q BN_N) = true
        · rw [if_neg (not_not_intro h2), pairingChecked_ok (bnBytesToG2_on hQ) (bnBytesToG1_on hP), if_pos ⟨h1, h2⟩]
          rfl
        · rw [if_pos h2, if_neg (fun h => h2 h.2)]; rfl
      · rw [if_pos h1, if_neg (fun h => h1 h.1)]; rfl

/-- The pair of points of one iteration, if it passes all checks. -/
def Crypto.blsPoints (C : Crypto) (data : Bytes) (i : Nat) : Option (Point3D (Fq BLS_P) × Point3D (Fq2 BLS_P)) :=
  match blsBytesToG1 C (slice data (384 * i) (384 * i + 128)) false,
    blsBytesToG2 C (slice data (384 * i + 128) (384 * i + 384)) false with
  | some P, some Q =>
    if isInf (C.bls.curve.mul1 P BLS_MODULUS) ∧ isInf (C.bls.curve.mul2 Q BLS_MODULUS) then some (P, Q) else none
  | _, _ => none

theorem blsPair_eq (C : Crypto) (data : Bytes) (i : Nat) :
    C.blsPair data i = .ok ((C.blsPoints data i).map fun x => C.bls.curve.pairing x.2 x.1) := by
  unfold Crypto.blsPair Crypto.blsPoints
  cases hP : blsBytesToG1 C (slice data (384 * i) (384 * i + 128)) false with
  | none => rfl
  | some P =>
    cases hQ : blsBytesToG2 C (slice data (384 * i + 128) (384 * i + 384)) false with
    | none => simp only; split <;> rfl
    | some Q =>
      simp only
      by_cases h1 : isInf (C.bls.curve.mul1 P BLS_MODULUS) = true
      · rw [if_neg (not_not_intro h1)]
        by_cases h2 : isInf (C.bls.curve.mul2 Q BLS_MODULUS) = true
        · rw [if_neg (not_not_intro h2), pairingChecked_ok (blsBytesToG2_on hQ) (blsBytesToG1_on hP), if_pos ⟨h1, h2⟩]
          rfl
        · rw [if_pos h2, if_neg (fun h => h2 h.2)]; rfl
      · rw [if_pos h1, if_neg (fun h => h1 h.1)]; rfl

theorem pairingLoop_ok {F : Type} {pair : Nat → Except Crash (Option F)} {mul : F → F → F} (h : ∀ i, ∃ x, pair i = .ok x) :
    ∀ k i r, ∃ x, pairingLoop pair mul i k r = .ok x
  | 0, i, r => ⟨_, rfl⟩
  | k + 1, i, r => by
    obtain ⟨x, hx⟩ := h i
    unfold pairingLoop
    rw [hx]
    cases x with
    | none => exact ⟨_, rfl⟩
    | some g => exact pairingLoop_ok h k _ _

theorem secp256r1Verify_ok (C : Crypto) {x y : Word} (hx : ¬ x ≥ SECP256R1P) (hy : ¬ y ≥ SECP256R1P) (hc : ¬ ¬ isOnCurveP256 x y = true)
    (r s h : Word) : ∃ b, C.secp256r1Verify r s x y h = .ok b := by
  refine ⟨C.p256Verify r s x y h, ?_⟩
  unfold Crypto.secp256r1Verify
  rw [if_neg]
  rintro (h | h | h)
  · exact hx h
  · exact hy h
  · exact hc h

/-! ### BLAKE2: the parameters are eight, sixteen and two words -/

theorem slice_length_le (b : Bytes) (i j : Nat) : (slice b i j).length ≤ j - i := by
  unfold slice; simp only [List.length_take]; omega

theorem word_lt (b : Bytes) (i : Nat) : fromLE (slice b i (i + 8)) < 2 ^ 64 := by
  have h := fromLE_lt (slice b i (i + 8))
  have hl := slice_length_le b i (i + 8)
  have : 256 ^ (slice b i (i + 8)).length ≤ 256 ^ 8 := Nat.pow_le_pow_right (by decide) (by omega)
  omega

/-- The little-endian 64-bit word at offset `o`. -/
def leWordAt (data : Bytes) (o : Nat) : BitVec 64 := BitVec.ofNat 64 (fromLE (slice data o (o + 8)))

theorem leWordAt_toNat (data : Bytes) (o : Nat) : (leWordAt data o).toNat = fromLE (slice data o (o + 8)) := by
  unfold leWordAt
  rw [BitVec.toNat_ofNat, Nat.mod_eq_of_lt (word_lt data o)]

theorem spit_at (data : Bytes) (start n i : Nat) (hi : i < n) :
    Blake2.at' (spitLeToUint data start n) i = (leWordAt data (start + i * 8)).toNat := by
  unfold Blake2.at' spitLeToUint
  rw [leWordAt_toNat, List.getD_eq_getElem?_getD, List.getElem?_map, List.getElem?_range hi]
  rfl

theorem blake2_params (data : Bytes) (f : Bool) :
    blake2b.compress (Blake2.getParameters data).1 (Blake2.getParameters data).2.1 (Blake2.getParameters data).2.2.1
      (Blake2.getParameters data).2.2.2.1 (Blake2.getParameters data).2.2.2.2.1 f =
    .ok ((List.finRange 8).flatMap fun i => toLE 8 (Spec.Blake2b.F (fromBE (data.take 4)) (fun j => leWordAt data (4 + j.val * 8))
      (fun j => leWordAt data (68 + j.val * 8)) (leWordAt data 204 ++ leWordAt data 196) f i).toNat) := by
  have e : (leWordAt data 204 ++ leWordAt data 196).toNat = (leWordAt data 204).toNat * 2 ^ 64 + (leWordAt data 196).toNat := by
    rw [BitVec.toNat_append, Nat.shiftLeft_eq, ← Nat.shiftLeft_eq, ← Nat.shiftLeft_add_eq_or_of_lt (leWordAt data 196).isLt,
      Nat.shiftLeft_eq]
  have hlo := (leWordAt data 196).isLt
  have h0 : (leWordAt data 204 ++ leWordAt data 196).toNat % 2 ^ 64 = (leWordAt data 196).toNat := by rw [e]; omega
  have h1 : (leWordAt data 204 ++ leWordAt data 196).toNat / 2 ^ 64 = (leWordAt data 204).toNat := by rw [e]; omega
  have := Blake2.compress_eq (h := spitLeToUint data 4 8) (m := spitLeToUint data 68 16) (H := fun j => leWordAt data (4 + j.val * 8))
    (Msg := fun j => leWordAt data (68 + j.val * 8)) (by simp [spitLeToUint]) (fun i => spit_at data 4 8 i.val i.isLt)
    (fun i => spit_at data 68 16 i.val i.isLt) (fromBE (data.take 4)) (leWordAt data 204 ++ leWordAt data 196) f
  rw [h0, h1] at this
  rw [← this]
  have a0 : (Blake2.getParameters data).2.2.2.1 = (leWordAt data 196).toNat := spit_at data 196 2 0 (by decide)
  have a1 : (Blake2.getParameters data).2.2.2.2.1 = (leWordAt data 204).toNat := spit_at data 196 2 1 (by decide)
  rw [a0, a1]
  rfl

theorem compress_length {n : Nat} {h m : List Nat} {a b : Nat} {f : Bool} {out : Bytes}
    (he : blake2b.compress n h m a b f = .ok out) : out.length = 64 := by
  unfold Blake2.compress Blake2.pack at he
  simp only at he
  split at he
  · cases he
    rw [List.length_flatMap]
    have : ∀ l : List Nat, (l.map fun a => (toLE blake2b.wordFormat a).length).sum = l.length * 8 := by
      intro l
      induction l with
      | nil => rfl
      | cons x l ih => rw [List.map_cons, List.sum_cons, ih, toLE_length, List.length_cons]; show 8 + _ = _; omega
    rw [this]; simp
  · cases he

end Verif
