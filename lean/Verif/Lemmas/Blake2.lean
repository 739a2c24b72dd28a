import Verif.Model.Blake2
import Verif.Spec.Blake2b
import Verif.Lemmas.Numeric
namespace Verif.Blake2
open Spec.Blake2b (W)

/-- The list `v` holds the words of `u`. -/
def Holds (v : List Nat) (u : Fin 16 → W) : Prop := 16 ≤ v.length ∧ ∀ i : Fin 16, at' v i.val = (u i).toNat

theorem rot_toNat (X : W) (R : Nat) (hR : 0 < R) (hR' : R < 64) :
    blake2b.rot X.toNat R = (X.rotateRight R).toNat := by
  rw [BitVec.toNat_rotateRight, Nat.mod_eq_of_lt hR']
  show (X.toNat >>> R) ^^^ ((X.toNat <<< (64 - R)) % 2 ^ 64) = (X.toNat >>> R) ||| X.toNat <<< (64 - R) % 2 ^ 64
  have hX := X.isLt
  apply Nat.eq_of_testBit_eq
  intro i
  simp only [Nat.testBit_xor, Nat.testBit_or, Nat.testBit_shiftRight, Nat.testBit_mod_two_pow, Nat.testBit_shiftLeft]
  by_cases h : i ≥ 64 - R
  · have : X.toNat.testBit (R + i) = false := by
      apply Nat.testBit_lt_two_pow
      exact Nat.lt_of_lt_of_le hX (Nat.pow_le_pow_right (by omega) (by omega))
    simp [this]
  · simp [h]

theorem at'_set (v : List Nat) (i j x : Nat) (hi : i < v.length) :
    at' (v.set i x) j = if j = i then x else at' v j := by
  unfold at'
  simp only [List.getD_eq_getElem?_getD, List.getElem?_set]
  split
  · rename_i h; subst h; simp [hi]
  · rename_i h; rw [if_neg (fun e => h e.symm)]

theorem Holds.put {v : List Nat} {u : Fin 16 → W} (h : Holds v u) (i : Fin 16) {x : Nat} {X : W} (hx : x = X.toNat) :
    Holds (v.set i.val x) (Spec.Blake2b.put u i X) := by
  refine ⟨by simpa using h.1, fun j => ?_⟩
  rw [at'_set _ _ _ _ (by have := h.1; omega), Spec.Blake2b.put]
  by_cases e : j = i
  · subst e; simp [hx]
  · rw [if_neg e, if_neg (fun e' => e (Fin.ext e')), h.2]

theorem add3 (a b c : W) : (a.toNat + b.toNat + c.toNat) % blake2b.maxWord = (a + b + c).toNat := by
  show _ % 2 ^ 64 = _
  simp only [BitVec.toNat_add]; omega

theorem add2 (a b : W) : (a.toNat + b.toNat) % blake2b.maxWord = (a + b).toNat := by
  show _ % 2 ^ 64 = _
  simp only [BitVec.toNat_add]

theorem rotx (a b : W) (R : Nat) (hR : 0 < R) (hR' : R < 64) :
    blake2b.rot (a.toNat ^^^ b.toNat) R = ((a ^^^ b).rotateRight R).toNat := by
  rw [← rot_toNat _ _ hR hR', BitVec.toNat_xor]

theorem Holds.stepAdd3 {v : List Nat} {u : Fin 16 → W} (h : Holds v u) (a b : Fin 16) {x : Nat} {X : W} (hx : x = X.toNat) :
    Holds (v.set a.val ((at' v a.val + at' v b.val + x) % blake2b.maxWord)) (Spec.Blake2b.put u a (u a + u b + X)) :=
  h.put a (by rw [h.2, h.2, hx, add3])

theorem Holds.stepAdd2 {v : List Nat} {u : Fin 16 → W} (h : Holds v u) (c d : Fin 16) :
    Holds (v.set c.val ((at' v c.val + at' v d.val) % blake2b.maxWord)) (Spec.Blake2b.put u c (u c + u d)) :=
  h.put c (by rw [h.2, h.2, add2])

theorem Holds.stepRot {v : List Nat} {u : Fin 16 → W} (h : Holds v u) (d a : Fin 16) (R : Nat) (hR : 0 < R) (hR' : R < 64) :
    Holds (v.set d.val (blake2b.rot (at' v d.val ^^^ at' v a.val) R))
      (Spec.Blake2b.put u d ((u d ^^^ u a).rotateRight R)) :=
  h.put d (by rw [h.2, h.2, rotx _ _ _ hR hR'])

theorem Holds.G {v : List Nat} {u : Fin 16 → W} (h : Holds v u) (a b c d : Fin 16) {x y : Nat} {X Y : W}
    (hx : x = X.toNat) (hy : y = Y.toNat) :
    Holds (blake2b.G v (a.val, b.val, c.val, d.val) x y) (Spec.Blake2b.G u a b c d X Y) :=
  (((((((h.stepAdd3 a b hx).stepRot d a 32 (by decide) (by decide)).stepAdd2 c d).stepRot b c 24 (by decide) (by decide)).stepAdd3
    a b hy).stepRot d a 16 (by decide) (by decide)).stepAdd2 c d).stepRot b c 63 (by decide) (by decide)

theorem sigma_at (r : Nat) (i : Fin 16) :
    at' (sigma.getD (r % sigma.length) []) i.val = (Spec.Blake2b.SIGMA r i).val := by
  have h : r % 10 < 10 := Nat.mod_lt _ (by decide)
  show at' (sigma.getD (r % 10) []) i.val = _
  unfold Spec.Blake2b.SIGMA
  have : ∀ k : Fin 10, ∀ i : Fin 16, at' (sigma.getD k.val []) i.val = ((match k.val with
      | 0 => Spec.Blake2b.SIGMA.row [ 0,  1,  2,  3,  4,  5,  6,  7,  8,  9, 10, 11, 12, 13, 14, 15]
      | 1 => Spec.Blake2b.SIGMA.row [14, 10,  4,  8,  9, 15, 13,  6,  1, 12,  0,  2, 11,  7,  5,  3]
      | 2 => Spec.Blake2b.SIGMA.row [11,  8, 12,  0,  5,  2, 15, 13, 10, 14,  3,  6,  7,  1,  9,  4]
      | 3 => Spec.Blake2b.SIGMA.row [ 7,  9,  3,  1, 13, 12, 11, 14,  2,  6,  5, 10,  4,  0, 15,  8]
      | 4 => Spec.Blake2b.SIGMA.row [ 9,  0,  5,  7,  2,  4, 10, 15, 14,  1, 11, 12,  6,  8,  3, 13]
      | 5 => Spec.Blake2b.SIGMA.row [ 2, 12,  6, 10,  0, 11,  8,  3,  4, 13,  7,  5, 15, 14,  1,  9]
      | 6 => Spec.Blake2b.SIGMA.row [12,  5,  1, 15, 14, 13,  4, 10,  0,  7,  6,  3,  9,  2,  8, 11]
      | 7 => Spec.Blake2b.SIGMA.row [13, 11,  7, 14, 12,  1,  3,  9,  5,  0, 15,  4,  8,  6,  2, 10]
      | 8 => Spec.Blake2b.SIGMA.row [ 6, 15, 14,  9, 11,  3,  0,  8, 12,  2, 13,  7,  1,  4, 10,  5]
      | _ => Spec.Blake2b.SIGMA.row [10,  2,  8,  4,  7,  6,  1,  5, 15, 11,  9, 14,  3, 12, 13,  0]) i).val := by decide
  exact this ⟨r % 10, h⟩ i

/-- `m` holds the sixteen message words `M`. -/
def HoldsMsg (m : List Nat) (M : Fin 16 → W) : Prop := ∀ i : Fin 16, at' m i.val = (M i).toNat

theorem HoldsMsg.at {m : List Nat} {M : Fin 16 → W} (hm : HoldsMsg m M) (r : Nat) (i : Fin 16) (n : Nat) (hi : i.val = n) :
    at' m (at' (sigma.getD (r % sigma.length) []) n) = (M (Spec.Blake2b.SIGMA r i)).toNat := by
  rw [← hi, sigma_at, hm]

theorem Holds.mix {v : List Nat} {u : Fin 16 → W} (h : Holds v u) (a b c d : Fin 16) {x y : Nat} {X Y : W}
    {ix : Nat × Nat × Nat × Nat} (hi : ix = (a.val, b.val, c.val, d.val)) (hx : x = X.toNat) (hy : y = Y.toNat) :
    Holds (blake2b.G v ix x y) (Spec.Blake2b.G u a b c d X Y) := by
  rw [hi]; exact h.G a b c d hx hy

section
attribute [local irreducible] at' sigma Blake2.G Spec.Blake2b.G Spec.Blake2b.SIGMA

theorem Holds.round {v m : List Nat} {u M : Fin 16 → W} (h : Holds v u) (hm : HoldsMsg m M) (r : Nat) :
    Holds (blake2b.round m v r) (Spec.Blake2b.round M u r) := by
  unfold Blake2.round Spec.Blake2b.round
  simp only
  refine Holds.mix ?_ 3 4 9 14 (by decide) (hm.at r 14 14 rfl) (hm.at r 15 15 rfl)
  refine Holds.mix ?_ 2 7 8 13 (by decide) (hm.at r 12 12 rfl) (hm.at r 13 13 rfl)
  refine Holds.mix ?_ 1 6 11 12 (by decide) (hm.at r 10 10 rfl) (hm.at r 11 11 rfl)
  refine Holds.mix ?_ 0 5 10 15 (by decide) (hm.at r 8 8 rfl) (hm.at r 9 9 rfl)
  refine Holds.mix ?_ 3 7 11 15 (by decide) (hm.at r 6 6 rfl) (hm.at r 7 7 rfl)
  refine Holds.mix ?_ 2 6 10 14 (by decide) (hm.at r 4 4 rfl) (hm.at r 5 5 rfl)
  refine Holds.mix ?_ 1 5 9 13 (by decide) (hm.at r 2 2 rfl) (hm.at r 3 3 rfl)
  exact Holds.mix h 0 4 8 12 (by decide) (hm.at r 0 0 rfl) (hm.at r 1 1 rfl)
end

section
attribute [local irreducible] Blake2.round Spec.Blake2b.round

theorem Holds.rounds {v m : List Nat} {u M : Fin 16 → W} (h : Holds v u) (hm : HoldsMsg m M) :
    ∀ n, Holds ((List.range n).foldl (blake2b.round m) v) (Spec.Blake2b.rounds M u n)
  | 0 => h
  | n + 1 => by
    rw [List.range_succ, List.foldl_append, List.foldl_cons, List.foldl_nil, Spec.Blake2b.rounds]
    exact (Holds.rounds h hm n).round hm n
end

theorem init_eq (a0 a1 a2 a3 a4 a5 a6 a7 x y : Nat) (f : Bool) :
    blake2b.init [a0, a1, a2, a3, a4, a5, a6, a7] x y f =
      [a0, a1, a2, a3, a4, a5, a6, a7, 0x6A09E667F3BCC908, 0xBB67AE8584CAA73B, 0x3C6EF372FE94F82B, 0xA54FF53A5F1D36F1,
       x ^^^ 0x510E527FADE682D1, y ^^^ 0x9B05688C2B3E6C1F,
       if f then 0x1F83D9ABFB41BD6B ^^^ 0xFFFFFFFFFFFFFFFF else 0x1F83D9ABFB41BD6B, 0x5BE0CD19137E2179, 0] := by
  unfold Blake2.init
  generalize hX : x ^^^ at' IV 4 = X
  generalize hY : y ^^^ at' IV 5 = Y
  have e4 : at' IV 4 = 0x510E527FADE682D1 := rfl
  have e5 : at' IV 5 = 0x9B05688C2B3E6C1F := rfl
  rw [e4] at hX; rw [e5] at hY
  rw [hX, hY]
  cases f
  · rfl
  · simp only [if_true]
    generalize hm : (0x1F83D9ABFB41BD6B ^^^ 0xFFFFFFFFFFFFFFFF : Nat) = Z
    have e : ∀ v : List Nat, at' v 14 = 0x1F83D9ABFB41BD6B → at' v 14 ^^^ blake2b.maskBits = Z := by
      intro v hv; rw [hv]; exact hm
    rw [e _ rfl]; rfl

theorem holds_init {h : List Nat} {H : Fin 8 → W} (hl : h.length = 8) (hh : ∀ i : Fin 8, at' h i.val = (H i).toNat)
    (t : BitVec 128) (f : Bool) :
    Holds (blake2b.init h (t.toNat % 2 ^ 64) (t.toNat / 2 ^ 64) f) (Spec.Blake2b.work H t f) := by
  obtain ⟨a0, a1, a2, a3, a4, a5, a6, a7, rfl⟩ : ∃ a0 a1 a2 a3 a4 a5 a6 a7, h = [a0, a1, a2, a3, a4, a5, a6, a7] := by
    match h, hl with
    | [a0, a1, a2, a3, a4, a5, a6, a7], _ => exact ⟨_, _, _, _, _, _, _, _, rfl⟩
  have e12 : ((t.toNat % 2 ^ 64) ^^^ 0x510E527FADE682D1) = (Spec.Blake2b.IV 4 ^^^ t.setWidth 64).toNat := by
    have e : (Spec.Blake2b.IV 4).toNat = 0x510E527FADE682D1 := by decide
    rw [BitVec.toNat_xor, BitVec.toNat_setWidth, Nat.xor_comm, e]
  have e13 : ((t.toNat / 2 ^ 64) ^^^ 0x9B05688C2B3E6C1F) = (Spec.Blake2b.IV 5 ^^^ (t >>> 64).setWidth 64).toNat := by
    have e : (Spec.Blake2b.IV 5).toNat = 0x9B05688C2B3E6C1F := by decide
    have ht : t.toNat / 2 ^ 64 < 2 ^ 64 := by have := t.isLt; omega
    rw [BitVec.toNat_xor, BitVec.toNat_setWidth, BitVec.toNat_ushiftRight, Nat.xor_comm, Nat.shiftRight_eq_div_pow,
      Nat.mod_eq_of_lt ht, e]
  rw [init_eq, e12, e13]
  refine ⟨by simp, fun i => ?_⟩
  have c8 : (Spec.Blake2b.IV 0).toNat = 0x6A09E667F3BCC908 := by decide
  have c9 : (Spec.Blake2b.IV 1).toNat = 0xBB67AE8584CAA73B := by decide
  have c10 : (Spec.Blake2b.IV 2).toNat = 0x3C6EF372FE94F82B := by decide
  have c11 : (Spec.Blake2b.IV 3).toNat = 0xA54FF53A5F1D36F1 := by decide
  have c14 : (if f then 0x1F83D9ABFB41BD6B ^^^ 0xFFFFFFFFFFFFFFFF else 0x1F83D9ABFB41BD6B : Nat) =
      (if f then Spec.Blake2b.IV 6 ^^^ 0xFFFFFFFFFFFFFFFF#64 else Spec.Blake2b.IV 6).toNat := by cases f <;> decide
  have c15 : (Spec.Blake2b.IV 7).toNat = 0x5BE0CD19137E2179 := by decide
  rw [c14, ← c8, ← c9, ← c10, ← c11, ← c15]
  have w8 (p) : Spec.Blake2b.work H t f ⟨8, p⟩ = Spec.Blake2b.IV 0 := rfl
  have w9 (p) : Spec.Blake2b.work H t f ⟨9, p⟩ = Spec.Blake2b.IV 1 := rfl
  have w10 (p) : Spec.Blake2b.work H t f ⟨10, p⟩ = Spec.Blake2b.IV 2 := rfl
  have w11 (p) : Spec.Blake2b.work H t f ⟨11, p⟩ = Spec.Blake2b.IV 3 := rfl
  have w12 (p) : Spec.Blake2b.work H t f ⟨12, p⟩ = Spec.Blake2b.IV 4 ^^^ t.setWidth 64 := rfl
  have w13 (p) : Spec.Blake2b.work H t f ⟨13, p⟩ = Spec.Blake2b.IV 5 ^^^ (t >>> 64).setWidth 64 := rfl
  have w14 (p) : Spec.Blake2b.work H t f ⟨14, p⟩ = if f then Spec.Blake2b.IV 6 ^^^ 0xFFFFFFFFFFFFFFFF#64 else Spec.Blake2b.IV 6 := rfl
  have w15 (p) : Spec.Blake2b.work H t f ⟨15, p⟩ = Spec.Blake2b.IV 7 := rfl
  match i with
  | ⟨0, _⟩ => exact hh 0
  | ⟨1, _⟩ => exact hh 1
  | ⟨2, _⟩ => exact hh 2
  | ⟨3, _⟩ => exact hh 3
  | ⟨4, _⟩ => exact hh 4
  | ⟨5, _⟩ => exact hh 5
  | ⟨6, _⟩ => exact hh 6
  | ⟨7, _⟩ => exact hh 7
  | ⟨8, _⟩ => rw [w8]; rfl
  | ⟨9, _⟩ => rw [w9]; rfl
  | ⟨10, _⟩ => rw [w10]; rfl
  | ⟨11, _⟩ => rw [w11]; rfl
  | ⟨12, _⟩ => rw [w12]; rfl
  | ⟨13, _⟩ => rw [w13]; rfl
  | ⟨14, _⟩ => rw [w14]; rfl
  | ⟨15, _⟩ => rw [w15]; rfl
  | ⟨n + 16, h⟩ => omega

/-- The bytes of the words of a hash state. -/
theorem compress_eq {h m : List Nat} {H : Fin 8 → W} {Msg : Fin 16 → W} (hl : h.length = 8)
    (hh : ∀ i : Fin 8, at' h i.val = (H i).toNat) (hm : HoldsMsg m Msg) (n : Nat) (t : BitVec 128) (f : Bool) :
    blake2b.compress n h m (t.toNat % 2 ^ 64) (t.toNat / 2 ^ 64) f =
      .ok ((List.finRange 8).flatMap fun i => toLE 8 (Spec.Blake2b.F n H Msg t f i).toNat) := by
  have hv := (holds_init hl hh t f).rounds hm n
  have hw : (List.range 8).map (fun i => at' h i ^^^ at' ((List.range n).foldl (blake2b.round m)
      (blake2b.init h (t.toNat % 2 ^ 64) (t.toNat / 2 ^ 64) f)) i ^^^ at' ((List.range n).foldl (blake2b.round m)
      (blake2b.init h (t.toNat % 2 ^ 64) (t.toNat / 2 ^ 64) f)) (i + 8)) =
      (List.finRange 8).map fun i => (Spec.Blake2b.F n H Msg t f i).toNat := by
    have e8 : List.range 8 = (List.finRange 8).map Fin.val := by decide
    rw [e8, List.map_map]
    apply List.map_congr_left
    intro i _
    have h1 := hv.2 ⟨i.val, by omega⟩
    have h2 := hv.2 ⟨i.val + 8, by omega⟩
    simp only at h1 h2
    simp only [Function.comp]
    rw [hh, h1, h2, Spec.Blake2b.F, BitVec.toNat_xor, BitVec.toNat_xor]
  unfold compress
  simp only
  rw [hw]
  unfold pack
  rw [if_pos]
  · rw [List.flatMap_map]; rfl
  · rw [List.all_eq_true]
    intro x hx
    obtain ⟨i, _, rfl⟩ := List.mem_map.mp hx
    exact decide_eq_true (Spec.Blake2b.F n H Msg t f i).isLt

end Verif.Blake2
