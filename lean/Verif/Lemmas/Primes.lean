import Mathlib.NumberTheory.LucasPrimality
import Verif.Lemmas.Curves
import Verif.Spec.Kzg
/-! Primality of the moduli of secp256k1 and of the BLS12-381 scalar field, by Lucas certificates: a base whose order modulo `p` is
`p - 1`, shown with the factorisation of `p - 1` into primes certified before. -/
namespace Verif

/-- Each entry is a number, a base and the prime factors of the number minus one. -/
def certified (known : List Nat) : List (Nat × Nat × List Nat) → Bool
  | [] => true
  | (p, a, fs) :: rest =>
    decide (2 ≤ p ∧ p < 2 ^ 256 ∧ fs.prod = p - 1) && fs.all (fun f => known.contains f) && (modPow p 256 a (p - 1) == 1) &&
      fs.all (fun f => modPow p 256 a ((p - 1) / f) != 1) && certified (p :: known) rest

theorem pow_eq_one_iff {p : Nat} (h2 : 2 ≤ p) (hp : p < 2 ^ 256) (a e : Nat) (he : e < p) :
    (a : ZMod p) ^ e = 1 ↔ modPow p 256 a e = 1 := by
  rw [modPow_eq p 256 a e (by omega)]
  have h := ZMod.natCast_eq_natCast_iff (a ^ e) 1 p
  rw [Nat.cast_pow, Nat.cast_one] at h
  rw [h]
  unfold Nat.ModEq
  rw [Nat.mod_eq_of_lt (a := 1) (by omega)]

theorem certified_prime : ∀ (l : List (Nat × Nat × List Nat)) (known : List Nat), (∀ k ∈ known, k.Prime) → certified known l = true →
    ∀ c ∈ l, c.1.Prime
  | [], _, _, _, c, hc => by cases hc
  | (p, a, fs) :: rest, known, hk, h, c, hc => by
    simp only [certified, Bool.and_eq_true, decide_eq_true_eq, beq_iff_eq, List.all_eq_true, List.contains_iff_mem, bne_iff_ne] at h
    obtain ⟨⟨⟨⟨⟨h2, hlt, hprod⟩, hfs⟩, hone⟩, hne⟩, hrest⟩ := h
    have hp : p.Prime := by
      refine lucas_primality p (a : ZMod p) ((pow_eq_one_iff h2 hlt a _ (by omega)).mpr hone) (fun q hq hd h1 => ?_)
      rw [← hprod] at hd
      obtain ⟨f, hf, hqf⟩ := (Nat.Prime.prime hq).dvd_prod_iff.mp hd
      have he : q = f := (Nat.prime_dvd_prime_iff_eq hq (hk f (hfs f hf))).mp hqf
      subst he
      exact hne q hf ((pow_eq_one_iff h2 hlt a _ (Nat.lt_of_le_of_lt (Nat.div_le_self _ _) (by omega))).mp h1)
    rcases List.mem_cons.mp hc with rfl | hc
    · exact hp
    · refine certified_prime rest (p :: known) (fun k hk' => ?_) hrest c hc
      rcases List.mem_cons.mp hk' with rfl | hk'
      · exact hp
      · exact hk k hk'

/-- Certificates up to the modulus of secp256k1. -/
def secpCertificates : List (Nat × Nat × List Nat) :=
  [(3, 2, [2]),
   (7, 3, [2, 3]),
   (5, 2, [2, 2]),
   (13441, 11, [2, 2, 2, 2, 2, 2, 2, 3, 5, 7]),
   (29, 2, [2, 2, 7]),
   (31, 3, [2, 3, 5]),
   (11, 2, [2, 5]),
   (13, 2, [2, 2, 3]),
   (7723, 3, [2, 3, 3, 3, 11, 13]),
   (17, 3, [2, 2, 2, 2]),
   (443, 2, [2, 13, 17]),
   (887, 5, [2, 443]),
   (5323, 5, [2, 3, 887]),
   (131, 2, [2, 5, 13]),
   (2621, 2, [2, 2, 5, 131]),
   (24809, 6, [2, 2, 2, 7, 443]),
   (97, 5, [2, 2, 2, 2, 2, 3]),
   (971, 6, [2, 5, 97]),
   (1373, 2, [2, 2, 7, 7, 7]),
   (13331831, 13, [2, 5, 971, 1373]),
   (173378833005251801, 6, [2, 2, 2, 5, 5, 2621, 24809, 13331831]),
   (22149492674086928081353, 5, [2, 2, 2, 3, 5323, 173378833005251801]),
   (132896956044521568488119, 6, [2, 3, 22149492674086928081353]),
   (271, 6, [2, 3, 3, 3, 5]),
   (1627, 3, [2, 3, 271]),
   (41, 6, [2, 2, 2, 5]),
   (83, 2, [2, 41]),
   (2657, 3, [2, 2, 2, 2, 2, 83]),
   (67, 2, [2, 3, 11]),
   (4423, 3, [2, 3, 11, 67]),
   (103, 5, [2, 3, 17]),
   (41201, 3, [2, 2, 2, 2, 5, 5, 103]),
   (101, 2, [2, 2, 5, 5]),
   (239, 7, [2, 7, 17]),
   (96557, 2, [2, 2, 101, 239]),
   (19, 2, [2, 3, 3]),
   (419, 2, [2, 11, 19]),
   (20113, 10, [2, 2, 2, 2, 3, 419]),
   (1206781, 10, [2, 2, 3, 5, 20113]),
   (7240687, 3, [2, 3, 1206781]),
   (53, 2, [2, 2, 13]),
   (107590001, 3, [2, 2, 2, 2, 5, 5, 5, 5, 7, 29, 53]),
   (255515944373312847190720520512484175977, 3, [2, 2, 2, 7, 7, 11, 1627, 2657, 4423, 41201, 96557, 7240687, 107590001]),
   (205115282021455665897114700593932402728804164701536103180137503955397371, 10, [2, 3, 5, 29, 29, 31, 7723, 132896956044521568488119, 255515944373312847190720520512484175977]),
   (115792089237316195423570985008687907853269984665640564039457584007908834671663, 3, [2, 3, 7, 13441, 205115282021455665897114700593932402728804164701536103180137503955397371])]

/-- Certificates up to the order of the BLS12-381 groups. -/
def blsCertificates : List (Nat × Nat × List Nat) :=
  [(3, 2, [2]),
   (5, 2, [2, 2]),
   (11, 2, [2, 5]),
   (19, 2, [2, 3, 3]),
   (13, 2, [2, 2, 3]),
   (53, 2, [2, 2, 13]),
   (10177, 7, [2, 2, 2, 2, 2, 2, 3, 53]),
   (7, 3, [2, 3]),
   (29, 2, [2, 2, 7]),
   (523, 2, [2, 3, 3, 29]),
   (20921, 3, [2, 2, 2, 5, 523]),
   (125527, 5, [2, 3, 20921]),
   (17, 3, [2, 2, 2, 2]),
   (47737, 5, [2, 2, 2, 3, 3, 3, 13, 17]),
   (859267, 2, [2, 3, 3, 47737]),
   (23, 5, [2, 11]),
   (47, 5, [2, 23]),
   (73, 5, [2, 2, 2, 3, 3]),
   (1607, 5, [2, 11, 73]),
   (906349, 2, [2, 2, 3, 47, 1607]),
   (79, 3, [2, 3, 13]),
   (2508409, 11, [2, 2, 2, 3, 3, 3, 3, 7, 7, 79]),
   (18329, 3, [2, 2, 2, 29, 79]),
   (2529403, 2, [2, 3, 23, 18329]),
   (43, 3, [2, 3, 7]),
   (97, 5, [2, 2, 2, 2, 2, 3]),
   (449, 3, [2, 2, 2, 2, 2, 2, 7]),
   (609743, 5, [2, 7, 97, 449]),
   (52437899, 2, [2, 43, 609743]),
   (89, 3, [2, 2, 2, 11]),
   (179, 2, [2, 89]),
   (359, 7, [2, 179]),
   (110573, 3, [2, 2, 7, 11, 359]),
   (2653753, 5, [2, 2, 2, 3, 110573]),
   (63690073, 7, [2, 2, 2, 3, 2653753]),
   (254760293, 2, [2, 2, 63690073]),
   (52435875175126190479447740508185965837690552500527637822603658699938581184513, 7, [2, 2, 2, 2, 2, 2, 2, 2, 2, 2, 2, 2, 2, 2, 2, 2, 2, 2, 2, 2, 2, 2, 2, 2, 2, 2, 2, 2, 2, 2, 2, 2, 3, 11, 19, 10177, 125527, 859267, 906349, 906349, 2508409, 2529403, 52437899, 254760293, 254760293])]

theorem secp256k1_prime : Nat.Prime SECP256K1P :=
  certified_prime secpCertificates [2] (by intro k hk; rw [List.mem_singleton.mp hk]; exact Nat.prime_two) (by decide +kernel)
    (SECP256K1P, 3, [2, 3, 7, 13441, 205115282021455665897114700593932402728804164701536103180137503955397371]) (by decide +kernel)

theorem blsOrder_prime : Nat.Prime Spec.Kzg.r :=
  certified_prime blsCertificates [2] (by intro k hk; rw [List.mem_singleton.mp hk]; exact Nat.prime_two) (by decide +kernel)
    (Spec.Kzg.r, 7, [2, 2, 2, 2, 2, 2, 2, 2, 2, 2, 2, 2, 2, 2, 2, 2, 2, 2, 2, 2, 2, 2, 2, 2, 2, 2, 2, 2, 2, 2, 2, 2, 3, 11, 19, 10177, 125527, 859267, 906349, 906349, 2508409, 2529403, 52437899, 254760293, 254760293]) (by decide +kernel)

end Verif
