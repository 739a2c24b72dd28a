import Verif.Model.TrieRoot
import Verif.Spec.HexPrefix
/-! Nibbles. -/
namespace Verif
open Spec

/-- A list of nibbles. -/
def Nibbles (x : Bytes) : Prop := ∀ n ∈ x, n < 16

theorem nibble_pair {a b : UInt8} (ha : a < 16) (hb : b < 16) : (16 * a + b) / 16 = a ∧ (16 * a + b) % 16 = b := by
  have ha' : a.toNat < 16 := ha
  have hb' : b.toNat < 16 := hb
  have e : (16 * a + b).toNat = 16 * a.toNat + b.toNat := by
    rw [UInt8.toNat_add, UInt8.toNat_mul, show (16 : UInt8).toNat = 16 from rfl]; omega
  constructor
  · apply UInt8.toNat_inj.mp; rw [UInt8.toNat_div, e, show (16 : UInt8).toNat = 16 from rfl]; omega
  · apply UInt8.toNat_inj.mp; rw [UInt8.toNat_mod, e, show (16 : UInt8).toNat = 16 from rfl]; omega

theorem pairNibbles_decode : ∀ (x : Bytes), Nibbles x → x.length % 2 = 0 → (pairNibbles x).flatMap nibblesOf = x
  | [], _, _ => rfl
  | [_], _, h => by simp at h
  | a :: b :: r, hx, h => by
    obtain ⟨e1, e2⟩ := nibble_pair (hx a (.head _)) (hx b (.tail _ (.head _)))
    rw [pairNibbles, List.flatMap_cons, pairNibbles_decode r (fun n hn => hx n (.tail _ (.tail _ hn)))
      (by simp only [List.length_cons] at h; omega)]
    rw [nibblesOf, e1, e2]; rfl

theorem compact_decode (x : Bytes) (leaf : Bool) (hx : Nibbles x) :
    hexPrefixDecode (nibbleListToCompact x leaf) = some (x, leaf) := by
  unfold nibbleListToCompact
  dsimp only
  by_cases h : x.length % 2 = 0
  · rw [if_pos h]
    cases leaf with
    | false =>
      show some ((pairNibbles x).flatMap nibblesOf, false) = _
      rw [pairNibbles_decode x hx h]
    | true =>
      show some ((pairNibbles x).flatMap nibblesOf, true) = _
      rw [pairNibbles_decode x hx h]
  · rw [if_neg h]
    cases x with
    | nil => simp at h
    | cons a r =>
      have hr := pairNibbles_decode r (fun n hn => hx n (.tail _ hn)) (by simp only [List.length_cons] at h; omega)
      have ha := hx a (.head _)
      dsimp only
      rw [hexPrefixDecode, hr]
      cases leaf with
      | false =>
        obtain ⟨e1, e2⟩ := nibble_pair (a := 1) (by decide) ha
        simp only [Bool.false_eq_true, if_false, UInt8.zero_add]
        rw [e1, e2]; rfl
      | true =>
        obtain ⟨e1, e2⟩ := nibble_pair (a := 3) (by decide) ha
        simp only [if_true]
        rw [show (2 : UInt8) + 1 = 3 from rfl, e1, e2]; rfl

theorem nibbles_table : ∀ n : Fin 256, ((UInt8.ofNat n.val &&& 0xF0) >>> 4, UInt8.ofNat n.val &&& 0x0F) =
    (UInt8.ofNat n.val / 16, UInt8.ofNat n.val % 16) := by decide +kernel

theorem bytesToNibbleList_eq (b : Bytes) : bytesToNibbleList b = b.flatMap nibblesOf := by
  unfold bytesToNibbleList
  congr 1
  funext x
  have h := nibbles_table ⟨x.toNat, x.toNat_lt⟩
  simp only [UInt8.ofNat_toNat, Prod.mk.injEq] at h
  rw [h.1, h.2]; rfl

theorem nibblesOf_lt (b n : UInt8) (h : n ∈ nibblesOf b) : n < 16 := by
  simp only [nibblesOf, List.mem_cons, List.not_mem_nil, or_false] at h
  have hb := b.toNat_lt
  rcases h with rfl | rfl
  · show (b / 16).toNat < 16
    rw [UInt8.toNat_div, show (16 : UInt8).toNat = 16 from rfl]; omega
  · show (b % 16).toNat < 16
    rw [UInt8.toNat_mod, show (16 : UInt8).toNat = 16 from rfl]; omega

theorem bytesToNibbleList_nibbles (b : Bytes) : Nibbles (bytesToNibbleList b) := by
  intro n hn
  rw [bytesToNibbleList_eq] at hn
  obtain ⟨c, _, h⟩ := List.mem_flatMap.mp hn
  exact nibblesOf_lt c n h

theorem nibblesOf_inj {a b : UInt8} (h : nibblesOf a = nibblesOf b) : a = b := by
  simp only [nibblesOf, List.cons.injEq, and_true] at h
  apply UInt8.toNat_inj.mp
  have h1 := congrArg UInt8.toNat h.1
  have h2 := congrArg UInt8.toNat h.2
  rw [UInt8.toNat_div, UInt8.toNat_div, show (16 : UInt8).toNat = 16 from rfl] at h1
  rw [UInt8.toNat_mod, UInt8.toNat_mod, show (16 : UInt8).toNat = 16 from rfl] at h2
  omega

theorem bytesToNibbleList_length (b : Bytes) : (bytesToNibbleList b).length = 2 * b.length := by
  rw [bytesToNibbleList_eq]
  induction b with
  | nil => rfl
  | cons a r ih => rw [List.flatMap_cons, List.length_append, ih, List.length_cons]; simp only [nibblesOf, List.length_cons, List.length_nil]; omega

theorem bytesToNibbleList_prefix (a b : Bytes) : bytesToNibbleList a <+: bytesToNibbleList b ↔ a <+: b := by
  rw [bytesToNibbleList_eq, bytesToNibbleList_eq]
  induction a generalizing b with
  | nil => simp
  | cons x r ih =>
    cases b with
    | nil => simp [nibblesOf]
    | cons y t =>
      rw [List.flatMap_cons, List.flatMap_cons, List.cons_prefix_cons, ← ih t]
      constructor
      · intro h
        simp only [nibblesOf, List.cons_append, List.nil_append, List.cons_prefix_cons] at h
        exact ⟨nibblesOf_inj (by simp only [nibblesOf, h.1, h.2.1]), h.2.2⟩
      · rintro ⟨rfl, h⟩
        exact (List.prefix_append_right_inj _).mpr h

theorem bytesToNibbleList_inj {a b : Bytes} (h : bytesToNibbleList a = bytesToNibbleList b) : a = b := by
  have h1 := (bytesToNibbleList_prefix a b).mp (h ▸ List.prefix_refl _)
  have h2 := congrArg List.length h
  rw [bytesToNibbleList_length, bytesToNibbleList_length] at h2
  exact h1.eq_of_length (by omega)

end Verif
