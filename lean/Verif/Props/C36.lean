import Verif.Lemmas.HexPrefix
/-! C36: hex-prefix encoding and nibble lists. -/
namespace Verif
open Spec

/-- C36: the compact form of any list of nibbles, with its leaf flag, decodes to that list and flag. -/
theorem C36_decode (x : Bytes) (leaf : Bool) (hx : ∀ n ∈ x, n < 16) :
    hexPrefixDecode (nibbleListToCompact x leaf) = some (x, leaf) := compact_decode x leaf hx

/-- C36: so it is injective in both. -/
theorem C36_injective (x y : Bytes) (p q : Bool) (hx : ∀ n ∈ x, n < 16) (hy : ∀ n ∈ y, n < 16)
    (h : nibbleListToCompact x p = nibbleListToCompact y q) : x = y ∧ p = q := by
  have h1 := compact_decode x p hx
  rw [h, compact_decode y q hy] at h1
  have := Option.some.inj h1
  exact ⟨(congrArg Prod.fst this).symm, (congrArg Prod.snd this).symm⟩

example : (∀ n ∈ ([1, 2, 15] : Bytes), n < 16) ∧ nibbleListToCompact [1, 2, 15] true = [0x31, 0x2f] ∧
    nibbleListToCompact [1, 2, 15, 0] false = [0x00, 0x12, 0xf0] := by decide +kernel

/-- C36: splitting bytes into nibbles gives two nibbles below 16 per byte, the high one first; it is injective and one
nibble list is a prefix of another exactly if the byte strings are. -/
theorem C36_nibbles (a b : Bytes) :
    (∀ n ∈ bytesToNibbleList a, n < 16) ∧ bytesToNibbleList a = a.flatMap (fun x => [x / 16, x % 16]) ∧
    (bytesToNibbleList a = bytesToNibbleList b → a = b) ∧
    (bytesToNibbleList a <+: bytesToNibbleList b ↔ a <+: b) :=
  ⟨bytesToNibbleList_nibbles a, bytesToNibbleList_eq a, bytesToNibbleList_inj, bytesToNibbleList_prefix a b⟩

end Verif
