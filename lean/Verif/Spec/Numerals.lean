import Verif.Model.Base
/-! Numerals: what strings of digits denote. -/
namespace Verif.Spec

/-- The value of a character as a digit; 16 or more if it is none. -/
def digitValue (c : Char) : Nat :=
  if '0' ≤ c ∧ c ≤ '9' then c.toNat - '0'.toNat
  else if 'a' ≤ c ∧ c ≤ 'f' then c.toNat - 'a'.toNat + 10
  else if 'A' ≤ c ∧ c ≤ 'F' then c.toNat - 'A'.toNat + 10
  else 16

/-- Only digits of the base occur. -/
def Numeral (base : Nat) (s : List Char) : Prop := ∀ c ∈ s, digitValue c < base

instance (base : Nat) (s : List Char) : Decidable (Numeral base s) := inferInstanceAs (Decidable (∀ c ∈ s, _))

/-- The number a string of digits denotes, most significant digit first. -/
def numeralValue (base : Nat) : List Char → Nat
  | [] => 0
  | c :: r => digitValue c * base ^ r.length + numeralValue base r

/-- `t` is what follows the prefix `0x` of `s`, if there is one. -/
def Body (s t : List Char) : Prop := s = '0' :: 'x' :: t ∨ (s = t ∧ ∀ r, s ≠ '0' :: 'x' :: r)

end Verif.Spec
