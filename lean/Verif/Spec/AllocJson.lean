import Verif.Spec.Allocation
/-! What the accounts in the input of the transition tool denote. -/
namespace Verif.Spec
open Genesis Hex

/-- A number: hexadecimal behind `0x`, or behind two of them, else decimal. -/
def ToolNumber (s : Str) (n : Nat) : Prop :=
  Amount s n ∨ ∃ t, s = '0' :: 'x' :: '0' :: 'x' :: t ∧ t ≠ [] ∧ Numeral 16 t ∧ n = numeralValue 16 t

/-- At most 64 hexadecimal digits that denote a word. -/
def HexWord (s : Str) (x : Word) : Prop := ∃ t, Body s t ∧ Numeral 16 t ∧ t.length ≤ 64 ∧ x.toNat = numeralValue 16 t

/-- The member `e` of the input denotes the account `x`: an address of at most 40 digits; the nonce and the balance, 0 if absent; the code in bytes, which
must have the prefix unless it is empty or absent; and the storage. -/
structure AllocDenotes (e : Str × AccountData) (x : Allotment) : Prop where
  address : ∃ t, Body e.1 t ∧ Numeral 16 t ∧ t.length ≤ 40 ∧ x.address.toNat = numeralValue 16 t
  nonce : ToolNumber (e.2.nonce.getD ['0', 'x', '0']) x.account.nonce
  balance : ToolNumber (e.2.balance.getD ['0', 'x', '0']) x.account.balance.toNat
  code : (e.2.code.getD [] = [] ∧ x.account.code = []) ∨ ∃ t, e.2.code.getD [] = '0' :: 'x' :: t ∧ Numeral 16 t ∧
    t.length = 2 * x.account.code.length ∧ fromBE x.account.code = numeralValue 16 t
  slots : Matched (fun y z => HexWord y.1 z.1 ∧ HexWord y.2 z.2) e.2.storage x.slots

end Verif.Spec
