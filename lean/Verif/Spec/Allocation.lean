import Verif.Model.Genesis
import Verif.Spec.Numerals
import Verif.Spec.Supply
/-! What the accounts of a genesis configuration denote, and the state they describe. -/
namespace Verif.Spec
open Genesis Hex

/-- Element by element. -/
inductive Matched {α β : Type} (R : α → β → Prop) : List α → List β → Prop where
  | nil : Matched R [] []
  | cons {a b l m} (h : R a b) (t : Matched R l m) : Matched R (a :: l) (b :: m)

/-- An account of the configuration. -/
structure Allotment where
  address : Address
  account : Account
  slots : List (Word × Word)

/-- A hexadecimal string denotes a number. -/
def HexNumber (s : Str) (n : Nat) : Prop := ∃ t, Body s t ∧ t ≠ [] ∧ Numeral 16 t ∧ n = numeralValue 16 t

/-- An amount: hexadecimal behind `0x`, else decimal. -/
def Amount (s : Str) (n : Nat) : Prop :=
  (∃ t, s = '0' :: 'x' :: t ∧ t ≠ [] ∧ Numeral 16 t ∧ n = numeralValue 16 t) ∨
  ((∀ t, s ≠ '0' :: 'x' :: t) ∧ s ≠ [] ∧ Numeral 10 s ∧ n = numeralValue 10 s)

/-- A key (at most 64 digits) and a value of the storage. -/
def SlotDenotes (e : Str × Str) (x : Word × Word) : Prop :=
  (∃ t, Body e.1 t ∧ Numeral 16 t ∧ t.length ≤ 64 ∧ x.1.toNat = numeralValue 16 t) ∧ HexNumber e.2 x.2.toNat

/-- The entry `e` of the configuration denotes the account `x`: an address of at most 40 digits, a decimal nonce (0 if absent), an
amount, which must be present, the code in bytes (none if absent), and the storage. -/
structure Denotes (e : Str × AccountData) (x : Allotment) : Prop where
  address : ∃ t, Body e.1 t ∧ Numeral 16 t ∧ t.length ≤ 40 ∧ x.address.toNat = numeralValue 16 t
  nonce : e.2.nonce.getD ['0'] ≠ [] ∧ Numeral 10 (e.2.nonce.getD ['0']) ∧ x.account.nonce = numeralValue 10 (e.2.nonce.getD ['0'])
  balance : ∃ b, e.2.balance = some b ∧ Amount b x.account.balance.toNat
  code : ∃ t, Body (e.2.code.getD ['0', 'x']) t ∧ Numeral 16 t ∧ t.length = 2 * x.account.code.length ∧
    fromBE x.account.code = numeralValue 16 t
  slots : Matched SlotDenotes e.2.storage x.slots

/-- The account at an address: the last one allotted to it. -/
def allotted (xs : List Allotment) (a : Address) : Option Account := (xs.reverse.find? fun x => x.address = a).map (·.account)

/-- All values written to storage, in order. -/
def writes (xs : List Allotment) : List (Address × Word × Word) := xs.flatMap fun x => x.slots.map fun y => (x.address, y)

/-- The value of a slot: the last one written to it, or 0. -/
def written (ws : List (Address × Word × Word)) (a : Address) (k : Word) : Word :=
  ((ws.reverse.find? fun w => w.1 = a ∧ w.2.1 = k).map (·.2.2)).getD 0

end Verif.Spec
