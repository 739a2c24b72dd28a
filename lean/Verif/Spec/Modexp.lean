import Verif.Model.Base
/-! What the MODEXP precompile should do (EIP-198, EIP-7823, EIP-7883), written down independently of the code. -/
namespace Verif.Spec

/-- The `len` bytes of `d` from `start` on, read as a big-endian number, with zeros past the end of `d`. -/
def number (d : Bytes) (start : Nat) : Nat → Nat
  | 0 => 0
  | len + 1 => 256 * number d start len + (d.getD (start + len) 0).toNat

/-- The request in the input: three 32-byte lengths, then base, exponent and modulus. -/
structure ModexpInput where
  baseLen : Nat
  expLen : Nat
  modLen : Nat
  base : Nat
  exp : Nat
  modulus : Nat
  /-- the first (at most 32) bytes of the exponent -/
  expHead : Nat

/-- Reading the request. -/
def modexpInput (d : Bytes) : ModexpInput :=
  let b := number d 0 32
  let e := number d 32 32
  let m := number d 64 32
  { baseLen := b, expLen := e, modLen := m
    base := number d 96 b, exp := number d (96 + b) e, modulus := number d (96 + b + e) m
    expHead := number d (96 + b) (min 32 e) }

/-- EIP-7883: the square of the number of 8-byte words (rounded up), doubled; 16 for at most 32 bytes. -/
def modexpWork (x : Nat) : Nat := if x ≤ 32 then 16 else 2 * ((x + 7) / 8 * ((x + 7) / 8))

/-- EIP-7883: position of the highest bit of the (head of the) exponent, plus 16 for each byte beyond 32, at least 1. -/
def modexpRounds (i : ModexpInput) : Nat := max 1 (16 * (i.expLen - 32) + Nat.log2 i.expHead)

/-- EIP-7883: the price. -/
def modexpPrice (i : ModexpInput) : Nat := max 500 (modexpWork (max i.baseLen i.modLen) * modexpRounds i)

/-- The number returned. -/
def modexpResult (i : ModexpInput) : Nat := if i.modulus = 0 then 0 else i.base ^ i.exp % i.modulus

/-- EIP-7823: no length above 1024 bytes. -/
def modexpFits (i : ModexpInput) : Prop := i.baseLen ≤ 1024 ∧ i.expLen ≤ 1024 ∧ i.modLen ≤ 1024

/-! Before osaka. -/

/-- EIP-198 and EIP-2565: position of the highest bit of the (head of the) exponent, plus 8 for each byte beyond 32, at least 1. -/
def modexpRoundsOld (i : ModexpInput) : Nat := max 1 (8 * (i.expLen - 32) + Nat.log2 i.expHead)

/-- EIP-198: the work of a multiplication of numbers of `x` bytes. -/
def modexpWork198 (x : Nat) : Nat :=
  if x ≤ 64 then x * x
  else if x ≤ 1024 then x * x / 4 + 96 * x - 3072
  else x * x / 16 + 480 * x - 199680

/-- EIP-198 (byzantium to muir glacier): the price. -/
def modexpPrice198 (i : ModexpInput) : Nat := modexpWork198 (max i.baseLen i.modLen) * modexpRoundsOld i / 20

/-- EIP-2565 (berlin to prague): the price, with the square of the number of 8-byte words (rounded up). -/
def modexpPrice2565 (i : ModexpInput) : Nat :=
  max 200 ((max i.baseLen i.modLen + 7) / 8 * ((max i.baseLen i.modLen + 7) / 8) * modexpRoundsOld i / 3)

end Verif.Spec
