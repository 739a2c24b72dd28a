import Verif.Model.Transactions
/-! The cost of a transaction before it runs: EIP-2, 2028, 2930, 3860, 7623, 7702, with plain numbers. -/
namespace Verif.Spec

/-- The number of zero bytes. -/
def zeros (data : Bytes) : Nat := (data.filter (· = 0)).length
/-- The number of other bytes. -/
def nonZeros (data : Bytes) : Nat := (data.filter (· ≠ 0)).length

/-- 2400 per address and 1900 per storage key of an access list. -/
def accessListCost : List Access → Nat
  | [] => 0
  | a :: r => 2400 + 1900 * a.slots.length + accessListCost r

/-- The intrinsic gas: 68 for a byte that is not zero until istanbul (EIP-2028), 32000 for a creation since homestead (EIP-2), and
a charge for init code since shanghai (EIP-3860). -/
def intrinsicGas (f : Fork) (tx : Transaction) : Nat :=
  21000 + 4 * zeros tx.data + (if f.since .istanbul then 16 else 68) * nonZeros tx.data +
    (if f.since .homestead ∧ tx.to = none then 32000 + (if f.since .shanghai then 2 * ((tx.data.length + 31) / 32) else 0) else 0) +
    accessListCost tx.accesses + 25000 * tx.authorizations.length

/-- The floor of EIP-7623, since prague. -/
def floorGas (f : Fork) (tx : Transaction) : Nat :=
  if f.since .prague then 21000 + 10 * zeros tx.data + 40 * nonZeros tx.data else 0

/-- The conditions of `validate_transaction`. -/
structure ValidTx (f : Fork) (tx : Transaction) : Prop where
  gas : intrinsicGas f tx ≤ tx.gas
  floor : floorGas f tx ≤ tx.gas
  nonce : tx.nonce.toNat < 2 ^ 64 - 1
  initCode : f.since .shanghai = true → tx.to = none → tx.data.length ≤ 49152
  cap : f.since .osaka = true → tx.gas ≤ 2 ^ 24

end Verif.Spec
