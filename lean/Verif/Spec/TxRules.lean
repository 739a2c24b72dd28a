import Verif.Model.Fork
import Verif.Spec.Intrinsic
import Verif.Spec.Calls
/-! When a transaction may be included in a block, and what it pays; with plain numbers. -/
namespace Verif.Spec

/-- The most the sender is willing to pay per unit of gas. -/
def maxFee : Transaction → Nat
  | .legacy t => t.gasPrice
  | .accessList t => t.gasPrice
  | .feeMarket t => t.maxFeePerGas
  | .blob t => t.maxFeePerGas
  | .setCode t => t.maxFeePerGas

/-- The most the sender is willing to pay to the producer of the block, per unit of gas. -/
def maxTip : Transaction → Nat
  | .legacy t => t.gasPrice
  | .accessList t => t.gasPrice
  | .feeMarket t => t.maxPriorityFeePerGas
  | .blob t => t.maxPriorityFeePerGas
  | .setCode t => t.maxPriorityFeePerGas

/-- What goes to the producer of the block, per unit of gas. -/
def tip (baseFee : Nat) (tx : Transaction) : Nat := min (maxTip tx) (maxFee tx - baseFee)

/-- The price of a unit of gas. -/
def price (baseFee : Nat) (tx : Transaction) : Nat := baseFee + tip baseFee tx

/-- 131072 units of blob gas for each blob. -/
def blobGas (tx : Transaction) : Nat := 131072 * tx.blobHashes.length

/-- The fee for the blobs. -/
def blobFee (f : Fork) (B : BlockEnv) (tx : Transaction) : Nat := blobGas tx * calculateBlobGasPrice f B.excessBlobGas

/-- The most the sender is willing to pay per unit of blob gas. -/
def maxBlobFee : Transaction → Nat
  | .blob t => t.maxFeePerBlobGas.toNat
  | _ => 0

/-- The largest number of blobs in a block. -/
def maxBlobs (f : Fork) : Nat := if f.since .prague then 9 else if f.since .cancun then 6 else 0

/-- The rules for blob transactions; at most 6 blobs in one transaction, since osaka. -/
structure BlobRules (f : Fork) (B : BlockEnv) (t : BlobTx) : Prop where
  some : 0 < t.blobVersionedHashes.length
  limit : f.since .osaka = true → t.blobVersionedHashes.length ≤ 6
  version : ∀ h ∈ t.blobVersionedHashes, h.toNat / 2 ^ 248 = 1
  fee : calculateBlobGasPrice f B.excessBlobGas ≤ t.maxFeePerBlobGas.toNat
  recipient : t.to ≠ none

/-- The transaction may be included in a block, with so much gas and blob gas used already, and `sender` pays. -/
structure Includable (C : Crypto) (B : BlockEnv) (s : State) (gasUsed blobGasUsed : Nat) (tx : Transaction) (sender : Address) :
    Prop where
  valid : ValidTx s.fork tx
  signed : recoverSender C s.fork B.chainId tx = .ok sender
  room : gasUsed + tx.gas ≤ B.blockGasLimit
  blobRoom : s.fork.since .cancun = true → blobGasUsed + blobGas tx ≤ 131072 * maxBlobs s.fork
  blobKnown : s.fork.since .cancun = false → tx.blobHashes = []
  fee : B.baseFeePerGas ≤ maxFee tx
  tipFee : maxTip tx ≤ maxFee tx
  blob : ∀ t, tx = .blob t → BlobRules s.fork B t
  setCode : ∀ t, tx = .setCode t → t.to ≠ none ∧ t.authorizations ≠ []
  nonce : (getAccount s sender).nonce = tx.nonce.toNat
  balance : tx.gas * maxFee tx + blobGas tx * maxBlobFee tx + tx.value.toNat ≤ (getAccount s sender).balance.toNat
  code : (getAccount s sender).code = [] ∨ delegateOf s sender ≠ none

end Verif.Spec
