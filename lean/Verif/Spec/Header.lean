import Verif.Model.Fork
/-! The header rules, written down from EIP-1559, EIP-4844, EIP-7918 and the Yellow Paper, and chain histories. -/
namespace Verif.Spec

/-- A gas limit is allowed after `parent`: it differs by less than `parent / 1024`, and is at least 5000. -/
def GasLimitOK (limit parent : Nat) : Prop := ((limit : Int) - parent).natAbs < parent / 1024 ∧ 5000 ≤ limit

/-- EIP-1559: the base fee after a block with the given gas limit, gas used and base fee. -/
def nextBaseFee (limit used fee : Nat) : Nat :=
  let target := limit / 2
  if used = target then fee
  else if target < used then fee + max 1 (fee * (used - target) / target / 8)
  else fee - fee * (target - used) / target / 8

/-- EIP-4844, EIP-7691 and EIP-7918: the excess blob gas after a block; `price` is the blob base fee of that block. Target 6 and
maximum 9 blobs of 2^17 gas; in cancun the target is 3. The reserve price of EIP-7918 came with osaka. -/
def nextExcessBlobGas (f : Fork) (price excess used baseFee : Nat) : Nat :=
  let target := if f.since .prague then 6 * 2 ^ 17 else 3 * 2 ^ 17
  if excess + used < target then 0
  else if f.since .osaka ∧ 2 ^ 17 * price < 2 ^ 13 * baseFee then excess + used * (9 - 6) / 9
  else excess + used - target

/-- The excess blob gas required of a block of fork `f` on a parent of fork `pf`: zero at the first block of a fork. -/
def requiredExcessBlobGas (f pf : Fork) (parent : Header) : Nat :=
  if pf = f then
    nextExcessBlobGas f (calculateBlobGasPrice f parent.excessBlobGas) parent.excessBlobGas.toNat parent.blobGasUsed.toNat
      parent.baseFeePerGas
  else 0

/-- The rules for a header of fork `f` against its parent, of fork `pf`. -/
structure ValidHeader (C : Crypto) (f pf : Fork) (parent h : Header) : Prop where
  number : h.number = parent.number + 1
  timestamp : parent.timestamp.toNat < h.timestamp.toNat
  parentHash : h.parentHash = headerHash C pf parent
  gasLimit : GasLimitOK h.gasLimit parent.gasLimit
  gasUsed : h.gasUsed ≤ h.gasLimit
  baseFee : h.baseFeePerGas = nextBaseFee parent.gasLimit parent.gasUsed parent.baseFeePerGas
  excessBlobGas : f.since .cancun = true → h.excessBlobGas.toNat = requiredExcessBlobGas f pf parent
  extraData : h.extraData.length ≤ 32
  difficulty : h.difficulty = 0
  nonce : h.nonce = 0
  ommers : h.ommersHash = C.keccak256 (Rlp.encode (.list []))

/-- The U64 arithmetic on the parent's blob gas stays in range. -/
def BlobGasInRange (parent : Header) : Prop :=
  parent.excessBlobGas.toNat + parent.blobGasUsed.toNat < 2 ^ 64 ∧ parent.blobGasUsed.toNat * 3 < 2 ^ 64

/-- Every block of the list, except the first, is a valid successor of the one before it. -/
def Linked (C : Crypto) (l : List ChainBlock) : Prop :=
  ∀ i a b, l[i]? = some a → l[i + 1]? = some b → ValidHeader C b.fork a.fork a.block.header b.block.header

/-- A history: `chain'` results from importing the blocks one after the other into `chain`, each under the rules of the fork in force.
Between two blocks the chain may move on to a later fork. -/
inductive Imports (C : Crypto) : BlockChain → List ChainBlock → BlockChain → Prop where
  | nil (chain : BlockChain) : Imports C chain [] chain
  | cons {chain mid chain' : BlockChain} {b : Block} {bs : List ChainBlock} (h : stateTransition C chain b = .ok mid)
      (t : Imports C mid bs chain') : Imports C chain (⟨chain.state.fork, b⟩ :: bs) chain'
  | upgrade {chain chain' : BlockChain} {bs : List ChainBlock} (f : Fork) (hf : f.since chain.state.fork = true)
      (t : Imports C (applyFork f chain) bs chain') : Imports C chain bs chain'

end Verif.Spec
