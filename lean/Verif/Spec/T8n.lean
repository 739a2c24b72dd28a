import Verif.Model.T8n
import Verif.Spec.TxSane
import Verif.Spec.TxRules
import Verif.Spec.MinedSane
/-! What the transition tool is asked to do, in terms of blocks (C80). -/
namespace Verif.Spec
open Verif.T8n Verif.Pow Ethash

/-- The hash of the block `i` blocks before the last one of the chain: that of the last is computed, the others stand in the
block that follows. -/
def hashBack (C : Crypto) (chain : BlockChain) : Nat → Option Word
  | 0 => chain.blocks.getLast?.map fun p => headerHash C p.fork p.block.header
  | i + 1 => chain.blocks.reverse[i]?.map fun p => p.block.header.parentHash

/-- The input of the tool describes the block `b`, the next one of the chain. The base fee and the excess blob gas are given, or the
values of the parent from which they follow; a parent block of an older fork has no blob gas that counts. A value that the headers of the fork
do not have is 0 in the model. -/
structure Describes (C : Crypto) (chain : BlockChain) (b : Block) (d : EnvData) : Prop where
  coinbase : d.currentCoinbase = b.header.coinbase
  gasLimit : d.currentGasLimit = b.header.gasLimit
  number : d.currentNumber = b.header.number
  timestamp : d.currentTimestamp = b.header.timestamp
  random : d.currentRandom = b.header.prevRandao
  hashes : ∀ i, i < min 256 b.header.number → d.blockHashes (b.header.number - 1 - i) = hashBack C chain i
  baseFee : d.currentBaseFee = some b.header.baseFeePerGas ∨
    d.currentBaseFee = none ∧ ∃ p, chain.blocks.getLast? = some p ∧ d.parentGasLimit = some p.block.header.gasLimit ∧
      d.parentGasUsed = some p.block.header.gasUsed ∧ d.parentBaseFee = some p.block.header.baseFeePerGas
  withdrawals : chain.state.fork.since .shanghai = true → d.withdrawals = b.withdrawals
  beacon : chain.state.fork.since .cancun = true → d.parentBeaconBlockRoot = b.header.parentBeaconBlockRoot
  excess : chain.state.fork.since .cancun = true → d.currentExcessBlobGas = some b.header.excessBlobGas ∨
    d.currentExcessBlobGas = none ∧ ∃ p, chain.blocks.getLast? = some p ∧
      (p.fork = chain.state.fork ∧ d.parentExcessBlobGas = some p.block.header.excessBlobGas ∧
          d.parentBlobGasUsed = some p.block.header.blobGasUsed ∧ d.parentBaseFee = some p.block.header.baseFeePerGas ∨
        p.fork ≠ chain.state.fork ∧ d.parentExcessBlobGas = none ∧ d.parentBlobGasUsed = none)
  absent : chain.state.fork.since .cancun = false → b.header.excessBlobGas = 0 ∧ b.header.parentBeaconBlockRoot = 0

/-- The same for a chain with proof of work. -/
def minedBack {T : Type} (K : Hashes) (chain : PowChain T) : Nat → Option Word
  | 0 => chain.blocks.getLast?.map fun p => powHash K p.header
  | i + 1 => chain.blocks.reverse[i]?.map fun p => p.header.parentHash

/-- The input of the tool describes a block with the header `h`, the next one of a chain with proof of work. The difficulty is given, or the values of the
parent `p` from which it follows; so is the base fee, but for the first block of london it has to be given. -/
structure DescribesMined {T : Type} (C : Crypto) (K : Hashes) (F : PowFork) (chain : PowChain T) (p h : PowHeader) (d : EnvData) : Prop where
  parent : chain.blocks.getLast?.map PowBlock.header = some p
  next : h.number = p.number + 1
  coinbase : d.currentCoinbase = h.coinbase
  gasLimit : d.currentGasLimit = h.gasLimit
  number : d.currentNumber = h.number
  timestamp : d.currentTimestamp = h.timestamp
  hashes : ∀ i, i < min 256 h.number → d.blockHashes (h.number - 1 - i) = minedBack K chain i
  difficulty : d.currentDifficulty = some h.difficulty ∨
    d.currentDifficulty = none ∧ d.parentTimestamp = some p.timestamp ∧ d.parentDifficulty = some p.difficulty ∧
      (F.fork.since .byzantium = true →
        d.parentUncleHash = some p.ommersHash ∨ d.parentUncleHash = none ∧ p.ommersHash = C.keccak256 (Rlp.encode (.list [])))
  baseFee : F.fork.since .london = true → (∃ fee, h.baseFeePerGas = some fee ∧ d.currentBaseFee = some fee) ∨
    d.currentBaseFee = none ∧ h.number ≠ 12965000 ∧ d.parentGasLimit = some p.gasLimit ∧ d.parentGasUsed = some p.gasUsed ∧
      ∃ fee, p.baseFeePerGas = some fee ∧ d.parentBaseFee = some fee
  absent : F.fork.since .london = false → h.baseFeePerGas = none

/-- The two system calls at the start of a block lead to the same state in either order. -/
def CallsCommute (C : Crypto) (B : BlockEnv) (s : State) : Prop :=
  ∀ s', (∃ s1, storeBeaconRoot C B s = .ok s1 ∧ storeParentHash C B s1 = .ok s') ↔
    (∃ s1, storeParentHash C B s = .ok s1 ∧ storeBeaconRoot C B s1 = .ok s')

/-- The result of the tool is what the header of a block of fork `f` says. -/
structure Reports (f : Fork) (r : Result) (h : Header) : Prop where
  gasUsed : r.gasUsed = h.gasUsed
  txRoot : r.txRoot = h.transactionsRoot
  receiptRoot : r.receiptRoot = h.receiptRoot
  bloom : r.bloom = h.bloom
  stateRoot : r.stateRoot = h.stateRoot
  baseFee : r.baseFee = some h.baseFeePerGas
  withdrawalsRoot : r.withdrawalsRoot = if f.since .shanghai then some h.withdrawalsRoot else none
  excessBlobGas : r.excessBlobGas = if f.since .cancun then some h.excessBlobGas else none
  requestsHash : r.requestsHash = if f.since .prague then some h.requestsHash else none

/-- The result of the tool is what the header of a mined block says. -/
structure ReportsMined (F : PowFork) (r : Result) (h : PowHeader) : Prop where
  gasUsed : r.gasUsed = h.gasUsed
  txRoot : r.txRoot = h.transactionsRoot
  receiptRoot : r.receiptRoot = h.receiptRoot
  bloom : r.bloom = h.bloom
  stateRoot : r.stateRoot = h.stateRoot
  difficulty : r.difficulty = some h.difficulty
  baseFee : r.baseFee = h.baseFeePerGas

/-- Nothing was rejected, and the block as a whole was not found invalid. -/
structure AllAccepted (r : Result) : Prop where
  rejected : r.rejected = []
  exception : r.blockException = false

/-- A transaction of the list `txs` given to the tool: the fork knows its type, and its blob gas fits 64 bits. The list gives the places of the
transactions in the input, which are different numbers of 64 bits. -/
structure Inputs (f : Fork) (txs : List (Nat × Transaction)) : Prop where
  known : ∀ x ∈ txs, (∃ t, x.2 = .legacy t) ∨ f.since .berlin = true
  blobs : ∀ x ∈ txs, 131072 * x.2.blobHashes.length < 2 ^ 64
  places : (txs.map Prod.fst).Nodup
  small : ∀ x ∈ txs, x.1 < 2 ^ 64

/-- All the transactions, put into a trie under their places. -/
def allTransactions (txs : List (Nat × Transaction)) : Trie Bytes (Option (LegacyTx ⊕ Bytes)) :=
  txs.foldl (fun t x => trieSet t (indexKey x.1) (some (encodeTransaction x.2))) BlockOutput.empty.transactionsTrie

end Verif.Spec
