import Verif.Model.Pow
import Verif.Spec.Header
/-! The rules for proof-of-work headers and ommers, written down from the Yellow Paper, EIP-779, EIP-1559 and EIP-100. -/
namespace Verif.Spec
open Pow Ethash

/-- The rule for the gas limit and the base fee. Before london a header has to keep near the parent's gas limit. From london on
it also has the base fee EIP-1559 gives; the very first block of london starts with 10^9 wei instead (and its gas limit is
not compared with the parent's). -/
def PowFees (F : PowFork) (parent h : PowHeader) : Prop :=
  match F with
  | .london =>
    (h.number = 12965000 → h.baseFeePerGas = some 1000000000) ∧
    (h.number ≠ 12965000 → GasLimitOK h.gasLimit parent.gasLimit ∧
      ∃ fee, parent.baseFeePerGas = some fee ∧ h.baseFeePerGas = some (nextBaseFee parent.gasLimit parent.gasUsed fee))
  | .arrowGlacier | .grayGlacier =>
    GasLimitOK h.gasLimit parent.gasLimit ∧
    ∃ fee, parent.baseFeePerGas = some fee ∧ h.baseFeePerGas = some (nextBaseFee parent.gasLimit parent.gasUsed fee)
  | _ => GasLimitOK h.gasLimit parent.gasLimit

/-- The proof of work of a header: with the cache and the dataset size of its number, `hashimoto` of the hash of the other
fields and the nonce gives its mix digest, and a result which, as a number, times the difficulty does not exceed 2^256. -/
def PowSealed (K : Hashes) (h : PowHeader) : Prop :=
  ∃ cache size result, generateCache K h.number = some cache ∧ datasetSize h.number = some size ∧
    hashimotoLight K (headerHashForPow K h) (toBE 8 h.nonce.toNat) cache size = some (toBE 32 h.mixDigest.toNat, result) ∧
    fromBE result * h.difficulty ≤ 2 ^ 256

/-- The rules for a header against its parent. The difficulty is the subject of C46. -/
structure PowRules (K : Hashes) (F : PowFork) (parent h : PowHeader) : Prop where
  number : h.number = parent.number + 1
  parentHash : h.parentHash = powHash K parent
  timestamp : parent.timestamp.toNat < h.timestamp.toNat
  gasUsed : h.gasUsed ≤ h.gasLimit
  fees : PowFees F parent h
  extraData : h.extraData.length ≤ 32
  difficulty : calculateBlockDifficulty F h.number h.timestamp parent.timestamp parent.difficulty
    (parent.ommersHash ≠ K.keccak256 (Rlp.encode (.list []))) = some h.difficulty
  /-- Blocks 1920000 to 1920009 of the DAO fork carry `dao-hard-fork`. -/
  dao : F = .daoFork → 1920000 ≤ h.number → h.number ≤ 1920009 → h.extraData = "dao-hard-fork".toUTF8.toList
  proofOfWork : PowSealed K h

/-- The blocks of the list have consecutive numbers. -/
def Numbered {T : Type} (l : List (PowBlock T)) : Prop := ∃ k, ∀ (i : Nat) (b : PowBlock T), l[i]? = some b → b.header.number = k + i

/-- Moreover each block names the hash of the one before it. -/
def PowLinked {T : Type} (K : Hashes) (l : List (PowBlock T)) : Prop :=
  Numbered l ∧ ∀ (i : Nat) (a b : PowBlock T), l[i]? = some a → l[i + 1]? = some b → b.header.parentHash = powHash K a.header

/-- The last seven blocks of a chain. -/
def Recent {T : Type} (l : List (PowBlock T)) (b : PowBlock T) : Prop := b ∈ l.drop (l.length - 7)

/-- The rules for one ommer of a block. -/
structure OmmerRules {T : Type} (K : Hashes) (F : PowFork) (chain : List (PowBlock T)) (block ommer : PowHeader) : Prop where
  /-- It is a valid header with a parent in the chain. -/
  header : ∃ p ∈ chain, PowRules K F p.header ommer
  /-- It is one to six generations older than the block. -/
  younger : ommer.number < block.number
  older : block.number ≤ ommer.number + 6
  /-- It is not the block itself, no recent block and no ommer of a recent block. -/
  other : powHash K ommer ≠ powHash K block
  notBlock : ∀ b, Recent chain b → powHash K ommer ≠ powHash K b.header
  notOmmer : ∀ b, Recent chain b → ∀ o ∈ b.ommers, powHash K ommer ≠ powHash K o
  /-- Its parent is a recent block, but not the parent of the block. -/
  parent : ∃ b, Recent chain b ∧ ommer.parentHash = powHash K b.header
  nephew : ommer.parentHash ≠ block.parentHash

/-- What the miner of a block with `n` ommers gets, and what the miner of an ommer of the given age gets. -/
def minerReward (R n : Nat) : Nat := R + n * (R / 32)
def ommerReward (R age : Nat) : Nat := (8 - age) * R / 8

/-- The block reward: 5 ether up to spurious dragon, 3 in byzantium, 2 afterwards. -/
def blockRewards : PowFork → Nat
  | .frontier | .homestead | .daoFork | .tangerineWhistle | .spuriousDragon => 5000000000000000000
  | .byzantium => 3000000000000000000
  | _ => 2000000000000000000

end Verif.Spec
