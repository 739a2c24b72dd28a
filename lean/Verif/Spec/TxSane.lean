import Verif.Spec.Sane
import Verif.Spec.TxOutcome
import Verif.Spec.Header
/-! What is assumed of a block and a state when a transaction may fail in no other way than by being rejected (C26). -/
namespace Verif.Spec

/-- A bound for the gas limit of a block. Since osaka the gas of a transaction has its own cap, before it has not. -/
def gasLimitBound (f : Fork) : Nat := if f.since .osaka then 2 ^ 256 else 2 ^ 60

/-- The numbers of the block fit 256-bit words, and the history is long enough. -/
structure BlockFits (f : Fork) (B : BlockEnv) : Prop where
  number : B.number < 2 ^ 256
  gasLimit : B.blockGasLimit < gasLimitBound f
  baseFee : B.baseFeePerGas < 2 ^ 256
  blobPrice : calculateBlobGasPrice f B.excessBlobGas < 2 ^ 256
  hashes : min 256 B.number ≤ B.blockHashes.length
  difficulty : B.difficulty < 2 ^ 256

/-- The total ether is within its limit, and no code is absurdly long. -/
structure StateFits (s : State) : Prop where
  supply : Verif.supply s < supplyLimit s.fork
  codes : ∀ a, (getAccount s a).code.length < 2 ^ 240

/-- What has been used in the block so far is within its limits. -/
structure Within (f : Fork) (B : BlockEnv) (out : BlockOutput) : Prop where
  gas : out.blockGasUsed ≤ B.blockGasLimit
  blobGas : f.since .cancun = true → out.blobGasUsed ≤ 131072 * maxBlobs f

/-- `InvalidBlock`, or `InvalidTransaction` or a subclass of it. -/
def Declared (e : BlockExn) : Prop := e = .invalidBlock ∨ ∃ x, e = .invalidTx x

/-- A declared rejection, or an error of decoding one of the transactions. -/
def Refused (e : BlockExn) : Prop := Declared e ∨ ∃ d, e = .decode d

/-- The one internal error that can escape: the `OverflowError` of the precompile MODEXP, from byzantium to prague (C65). -/
def Tolerated (f : Fork) (e : BlockExn) : Prop := OldModexp f ∧ e = .exn (.crash .overflowError)

/-- The numbers of a header fit 256-bit words, and so does the price of blob gas. -/
structure HeaderFits (f : Fork) (h : Header) : Prop where
  number : h.number < 2 ^ 256
  gasLimit : h.gasLimit < gasLimitBound f
  baseFee : h.baseFeePerGas < 2 ^ 256
  blobPrice : calculateBlobGasPrice f h.excessBlobGas < 2 ^ 256

/-- A chain between two imports: the fork is one with proof of stake, there is a last block, the blocks kept reach back to the first one or are 255, the
ether fits a word, and no code is absurdly long. -/
structure ChainFits (chain : BlockChain) : Prop where
  last : ∃ p, chain.blocks.getLast? = some p ∧ (p.fork.since .cancun = true → BlobGasInRange p.block.header) ∧
    (p.block.header.number ≤ chain.blocks.length ∨ 255 ≤ chain.blocks.length)
  fork : chain.state.fork.since .paris = true
  idle : Idle chain.state
  fits : StateFits chain.state

end Verif.Spec
