import Verif.Model.ResultJson
import Verif.Model.B11r
import Verif.Spec.TxJson
import Verif.Spec.B11r
/-! What the output of the transition tool in JSON says. -/
namespace Verif.Spec
open Verif Pow T8n ResultJson

/-- The string writes the bytes, with the prefix `0x`. -/
def PrintsBytes (s : List Char) (b : Bytes) : Prop := (∃ t, s = '0' :: 'x' :: t) ∧ WritesBytes s b

/-- The string writes the number in hexadecimal, with the prefix `0x`. -/
def PrintsHex (s : List Char) (n : Nat) : Prop := (∃ t, s = '0' :: 'x' :: t) ∧ WritesHex s n

/-- The string, if there is one, writes the number, if there is one. -/
def PrintsNumber : Option Nat → Option (List Char) → Prop
  | none, none => True
  | some n, some s => PrintsHex s n
  | _, _ => False

/-- The same, but 0 is not written. -/
def PrintsPositive (o : Option Nat) (s : Option (List Char)) : Prop := PrintsNumber (if o = some 0 then none else o) s

/-- The string, if there is one, writes the 32 bytes, if there are any. -/
def PrintsWord : Option Word → Option (List Char) → Prop
  | none, none => True
  | some w, some s => PrintsBytes s (wordBytes w)
  | _, _ => False

/-- The object says the receipt, without its logs, and the hash of the transaction. -/
structure PrintsReceipt (j : ReceiptJson) (x : Word × Receipt) : Prop where
  hash : PrintsBytes j.transactionHash (wordBytes x.1)
  succeeded : ∀ b, x.2.status = .succeeded b → j.succeeded = some b ∧ j.postState = none
  postState : ∀ w, x.2.status = .postState w → j.succeeded = none ∧ PrintsWord (some w) j.postState
  gasUsed : PrintsHex j.gasUsed x.2.cumulativeGasUsed
  bloom : PrintsBytes j.bloom (toBE 256 x.2.bloom.toNat)

/-- The object says the result. -/
structure Prints (j : ResultJson) (r : Result) : Prop where
  stateRoot : PrintsBytes j.stateRoot (wordBytes r.stateRoot)
  txRoot : PrintsBytes j.txRoot (wordBytes r.txRoot)
  receiptsRoot : PrintsBytes j.receiptsRoot (wordBytes r.receiptRoot)
  withdrawalsRoot : PrintsWord r.withdrawalsRoot j.withdrawalsRoot
  logsHash : PrintsBytes j.logsHash (wordBytes r.logsHash)
  logsBloom : PrintsBytes j.logsBloom (toBE 256 r.bloom.toNat)
  gasUsed : PrintsHex j.gasUsed r.gasUsed
  difficulty : PrintsPositive r.difficulty j.currentDifficulty
  baseFee : PrintsPositive r.baseFee j.currentBaseFee
  excessBlobGas : PrintsNumber (r.excessBlobGas.map BitVec.toNat) j.currentExcessBlobGas
  blobGasUsed : PrintsNumber r.blobGasUsed j.blobGasUsed
  rejected : j.rejected = r.rejected
  receipts : Each PrintsReceipt j.receipts r.receipts
  requestsHash : PrintsWord r.requestsHash j.requestsHash
  requests : r.requestsHash.isSome = true → ∀ l, r.requests = some l → ∃ l', j.requests = some l' ∧ Each PrintsBytes l' l
  exception : j.blockException = r.blockException

/-- The object says what the header of a block of a fork with proof of stake says, and that nothing was refused. -/
structure PrintsHeader (f : Fork) (j : ResultJson) (h : Header) : Prop where
  stateRoot : PrintsBytes j.stateRoot (wordBytes h.stateRoot)
  txRoot : PrintsBytes j.txRoot (wordBytes h.transactionsRoot)
  receiptsRoot : PrintsBytes j.receiptsRoot (wordBytes h.receiptRoot)
  withdrawalsRoot : PrintsWord (if f.since .shanghai then some h.withdrawalsRoot else none) j.withdrawalsRoot
  logsBloom : PrintsBytes j.logsBloom (toBE 256 h.bloom.toNat)
  gasUsed : PrintsHex j.gasUsed h.gasUsed
  baseFee : PrintsPositive (some h.baseFeePerGas) j.currentBaseFee
  excessBlobGas : PrintsNumber (if f.since .cancun then some h.excessBlobGas.toNat else none) j.currentExcessBlobGas
  requestsHash : PrintsWord (if f.since .prague then some h.requestsHash else none) j.requestsHash
  rejected : j.rejected = []
  exception : j.blockException = false

/-- Two results that say the same: they agree in everything but the logs of the receipts, and a base fee or a difficulty of 0 is like none. -/
structure SameReport (r r' : Result) : Prop where
  stateRoot : r.stateRoot = r'.stateRoot
  txRoot : r.txRoot = r'.txRoot
  receiptRoot : r.receiptRoot = r'.receiptRoot
  withdrawalsRoot : r.withdrawalsRoot = r'.withdrawalsRoot
  logsHash : r.logsHash = r'.logsHash
  bloom : r.bloom = r'.bloom
  gasUsed : r.gasUsed = r'.gasUsed
  difficulty : r.difficulty.getD 0 = r'.difficulty.getD 0
  baseFee : r.baseFee.getD 0 = r'.baseFee.getD 0
  excessBlobGas : r.excessBlobGas = r'.excessBlobGas
  blobGasUsed : r.blobGasUsed = r'.blobGasUsed
  rejected : r.rejected = r'.rejected
  receipts : Each (fun x y => x.1 = y.1 ∧ x.2.status = y.2.status ∧ x.2.cumulativeGasUsed = y.2.cumulativeGasUsed ∧ x.2.bloom = y.2.bloom) r.receipts r'.receipts
  requestsHash : r.requestsHash = r'.requestsHash
  requests : r.requestsHash.isSome = true → ∀ l l', r.requests = some l → r'.requests = some l' → l = l'
  exception : r.blockException = r'.blockException

/-- A header for the block builder: what the transition tool printed, and the rest from elsewhere. -/
def fromResult (j : ResultJson) (rest : B11r.HeaderData) : B11r.HeaderData :=
  { rest with
    stateRoot := some j.stateRoot
    transactionsRoot := some j.txRoot
    receiptsRoot := some j.receiptsRoot
    logsBloom := some j.logsBloom
    gasUsed := some (.inl j.gasUsed)
    baseFeePerGas := j.currentBaseFee.map .inl
    withdrawalsRoot := j.withdrawalsRoot }

/-- The members of a header that the transition tool does not print, written the usual way. -/
def restOf (h : PowHeader) : B11r.HeaderData where
  parentHash := some (writtenBytes (wordBytes h.parentHash))
  ommersHash := some (writtenBytes (wordBytes h.ommersHash))
  miner := some (writtenBytes (addressBytes h.coinbase))
  stateRoot := none
  transactionsRoot := none
  receiptsRoot := none
  logsBloom := none
  difficulty := some (writtenNumber h.difficulty)
  number := some (writtenNumber h.number)
  gasLimit := some (writtenNumber h.gasLimit)
  gasUsed := none
  timestamp := some (writtenNumber h.timestamp.toNat)
  extraData := some (writtenBytes h.extraData)
  mixHash := some (writtenBytes (wordBytes h.mixDigest))
  nonce := some (writtenBytes (toBE 8 h.nonce.toNat))
  baseFeePerGas := none
  withdrawalsRoot := none

end Verif.Spec
