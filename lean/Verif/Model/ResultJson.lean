import Verif.Model.Alloc
/-!
The result of the transition tool in JSON (ethereum_spec_tools/evm_tools/t8n/t8n_types.py:326-393). A member that is not in the object, or is `null`, is `none`.
-/
namespace Verif.ResultJson
open Verif T8n Hex

/-- The objects of t8n/t8n_types.py:330-345. -/
structure ReceiptJson where
  transactionHash : Str
  succeeded : Option Bool
  postState : Option Str
  gasUsed : Str
  bloom : Str

/-- The object of t8n/t8n_types.py:347-393. Of rejected transactions only the places are modelled, and of the exception only whether there is one, not the
messages. -/
structure ResultJson where
  stateRoot : Str
  txRoot : Str
  receiptsRoot : Str
  withdrawalsRoot : Option Str
  logsHash : Str
  logsBloom : Str
  gasUsed : Str
  currentDifficulty : Option Str
  currentBaseFee : Option Str
  currentExcessBlobGas : Option Str
  blobGasUsed : Option Str
  rejected : List Nat
  receipts : List ReceiptJson
  requestsHash : Option Str
  requests : Option (List Str)
  blockException : Bool

/-- `"0x" + data.hex()`, also evm_tools/utils.py:178-187 `encode_to_hex`. -/
def encodeToHex (b : Bytes) : Str := '0' :: 'x' :: bytesHex b

/-- t8n/t8n_types.py:330-343: one receipt. -/
def receiptJson (x : Word × Receipt) : ReceiptJson where
  transactionHash := encodeToHex (wordBytes x.1)
  succeeded := match x.2.status with
    | .succeeded b => some b
    | .postState _ => none
  postState := match x.2.status with
    | .succeeded _ => none
    | .postState r => some (encodeToHex (wordBytes r))
  gasUsed := hex x.2.cumulativeGasUsed
  bloom := encodeToHex (toBE 256 x.2.bloom.toNat)

/-- t8n/t8n_types.py:361-369: `if self.base_fee:` is false for 0. -/
def unlessZero : Option Nat → Option Str
  | none => none
  | some n => if n = 0 then none else some (hex n)

/-- t8n/t8n_types.py:347-393 `Result.to_json`. A root (32 bytes) is never false; the assertion about requests holds, since `update` sets both. -/
def resultJson (r : Result) : ResultJson where
  stateRoot := encodeToHex (wordBytes r.stateRoot)
  txRoot := encodeToHex (wordBytes r.txRoot)
  receiptsRoot := encodeToHex (wordBytes r.receiptRoot)
  withdrawalsRoot := r.withdrawalsRoot.map fun w => encodeToHex (wordBytes w)
  logsHash := encodeToHex (wordBytes r.logsHash)
  logsBloom := encodeToHex (toBE 256 r.bloom.toNat)
  gasUsed := hex r.gasUsed
  currentDifficulty := unlessZero r.difficulty
  currentBaseFee := unlessZero r.baseFee
  currentExcessBlobGas := r.excessBlobGas.map fun g => hex g.toNat
  blobGasUsed := r.blobGasUsed.map hex
  rejected := r.rejected
  receipts := r.receipts.map receiptJson
  requestsHash := r.requestsHash.map fun w => encodeToHex (wordBytes w)
  requests := if r.requestsHash.isSome then r.requests.map fun l => l.map encodeToHex else none
  blockException := r.blockException

/-- An element of `all_txs` (t8n/t8n_types.py:133-151, from RLP) as RLP. -/
def bodyItem : LegacyTx ⊕ Bytes → Rlp
  | .inl t => .ofLegacyTx t
  | .inr b => .bytes b

/-- t8n/__init__.py:347-349, the output `body`, for transactions given in RLP: those that could be decoded. -/
def bodyJson (f : Fork) (txs : List (LegacyTx ⊕ Bytes)) : Str :=
  encodeToHex (Rlp.encode (.list ((txs.filter fun t => (decodeTransaction f t).isOk).map bodyItem)))

end Verif.ResultJson
