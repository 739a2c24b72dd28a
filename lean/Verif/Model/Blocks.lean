import Verif.Model.Transactions
/-
osaka/blocks.py, osaka/bloom.py, osaka/requests.py (without the loop over the receipts trie).
Hashes and roots are identified with 256-bit numbers, a bloom with a 2048-bit and a header nonce with a 64-bit number.
-/
namespace Verif

/-- osaka/blocks.py:31-61 `Withdrawal`. -/
structure Withdrawal where
  index : U64
  validatorIndex : U64
  address : Address
  amount : Word
  deriving DecidableEq, Repr

/-- osaka/blocks.py:64-241 `Header`. The classes of older forks lack the last fields (`Rlp.ofHeader` says which); for an object of such
a class these fields mean nothing. -/
structure Header where
  parentHash : Word
  ommersHash : Word
  coinbase : Address
  stateRoot : Word
  transactionsRoot : Word
  receiptRoot : Word
  bloom : BitVec 2048
  difficulty : Nat
  number : Nat
  gasLimit : Nat
  gasUsed : Nat
  timestamp : Word
  extraData : Bytes
  prevRandao : Word
  nonce : BitVec 64
  baseFeePerGas : Nat
  withdrawalsRoot : Word
  blobGasUsed : U64
  excessBlobGas : U64
  parentBeaconBlockRoot : Word
  requestsHash : Word
  deriving DecidableEq, Repr

/-- osaka/blocks.py:244-294 `Block`. Before shanghai there is no field `withdrawals`. -/
structure Block where
  header : Header
  transactions : List (LegacyTx ⊕ Bytes)
  ommers : List Header
  withdrawals : List Withdrawal
  deriving DecidableEq, Repr

/-- The first field of a receipt: `succeeded` since byzantium, before that `post_state`, the state root after the transaction
(spurious_dragon/blocks.py:236-264). -/
inductive ReceiptStatus where
  | succeeded (b : Bool)
  | postState (root : Word)
  deriving DecidableEq, Repr

/-- osaka/blocks.py:329-358 `Receipt`. -/
structure Receipt where
  status : ReceiptStatus
  cumulativeGasUsed : Nat
  bloom : BitVec 2048
  logs : List Log
  deriving DecidableEq, Repr

namespace Rlp
/-- A bloom: 256 bytes. -/
def ofBloom (b : BitVec 2048) : Rlp := .bytes (toBE 256 b.toNat)
/-- A header of the given fork's class: the last field is `base_fee_per_gas` in paris, `withdrawals_root` in shanghai,
`parent_beacon_block_root` in cancun, `requests_hash` from prague on (src/ethereum/<fork>/blocks.py). -/
def ofHeader (f : Fork) (h : Header) : Rlp :=
  .list ([.ofWord32 h.parentHash, .ofWord32 h.ommersHash, .ofAddress h.coinbase, .ofWord32 h.stateRoot,
    .ofWord32 h.transactionsRoot, .ofWord32 h.receiptRoot, .ofBloom h.bloom, .ofNat h.difficulty, .ofNat h.number,
    .ofNat h.gasLimit, .ofNat h.gasUsed, .ofNat h.timestamp.toNat, .bytes h.extraData, .ofWord32 h.prevRandao,
    .bytes (toBE 8 h.nonce.toNat), .ofNat h.baseFeePerGas]
    ++ (if f.since .shanghai then [.ofWord32 h.withdrawalsRoot] else [])
    ++ (if f.since .cancun then
          [.ofNat h.blobGasUsed.toNat, .ofNat h.excessBlobGas.toNat, .ofWord32 h.parentBeaconBlockRoot] else [])
    ++ (if f.since .prague then [.ofWord32 h.requestsHash] else []))
/-- A withdrawal. -/
def ofWithdrawal (w : Withdrawal) : Rlp :=
  .list [.ofNat w.index.toNat, .ofNat w.validatorIndex.toNat, .ofAddress w.address, .ofNat w.amount.toNat]
/-- A log. -/
def ofLog (l : Log) : Rlp := .list [.ofAddress l.address, .list (l.topics.map .ofWord32), .bytes l.data]
/-- The first field of a receipt. -/
def ofStatus : ReceiptStatus → Rlp
  | .succeeded b => .ofNat (if b then 1 else 0)
  | .postState root => .ofWord32 root
/-- A receipt; a `bool` is encoded as the integer 0 or 1. -/
def ofReceipt (r : Receipt) : Rlp :=
  .list [.ofStatus r.status, .ofNat r.cumulativeGasUsed, .ofBloom r.bloom, .list (r.logs.map ofLog)]
/-- A block; transactions are legacy transactions or byte strings. -/
def ofBlock (f : Fork) (b : Block) : Rlp :=
  .list ([.ofHeader f b.header, .list (b.transactions.map fun | .inl t => ofLegacyTx t | .inr x => .bytes x),
    .list (b.ommers.map (ofHeader f))]
    ++ (if f.since .shanghai then [.list (b.withdrawals.map ofWithdrawal)] else []))
end Rlp

/-- osaka/blocks.py:361-381 `encode_receipt`. -/
def encodeReceipt (tx : Transaction) (r : Receipt) : Receipt ⊕ Bytes :=
  match tx with
  | .accessList _ => .inr (0x01 :: Rlp.encode (.ofReceipt r))
  | .feeMarket _ => .inr (0x02 :: Rlp.encode (.ofReceipt r))
  | .blob _ => .inr (0x03 :: Rlp.encode (.ofReceipt r))
  | .setCode _ => .inr (0x04 :: Rlp.encode (.ofReceipt r))
  | .legacy _ => .inl r

/-! ### osaka/bloom.py -/

/-- `Uint.from_be_bytes(hash[idx : idx + 2]) & 0x07FF` (osaka/bloom.py:52). -/
def bloomBit (hash : Word) (idx : Nat) : Nat := fromBE (slice (wordBytes hash) idx (idx + 2)) &&& 0x07FF

/-- osaka/bloom.py:55-59: one bit of the byte array. -/
def setBloomBit (bloom : Bytes) (bitToSet : Nat) : Bytes :=
  let bitIndex := 0x07FF - bitToSet
  let byteIndex := bitIndex / 8
  let bitValue := 1 <<< (7 - bitIndex % 8)
  bloom.modify byteIndex (fun b => b ||| UInt8.ofNat bitValue)

/-- osaka/bloom.py:30-59 `add_to_bloom`. -/
def addToBloom (C : Crypto) (bloom : Bytes) (entry : Bytes) : Bytes :=
  let hash := C.keccak256 entry
  [0, 2, 4].foldl (fun b idx => setBloomBit b (bloomBit hash idx)) bloom

/-- osaka/bloom.py:62-86 `logs_bloom`, as the byte array. -/
def logsBloomBytes (C : Crypto) (logs : List Log) : Bytes :=
  logs.foldl (fun b l => l.topics.foldl (fun b t => addToBloom C b (wordBytes t)) (addToBloom C b (addressBytes l.address)))
    (List.replicate 256 0)

/-- osaka/bloom.py:86 `Bloom(bloom)`. -/
def logsBloom (C : Crypto) (logs : List Log) : BitVec 2048 := BitVec.ofNat 2048 (fromBE (logsBloomBytes C logs))

/-! ### osaka/requests.py -/

/-- osaka/requests.py:25-48 constants. -/
def DEPOSIT_CONTRACT_ADDRESS : Address := 0x00000000219ab540356cbb839cbe05303d7705fa
def DEPOSIT_EVENT_SIGNATURE_HASH : Word := 0x649bbc62d0e31342afea4e5cd82d4049e7e1ee912fc0889aa790803be39038c5
def DEPOSIT_REQUEST_TYPE : Bytes := [0x00]
def WITHDRAWAL_REQUEST_TYPE : Bytes := [0x01]
def CONSOLIDATION_REQUEST_TYPE : Bytes := [0x02]
def DEPOSIT_EVENT_LENGTH := 576
def PUBKEY_OFFSET := 160
def WITHDRAWAL_CREDENTIALS_OFFSET := 256
def AMOUNT_OFFSET := 320
def SIGNATURE_OFFSET := 384
def INDEX_OFFSET := 512
def PUBKEY_SIZE := 48
def WITHDRAWAL_CREDENTIALS_SIZE := 32
def AMOUNT_SIZE := 8
def SIGNATURE_SIZE := 96
def INDEX_SIZE := 8

/-- osaka/requests.py:51-148 `extract_deposit_data`; `none` = InvalidBlock. -/
def extractDepositData (data : Bytes) : Option Bytes :=
  if data.length ≠ DEPOSIT_EVENT_LENGTH then none else
  let pubkeyOffset := fromBE (slice data 0 32)
  if pubkeyOffset ≠ PUBKEY_OFFSET then none else
  let withdrawalCredentialsOffset := fromBE (slice data 32 64)
  if withdrawalCredentialsOffset ≠ WITHDRAWAL_CREDENTIALS_OFFSET then none else
  let amountOffset := fromBE (slice data 64 96)
  if amountOffset ≠ AMOUNT_OFFSET then none else
  let signatureOffset := fromBE (slice data 96 128)
  if signatureOffset ≠ SIGNATURE_OFFSET then none else
  let indexOffset := fromBE (slice data 128 160)
  if indexOffset ≠ INDEX_OFFSET then none else
  let pubkeySize := fromBE (slice data pubkeyOffset (pubkeyOffset + 32))
  if pubkeySize ≠ PUBKEY_SIZE then none else
  let pubkey := slice data (pubkeyOffset + 32) (pubkeyOffset + 32 + PUBKEY_SIZE)
  let withdrawalCredentialsSize := fromBE (slice data withdrawalCredentialsOffset (withdrawalCredentialsOffset + 32))
  if withdrawalCredentialsSize ≠ WITHDRAWAL_CREDENTIALS_SIZE then none else
  let withdrawalCredentials := slice data (withdrawalCredentialsOffset + 32)
    (withdrawalCredentialsOffset + 32 + WITHDRAWAL_CREDENTIALS_SIZE)
  let amountSize := fromBE (slice data amountOffset (amountOffset + 32))
  if amountSize ≠ AMOUNT_SIZE then none else
  let amount := slice data (amountOffset + 32) (amountOffset + 32 + AMOUNT_SIZE)
  let signatureSize := fromBE (slice data signatureOffset (signatureOffset + 32))
  if signatureSize ≠ SIGNATURE_SIZE then none else
  let signature := slice data (signatureOffset + 32) (signatureOffset + 32 + SIGNATURE_SIZE)
  let indexSize := fromBE (slice data indexOffset (indexOffset + 32))
  if indexSize ≠ INDEX_SIZE then none else
  let index := slice data (indexOffset + 32) (indexOffset + 32 + INDEX_SIZE)
  some (pubkey ++ withdrawalCredentials ++ amount ++ signature ++ index)

/-- osaka/requests.py:160-167: the deposit requests of one receipt's logs, appended to `acc`. -/
def parseDepositLogs (acc : Bytes) : List Log → Option Bytes
  | [] => some acc
  | l :: r =>
    if l.address = DEPOSIT_CONTRACT_ADDRESS ∧ l.topics.head? = some DEPOSIT_EVENT_SIGNATURE_HASH then
      match extractDepositData l.data with
      | none => none
      | some request => parseDepositLogs (acc ++ request) r
    else parseDepositLogs acc r

/-- osaka/requests.py:172-190 `compute_requests_hash`. -/
def computeRequestsHash (C : Crypto) (requests : List Bytes) : Word :=
  C.sha256 (requests.flatMap fun r => wordBytes (C.sha256 r))

end Verif
