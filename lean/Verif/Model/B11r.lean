import Verif.Model.Pow
import Verif.Model.Hex
import Verif.Model.RlpDecode
/-!
The block builder (ethereum_spec_tools/evm_tools/b11r). Its inputs are the header, a JSON object, the transactions, a string, and the ommers and
withdrawals, JSON arrays. A JSON object is the record of its members; a member that is missing is `none`. `none` as a result stands for an exception of
Python (a missing key, a malformed string, a byte string of the wrong length, a number that is negative or too large, RLP that cannot be decoded).
-/
namespace Verif.B11r
open Verif Hex Pow

/-- A JSON string or a JSON integer. -/
abbrev Num := Str ⊕ Int

/-- evm_tools/utils.py:67-75 `parse_hex_or_int`, with the constructor `Uint`. -/
def parseHexOrInt : Num → Option Nat
  | .inl s => if hasHexPrefix s then int 16 (s.drop 2) else int 10 s
  | .inr i => if 0 ≤ i then some i.toNat else none

/-- The members of the header that the tool looks at (b11r/b11r_types.py:121-172). -/
structure HeaderData where
  parentHash : Option Str
  ommersHash : Option Str
  miner : Option Str
  stateRoot : Option Str
  transactionsRoot : Option Str
  receiptsRoot : Option Str
  logsBloom : Option Str
  difficulty : Option Num
  number : Option Num
  gasLimit : Option Num
  gasUsed : Option Num
  timestamp : Option Num
  extraData : Option Str
  mixHash : Option Str
  nonce : Option Str
  baseFeePerGas : Option Num
  withdrawalsRoot : Option Str

/-- The members of a withdrawal (b11r/b11r_types.py:81-86). -/
structure WithdrawalData where
  index : Num
  validatorIndex : Num
  address : Str
  amount : Num

/-- The inputs; `withdrawals` is `none` if the option `--input.withdrawals` is not given. Where they come from (files or standard input) is not
modelled. -/
structure Input where
  header : HeaderData
  txs : Str
  ommers : List Str
  withdrawals : Option (List WithdrawalData)

/-- `Hash32(hex_to_bytes(s))`. -/
def hash32 (s : Str) : Option Word := (fixed 32 (hexToBytes s)).map fun b => BitVec.ofNat 256 (fromBE b)
/-- `Bytes20(hex_to_bytes(s))`. -/
def bytes20 (s : Str) : Option Address := (fixed 20 (hexToBytes s)).map fun b => BitVec.ofNat 160 (fromBE b)
/-- `Bytes256(hex_to_bytes(s))`. -/
def bytes256 (s : Str) : Option (BitVec 2048) := (fixed 256 (hexToBytes s)).map fun b => BitVec.ofNat 2048 (fromBE b)
/-- `hex_to_bytes8(s)`. -/
def bytes8 (s : Str) : Option (BitVec 64) := (hexToBytes8 s).map fun b => BitVec.ofNat 64 (fromBE b)

/-- `DEFAULT_TRIE_ROOT` (b11r/b11r_types.py:16-18). -/
def DEFAULT_TRIE_ROOT : Str := "0x56e81f171bcc55a6ff8345e692c0f86e5b48e01b996cadc001622fb5e363b421".toList
/-- `DEFAULT_COINBASE` (b11r/b11r_types.py:19). -/
def DEFAULT_COINBASE : Str := "0x0000000000000000000000000000000000000000".toList

/-- b11r/b11r_types.py:41-44: the transactions. -/
def readTxs (s : Str) : Option Rlp := if s = [] then some (.list []) else (hexToBytes s).bind Rlp.decode

/-- b11r/b11r_types.py:60-62: an ommer is given as a block; its header is kept. -/
def readOmmer (s : Str) : Option Rlp :=
  match (hexToBytes s).bind Rlp.decode with
  | some (.list (h :: _)) => some h
  | _ => none

/-- b11r/b11r_types.py:81-86: a withdrawal. -/
def readWithdrawal (w : WithdrawalData) : Option Rlp := do
  let index ← bounded 64 (parseHexOrInt w.index)
  let validatorIndex ← bounded 64 (parseHexOrInt w.validatorIndex)
  let address ← bytes20 w.address
  let amount ← parseHexOrInt w.amount
  pure (.list [.ofNat index, .ofNat validatorIndex, .ofAddress address, .ofNat amount])

/-- b11r/b11r_types.py:22-87 `Body`: transactions, ommers and withdrawals. -/
structure Body where
  transactions : Rlp
  ommers : List Rlp
  withdrawals : Option (List Rlp)

/-- b11r/b11r_types.py:31-87 `Body.__init__`. -/
def readBody (i : Input) : Option Body := do
  let transactions ← readTxs i.txs
  let ommers ← i.ommers.mapM readOmmer
  match i.withdrawals with
  | none => pure ⟨transactions, ommers, none⟩
  | some l => do
    let withdrawals ← l.mapM readWithdrawal
    pure ⟨transactions, ommers, some withdrawals⟩

/-- b11r/b11r_types.py:90-172 `Header`: the fields of a header of london, and the root of the withdrawals. -/
structure Header where
  base : PowHeader
  withdrawalsRoot : Option Word

/-- The base fee (b11r/b11r_types.py:157-172): where there is none but a root of withdrawals, it is zero. -/
def readBaseFee (d : HeaderData) : Option (Option Nat) :=
  match d.baseFeePerGas with
  | some v => (parseHexOrInt v).map some
  | none => some (if d.withdrawalsRoot.isSome then some 0 else none)

/-- The hash of the ommers (b11r/b11r_types.py:122-125). -/
def readOmmersHash (keccak : Bytes → Word) (d : HeaderData) (ommers : List Rlp) : Option Word :=
  match d.ommersHash with
  | some s => hash32 s
  | none => some (keccak (Rlp.encode (.list ommers)))

/-- The root of the withdrawals (b11r/b11r_types.py:164-172). -/
def readWithdrawalsRoot (d : HeaderData) : Option (Option Word) :=
  match d.withdrawalsRoot with
  | some s => (hash32 s).map some
  | none => some none

/-- b11r/b11r_types.py:113-172 `Header.__init__`. -/
def readHeader (keccak : Bytes → Word) (d : HeaderData) (body : Body) : Option Header := do
  let parentHash ← d.parentHash.bind hash32
  let ommersHash ← readOmmersHash keccak d body.ommers
  let coinbase ← bytes20 (d.miner.getD DEFAULT_COINBASE)
  let stateRoot ← d.stateRoot.bind hash32
  let transactionsRoot ← hash32 (d.transactionsRoot.getD DEFAULT_TRIE_ROOT)
  let receiptRoot ← hash32 (d.receiptsRoot.getD DEFAULT_TRIE_ROOT)
  let bloom ← d.logsBloom.bind bytes256
  let difficulty ← parseHexOrInt (d.difficulty.getD (.inr 0))
  let number ← d.number.bind parseHexOrInt
  let gasLimit ← d.gasLimit.bind parseHexOrInt
  let gasUsed ← d.gasUsed.bind parseHexOrInt
  let timestamp ← bounded 256 (d.timestamp.bind parseHexOrInt)
  let extraData ← hexToBytes (d.extraData.getD ['0', 'x'])
  let mixDigest ← d.mixHash.bind hash32
  let nonce ← bytes8 (d.nonce.getD "0x0000000000000000".toList)
  let baseFeePerGas ← readBaseFee d
  let withdrawalsRoot ← readWithdrawalsRoot d
  pure ⟨⟨parentHash, ommersHash, coinbase, stateRoot, transactionsRoot, receiptRoot, bloom, difficulty, number, gasLimit, gasUsed,
    BitVec.ofNat 256 timestamp, extraData, mixDigest, nonce, baseFeePerGas⟩, withdrawalsRoot⟩

/-- b11r/__init__.py:101-103: the values of the attributes that are not `None`, in the order of their assignments. -/
def headerToList (h : Header) : List Rlp :=
  [.ofWord32 h.base.parentHash, .ofWord32 h.base.ommersHash, .ofAddress h.base.coinbase, .ofWord32 h.base.stateRoot,
    .ofWord32 h.base.transactionsRoot, .ofWord32 h.base.receiptRoot, .ofBloom h.base.bloom, .ofNat h.base.difficulty, .ofNat h.base.number,
    .ofNat h.base.gasLimit, .ofNat h.base.gasUsed, .ofNat h.base.timestamp.toNat, .bytes h.base.extraData, .ofWord32 h.base.mixDigest,
    .bytes (toBE 8 h.base.nonce.toNat)]
    ++ (match h.base.baseFeePerGas with | some n => [.ofNat n] | none => [])
    ++ (match h.withdrawalsRoot with | some r => [.ofWord32 r] | none => [])

/-- b11r/__init__.py:95-115 `build_block`: the encoding of the block and its hash. -/
def buildBlock (keccak : Bytes → Word) (i : Input) : Option (Bytes × Word) := do
  let body ← readBody i
  let header ← readHeader keccak i.header body
  let headerList := Rlp.list (headerToList header)
  let block := [headerList, body.transactions, .list body.ommers] ++ (match body.withdrawals with | some l => [.list l] | none => [])
  pure (Rlp.encode (.list block), keccak (Rlp.encode headerList))

end Verif.B11r
