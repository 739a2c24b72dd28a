import Verif.Model.Rpc
import Verif.Spec.Sync
import Verif.Spec.TxJson
/-! What blocks and transactions are described by the objects of the standard JSON-RPC endpoint (`eth_getBlockByNumber`). -/
namespace Verif.Spec
open Verif Pow Sync

/-- A field that is there in some forks only. -/
def Extra {α : Type} (there : Prop) (o : Option α) (P : α → Prop) : Prop := (there ∧ ∃ x, o = some x ∧ P x) ∨ (¬ there ∧ o = none)

/-- The object describes the header, of a class with a base fee since london and a root of withdrawals since shanghai. -/
structure DescribesRpcHeader (f : Fork) (d : RpcBlock) (h : PowHeader) (root : Option Word) : Prop where
  parentHash : Has d.parentHash (HexWord · h.parentHash)
  ommersHash : Has d.sha3Uncles (HexWord · h.ommersHash)
  coinbase : Has d.miner (WritesAddress · h.coinbase)
  stateRoot : Has d.stateRoot (HexWord · h.stateRoot)
  transactionsRoot : Has d.transactionsRoot (HexWord · h.transactionsRoot)
  receiptRoot : Has d.receiptsRoot (HexWord · h.receiptRoot)
  bloom : Has d.logsBloom (WritesBytes · (toBE 256 h.bloom.toNat))
  difficulty : Has d.difficulty (WritesHex · h.difficulty)
  number : Has d.number (WritesHex · h.number)
  gasLimit : Has d.gasLimit (WritesHex · h.gasLimit)
  gasUsed : Has d.gasUsed (WritesHex · h.gasUsed)
  timestamp : Has d.timestamp (WritesHex · h.timestamp.toNat)
  extraData : Has d.extraData (WritesBytes · h.extraData)
  mixDigest : Has d.mixHash (HexWord · h.mixDigest)
  nonce : Has d.nonce fun s => ∃ t, Spec.Body s t ∧ Numeral 16 t ∧ t.length ≤ 16 ∧ h.nonce.toNat = numeralValue 16 t
  baseFee : Extra (f.since .london = true) h.baseFeePerGas fun n => Has d.baseFeePerGas (WritesHex · n)
  withdrawalsRoot : Extra (f.since .shanghai = true) root fun r => Has d.withdrawalsRoot (HexWord · r)

/-- The string that says the type of a transaction: none is needed before berlin; whatever is not `0x1` or `0x2` says that it is a legacy transaction. -/
def DescribesRpcType (f : Fork) (d : TxJson.TxData) : Transaction → Prop
  | .legacy _ => f.since .berlin = true → Has d.type fun t => t ≠ .inl ['0', 'x', '1'] ∧ t ≠ .inl ['0', 'x', '2']
  | .accessList _ => f.since .berlin = true ∧ d.type = some (.inl ['0', 'x', '1'])
  | .feeMarket _ => f.since .london = true ∧ d.type = some (.inl ['0', 'x', '2'])
  | _ => False

/-- The chain and the access list, and the sizes of numbers: fees are below 2^256. -/
def DescribesRpcLists (d : TxJson.TxData) : Transaction → Prop
  | .legacy t => t.gasPrice < 2 ^ 256 ∧ ∃ l, Each DescribesAccess (d.accessList.getD []) l
  | .accessList t => t.gasPrice < 2 ^ 256 ∧ Has d.chainId (WritesHex · t.chainId.toNat) ∧ Each DescribesAccess (d.accessList.getD []) t.accessList
  | .feeMarket t => t.maxPriorityFeePerGas < 2 ^ 256 ∧ t.maxFeePerGas < 2 ^ 256 ∧ Has d.chainId (WritesHex · t.chainId.toNat) ∧
      Each DescribesAccess (d.accessList.getD []) t.accessList
  | _ => False

/-- The object describes the transaction. (A `to` that is `null` is the empty string here.) -/
structure DescribesRpcTx (f : Fork) (d : TxJson.TxData) (tx : Transaction) : Prop where
  type : DescribesRpcType f d tx
  nonce : Has d.nonce (WritesHex · tx.nonce.toNat)
  fees : DescribesFees d tx
  gas : Has d.gas (WritesHex · tx.gas) ∧ tx.gas < 2 ^ 256
  recipient : Has d.to fun s => (s = [] ∧ tx.to = none) ∨ (s ≠ [] ∧ ∃ a, tx.to = some a ∧ WritesAddress s a)
  value : Has d.value (WritesHex · tx.value.toNat)
  data : Has d.input (WritesBytes · tx.data)
  lists : DescribesRpcLists d tx
  signature : Has d.v (WritesHex · (signatureOf tx).1.toNat) ∧ Has d.r (WritesHex · (signatureOf tx).2.1.toNat) ∧
    Has d.s (WritesHex · (signatureOf tx).2.2.toNat)

/-- The object describes the withdrawal. -/
structure DescribesRpcWithdrawal (d : RpcWithdrawal) (w : Withdrawal) : Prop where
  index : Has d.index (WritesHex · w.index.toNat)
  validatorIndex : Has d.validatorIndex (WritesHex · w.validatorIndex.toNat)
  address : Has d.address (WritesAddress · w.address)
  amount : Has d.amount (WritesHex · w.amount.toNat)

/-- The object describes the transactions, which are in the block as objects (legacy) or encoded (typed). -/
def DescribesRpcTxs (f : Fork) (d : RpcBlock) (txs : List (LegacyTx ⊕ Bytes)) : Prop :=
  Has d.transactions fun l => Each (fun e x => ∃ tx, DescribesRpcTx f e tx ∧ x = encodeTransaction tx) l txs

/-- The object describes the block of the fork, apart from its ommers. -/
def DescribesRpcBlock (f : Fork) (d : RpcBlock) : NodeBlock → Prop
  | .pow b => ¬ f.since .paris ∧ DescribesRpcHeader f d b.header none ∧ DescribesRpcTxs f d b.transactions ∧ (d.withdrawals = none ∨ d.withdrawals = some [])
  | .pos b => f.since .paris ∧ DescribesRpcHeader f d (oldFields b.header) (rootIn f b.header) ∧ HeaderOf f b.header ∧ DescribesRpcTxs f d b.transactions ∧
      if f.since .shanghai then Has d.withdrawals fun l => Each DescribesRpcWithdrawal l b.withdrawals
      else (d.withdrawals = none ∨ d.withdrawals = some []) ∧ b.withdrawals = []

/-- The ommers of a block. -/
def ommersOf (f : Fork) : NodeBlock → List AnyHeader
  | .pow b => b.ommers.map fun h => (h, none)
  | .pos b => b.ommers.map fun h => (oldFields h, rootIn f h)

/-- The block has these ommers. -/
def HasOmmers (om : List AnyHeader) : NodeBlock → Prop
  | .pow b => b.ommers = om.map Prod.fst
  | .pos b => b.ommers = om.map AnyHeader.toHeader

/-- A right answer to the request for all ommers of the blocks with these numbers, where `ommers n` are those of the block `n`, which is of the fork `fork n`:
replies for exactly these ommers, **in any order**; the request for the ommer `i` of block `n` has the number `20 n + i`. -/
structure RightOmmers (fork : Nat → Fork) (ommers : Nat → List AnyHeader) (numbers : List Nat) (answer : List (Reply RpcBlock)) : Prop where
  ids : ∀ id, id ∈ answer.map Reply.id ↔ ∃ n ∈ numbers, ∃ i, i < (ommers n).length ∧ id = 20 * n + i
  bodies : ∀ r ∈ answer, ∀ n ∈ numbers, ∀ i h, (ommers n)[i]? = some h → r.id = 20 * n + i →
    ∃ j, r.body = .inr j ∧ DescribesRpcHeader (fork n) j h.1 h.2

/-- The ommers of block `n` of a chain (without its genesis block, so that it is the element `n - 1`). -/
def ommersAt (fork : Nat → Fork) (chain : List NodeBlock) (n : Nat) : List AnyHeader :=
  match chain[n - 1]? with
  | some b => ommersOf (fork n) b
  | none => []

/-- The gas limit and the fees are below 2^256. -/
def SmallTx (tx : Transaction) : Prop :=
  tx.gas < 2 ^ 256 ∧ match tx with
    | .legacy t => t.gasPrice < 2 ^ 256
    | .accessList t => t.gasPrice < 2 ^ 256
    | .feeMarket t => t.maxPriorityFeePerGas < 2 ^ 256 ∧ t.maxFeePerGas < 2 ^ 256
    | _ => True

/-- A header written the usual way. -/
def rpcHeaderOf (h : PowHeader) (root : Option Word) : RpcBlock where
  parentHash := some (writtenBytes (wordBytes h.parentHash))
  sha3Uncles := some (writtenBytes (wordBytes h.ommersHash))
  miner := some (writtenBytes (addressBytes h.coinbase))
  stateRoot := some (writtenBytes (wordBytes h.stateRoot))
  transactionsRoot := some (writtenBytes (wordBytes h.transactionsRoot))
  receiptsRoot := some (writtenBytes (wordBytes h.receiptRoot))
  logsBloom := some (writtenBytes (toBE 256 h.bloom.toNat))
  difficulty := some (T8n.hex h.difficulty)
  number := some (T8n.hex h.number)
  gasLimit := some (T8n.hex h.gasLimit)
  gasUsed := some (T8n.hex h.gasUsed)
  timestamp := some (T8n.hex h.timestamp.toNat)
  extraData := some (writtenBytes h.extraData)
  mixHash := some (writtenBytes (wordBytes h.mixDigest))
  nonce := some (T8n.hex h.nonce.toNat)
  baseFeePerGas := h.baseFeePerGas.map T8n.hex
  withdrawalsRoot := root.map fun r => writtenBytes (wordBytes r)

/-- A transaction written the usual way. -/
def rpcTxOf (tx : Transaction) : TxJson.TxData :=
  let d := writtenTx tx
  let d : TxJson.TxData := { d with to := some (d.to.getD []) }
  match tx with
  | .accessList t => { d with chainId := some (T8n.hex t.chainId.toNat) }
  | .feeMarket t => { d with chainId := some (T8n.hex t.chainId.toNat) }
  | _ => d

/-- A withdrawal written the usual way. -/
def rpcWithdrawalOf (w : Withdrawal) : RpcWithdrawal where
  index := some (T8n.hex w.index.toNat)
  validatorIndex := some (T8n.hex w.validatorIndex.toNat)
  address := some (writtenBytes (addressBytes w.address))
  amount := some (T8n.hex w.amount.toNat)

end Verif.Spec
