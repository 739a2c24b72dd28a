import Verif.Model.B11r
import Verif.Model.Blocks
import Verif.Model.Alloc
import Verif.Spec.Numerals
/-! What the inputs of the block builder say: which strings write which bytes and numbers, and which header and body an input describes. -/
namespace Verif.Spec
open Verif Verif.Pow

/-- The string writes the bytes: after an optional `0x`, two hexadecimal digits for each. -/
def WritesBytes (s : List Char) (b : Bytes) : Prop :=
  ∃ t, Spec.Body s t ∧ Numeral 16 t ∧ t.length = 2 * b.length ∧ fromBE b = numeralValue 16 t

/-- The JSON value writes the number: an integer, a hexadecimal numeral after `0x`, or a decimal numeral. -/
def WritesNumber : B11r.Num → Nat → Prop
  | .inr i, n => i = n
  | .inl s, n => (∃ t, s = '0' :: 'x' :: t ∧ t ≠ [] ∧ Numeral 16 t ∧ n = numeralValue 16 t) ∨
      ((∀ t, s ≠ '0' :: 'x' :: t) ∧ s ≠ [] ∧ Numeral 10 s ∧ n = numeralValue 10 s)

/-- The JSON object `d` describes the header `h` of a block with the given ommers; `root` is the root of its withdrawals. Members with a default may be
missing. -/
structure DescribesHeader (keccak : Bytes → Word) (d : B11r.HeaderData) (ommers : List Rlp) (h : PowHeader) (root : Option Word) : Prop where
  parentHash : ∃ s, d.parentHash = some s ∧ WritesBytes s (wordBytes h.parentHash)
  ommersHash : match d.ommersHash with
    | some s => WritesBytes s (wordBytes h.ommersHash)
    | none => h.ommersHash = keccak (Rlp.encode (.list ommers))
  coinbase : match d.miner with | some s => WritesBytes s (addressBytes h.coinbase) | none => h.coinbase = 0
  stateRoot : ∃ s, d.stateRoot = some s ∧ WritesBytes s (wordBytes h.stateRoot)
  transactionsRoot : match d.transactionsRoot with
    | some s => WritesBytes s (wordBytes h.transactionsRoot)
    | none => h.transactionsRoot = 0x56e81f171bcc55a6ff8345e692c0f86e5b48e01b996cadc001622fb5e363b421
  receiptRoot : match d.receiptsRoot with
    | some s => WritesBytes s (wordBytes h.receiptRoot)
    | none => h.receiptRoot = 0x56e81f171bcc55a6ff8345e692c0f86e5b48e01b996cadc001622fb5e363b421
  bloom : ∃ s, d.logsBloom = some s ∧ WritesBytes s (toBE 256 h.bloom.toNat)
  difficulty : match d.difficulty with | some v => WritesNumber v h.difficulty | none => h.difficulty = 0
  number : ∃ v, d.number = some v ∧ WritesNumber v h.number
  gasLimit : ∃ v, d.gasLimit = some v ∧ WritesNumber v h.gasLimit
  gasUsed : ∃ v, d.gasUsed = some v ∧ WritesNumber v h.gasUsed
  timestamp : ∃ v, d.timestamp = some v ∧ WritesNumber v h.timestamp.toNat
  extraData : match d.extraData with | some s => WritesBytes s h.extraData | none => h.extraData = []
  mixDigest : ∃ s, d.mixHash = some s ∧ WritesBytes s (wordBytes h.mixDigest)
  nonce : match d.nonce with
    | some s => ∃ t, Spec.Body s t ∧ Numeral 16 t ∧ t.length ≤ 16 ∧ h.nonce.toNat = numeralValue 16 t
    | none => h.nonce = 0
  baseFee : match d.baseFeePerGas with
    | some v => ∃ n, h.baseFeePerGas = some n ∧ WritesNumber v n
    | none => h.baseFeePerGas = if d.withdrawalsRoot.isSome then some 0 else none
  withdrawalsRoot : match d.withdrawalsRoot with
    | some s => ∃ r, root = some r ∧ WritesBytes s (wordBytes r)
    | none => root = none

/-- The string writes an RLP item, possibly with something after it. -/
def WritesItem (s : List Char) (x : Rlp) : Prop := ∃ b, WritesBytes s b ∧ Rlp.decode b = some x

/-- The JSON object describes the withdrawal. -/
def DescribesWithdrawal (d : B11r.WithdrawalData) (index validatorIndex : Nat) (address : Address) (amount : Nat) : Prop :=
  index < 2 ^ 64 ∧ validatorIndex < 2 ^ 64 ∧ WritesNumber d.index index ∧ WritesNumber d.validatorIndex validatorIndex ∧
    WritesBytes d.address (addressBytes address) ∧ WritesNumber d.amount amount

/-- The lists have the same length, and their members are related pairwise. -/
def Each {α β : Type} (R : α → β → Prop) : List α → List β → Prop
  | [], [] => True
  | a :: r, b :: l => R a b ∧ Each R r l
  | _, _ => False

/-- The input describes a block with these items as transactions, ommers and withdrawals: no transactions may be written as the empty string, and
an ommer is written as a block, of which it is the header. -/
structure DescribesBody (i : B11r.Input) (txs : Rlp) (ommers : List Rlp) (withdrawals : Option (List Rlp)) : Prop where
  txs : (i.txs = [] ∧ txs = .list []) ∨ (i.txs ≠ [] ∧ WritesItem i.txs txs)
  ommers : Each (fun s x => ∃ rest, WritesItem s (.list (x :: rest))) i.ommers ommers
  withdrawals : match i.withdrawals with
    | none => withdrawals = none
    | some l => ∃ xs, withdrawals = some xs ∧ Each (fun d x => ∃ index validatorIndex address amount,
        DescribesWithdrawal d index validatorIndex address amount ∧
        x = .list [.ofNat index, .ofNat validatorIndex, .ofAddress address, .ofNat amount]) l xs

/-- The items of a header: those of a header before shanghai, and the root of the withdrawals. -/
def headerItems (h : PowHeader) (root : Option Word) : Rlp :=
  match ofPowHeader h with
  | .list l => .list (l ++ root.toList.map .ofWord32)
  | x => x

/-- The item of a block. -/
def blockItems (header txs : Rlp) (ommers : List Rlp) (withdrawals : Option (List Rlp)) : Rlp :=
  .list ([header, txs, .list ommers] ++ withdrawals.toList.map .list)

/-- A transaction in a block: a legacy transaction is an item of its own, any other a byte string. -/
def txItem : LegacyTx ⊕ Bytes → Rlp
  | .inl t => .ofLegacyTx t
  | .inr b => .bytes b

/-- The item of a block mined in one of the proof-of-work forks. -/
def minedItem (b : PowBlock (List (LegacyTx ⊕ Bytes))) : Rlp :=
  .list [ofPowHeader b.header, .list (b.transactions.map txItem), .list (b.ommers.map ofPowHeader)]

/-- The fields that headers of all forks have, under their old names. -/
def oldFields (h : Header) : PowHeader :=
  ⟨h.parentHash, h.ommersHash, h.coinbase, h.stateRoot, h.transactionsRoot, h.receiptRoot, h.bloom, h.difficulty, h.number, h.gasLimit, h.gasUsed,
    h.timestamp, h.extraData, h.prevRandao, h.nonce, some h.baseFeePerGas⟩

/-- The root of the withdrawals of a header, in a fork that has it. -/
def rootIn (f : Fork) (h : Header) : Option Word := if f.since .shanghai then some h.withdrawalsRoot else none

/-- Bytes written the usual way. -/
def writtenBytes (b : Bytes) : List Char := '0' :: 'x' :: T8n.bytesHex b
/-- A number written the usual way. -/
def writtenNumber (n : Nat) : B11r.Num := .inl (T8n.hex n)

/-- A header written the usual way. -/
def writtenHeader (h : PowHeader) (root : Option Word) : B11r.HeaderData where
  parentHash := some (writtenBytes (wordBytes h.parentHash))
  ommersHash := some (writtenBytes (wordBytes h.ommersHash))
  miner := some (writtenBytes (addressBytes h.coinbase))
  stateRoot := some (writtenBytes (wordBytes h.stateRoot))
  transactionsRoot := some (writtenBytes (wordBytes h.transactionsRoot))
  receiptsRoot := some (writtenBytes (wordBytes h.receiptRoot))
  logsBloom := some (writtenBytes (toBE 256 h.bloom.toNat))
  difficulty := some (writtenNumber h.difficulty)
  number := some (writtenNumber h.number)
  gasLimit := some (writtenNumber h.gasLimit)
  gasUsed := some (writtenNumber h.gasUsed)
  timestamp := some (writtenNumber h.timestamp.toNat)
  extraData := some (writtenBytes h.extraData)
  mixHash := some (writtenBytes (wordBytes h.mixDigest))
  nonce := some (writtenBytes (toBE 8 h.nonce.toNat))
  baseFeePerGas := h.baseFeePerGas.map writtenNumber
  withdrawalsRoot := root.map fun r => writtenBytes (wordBytes r)

/-- A withdrawal written the usual way. -/
def writtenWithdrawal (w : Withdrawal) : B11r.WithdrawalData :=
  ⟨writtenNumber w.index.toNat, writtenNumber w.validatorIndex.toNat, writtenBytes (addressBytes w.address), writtenNumber w.amount.toNat⟩

/-- A block written the usual way; an ommer as a block with nothing but a header. -/
def writtenBlock (h : PowHeader) (root : Option Word) (txs : List (LegacyTx ⊕ Bytes)) (ommers : List Rlp) (withdrawals : Option (List Withdrawal)) : B11r.Input :=
  ⟨writtenHeader h root, writtenBytes (Rlp.encode (.list (txs.map txItem))), ommers.map fun o => writtenBytes (Rlp.encode (.list [o])),
    withdrawals.map fun l => l.map writtenWithdrawal⟩

end Verif.Spec
