import Verif.Model.Sync
/-!
Blocks as the standard JSON-RPC endpoint describes them: `load_transaction`, `make_header`, `make_block`, `fetch_ommers` and `fetch_blocks_eth` of
ethereum_spec_tools/sync.py. A JSON object is the record of its members; a member that is missing is `none`. `none` as a result stands for an exception of
Python: a missing member, a malformed string, a number that is too large, a wrong number of arguments, a class that the fork does not have.

Simplifications: `null` for `to` is the empty string (both count as false); elsewhere `null` is a missing member, which the code treats alike or fails
on. `uncles`, of which only the length is read, is always there.
-/
namespace Verif.Sync
open Verif Hex TxJson Pow

/-- An element of `withdrawals` (sync.py:573-583). -/
structure RpcWithdrawal where
  index : Option Str := none
  validatorIndex : Option Str := none
  address : Option Str := none
  amount : Option Str := none

/-- The members of the description of a block or, as far as the header goes, of an ommer. -/
structure RpcBlock where
  parentHash : Option Str := none
  sha3Uncles : Option Str := none
  miner : Option Str := none
  stateRoot : Option Str := none
  transactionsRoot : Option Str := none
  receiptsRoot : Option Str := none
  logsBloom : Option Str := none
  difficulty : Option Str := none
  number : Option Str := none
  gasLimit : Option Str := none
  gasUsed : Option Str := none
  timestamp : Option Str := none
  extraData : Option Str := none
  mixHash : Option Str := none
  nonce : Option Str := none
  baseFeePerGas : Option Str := none
  withdrawalsRoot : Option Str := none
  transactions : Option (List TxData) := none
  uncles : List Str := []
  withdrawals : Option (List RpcWithdrawal) := none

/-- The fields of an object of a class `Header` from before cancun: the fifteen of all forks, with `base_fee_per_gas`; and `withdrawals_root`. -/
abbrev AnyHeader := PowHeader × Option Word

/-- sync.py:556-559: a field that only some classes have. -/
def extraField {α : Type} (there : Bool) (value : Option α) : Option (Option α) := if there then value.map some else some none

/-- sync.py:535-560 `make_header`, with the classes of the fork `f`. `hasattr(Header, "base_fee_per_gas")` holds since london,
`hasattr(Header, "withdrawals_root")` since shanghai. The class of cancun and later ones take more arguments, so the call raises a TypeError. -/
def makeHeader (f : Fork) (d : RpcBlock) : Option AnyHeader := do
  let parentHash ← d.parentHash.bind slot
  let ommersHash ← d.sha3Uncles.bind slot
  let coinbase ← d.miner.bind address
  let stateRoot ← d.stateRoot.bind slot
  let transactionsRoot ← d.transactionsRoot.bind slot
  let receiptRoot ← d.receiptsRoot.bind slot
  let bloom ← d.logsBloom.bind B11r.bytes256
  let difficulty ← d.difficulty.bind hexToUint
  let number ← d.number.bind hexToUint
  let gasLimit ← d.gasLimit.bind hexToUint
  let gasUsed ← d.gasUsed.bind hexToUint
  let timestamp ← d.timestamp.bind word
  let extraData ← d.extraData.bind hexToBytes
  let mixDigest ← d.mixHash.bind slot
  let nonce ← d.nonce.bind B11r.bytes8
  let fee ← extraField (f.since .london) (d.baseFeePerGas.bind hexToUint)
  let root ← extraField (f.since .shanghai) (d.withdrawalsRoot.bind slot)
  if f.since .cancun then none
  else return (⟨parentHash, ommersHash, coinbase, stateRoot, transactionsRoot, receiptRoot, bloom, difficulty, number, gasLimit, gasUsed, timestamp,
    extraData, mixDigest, nonce, fee⟩, root)

/-- sync.py:352-368 and 370-386: the arguments of `LegacyTransaction` or `Transaction`. -/
def rpcLegacy (d : TxData) : Option LegacyTx := do
  let nonce ← d.nonce.bind word
  let gasPrice ← d.gasPrice.bind hexToU256
  let gas ← d.gas.bind hexToU256
  let to ← readTo d.to
  let value ← d.value.bind word
  let data ← d.input.bind hexToBytes
  let v ← d.v.bind word
  let r ← d.r.bind word
  let s ← d.s.bind word
  return ⟨nonce, gasPrice, gas, to, value, data, v, r, s⟩

/-- sync.py:312-332: the arguments of `AccessListTransaction`. -/
def rpcAccessList (d : TxData) (accessList : List Access) : Option AccessListTx := do
  let chainId ← d.chainId.bind u64
  let nonce ← d.nonce.bind word
  let gasPrice ← d.gasPrice.bind hexToU256
  let gas ← d.gas.bind hexToU256
  let to ← readTo d.to
  let value ← d.value.bind word
  let data ← d.input.bind hexToBytes
  let v ← d.v.bind word
  let r ← d.r.bind word
  let s ← d.s.bind word
  return ⟨chainId, nonce, gasPrice, gas, to, value, data, accessList, v, r, s⟩

/-- sync.py:333-351: the arguments of `FeeMarketTransaction`. -/
def rpcFeeMarket (d : TxData) (accessList : List Access) : Option FeeMarketTx := do
  let chainId ← d.chainId.bind u64
  let nonce ← d.nonce.bind word
  let maxPriorityFeePerGas ← d.maxPriorityFeePerGas.bind hexToU256
  let maxFeePerGas ← d.maxFeePerGas.bind hexToU256
  let gas ← d.gas.bind hexToU256
  let to ← readTo d.to
  let value ← d.value.bind word
  let data ← d.input.bind hexToBytes
  let v ← d.v.bind word
  let r ← d.r.bind word
  let s ← d.s.bind word
  return ⟨chainId, nonce, maxPriorityFeePerGas, maxFeePerGas, gas, to, value, data, accessList, v, r, s⟩

/-- sync.py:300-386 `load_transaction`, in the fork `f`. The module has `LegacyTransaction` since berlin and `FeeMarketTransaction` since london. Every type
but "0x1" and "0x2" is taken for a legacy transaction. -/
def loadTransaction (f : Fork) (d : TxData) : Option (LegacyTx ⊕ Bytes) := do
  let accessList ← readAccessList d.accessList
  if f.since .berlin then
    let type ← d.type
    if type = .inl ['0', 'x', '1'] then
      let t ← rpcAccessList d accessList
      return encodeTransaction (.accessList t)
    else if type = .inl ['0', 'x', '2'] then
      if f.since .london then
        let t ← rpcFeeMarket d accessList
        return encodeTransaction (.feeMarket t)
      else none
    else
      let t ← rpcLegacy d
      return .inl t
  else
    let t ← rpcLegacy d
    return .inl t

/-- sync.py:574-583: one withdrawal. -/
def rpcWithdrawal (d : RpcWithdrawal) : Option Withdrawal := do
  let index ← d.index.bind u64
  let validatorIndex ← d.validatorIndex.bind u64
  let addr ← d.address.bind address
  let amount ← d.amount.bind word
  return ⟨index, validatorIndex, addr, amount⟩

/-- sync.py:571-588: the argument `withdrawals` of `Block`; there is a class `Withdrawal` since shanghai. Since then it is an UnboundLocalError if the member
is missing. -/
def rpcWithdrawals (f : Fork) (o : Option (List RpcWithdrawal)) : Option (List Withdrawal) :=
  match o with
  | none => if f.since .shanghai then none else some []
  | some l => if f.since .shanghai then l.mapM rpcWithdrawal else if l.isEmpty then some [] else none

/-- The object as one of a class of a fork without proof of work. -/
def AnyHeader.toHeader (h : AnyHeader) : Header := { h.1.toHeader with withdrawalsRoot := h.2.getD 0 }

/-- sync.py:562-597 `make_block`, in the fork `f`. Ommers are objects of the class of the fork that was active when they were fetched; in a block of a fork
without proof of work (where there are none) the model gives them the fields they lack. -/
def makeBlock (f : Fork) (d : RpcBlock) (ommers : List AnyHeader) : Option NodeBlock := do
  let header ← makeHeader f d
  let transactions ← d.transactions.bind fun l => l.mapM (loadTransaction f)
  let withdrawals ← rpcWithdrawals f d.withdrawals
  if f.since .paris then return .pos ⟨header.toHeader, transactions, ommers.map AnyHeader.toHeader, withdrawals⟩
  else return .pow ⟨header.1, transactions, ommers.map Prod.fst⟩

/-- sync.py:506-525: the headers of the ommers, by number of the block and index. An error of the provider is raised. -/
def collectOmmers (f : Fork) (d : Dict Nat (Dict Nat AnyHeader)) : List (Reply RpcBlock) → Option (Dict Nat (Dict Nat AnyHeader))
  | [] => some d
  | r :: rest =>
    match r.body with
    | .inl _ => none
    | .inr j =>
      (makeHeader f j).bind fun h =>
      collectOmmers f (d.set (r.id / 20) (((d.get? (r.id / 20)).getD Dict.empty).set (r.id % 20) h)) rest

/-- sync.py:465-533 `fetch_ommers`, from the provider's answer on, in the fork that is active. The result is what `ommers.get(id, ())` (sync.py:458) gives for
each block. -/
def fetchOmmers (fork : Option Fork) (needed : List (Nat × Nat)) (answer : List (Reply RpcBlock)) : Option (Nat → List AnyHeader) :=
  if needed.all fun x => x.2 == 0 then some fun _ => []
  else
    fork.bind fun f =>
    (collectOmmers f Dict.empty answer).map fun d n => (sortItems ((d.get? n).getD Dict.empty).entries).map Prod.snd

/-- sync.py:388-463 `fetch_blocks_eth`, from the provider's answers on: `replies` to the request for the blocks, `ommers` to that for their ommers. A timestamp
that cannot be read also makes `make_header` fail. -/
def fetchBlocksRpc (names : List Fork) (t : ForkTracking) (first count : Nat) (replies : List (Reply (Option RpcBlock))) (ommers : List (Reply RpcBlock)) :
    Option (List (Int ⊕ NodeBlock) × ForkTracking) :=
  if count = 0 then some ([], t)
  else
    (collectEth first count Dict.empty Dict.empty replies).bind fun c =>
    (fetchOmmers (activeFork names t) (c.1.entries.map fun x => (x.1, x.2.uncles.length)) ommers).bind fun om =>
    (makeAll (fun j => ((j.1.timestamp.bind word).getD 0 : Word)) (fun f j => makeBlock f j.1 j.2) names t
      (c.1.entries.map fun x => (x.1, x.2, om x.1))).map fun r =>
    let errors : Dict Nat (Int ⊕ NodeBlock) := c.2.entries.foldl (fun d x => d.set x.1 (.inl x.2)) Dict.empty
    let blocks := r.1.foldl (fun d x => d.set x.1 (.inr x.2)) errors
    ((sortItems blocks.entries).map Prod.snd, r.2)

end Verif.Sync
