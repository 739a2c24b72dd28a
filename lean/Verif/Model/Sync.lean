import Verif.Model.TxJson
import Verif.Model.PowEvm
import Verif.Model.Forks
/-!
Blocks as bytes: `rlp.decode_to(Block, ...)` in every fork, and how `ethereum_spec_tools/sync.py` fetches and decodes them.
`none` stands for an exception.
-/
namespace Verif.Sync
open Verif Pow TxJson

/-! ### Decoding a block (src/ethereum/<fork>/blocks.py) -/

/-- An object of the class `Block` of a fork: with proof of work (frontier/blocks.py:160-201 to gray_glacier/blocks.py:184-225) or without
(paris/blocks.py:172-212 to osaka/blocks.py:244-294). -/
inductive NodeBlock where
  | pow (b : PowBlock Txs)
  | pos (b : Block)

/-- A transaction in a block: `Tuple[Transaction, ...]` (frontier/blocks.py:189), since berlin `Tuple[Bytes | LegacyTransaction, ...]`
(berlin/blocks.py:190). -/
def asTxItem (f : Fork) : Rlp → Option (LegacyTx ⊕ Bytes)
  | .bytes b => if f.since .berlin then some (.inr b) else none
  | .list l => (asLegacyTx (.list l)).map .inl

/-- `Bytes8`. -/
def asNonce (x : Rlp) : Option (BitVec 64) := (Rlp.asExact 8 x).map (BitVec.ofNat 64)

/-- The fifteen fields that the headers of all forks begin with (frontier/blocks.py:25-157), and the items after them. -/
def headOf : List Rlp → Option (PowHeader × List Rlp)
  | p :: o :: c :: st :: tr :: rr :: bl :: d :: n :: gl :: gu :: ts :: x :: m :: nc :: rest => do
    return (⟨← Rlp.asWord32 p, ← Rlp.asWord32 o, ← Rlp.asAddress c, ← Rlp.asWord32 st, ← Rlp.asWord32 tr, ← Rlp.asWord32 rr, ← Rlp.asBloom bl,
      ← Rlp.asNat d, ← Rlp.asNat n, ← Rlp.asNat gl, ← Rlp.asNat gu, ← Rlp.asWord ts, ← Rlp.asBytes x, ← Rlp.asWord32 m, ← asNonce nc, none⟩, rest)
  | _ => none

/-- The fields after the fifteen in a fork with proof of work: `base_fee_per_gas` since london (london/blocks.py:172). -/
def powTail (f : Fork) (h : PowHeader) : List Rlp → Option PowHeader
  | [] => if f.since .london then none else some h
  | [fee] => if f.since .london then (Rlp.asNat fee).map fun n => { h with baseFeePerGas := some n } else none
  | _ => none

/-- `Header` of a fork with proof of work. -/
def asPowHeader (f : Fork) : Rlp → Option PowHeader
  | .bytes _ => none
  | .list l => (headOf l).bind fun r => powTail f r.1 r.2

/-- The fields after the fifteen in a fork without proof of work: `base_fee_per_gas` (paris/blocks.py), `withdrawals_root` since shanghai, `blob_gas_used`,
`excess_blob_gas` and `parent_beacon_block_root` since cancun, `requests_hash` since prague. A field that the class does not have is 0 in the model. -/
def posTail (f : Fork) (h : PowHeader) : List Rlp → Option Header
  | [fee] =>
    if f.since .shanghai then none else do return { h.toHeader with baseFeePerGas := ← Rlp.asNat fee }
  | [fee, w] =>
    if f.since .shanghai ∧ ¬ f.since .cancun then do return { h.toHeader with baseFeePerGas := ← Rlp.asNat fee, withdrawalsRoot := ← Rlp.asWord32 w } else none
  | [fee, w, bg, eb, pr] =>
    if f.since .cancun ∧ ¬ f.since .prague then do
      return { h.toHeader with baseFeePerGas := ← Rlp.asNat fee, withdrawalsRoot := ← Rlp.asWord32 w, blobGasUsed := ← Rlp.asU64 bg,
                               excessBlobGas := ← Rlp.asU64 eb, parentBeaconBlockRoot := ← Rlp.asWord32 pr }
    else none
  | [fee, w, bg, eb, pr, rh] =>
    if f.since .prague then do
      return { h.toHeader with baseFeePerGas := ← Rlp.asNat fee, withdrawalsRoot := ← Rlp.asWord32 w, blobGasUsed := ← Rlp.asU64 bg,
                               excessBlobGas := ← Rlp.asU64 eb, parentBeaconBlockRoot := ← Rlp.asWord32 pr, requestsHash := ← Rlp.asWord32 rh }
    else none
  | _ => none

/-- `Header` of a fork without proof of work. -/
def asHeader (f : Fork) : Rlp → Option Header
  | .bytes _ => none
  | .list l => (headOf l).bind fun r => posTail f r.1 r.2

/-- `Withdrawal` (shanghai/blocks.py:31-61). -/
def asWithdrawal : Rlp → Option Withdrawal
  | .list [i, v, a, x] => do return ⟨← Rlp.asU64 i, ← Rlp.asU64 v, ← Rlp.asAddress a, ← Rlp.asWord x⟩
  | _ => none

/-- `Block` of a fork with proof of work. -/
def asPowBlock (f : Fork) : Rlp → Option (PowBlock Txs)
  | .list [h, t, o] => do return ⟨← asPowHeader f h, ← Rlp.asTuple (asTxItem f) t, ← Rlp.asTuple (asPowHeader f) o⟩
  | _ => none

/-- `Block` of a fork without proof of work; `withdrawals` since shanghai. -/
def asPosBlock (f : Fork) : Rlp → Option Block
  | .list [h, t, o] =>
    if f.since .shanghai then none
    else do return ⟨← asHeader f h, ← Rlp.asTuple (asTxItem f) t, ← Rlp.asTuple (asHeader f) o, []⟩
  | .list [h, t, o, w] =>
    if f.since .shanghai then do
      return ⟨← asHeader f h, ← Rlp.asTuple (asTxItem f) t, ← Rlp.asTuple (asHeader f) o, ← Rlp.asTuple asWithdrawal w⟩
    else none
  | _ => none

/-- The class `Block` of the fork. -/
def asBlock (f : Fork) (x : Rlp) : Option NodeBlock :=
  if f.since .paris then (asPosBlock f x).map .pos else (asPowBlock f x).map .pow

/-- `rlp.decode_to(Block, data)`. -/
def decodeBlock (f : Fork) (data : Bytes) : Option NodeBlock := (Rlp.decode data).bind (asBlock f)

/-- The item of a block object of the given fork: `rlp.encode(block)` encodes the fields of the dataclass. -/
def itemOf (f : Fork) : NodeBlock → Rlp
  | .pow b => .list [ofPowHeader b.header, .list (b.transactions.map fun | .inl t => .ofLegacyTx t | .inr x => .bytes x), .list (b.ommers.map ofPowHeader)]
  | .pos b => .ofBlock f b

/-- `rlp.encode(block)`. -/
def encodeBlock (f : Fork) (b : NodeBlock) : Bytes := Rlp.encode (itemOf f b)

/-! ### Fetching blocks (ethereum_spec_tools/sync.py) -/

/-- One element of the provider's answer, after parsing the JSON: `id` is `int(reply["id"], 0)`; then either an error with its code, or the `result`. -/
structure Reply (α : Type) where
  id : Nat
  body : Int ⊕ α

/-- sync.py:243-266: the dictionary of the answers, in the order of first occurrence; `none` = "mismatched request id". -/
def collect {α : Type} (first count : Nat) (d : Dict Nat (Int ⊕ α)) : List (Reply α) → Option (Dict Nat (Int ⊕ α))
  | [] => some d
  | r :: rest => if r.id < first ∨ r.id ≥ first + count then none else collect first count (d.set r.id r.body) rest

/-- Insertion before the first larger key. -/
def insertKey {α : Type} (x : Nat × α) : List (Nat × α) → List (Nat × α)
  | [] => [x]
  | y :: r => if x.1 < y.1 then x :: y :: r else y :: insertKey x r

/-- `sorted(d.items())` (sync.py:273, 463). The keys of a dictionary differ, so only keys are compared. -/
def sortItems {α : Type} : List (Nat × α) → List (Nat × α)
  | [] => []
  | x :: r => insertKey x (sortItems r)

/-- sync.py:278-282: the timestamp, read from the undecoded header; `none` = one of the assertions, an index error or a number of more than 32 bytes. -/
def rawTimestamp : Rlp → Option Word
  | .list (.list h :: _) =>
    match (h[11]? : Option Rlp) with
    | some (.bytes b) => if b.length ≤ 32 then some (BitVec.ofNat 256 (fromBE b)) else none
    | _ => none
  | _ => none

/-- `self.module("blocks").Block`: the package of the active fork (sync.py:64-68, 81-85); `names` are the packages of `forks`. -/
def activeFork (names : List Fork) (t : ForkTracking) : Option Fork := names[t.activeForkIndex]?

/-- sync.py:277-296: one block of the answer. -/
def decodeNext (names : List Fork) (t : ForkTracking) (raw : Bytes) : Option (NodeBlock × ForkTracking) :=
  (Rlp.decode raw).bind fun item =>
  (rawTimestamp item).bind fun timestamp =>
  let t' := (t.advanceBlock timestamp).1
  (activeFork names t').bind fun f =>
  (decodeBlock f raw).map fun b => (b, t')

/-- sync.py:272-298: all of them, in the order given. -/
def decodeAll (names : List Fork) (t : ForkTracking) : List (Int ⊕ Bytes) → Option (List (Int ⊕ NodeBlock) × ForkTracking)
  | [] => some ([], t)
  | .inl code :: rest => (decodeAll names t rest).map fun r => (.inl code :: r.1, r.2)
  | .inr raw :: rest =>
    (decodeNext names t raw).bind fun x => (decodeAll names x.2 rest).map fun r => (.inr x.1 :: r.1, r.2)

/-- sync.py:197-298 `fetch_blocks_debug`, from the provider's answer on. -/
def fetchBlocksDebug (names : List Fork) (t : ForkTracking) (first count : Nat) (replies : List (Reply Bytes)) :
    Option (List (Int ⊕ NodeBlock) × ForkTracking) :=
  if count = 0 then some ([], t)
  else
    (collect first count Dict.empty replies).bind fun d =>
    if d.entries.length ≠ count then none
    else decodeAll names t ((sortItems d.entries).map Prod.snd)

/-- sync.py:116-133 `BlockDownloader.__init__`: one fork back from the fork of the first block at the time of the last persisted block. -/
def startDownloader (forks : List ForkCriteria) (firstBlock : Nat) (firstBlockTimestamp : Word) : ForkTracking :=
  let t := (⟨forks, 0, 0⟩ : ForkTracking).setBlock firstBlock firstBlockTimestamp
  if t.activeForkIndex > 0 then { t with activeForkIndex := t.activeForkIndex - 1 } else t

/-- sync.py:163-174: what is put into the queue: blocks, and `None` for the error -32000; `none` = any other error is raised. -/
def toPush : List (Int ⊕ NodeBlock) → Option (List (Option NodeBlock))
  | [] => some []
  | .inl code :: rest => if code ≠ -32000 then none else (toPush rest).map (none :: ·)
  | .inr b :: rest => (toPush rest).map (some b :: ·)

/-- sync.py:153-182 `download`: everything put into the queue in `rounds` rounds of the loop, the provider's answer to each request being
`answers first count`; `count` is 256 (sync.py:160, with the queue of 512). The list of what is put, and whether the loop goes on. -/
def download (names : List Fork) (answers : Nat → Nat → List (Reply Bytes)) : Nat → ForkTracking → Option (List (Option NodeBlock) × ForkTracking × Bool)
  | 0, t => some ([], t, true)
  | rounds + 1, t =>
    (fetchBlocksDebug names t (t.blockNumber + 1) 256 (answers (t.blockNumber + 1) 256)).bind fun r =>
    (toPush r.1).bind fun pushed =>
    if pushed.any Option.isNone then some (pushed, r.2, false)
    else (download names answers rounds r.2).map fun x => (pushed ++ x.1, x.2)

/-- sync.py:432-452: the answers of the standard endpoint: the descriptions of blocks (of type `J`) and the errors. A `null` result ends the loop. -/
def collectEth {J : Type} (first count : Nat) (d : Dict Nat J) (e : Dict Nat Int) : List (Reply (Option J)) → Option (Dict Nat J × Dict Nat Int)
  | [] => some (d, e)
  | r :: rest =>
    if r.id < first ∨ r.id ≥ first + count then none
    else match r.body with
      | .inl code => collectEth first count d (e.set r.id code) rest
      | .inr none => some (d, e)
      | .inr (some j) => collectEth first count (d.set r.id j) e rest

/-- sync.py:455-459: the blocks are made in the order of the answers. `make` is `make_block` with the ommers fetched for it (sync.py:465-597, modelled in Model/Rpc.lean),
`time` reads the timestamp. -/
def makeAll {J : Type} (time : J → Word) (make : Fork → J → Option NodeBlock) (names : List Fork) (t : ForkTracking) :
    List (Nat × J) → Option (List (Nat × NodeBlock) × ForkTracking)
  | [] => some ([], t)
  | (id, j) :: rest =>
    let t' := (t.advanceBlock (time j)).1
    (activeFork names t').bind fun f =>
    (make f j).bind fun b =>
    (makeAll time make names t' rest).map fun r => ((id, b) :: r.1, r.2)

/-- sync.py:388-463 `fetch_blocks_eth`, from the provider's answer on. -/
def fetchBlocksEth {J : Type} (time : J → Word) (make : Fork → J → Option NodeBlock) (names : List Fork) (t : ForkTracking) (first count : Nat)
    (replies : List (Reply (Option J))) : Option (List (Int ⊕ NodeBlock) × ForkTracking) :=
  if count = 0 then some ([], t)
  else
    (collectEth first count Dict.empty Dict.empty replies).bind fun c =>
    (makeAll time make names t c.1.entries).map fun r =>
    let errors : Dict Nat (Int ⊕ NodeBlock) := c.2.entries.foldl (fun d x => d.set x.1 (.inl x.2)) Dict.empty
    let blocks := r.1.foldl (fun d x => d.set x.1 (.inr x.2)) errors
    ((sortItems blocks.entries).map Prod.snd, r.2)

end Verif.Sync
