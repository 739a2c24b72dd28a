import Verif.Model.Sync
import Verif.Props.C42_C56
/-! What it means for a block to be of a fork, and for a provider to answer with the blocks of a chain. -/
namespace Verif.Spec
open Verif Pow Sync Props

/-- The header is an object of the class of a fork without proof of work: what the class lacks is 0. -/
structure HeaderOf (f : Fork) (h : Header) : Prop where
  withdrawals : ¬ f.since .shanghai → h.withdrawalsRoot = 0
  blobs : ¬ f.since .cancun → h.blobGasUsed = 0 ∧ h.excessBlobGas = 0 ∧ h.parentBeaconBlockRoot = 0
  requests : ¬ f.since .prague → h.requestsHash = 0

/-- The block is an object of the class `Block` of the fork. Before london headers have no base fee; before berlin transactions are objects; before
shanghai there are no withdrawals. -/
def OfFork (f : Fork) : NodeBlock → Prop
  | .pow b => ¬ f.since .paris ∧ (∀ h ∈ b.header :: b.ommers, h.baseFeePerGas.isSome = f.since .london) ∧
      (¬ f.since .berlin → ∀ tx ∈ b.transactions, tx.isLeft)
  | .pos b => f.since .paris ∧ (∀ h ∈ b.header :: b.ommers, HeaderOf f h) ∧ (¬ f.since .shanghai → b.withdrawals = [])

/-- The number of fields of a header of the fork. -/
def headerFields (f : Fork) : Nat :=
  if f.since .prague then 21 else if f.since .cancun then 20 else if f.since .shanghai then 17 else if f.since .london then 16 else 15

/-- The transactions of a block. -/
def txsOf : NodeBlock → Txs
  | .pow b => b.transactions
  | .pos b => b.transactions

/-- The timestamp of a block. -/
def timeOf : NodeBlock → Word
  | .pow b => b.header.timestamp
  | .pos b => b.header.timestamp

/-- What the answer says last about a request. -/
def lastReply {α : Type} (replies : List (Reply α)) (id : Nat) : Option (Int ⊕ α) :=
  (replies.reverse.find? fun r => r.id = id).map Reply.body

/-- A result of the downloader agrees with what the provider said: the same error, or the block that one of the forks reads from the bytes. -/
def Agrees (names : List Fork) : Int ⊕ Bytes → Int ⊕ NodeBlock → Prop
  | .inl code, r => r = .inl code
  | .inr raw, r => ∃ f ∈ names, ∃ b, decodeBlock f raw = some b ∧ r = .inr b

/-- A chain (without its genesis block, so that the block number `i + 1` is the element `i`): every block is of the fork in force at its number and time, and
the timestamps do not decrease. -/
structure GoodChain (names : List Fork) (forks : List ForkCriteria) (chain : List NodeBlock) : Prop where
  ofFork : ∀ i b, chain[i]? = some b →
    ∃ j f, InForce forks (i + 1) (timeOf b) j ∧ names[j]? = some f ∧ OfFork f b ∧ (encodeBlock f b).length < 2 ^ 64
  times : chain.Pairwise fun a b => (timeOf a).toNat ≤ (timeOf b).toNat

/-- The raw block that a provider with this chain has under a number; blocks are encoded as in the fork in force. -/
def RawBlock (names : List Fork) (forks : List ForkCriteria) (chain : List NodeBlock) (n : Nat) (raw : Bytes) : Prop :=
  ∃ b j f, chain[n - 1]? = some b ∧ InForce forks n (timeOf b) j ∧ names[j]? = some f ∧ raw = encodeBlock f b

/-- A right answer to a request for the blocks from `first` on: one reply for each, **in any order**; a raw block for each block of the chain, the error
-32000 beyond its end. -/
structure RightAnswer (names : List Fork) (forks : List ForkCriteria) (chain : List NodeBlock) (first count : Nat) (replies : List (Reply Bytes)) : Prop where
  ids : (replies.map Reply.id).Perm (List.range' first count)
  bodies : ∀ r ∈ replies, if r.id ≤ chain.length then ∃ raw, r.body = .inr raw ∧ RawBlock names forks chain r.id raw else r.body = .inl (-32000)

/-- No fork up to the active one begins later than the given block. -/
structure NotAhead (t : ForkTracking) (n : Nat) (time : Word) : Prop where
  active : ∀ j c, 0 < j → j ≤ t.activeForkIndex → t.forks[j]? = some c → c.check n time = true
  bound : t.activeForkIndex = 0 ∨ t.activeForkIndex < t.forks.length

/-- The tracker stands at a block of the chain (or its genesis block), and is not ahead of the next one. -/
structure Tracks (forks : List ForkCriteria) (chain : List NodeBlock) (t : ForkTracking) : Prop where
  forks : t.forks = forks
  number : t.blockNumber ≤ chain.length
  notAhead : ∀ b, chain[t.blockNumber]? = some b → NotAhead t (t.blockNumber + 1) (timeOf b)

end Verif.Spec
