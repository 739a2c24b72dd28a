import Verif.Spec.TxRules
import Verif.Spec.Supply
import Verif.Spec.Top
import Verif.Lemmas.State
/-! What an included transaction costs, with plain numbers. -/
namespace Verif.Spec

/-- A state between transactions, since spurious dragon: as the code builds it, nothing to roll back to, nothing created. -/
structure Idle (s : State) : Prop where
  fork : s.fork.since .spuriousDragon = true
  wf : s.WF
  snapshots : s.snapshots = []
  created : s.createdAccounts = []

/-- The same in any fork. -/
structure Quiet (s : State) : Prop where
  wf : s.WF
  snapshots : s.snapshots = []
  created : s.createdAccounts = []

/-- The gas consumed before the refund. -/
def consumed (tx : Transaction) (out : MessageCallOutput) : Nat := tx.gas - out.gasLeft

/-- The largest share of the gas that can be refunded: a fifth, before london a half (EIP-3529). -/
def refundShare (f : Fork) : Nat := if f.since .london then 5 else 2

/-- The gas charged: what was consumed less a refund of at most a fifth (half) of it, but not less than the floor. -/
def gasCharged (f : Fork) (tx : Transaction) (out : MessageCallOutput) : Nat :=
  max (consumed tx out - min out.refundCounter.toNat (consumed tx out / refundShare f)) (floorGas f tx)

/-- The address of the last precompiled contract, those at 256 and above apart: 4 at first, 8 since byzantium, 9 since istanbul, 10
since cancun, 17 since prague. -/
def lastPrecompile (f : Fork) : Nat :=
  if f.since .prague then 17 else if f.since .cancun then 10 else if f.since .istanbul then 9 else if f.since .byzantium then 8 else 4

/-- The addresses of precompiled contracts: from 1 to the last one, in osaka also 256. -/
def isPrecompiled (f : Fork) (a : Address) : Prop :=
  (1 ≤ a.toNat ∧ a.toNat ≤ lastPrecompile f) ∨ (f.since .osaka = true ∧ a.toNat = 256)

/-- The fees of a transaction of `sender` in a block of `B`: `s` is the state before it, `start` and `finish` are the
states before and after its execution, `s'` is the state in the end. -/
structure FeesPaid (B : BlockEnv) (tx : Transaction) (sender : Address) (used : Nat) (deleted : List Address)
    (s start finish s' : State) : Prop where
  /-- All gas and the blobs are paid for in advance. -/
  advance : ∀ a, (getAccount s a).balance.toNat =
    (getAccount start a).balance.toNat + (if a = sender then tx.gas * price B.baseFeePerGas tx + blobFee s.fork B tx else 0)
  /-- The sender gets back what was not used, and the producer of the block its share of what was. -/
  settle : ∀ a, a ∉ deleted → (getAccount s' a).balance.toNat = (getAccount finish a).balance.toNat +
    (if a = sender then (tx.gas - used) * price B.baseFeePerGas tx else 0) +
    (if a = B.coinbase then used * tip B.baseFeePerGas tx else 0)
  gone : ∀ a ∈ deleted, getAccountOptional s' a = none ∧ ∀ k, getStorage s' a k = 0
  /-- Code and nonces are as the execution left them. -/
  rest : ∀ a, a ∉ deleted → (getAccount s' a).nonce = (getAccount finish a).nonce ∧ (getAccount s' a).code = (getAccount finish a).code

/-- How the transaction of `sender` is executed in a block of `B`: as the message `msg` with environment `env`, from the
state `start` (which differs from the state before only in the account of the sender), with the output `out` and the
state `finish`. -/
structure Executed (C : Crypto) (B : BlockEnv) (s : State) (tx : Transaction) (sender : Address) (env : TxEnv) (msg : Message)
    (start : State) (out : MessageCallOutput) (finish : State) : Prop where
  run : ∃ t, processMessageCall ⟨C, B, env⟩ msg ⟨start, TransientStorage.empty⟩ = .ok (out, ⟨finish, t⟩)
  signed : recoverSender C s.fork B.chainId tx = .ok sender
  others : ∀ a, a ≠ sender → getAccountOptional start a = getAccountOptional s a
  storage : getAccount s sender ≠ emptyAccount → ∀ a k, getStorage start a k = getStorage s a k
  nonce : (getAccount s sender).nonce = tx.nonce.toNat ∧ (getAccount start sender).nonce = tx.nonce.toNat + 1
  code : (getAccount start sender).code = (getAccount s sender).code
  origin : env.origin = sender ∧ msg.caller = sender
  gas : msg.gas = tx.gas - intrinsicGas s.fork tx
  value : msg.value = tx.value ∧ msg.shouldTransferValue = true
  target : msg.target = tx.to
  top : TopMessage msg ⟨start, TransientStorage.empty⟩
  /-- A call passes the data to the code of the account; a creation runs the data as code, at the address derived from the
  sender and the nonce of the transaction. -/
  call : ∀ t, tx.to = some t → msg.data = tx.data
  create : tx.to = none → msg.code = tx.data ∧ msg.data = [] ∧ msg.currentTarget = computeContractAddress C sender tx.nonce.toNat
  gasPrice : env.gasPrice = price B.baseFeePerGas tx
  blobs : env.blobVersionedHashes = tx.blobHashes
  authorizations : env.authorizations = tx.authorizations
  /-- Warm from the start: the sender, the target, the producer of the block (since shanghai), the precompiled contracts and
  what the access list mentions. -/
  warmAddresses : ∀ a, a ∈ msg.accessedAddresses ↔ a = sender ∨ a = msg.currentTarget ∨ (s.fork.since .shanghai = true ∧ a = B.coinbase) ∨
    isPrecompiled s.fork a ∨ ∃ e ∈ tx.accesses, e.account = a
  warmKeys : ∀ a k, (a, k) ∈ msg.accessedStorageKeys ↔ ∃ e ∈ tx.accesses, e.account = a ∧ k ∈ e.slots

end Verif.Spec
