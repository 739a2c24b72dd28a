import Verif.Model.State
import Verif.Model.Gas
import Verif.Model.Fields
/-
osaka/vm/__init__.py: environments, messages and frames; the frame monad; osaka/vm/stack.py.
-/
namespace Verif

/-- Cryptographic primitives that the model does not interpret. Every theorem quantifies over all of them.
`none` stands for "raises" (the callers map it to the exception they raise). -/
structure Crypto where
  /-- ethereum.crypto.hash.keccak256 -/
  keccak256 : Bytes → Word
  /-- hashlib.sha256 -/
  sha256 : Bytes → Word
  /-- hashlib.new("ripemd160") -/
  ripemd160 : Bytes → BitVec 160
  /-- coincurve `PublicKey.from_signature_and_message` on a 65-byte signature and a hash: 64 byte public key -/
  coincurveRecover : Bytes → Word → Option Bytes
  /-- the ECDSA verification of `cryptography` for P-256: r, s, x, y, hash -/
  p256Verify : Word → Word → Word → Word → Word → Bool
  /-- py_ecc `optimized_bn128` and `optimized_bls12_381` -/
  bn : CurveLib BN_P
  bls : BlsLib

/-- osaka/fork_types.py:67-79 `Authorization`. -/
structure Authorization where
  chainId : Word
  address : Address
  nonce : U64
  yParity : Nat
  r : Word
  s : Word
  deriving DecidableEq, Repr

/-- osaka/vm/__init__.py:34-50 `BlockEnvironment` without the mutable `state`. -/
structure BlockEnv where
  chainId : U64
  blockGasLimit : Nat
  blockHashes : List Word
  coinbase : Address
  number : Nat
  baseFeePerGas : Nat
  time : Word
  prevRandao : Word
  excessBlobGas : U64
  parentBeaconBlockRoot : Word
  /-- only before paris (gray_glacier/vm/__init__.py:36-50) -/
  difficulty : Nat

/-- osaka/vm/__init__.py:95-110 `TransactionEnvironment` without the mutable `transient_storage`;
`index_in_block` and `tx_hash` are only read by tracers and are omitted. -/
structure TxEnv where
  origin : Address
  gasPrice : Nat
  gas : Nat
  accessListAddresses : List Address
  accessListStorageKeys : List (Address × Word)
  blobVersionedHashes : List Word
  authorizations : List Authorization

/-- What is constant during one top-level message. -/
structure Env where
  crypto : Crypto
  block : BlockEnv
  tx : TxEnv

/-- osaka/vm/__init__.py:113-135 `Message`. `target = none` is `Bytes0()`; `block_env`/`tx_env` are the ambient `Env`.
`parent_evm` is read by tracers and, before london, by SELFDESTRUCT, which collects the accounts to delete of all enclosing frames: here
that set is a field of the message, computed when the message is made (an enclosing frame does not change while its child runs). -/
structure Message where
  caller : Address
  target : Option Address
  currentTarget : Address
  gas : Nat
  value : Word
  data : Bytes
  codeAddress : Option Address
  code : Bytes
  depth : Nat
  shouldTransferValue : Bool
  isStatic : Bool
  accessedAddresses : List Address
  accessedStorageKeys : List (Address × Word)
  disablePrecompiles : Bool
  parentsToDelete : List Address

/-- osaka/blocks.py `Log`. -/
structure Log where
  address : Address
  topics : List Word
  data : Bytes
  deriving DecidableEq, Repr

/-- osaka/vm/__init__.py:138-157 `Evm`. The top of the stack is the head of the list (Python: the last element). `touched_accounts`
exists from spurious_dragon to gray_glacier; the model keeps it in all forks, but only those read it. -/
structure Evm where
  pc : Nat
  stack : List Word
  memory : Bytes
  code : Bytes
  gasLeft : Nat
  validJumpDestinations : List Nat
  logs : List Log
  refundCounter : Int
  running : Bool
  message : Message
  output : Bytes
  accountsToDelete : List Address
  returnData : Bytes
  error : Option Exn
  accessedAddresses : List Address
  accessedStorageKeys : List (Address × Word)
  touchedAccounts : List Address

/-- A frame together with the stores it acts on. -/
structure Mach where
  evm : Evm
  world : World

/-- Result of a piece of frame code: a value, or a raised exception; both with the mutated machine. -/
inductive Res (α : Type) where
  | ok (a : α) (m : Mach)
  | err (e : Exn) (m : Mach)

/-- The machine carried by a result. -/
def Res.mach {α : Type} : Res α → Mach
  | .ok _ m => m
  | .err _ m => m

/-- Frame code. -/
def M (α : Type) := Mach → Res α

namespace M
/-- Sequencing: an exception stops and keeps the mutations made so far. -/
@[inline] def bind {α β : Type} (x : M α) (f : α → M β) : M β := fun m =>
  match x m with
  | .ok a m' => f a m'
  | .err e m' => .err e m'
end M

instance : Monad M where
  pure a := fun m => .ok a m
  bind := M.bind

/-- `raise`. -/
def raise {α : Type} (e : Exn) : M α := fun m => .err e m
/-- `raise` an exceptional halt. -/
def raiseHalt {α : Type} (h : Halt) : M α := raise (.halt h)

/-- Read the frame. -/
def getEvm : M Evm := fun m => .ok m.evm m
/-- Read the state. -/
def getState : M State := fun m => .ok m.world.state m
/-- Read the transient storage. -/
def getTransient : M TransientStorage := fun m => .ok m.world.transient m
/-- Run a computation that may raise an uncaught error. -/
def liftCrash {α : Type} (x : Except Crash α) : M α := fun m =>
  match x with
  | .ok a => .ok a m
  | .error c => .err (.crash c) m

/-- osaka/vm/stack.py:21-39 `pop`. -/
def pop : M Word := fun m =>
  match m.evm.stack with
  | [] => .err (.halt .stackUnderflow) m
  | x :: r => .ok x { m with evm := { m.evm with stack := r } }

/-- osaka/vm/stack.py:42-58 `push`. -/
def push (w : Word) : M Unit := fun m =>
  if m.evm.stack.length = 1024 then .err (.halt .stackOverflow) m
  else .ok () { m with evm := { m.evm with stack := w :: m.evm.stack } }

/-- `U256(n)` for a natural number: OverflowError when out of range. -/
def u256 (n : Nat) : M Word := fun m =>
  if n < 2 ^ 256 then .ok (BitVec.ofNat 256 n) m else .err (.crash .overflowError) m

/-- osaka/vm/gas.py:121-138 `charge_gas`. -/
def chargeGas (amount : Nat) : M Unit := fun m =>
  if m.evm.gasLeft < amount then .err (.halt .outOfGas) m
  else .ok () { m with evm := { m.evm with gasLeft := m.evm.gasLeft - amount } }

/-- `evm.pc += Uint(n)`. -/
def incPc (n : Nat) : M Unit := fun m => .ok () { m with evm := { m.evm with pc := m.evm.pc + n } }
/-- `evm.pc = n`. -/
def setPc (n : Nat) : M Unit := fun m => .ok () { m with evm := { m.evm with pc := n } }
/-- `evm.running = False`. -/
def stopRunning : M Unit := fun m => .ok () { m with evm := { m.evm with running := false } }
/-- `evm.output = b`. -/
def setOutput (b : Bytes) : M Unit := fun m => .ok () { m with evm := { m.evm with output := b } }
/-- `evm.return_data = b`. -/
def setReturnData (b : Bytes) : M Unit := fun m => .ok () { m with evm := { m.evm with returnData := b } }
/-- `evm.gas_left += n`. -/
def addGas (n : Nat) : M Unit := fun m => .ok () { m with evm := { m.evm with gasLeft := m.evm.gasLeft + n } }
/-- `evm.memory += b"\x00" * n`. -/
def expandMemory (n : Nat) : M Unit := fun m =>
  .ok () { m with evm := { m.evm with memory := m.evm.memory ++ List.replicate n 0 } }
/-- `memory_write(evm.memory, start, value)`. -/
def writeMemory (start : Nat) (value : Bytes) : M Unit := fun m =>
  .ok () { m with evm := { m.evm with memory := memoryWrite m.evm.memory start value } }
/-- `evm.stack` replaced (swap). -/
def setStack (s : List Word) : M Unit := fun m => .ok () { m with evm := { m.evm with stack := s } }
/-- `evm.accessed_addresses.add(a)`. -/
def warmAddress (a : Address) : M Unit := fun m =>
  .ok () { m with evm := { m.evm with accessedAddresses := setAdd m.evm.accessedAddresses a } }
/-- `evm.accessed_storage_keys.add((a, k))`. -/
def warmSlot (a : Address) (k : Word) : M Unit := fun m =>
  .ok () { m with evm := { m.evm with accessedStorageKeys := setAdd m.evm.accessedStorageKeys (a, k) } }
/-- `evm.refund_counter += n` (a Python int, may be negative). -/
def addRefund (n : Int) : M Unit := fun m =>
  .ok () { m with evm := { m.evm with refundCounter := m.evm.refundCounter + n } }
/-- `evm.logs = evm.logs + (l,)`. -/
def addLog (l : Log) : M Unit := fun m => .ok () { m with evm := { m.evm with logs := m.evm.logs ++ [l] } }
/-- `evm.accounts_to_delete.add(a)`. -/
def addDeleted (a : Address) : M Unit := fun m =>
  .ok () { m with evm := { m.evm with accountsToDelete := setAdd m.evm.accountsToDelete a } }
/-- `if account_exists_and_is_empty(state, a): evm.touched_accounts.add(a)`. -/
def touchIfEmpty (a : Address) : M Unit := fun m =>
  .ok () { m with evm := { m.evm with touchedAccounts := touchedIfEmpty m.world.state a m.evm.touchedAccounts } }
/-- berlin/vm/instructions/system.py:502-509, in `selfdestruct` (no effect since london): `refunded_accounts = evm.accounts_to_delete` is the
set itself, so the accounts of the enclosing frames are added to it; the originator earns the refund if it is not among them. -/
def selfdestructRefund (originator : Address) : M Unit := fun m =>
  if m.world.state.fork.since .london then .ok () m
  else
    let refundedAccounts := setUpdate m.evm.accountsToDelete m.evm.message.parentsToDelete
    .ok () { m with evm := { m.evm with
      accountsToDelete := refundedAccounts
      refundCounter := if originator ∈ refundedAccounts then m.evm.refundCounter
        else m.evm.refundCounter + (REFUND_SELF_DESTRUCT : Int) } }
/-- Replace the state. -/
def setState (s : State) : M Unit := fun m => .ok () { m with world := { m.world with state := s } }
/-- Replace the transient storage. -/
def setTransient (t : TransientStorage) : M Unit := fun m =>
  .ok () { m with world := { m.world with transient := t } }
/-- Replace both stores. -/
def setWorld (w : World) : M Unit := fun m => .ok () { m with world := w }

/-- `RIPEMD160_ADDRESS` (spurious_dragon/vm/precompiled_contracts/__init__.py:27). -/
def RIPEMD160_ADDRESS : Address := 3

/-- osaka/vm/__init__.py:160-176 `incorporate_child_on_success`; the touched accounts: gray_glacier/vm/__init__.py:145-165. -/
def incorporateChildOnSuccess (child : Evm) : M Unit := fun m =>
  .ok () { m with evm := { m.evm with
    gasLeft := m.evm.gasLeft + child.gasLeft
    logs := m.evm.logs ++ child.logs
    refundCounter := m.evm.refundCounter + child.refundCounter
    accountsToDelete := setUpdate m.evm.accountsToDelete child.accountsToDelete
    accessedAddresses := setUpdate m.evm.accessedAddresses child.accessedAddresses
    accessedStorageKeys := setUpdate m.evm.accessedStorageKeys child.accessedStorageKeys
    touchedAccounts := touchedIfEmpty m.world.state child.message.currentTarget
      (setUpdate m.evm.touchedAccounts child.touchedAccounts) } }

/-- gray_glacier/vm/__init__.py:169-193 `incorporate_child_on_error`, the touched accounts: only that of RIPEMD160 survives a failed frame. -/
def touchedOnError (s : State) (child : Evm) (l : List Address) : List Address :=
  let l' := if RIPEMD160_ADDRESS ∈ child.touchedAccounts then setAdd l RIPEMD160_ADDRESS else l
  if child.message.currentTarget = RIPEMD160_ADDRESS then touchedIfEmpty s RIPEMD160_ADDRESS l' else l'

/-- osaka/vm/__init__.py:179-190 `incorporate_child_on_error`. -/
def incorporateChildOnError (child : Evm) : M Unit := fun m =>
  .ok () { m with evm := { m.evm with
    gasLeft := m.evm.gasLeft + child.gasLeft
    touchedAccounts := touchedOnError m.world.state child m.evm.touchedAccounts } }

/-- What processing a message gives: the finished frame and the stores, or an exception that leaves it. -/
abbrev Sub := Message → World → Except (Exn × World) (Evm × World)

end Verif
