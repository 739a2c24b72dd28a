import Verif.Spec.MemoryOps
import Verif.Spec.Create
/-!
The messages that calls and creates send, and what they take back, from the yellow paper (appendix H), EIP-7 (DELEGATECALL), EIP-214
(STATICCALL), EIP-211 (return data), EIP-2929 (warm sets) and EIP-7702 (delegations).
-/
namespace Verif.Spec

/-- Accounts warm when the callee starts (since berlin): those before, the callee, and the account that it delegates to. -/
def WarmForCallee (m : Mach) (o : CallOperands) (a : Address) : Prop :=
  a ∈ m.evm.accessedAddresses ∨ a = o.address ∨ delegateOf m.world.state o.address = some a

/-- The message of a call.

* CALL and STATICCALL run the code of the callee on the account of the callee; CALLCODE and DELEGATECALL run it on the account that calls.
* DELEGATECALL passes on the caller and the value of the frame that calls. The others name the calling account as caller. STATICCALL sends
  no ether.
* If the callee delegates, the code is that of the account that it delegates to, and even if that is a precompile only code is run.
* STATICCALL makes everything below it static, and nothing undoes that. -/
structure SentCall (k : CallKind) (m : Mach) (o : CallOperands) (msg : Message) : Prop where
  gas : msg.gas = forwarded k m o + stipend o
  account : msg.currentTarget = if k = .call ∨ k = .staticcall then o.address else m.evm.message.currentTarget
  target : msg.target = some msg.currentTarget
  caller : msg.caller = if k = .delegatecall then m.evm.message.caller else m.evm.message.currentTarget
  value : msg.value = match k with | .delegatecall => m.evm.message.value | .staticcall => 0 | .call | .callcode => o.value
  transfers : msg.shouldTransferValue = true ↔ k ≠ .delegatecall
  data : msg.data = bytesAt m.evm.memory o.inStart.toNat o.inSize.toNat
  codeAddress : msg.codeAddress = some ((delegateOf m.world.state o.address).getD o.address)
  code : msg.code = (getAccount m.world.state ((delegateOf m.world.state o.address).getD o.address)).code
  noPrecompile : msg.disablePrecompiles = (delegateOf m.world.state o.address).isSome
  static : msg.isStatic = true ↔ k = .staticcall ∨ m.evm.message.isStatic = true
  depth : msg.depth = m.evm.message.depth + 1
  warm : m.world.state.fork.since .berlin = true → ∀ a, a ∈ msg.accessedAddresses ↔ WarmForCallee m o a
  warmKeys : msg.accessedStorageKeys = m.evm.accessedStorageKeys
  deleted : ∀ a, a ∈ msg.parentsToDelete ↔ a ∈ m.evm.message.parentsToDelete ∨ a ∈ m.evm.accountsToDelete

/-- The message of a create: it runs the init code at the new address. -/
structure SentCreate (E : Env) (m : Mach) (o : CreateOperands) (msg : Message) : Prop where
  gas : msg.gas = createForwarded m o
  account : msg.currentTarget = newAddress E m o
  target : msg.target = none
  caller : msg.caller = m.evm.message.currentTarget
  value : msg.value = o.value
  transfers : msg.shouldTransferValue = true
  data : msg.data = []
  codeAddress : msg.codeAddress = none
  code : msg.code = bytesAt m.evm.memory o.start.toNat o.size.toNat
  noPrecompile : msg.disablePrecompiles = false
  static : msg.isStatic = false
  depth : msg.depth = m.evm.message.depth + 1
  warm : m.world.state.fork.since .berlin = true → ∀ a, a ∈ msg.accessedAddresses ↔ a ∈ m.evm.accessedAddresses ∨ a = newAddress E m o
  warmKeys : msg.accessedStorageKeys = m.evm.accessedStorageKeys
  deleted : ∀ a, a ∈ msg.parentsToDelete ↔ a ∈ m.evm.message.parentsToDelete ∨ a ∈ m.evm.accountsToDelete

/-- What a frame takes over from a child: its logs, refunds, accounts to delete and warm sets, if the child succeeded. `warm0` are the
accounts that are warm in any case. -/
structure TakesOver (m m' : Mach) (warm0 : Address → Prop) (child : Evm) : Prop where
  logs : m'.evm.logs = m.evm.logs ++ if child.error = none then child.logs else []
  refund : m'.evm.refundCounter = m.evm.refundCounter + if child.error = none then child.refundCounter else 0
  deleted : ∀ a, a ∈ m'.evm.accountsToDelete ↔ a ∈ m.evm.accountsToDelete ∨ (child.error = none ∧ a ∈ child.accountsToDelete)
  warm : m.world.state.fork.since .berlin = true →
    ∀ a, a ∈ m'.evm.accessedAddresses ↔ warm0 a ∨ (child.error = none ∧ a ∈ child.accessedAddresses)
  warmKeys : ∀ x, x ∈ m'.evm.accessedStorageKeys ↔ x ∈ m.evm.accessedStorageKeys ∨ (child.error = none ∧ x ∈ child.accessedStorageKeys)

/-- What no call and no create changes in the frame. -/
structure SameFrame (m m' : Mach) : Prop where
  message : m'.evm.message = m.evm.message
  code : m'.evm.code = m.evm.code
  jumps : m'.evm.validJumpDestinations = m.evm.validJumpDestinations
  output : m'.evm.output = m.evm.output
  running : m'.evm.running = m.evm.running
  error : m'.evm.error = m.evm.error

/-- The frame after a call whose child left `child` and the world `w`. The return data is the output of the child, whole; as much of it as
fits is in the output range of memory, and the bytes of the range beyond it are as they were. -/
structure CallReturned (k : CallKind) (m : Mach) (o : CallOperands) (child : Evm) (w : World) (m' : Mach) : Prop where
  same : SameFrame m m'
  world : m'.world = w
  pc : m'.evm.pc = m.evm.pc + 1
  stack : m'.evm.stack = (if child.error = none then 1 else 0) :: o.rest
  gas : m'.evm.gasLeft + forwarded k m o + callCharges k m o = m.evm.gasLeft + child.gasLeft
  returnData : m'.evm.returnData = child.output
  memory : Written m.evm.memory m'.evm.memory (callWords m o) o.outStart.toNat (min o.outSize.toNat child.output.length) (cell child.output)
  takes : TakesOver m m' (WarmForCallee m o) child

/-- The frame after a call that is refused: the gas that would have been forwarded is not lost, and the stipend is gained. -/
structure CallRefused (k : CallKind) (m : Mach) (o : CallOperands) (m' : Mach) : Prop where
  same : SameFrame m m'
  world : m'.world = m.world
  pc : m'.evm.pc = m.evm.pc + 1
  stack : m'.evm.stack = 0 :: o.rest
  gas : m'.evm.gasLeft + callCharges k m o = m.evm.gasLeft + stipend o
  returnData : m'.evm.returnData = []
  memory : Written m.evm.memory m'.evm.memory (callWords m o) 0 0 (fun _ => 0)
  logs : m'.evm.logs = m.evm.logs
  refund : m'.evm.refundCounter = m.evm.refundCounter
  deleted : m'.evm.accountsToDelete = m.evm.accountsToDelete
  warm : m.world.state.fork.since .berlin = true → ∀ a, a ∈ m'.evm.accessedAddresses ↔ WarmForCallee m o a
  warmKeys : m'.evm.accessedStorageKeys = m.evm.accessedStorageKeys

/-- The frame after a create whose child left `child` and the world `w`. There is return data only if the creation failed. -/
structure CreateReturned (E : Env) (m : Mach) (o : CreateOperands) (child : Evm) (w : World) (m' : Mach) : Prop where
  same : SameFrame m m'
  world : m'.world = w
  pc : m'.evm.pc = m.evm.pc + 1
  stack : m'.evm.stack = (if child.error = none then child.message.currentTarget.setWidth 256 else 0) :: o.rest
  gas : m'.evm.gasLeft + createForwarded m o + createCharges m o = m.evm.gasLeft + child.gasLeft
  returnData : m'.evm.returnData = if child.error = none then [] else child.output
  memory : Written m.evm.memory m'.evm.memory (wordsAfter m (wordsFor o.start o.size)) 0 0 (fun _ => 0)
  takes : TakesOver m m' (fun a => a ∈ m.evm.accessedAddresses ∨ a = newAddress E m o) child

/-- The frame after a create without child: refused, or (`taken`) at an address in use. In that case the gas that would have been
forwarded is lost, and the address is warm. -/
structure CreateStopped (E : Env) (m : Mach) (o : CreateOperands) (taken : Bool) (m' : Mach) : Prop where
  same : SameFrame m m'
  pc : m'.evm.pc = m.evm.pc + 1
  stack : m'.evm.stack = 0 :: o.rest
  gas : m'.evm.gasLeft + (if taken then createForwarded m o else 0) + createCharges m o = m.evm.gasLeft
  returnData : m'.evm.returnData = []
  memory : Written m.evm.memory m'.evm.memory (wordsAfter m (wordsFor o.start o.size)) 0 0 (fun _ => 0)
  logs : m'.evm.logs = m.evm.logs
  refund : m'.evm.refundCounter = m.evm.refundCounter
  deleted : m'.evm.accountsToDelete = m.evm.accountsToDelete
  warm : m.world.state.fork.since .berlin = true →
    ∀ a, a ∈ m'.evm.accessedAddresses ↔ a ∈ m.evm.accessedAddresses ∨ (taken = true ∧ a = newAddress E m o)
  warmKeys : m'.evm.accessedStorageKeys = m.evm.accessedStorageKeys

/-- The world while the child of a create runs, or after a create at a taken address: the nonce of the creator is one more. -/
def NonceUsed (m : Mach) (w : World) : Prop :=
  let self := m.evm.message.currentTarget
  getAccount w.state self = { getAccount m.world.state self with nonce := (getAccount m.world.state self).nonce + 1 } ∧
  (∀ a, a ≠ self → getAccountOptional w.state a = getAccountOptional m.world.state a) ∧
  (∀ a k, getStorage w.state a k = getStorage m.world.state a k) ∧ w.transient = m.world.transient

end Verif.Spec
