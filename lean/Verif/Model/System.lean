import Verif.Model.Instructions
/-
osaka/vm/instructions/system.py, osaka/vm/eoa_delegation.py (delegation lookup), osaka/utils/address.py.
The mutual recursion with the interpreter is cut by passing `process_message` and `process_create_message` as
arguments (`pm`, `pcm`).
-/
namespace Verif

/-- osaka/utils/address.py:42-62 `compute_contract_address`: low 20 bytes of the hash. -/
def computeContractAddress (C : Crypto) (a : Address) (nonce : Nat) : Address :=
  toAddressMasked (C.keccak256 (Rlp.encode (.list [.ofAddress a, .ofNat nonce])))

/-- osaka/utils/address.py:65-91 `compute_create2_contract_address`. -/
def computeCreate2ContractAddress (C : Crypto) (a : Address) (salt : Word) (callData : Bytes) : Address :=
  toAddressMasked (C.keccak256 ([0xff] ++ addressBytes a ++ wordBytes salt ++ wordBytes (C.keccak256 callData)))

/-- osaka/vm/eoa_delegation.py:23-26 constants. -/
def EOA_DELEGATION_MARKER : Bytes := [0xEF, 0x01, 0x00]
def EOA_DELEGATION_MARKER_LENGTH := 3
def EOA_DELEGATED_CODE_LENGTH := 23

/-- osaka/vm/eoa_delegation.py:31-51 `is_valid_delegation`. -/
def isValidDelegation (code : Bytes) : Bool :=
  decide (code.length = EOA_DELEGATED_CODE_LENGTH) &&
    decide (code.take EOA_DELEGATION_MARKER_LENGTH = EOA_DELEGATION_MARKER)

/-- `Address(code[EOA_DELEGATION_MARKER_LENGTH:])`. -/
def delegationTarget (code : Bytes) : Address :=
  BitVec.ofNat 160 (fromBE (code.drop EOA_DELEGATION_MARKER_LENGTH))

/-- osaka/vm/eoa_delegation.py:54-70 `get_delegated_code_address`. -/
def getDelegatedCodeAddress (code : Bytes) : Option Address :=
  if isValidDelegation code then some (delegationTarget code) else none

/-- eoa_delegation.py:139: the account's code is a delegation designator. The check is absent before prague. -/
def delegates (s : State) (a : Address) : Bool := s.fork.since .prague && isValidDelegation (getAccount s a).code

/-- osaka/vm/eoa_delegation.py:115-146 `access_delegation`:
(disable_precompiles, address, code, access_gas_cost). Before prague there are no delegations: the callers use the address itself and
the code found there (cancun/vm/instructions/system.py:256-257, 318-388). -/
def accessDelegation (a : Address) : M (Bool × Address × Bytes × Nat) := do
  let s ← getState
  let code := (getAccount s a).code
  if delegates s a then do
    let address := delegationTarget code
    let cost ← accessAddress .call address
    pure (true, address, (getAccount s address).code, cost)
  else
    pure (false, a, code, 0)

/-- Run a child message and take over its effect on the stores; an exception raised by the processor itself
propagates. -/
def runSub (sub : Sub) (msg : Message) : M Evm := fun m =>
  match sub msg m.world with
  | .ok (child, w) => .ok child { m with world := w }
  | .error (e, w) => .err e { m with world := w }

/-- system.py:63-146 `generic_create`. The limit on the init code is absent before shanghai. Before constantinople the same steps are the
body of `create` (byzantium/vm/instructions/system.py:53-148), with the memory extended after the gas is set aside. -/
def genericCreate (pcm : Sub) (endowment : Word) (contractAddress : Address)
    (memoryStart memorySize : Word) : M Unit := do
  let evm ← getEvm
  let callData := memoryReadBytes evm.memory memoryStart.toNat memorySize.toNat
  let fork := (← getState).fork
  if fork.since .shanghai ∧ callData.length > MAX_INIT_CODE_SIZE then raiseHalt .outOfGas
  else do
    let createMessageGas := createMessageGas fork evm.gasLeft
    -- `evm.gas_left -= create_message_gas`: never underflows, since it is at most the gas left
    chargeGas createMessageGas
    if evm.message.isStatic then raiseHalt .writeInStaticContext
    else do
      setReturnData []
      let senderAddress := evm.message.currentTarget
      let s ← getState
      let sender := getAccount s senderAddress
      if sender.balance < endowment ∨ sender.nonce = 2 ^ 64 - 1 ∨ evm.message.depth + 1 > STACK_DEPTH_LIMIT then do
        addGas createMessageGas
        push 0
      else do
        warmAddress contractAddress
        if accountHasCodeOrNonce s contractAddress || accountHasStorage s contractAddress then do
          setState (incrementNonce s senderAddress)
          push 0
        else do
          setState (incrementNonce s senderAddress)
          let evm' ← getEvm
          let child ← runSub pcm
            { caller := senderAddress
              target := none
              gas := createMessageGas
              value := endowment
              data := []
              code := callData
              currentTarget := contractAddress
              depth := evm.message.depth + 1
              codeAddress := none
              shouldTransferValue := true
              isStatic := false
              accessedAddresses := evm'.accessedAddresses
              accessedStorageKeys := evm'.accessedStorageKeys
              disablePrecompiles := false
              parentsToDelete := setUpdate evm'.message.parentsToDelete evm'.accountsToDelete }
          if child.error.isSome then do
            incorporateChildOnError child
            setReturnData child.output
            push 0
          else do
            incorporateChildOnSuccess child
            setReturnData []
            push (addressWord child.message.currentTarget)

/-- system.py:149-189 `create`. -/
def opCreate (E : Env) (pcm : Sub) : M Unit := do
  let endowment ← pop; let memoryStart ← pop; let memorySize ← pop
  let ext ← extendCost [(memoryStart, memorySize)]
  let initCodeGas := initCodeCostIn (← getState).fork memorySize.toNat
  chargeGas (GAS_CREATE + ext.cost + initCodeGas)
  expandMemory ext.expandBy
  let evm ← getEvm
  let s ← getState
  let contractAddress := computeContractAddress E.crypto evm.message.currentTarget
    (getAccount s evm.message.currentTarget).nonce
  genericCreate pcm endowment contractAddress memoryStart memorySize
  incPc 1

/-- system.py:192-241 `create2`. -/
def opCreate2 (E : Env) (pcm : Sub) : M Unit := do
  let endowment ← pop; let memoryStart ← pop; let memorySize ← pop; let salt ← pop
  let ext ← extendCost [(memoryStart, memorySize)]
  let callDataWords := ceil32 memorySize.toNat / 32
  let initCodeGas := initCodeCostIn (← getState).fork memorySize.toNat
  chargeGas (GAS_CREATE + GAS_KECCAK256_WORD * callDataWords + ext.cost + initCodeGas)
  expandMemory ext.expandBy
  let evm ← getEvm
  let contractAddress := computeCreate2ContractAddress E.crypto evm.message.currentTarget salt
    (memoryReadBytes evm.memory memoryStart.toNat memorySize.toNat)
  genericCreate pcm endowment contractAddress memoryStart memorySize
  incPc 1

/-- system.py:244-273 `return_`. -/
def opReturn : M Unit := do
  let memoryStart ← pop; let memorySize ← pop
  let ext ← extendCost [(memoryStart, memorySize)]
  chargeGas (GAS_ZERO + ext.cost)
  expandMemory ext.expandBy
  let evm ← getEvm
  setOutput (memoryReadBytes evm.memory memoryStart.toNat memorySize.toNat)
  stopRunning

/-- Arguments of `generic_call` (system.py:276-291). -/
structure CallArgs where
  gas : Nat
  value : Word
  caller : Address
  to : Address
  codeAddress : Address
  shouldTransferValue : Bool
  isStaticcall : Bool
  inputStart : Word
  inputSize : Word
  outputStart : Word
  outputSize : Word
  code : Bytes
  disablePrecompiles : Bool

/-- system.py:276-343 `generic_call`. `U256(len(child_evm.output))` at line 338 is checked. -/
def genericCall (pm : Sub) (a : CallArgs) : M Unit := do
  setReturnData []
  let evm ← getEvm
  if evm.message.depth + 1 > STACK_DEPTH_LIMIT then do
    addGas a.gas
    push 0
  else do
    let callData := memoryReadBytes evm.memory a.inputStart.toNat a.inputSize.toNat
    let child ← runSub pm
      { caller := a.caller
        target := some a.to
        gas := a.gas
        value := a.value
        data := callData
        code := a.code
        currentTarget := a.to
        depth := evm.message.depth + 1
        codeAddress := some a.codeAddress
        shouldTransferValue := a.shouldTransferValue
        isStatic := if a.isStaticcall then true else evm.message.isStatic
        accessedAddresses := evm.accessedAddresses
        accessedStorageKeys := evm.accessedStorageKeys
        disablePrecompiles := a.disablePrecompiles
        parentsToDelete := setUpdate evm.message.parentsToDelete evm.accountsToDelete }
    if child.error.isSome then do
      incorporateChildOnError child
      setReturnData child.output
      push 0
    else do
      incorporateChildOnSuccess child
      setReturnData child.output
      push 1
    let outLen ← u256 child.output.length
    let actualOutputSize := min a.outputSize.toNat outLen.toNat
    writeMemory a.outputStart.toNat (child.output.take actualOutputSize)

/-- The charge of CALL for a new account (system.py:379-383). Before spurious_dragon it is due whenever the account does not exist
(tangerine_whistle/vm/instructions/system.py:264-265, homestead/vm/gas.py:184-209). -/
def callCreateCost (s : State) (to : Address) (value : Word) : Nat :=
  if s.fork.since .spuriousDragon then (if value = 0 ∨ isAccountAlive s to then 0 else GAS_NEW_ACCOUNT)
  else if accountExists s to then 0 else GAS_NEW_ACCOUNT

/-- The same for CALLCODE, which transfers to the caller itself: only before tangerine_whistle, where `calculate_message_call_gas` makes
no difference between the two (homestead/vm/gas.py:184-209). -/
def callcodeCreateCost (s : State) (to : Address) : Nat :=
  if s.fork.since .tangerineWhistle then 0 else if accountExists s to then 0 else GAS_NEW_ACCOUNT

/-- system.py:346-429 `call`. -/
def opCall (pm : Sub) : M Unit := do
  let gas ← pop; let toWord ← pop; let value ← pop
  let inputStart ← pop; let inputSize ← pop; let outputStart ← pop; let outputSize ← pop
  let to := toAddressMasked toWord
  let ext ← extendCost [(inputStart, inputSize), (outputStart, outputSize)]
  let accessGasCost ← accessAddress .call to
  let (disablePrecompiles, codeAddress, code, delegatedAccessGasCost) ← accessDelegation to
  let accessGasCost := accessGasCost + delegatedAccessGasCost
  let s ← getState
  let createGasCost := callCreateCost s to value
  let transferGasCost := if value = 0 then 0 else GAS_CALL_VALUE
  let evm ← getEvm
  let callGas := calculateMessageCallGas s.fork value gas.toNat evm.gasLeft ext.cost
    (accessGasCost + createGasCost + transferGasCost)
  chargeGas (callGas.cost + ext.cost)
  if evm.message.isStatic ∧ value ≠ 0 then raiseHalt .writeInStaticContext
  else do
    expandMemory ext.expandBy
    let senderBalance := (getAccount s evm.message.currentTarget).balance
    if senderBalance < value then do
      push 0
      setReturnData []
      addGas callGas.subCall
    else
      genericCall pm
        { gas := callGas.subCall, value := value, caller := evm.message.currentTarget, to := to
          codeAddress := codeAddress, shouldTransferValue := true, isStaticcall := false
          inputStart := inputStart, inputSize := inputSize, outputStart := outputStart, outputSize := outputSize
          code := code, disablePrecompiles := disablePrecompiles }
    incPc 1

/-- system.py:432-513 `callcode`. -/
def opCallcode (pm : Sub) : M Unit := do
  let gas ← pop; let codeAddressWord ← pop; let value ← pop
  let inputStart ← pop; let inputSize ← pop; let outputStart ← pop; let outputSize ← pop
  let codeAddress := toAddressMasked codeAddressWord
  let ext ← extendCost [(inputStart, inputSize), (outputStart, outputSize)]
  let accessGasCost ← accessAddress .call codeAddress
  let (disablePrecompiles, codeAddress, code, delegatedAccessGasCost) ← accessDelegation codeAddress
  let accessGasCost := accessGasCost + delegatedAccessGasCost
  let transferGasCost := if value = 0 then 0 else GAS_CALL_VALUE
  let evm ← getEvm
  let s ← getState
  let createGasCost := callcodeCreateCost s evm.message.currentTarget
  let callGas := calculateMessageCallGas s.fork value gas.toNat evm.gasLeft ext.cost
    (accessGasCost + createGasCost + transferGasCost)
  chargeGas (callGas.cost + ext.cost)
  expandMemory ext.expandBy
  let senderBalance := (getAccount s evm.message.currentTarget).balance
  if senderBalance < value then do
    push 0
    setReturnData []
    addGas callGas.subCall
  else
    genericCall pm
      { gas := callGas.subCall, value := value, caller := evm.message.currentTarget
        to := evm.message.currentTarget
        codeAddress := codeAddress, shouldTransferValue := true, isStaticcall := false
        inputStart := inputStart, inputSize := inputSize, outputStart := outputStart, outputSize := outputSize
        code := code, disablePrecompiles := disablePrecompiles }
  incPc 1

/-- What SELFDESTRUCT does to the state: system.py:551-565, and shanghai/vm/instructions/system.py:522-539 before cancun, where the sum
of the balances (a U256) is checked. -/
def selfdestructState (s : State) (originator beneficiary : Address) : Except Crash State :=
  if s.fork.since .cancun then
    match moveEther s originator beneficiary (getAccount s originator).balance with
    | .error c => .error c
    | .ok s' => .ok (if originator ∈ s'.createdAccounts then setAccountBalance s' originator 0 else s')
  else
    match checkedAdd (getAccount s beneficiary).balance (getAccount s originator).balance with
    | .error c => .error c
    | .ok b => .ok (setAccountBalance (setAccountBalance s beneficiary b) originator 0)

/-- Whether SELFDESTRUCT registers the account for deletion: system.py:560-565, shanghai/vm/instructions/system.py:542. -/
def selfdestructDeletes (s : State) (originator : Address) : Bool :=
  !s.fork.since .cancun || decide (originator ∈ s.createdAccounts)

/-- The charge of SELFDESTRUCT for a new account (system.py:537-544). In tangerine_whistle it is due whenever the beneficiary does not
exist (tangerine_whistle/vm/instructions/system.py:382-383); before there is none. -/
def selfdestructNewCost (s : State) (originator beneficiary : Address) : Nat :=
  if s.fork.since .spuriousDragon then
    if ¬ isAccountAlive s beneficiary ∧ (getAccount s originator).balance ≠ 0 then GAS_SELF_DESTRUCT_NEW_ACCOUNT else 0
  else if s.fork.since .tangerineWhistle ∧ ¬ accountExists s beneficiary then GAS_SELF_DESTRUCT_NEW_ACCOUNT else 0

/-- system.py:516-571 `selfdestruct` (shanghai/vm/instructions/system.py:491-548 before cancun, berlin/vm/instructions/system.py before
london; no charge for cold accounts before berlin). -/
def opSelfdestruct : M Unit := do
  let b ← pop
  let beneficiary := toAddressMasked b
  let evm ← getEvm
  let s ← getState
  let coldCost ← if ¬ s.fork.since .berlin ∨ beneficiary ∈ evm.accessedAddresses then pure 0
    else do
      warmAddress beneficiary
      pure GAS_COLD_ACCOUNT_ACCESS
  let originator := evm.message.currentTarget
  selfdestructRefund originator
  chargeGas (gasSelfDestruct s.fork + coldCost + selfdestructNewCost s originator beneficiary)
  if evm.message.isStatic then raiseHalt .writeInStaticContext
  else do
    let s' ← liftCrash (selfdestructState s originator beneficiary)
    setState s'
    if selfdestructDeletes s originator then addDeleted originator
    else pure ()
    touchIfEmpty beneficiary
    stopRunning

/-- system.py:574-639 `delegatecall`. -/
def opDelegatecall (pm : Sub) : M Unit := do
  let gas ← pop; let codeAddressWord ← pop
  let inputStart ← pop; let inputSize ← pop; let outputStart ← pop; let outputSize ← pop
  let codeAddress := toAddressMasked codeAddressWord
  let ext ← extendCost [(inputStart, inputSize), (outputStart, outputSize)]
  let accessGasCost ← accessAddress .call codeAddress
  let (disablePrecompiles, codeAddress, code, delegatedAccessGasCost) ← accessDelegation codeAddress
  let accessGasCost := accessGasCost + delegatedAccessGasCost
  let evm ← getEvm
  let f := (← getState).fork
  let callGas := calculateMessageCallGas f 0 gas.toNat evm.gasLeft ext.cost accessGasCost
  chargeGas (callGas.cost + ext.cost)
  expandMemory ext.expandBy
  genericCall pm
    { gas := callGas.subCall, value := evm.message.value, caller := evm.message.caller
      to := evm.message.currentTarget
      codeAddress := codeAddress, shouldTransferValue := false, isStaticcall := false
      inputStart := inputStart, inputSize := inputSize, outputStart := outputStart, outputSize := outputSize
      code := code, disablePrecompiles := disablePrecompiles }
  incPc 1

/-- system.py:642-712 `staticcall`. -/
def opStaticcall (pm : Sub) : M Unit := do
  let gas ← pop; let toWord ← pop
  let inputStart ← pop; let inputSize ← pop; let outputStart ← pop; let outputSize ← pop
  let to := toAddressMasked toWord
  let ext ← extendCost [(inputStart, inputSize), (outputStart, outputSize)]
  let accessGasCost ← accessAddress .call to
  let (disablePrecompiles, codeAddress, code, delegatedAccessGasCost) ← accessDelegation to
  let accessGasCost := accessGasCost + delegatedAccessGasCost
  let evm ← getEvm
  let f := (← getState).fork
  let callGas := calculateMessageCallGas f 0 gas.toNat evm.gasLeft ext.cost accessGasCost
  chargeGas (callGas.cost + ext.cost)
  expandMemory ext.expandBy
  genericCall pm
    { gas := callGas.subCall, value := 0, caller := evm.message.currentTarget, to := to
      codeAddress := codeAddress, shouldTransferValue := true, isStaticcall := true
      inputStart := inputStart, inputSize := inputSize, outputStart := outputStart, outputSize := outputSize
      code := code, disablePrecompiles := disablePrecompiles }
  incPc 1

/-- system.py:715-742 `revert`. -/
def opRevert : M Unit := do
  let memoryStart ← pop; let size ← pop
  let ext ← extendCost [(memoryStart, size)]
  chargeGas ext.cost
  expandMemory ext.expandBy
  let evm ← getEvm
  setOutput (memoryReadBytes evm.memory memoryStart.toNat size.toNat)
  raise .revert

end Verif
