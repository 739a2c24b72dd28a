import Verif.Model.Ops
/-
osaka/vm/interpreter.py and osaka/vm/eoa_delegation.py (`set_delegation`).

The Python interpreter is mutually recursive: the main loop of a frame calls instructions, which call
`process_message`, which starts the main loop of a child frame. The model is one structural recursion on a fuel
number, `run`; the pieces around it take the loop as an argument. Fuel is not part of the code: C06 proves that
`gas + 2` always suffices, that any larger amount gives the same result, and that the result solves the recursion
equation of the code.
-/
namespace Verif

/-- The main loop of a frame, as used by the functions below. -/
abbrev Loop := Mach → Res Unit

/-- osaka/vm/interpreter.py:274-291: the frame created for a message. -/
def initEvm (msg : Message) : Evm :=
  { pc := 0
    stack := []
    memory := []
    code := msg.code
    gasLeft := msg.gas
    validJumpDestinations := getValidJumpDestinations msg.code
    logs := []
    refundCounter := 0
    running := true
    message := msg
    output := []
    accountsToDelete := []
    returnData := []
    error := none
    accessedAddresses := msg.accessedAddresses
    accessedStorageKeys := msg.accessedStorageKeys
    touchedAccounts := [] }

/-- `evm.output = b""` on an exceptional halt; the output stays before byzantium (spurious_dragon/vm/interpreter.py:285-288). -/
def haltOutput (f : Fork) (output : Bytes) : Bytes := if f.since .byzantium then [] else output

/-- osaka/vm/interpreter.py:313-320: the two `except` clauses of `execute_code`. Other exceptions propagate. -/
def catchFrame : Res Unit → Except (Exn × World) (Evm × World)
  | .ok _ m => .ok (m.evm, m.world)
  | .err (.halt h) m =>
    .ok ({ m.evm with gasLeft := 0, output := haltOutput m.world.state.fork m.evm.output, error := some (.halt h) }, m.world)
  | .err .revert m => .ok ({ m.evm with error := some .revert }, m.world)
  | .err e m => .error (e, m.world)

/-- The precompile selected by `evm.message.code_address in PRE_COMPILED_CONTRACTS`. -/
def precompileOf (E : Env) (f : Fork) (msg : Message) : Option (M Unit) :=
  match msg.codeAddress with
  | none => none
  | some a => precompile E f a

/-- osaka/vm/interpreter.py:257-321 `execute_code` (tracing omitted). -/
def executeCode (E : Env) (loop : Loop) : Sub := fun msg w =>
  let m : Mach := ⟨initEvm msg, w⟩
  match precompileOf E w.state.fork msg with
  | some p => if msg.disablePrecompiles then .ok (m.evm, w) else catchFrame (p m)
  | none => catchFrame (loop m)

/-- Lift a store operation that may raise. -/
def liftW {α : Type} (w : World) (x : Except Crash α) : Except (Exn × World) α :=
  match x with
  | .ok a => .ok a
  | .error c => .error (.crash c, w)

/-- osaka/vm/interpreter.py:220-254 `process_message`; before paris the target is touched (gray_glacier/vm/interpreter.py). -/
def processMessage (E : Env) (loop : Loop) : Sub := fun msg w =>
  if msg.depth > STACK_DEPTH_LIMIT then .error (.halt .stackDepthLimit, w)
  else
    let w1 := beginTransaction w
    match (if msg.shouldTransferValue ∧ msg.value ≠ 0
           then moveEther (touchIn w1.state msg.currentTarget) msg.caller msg.currentTarget msg.value
           else .ok (touchIn w1.state msg.currentTarget)) with
    | .error c => .error (.crash c, { w1 with state := touchIn w1.state msg.currentTarget })
    | .ok s =>
      match executeCode E loop msg { w1 with state := s } with
      | .error e => .error e
      | .ok (evm, w2) =>
        match (if evm.error.isSome then rollbackTransaction w2 else commitTransaction w2) with
        | .error c => .error (.crash c, w2)
        | .ok w3 => .ok (evm, w3)

/-- osaka/vm/interpreter.py:198-206: the checks on the code returned by a creation, and the deposit charge.
The check of the first byte is new in london (london/vm/interpreter.py:188-194), the limit on the length in spurious_dragon. -/
def depositCode (f : Fork) (gasLeft : Nat) (contractCode : Bytes) : Except Halt Nat :=
  let contractCodeGas := contractCode.length * GAS_CODE_DEPOSIT
  if f.since .london ∧ contractCode.head? = some 0xEF then .error .invalidContractPrefix
  else if gasLeft < contractCodeGas then .error .outOfGas
  else if f.since .spuriousDragon ∧ contractCode.length > MAX_CODE_SIZE then .error .outOfGas
  else .ok (gasLeft - contractCodeGas)

/-- The nonce of a new contract: 1 since spurious_dragon (EIP-161), 0 before (tangerine_whistle/vm/interpreter.py:135-175). -/
def startNonce (s : State) (t : Address) : State := if s.fork.since .spuriousDragon then incrementNonce s t else s

/-- osaka/vm/interpreter.py:178-195: the stores in which the init code of a creation of `t` runs. The set of created accounts exists
since istanbul; nothing reads it before. -/
def createStart (w : World) (t : Address) : World :=
  { beginTransaction w with
    state := startNonce (markAccountCreated (destroyStorage (beginTransaction w).state t) t) t }

/-- osaka/vm/interpreter.py:161-217 `process_create_message`. In frontier a creation that cannot pay for its code succeeds without code
and keeps its gas (frontier/vm/interpreter.py:162-170). -/
def processCreateMessage (E : Env) (loop : Loop) : Sub := fun msg w =>
  match processMessage E loop msg (createStart w msg.currentTarget) with
  | .error e => .error e
  | .ok (evm, w2) =>
    if evm.error.isSome then
      match rollbackTransaction w2 with
      | .error c => .error (.crash c, w2)
      | .ok w3 => .ok (evm, w3)
    else
      match depositCode w2.state.fork evm.gasLeft evm.output with
      | .error h =>
        if w2.state.fork.since .homestead then
          match rollbackTransaction w2 with
          | .error c => .error (.crash c, w2)
          | .ok w3 =>
            .ok ({ evm with gasLeft := 0, output := haltOutput w2.state.fork evm.output, error := some (.halt h) }, w3)
        else
          match commitTransaction w2 with
          | .error c => .error (.crash c, w2)
          | .ok w3 => .ok ({ evm with output := [] }, w3)
      | .ok g =>
        let w3 := { w2 with state := setCode w2.state msg.currentTarget evm.output }
        match commitTransaction w3 with
        | .error c => .error (.crash c, w3)
        | .ok w4 => .ok ({ evm with gasLeft := g }, w4)

/-- osaka/vm/interpreter.py:301-308: the main loop of a frame. `f` is the loop itself: it continues the frame after
one instruction and runs the child frames. -/
def loopBody (E : Env) (f : Loop) : Loop := fun m =>
  if m.evm.running then
    match m.evm.code[m.evm.pc]? with
    | none => .ok () m
    | some b =>
      match decodeOpIn m.world.state.fork b with
      | none => .err (.halt .invalidOpcode) m
      | some op =>
        match opStep E (processMessage E f) (processCreateMessage E f) op m with
        | .err e m' => .err e m'
        | .ok _ m' => f m'
  else .ok () m

/-- The main loop with bounded nesting: one unit of fuel is spent per iteration, and child frames get the remaining
fuel. Not in the code: see `exec`. -/
def run (E : Env) : Nat → Loop
  | 0 => fun m => .err .outOfFuel m
  | n + 1 => loopBody E (run E n)

/-- osaka/vm/interpreter.py:301-308: the main loop. C06 proves that this is the only function `f` with
`f = loopBody E f`, i.e. that the Python recursion is well founded and that this is what it computes. -/
def exec (E : Env) : Loop := fun m => run E (m.evm.gasLeft + 2) m

/-! ### osaka/vm/eoa_delegation.py -/

/-- osaka/vm/eoa_delegation.py:22,26-28 constants. -/
def SET_CODE_TX_MAGIC : Bytes := [0x05]
def PER_EMPTY_ACCOUNT_COST := 25000
def PER_AUTH_BASE_COST := 12500
def NULL_ADDRESS : Address := 0

/-- The message signed by an authority (osaka/vm/eoa_delegation.py:100-109). -/
def authorizationSigningHash (C : Crypto) (auth : Authorization) : Word :=
  C.keccak256 (SET_CODE_TX_MAGIC ++
    Rlp.encode (.list [.ofNat auth.chainId.toNat, .ofAddress auth.address, .ofNat auth.nonce.toNat]))

/-- osaka/vm/eoa_delegation.py:73-112 `recover_authority`; `none` = InvalidSignatureError. -/
def recoverAuthority (C : Crypto) (auth : Authorization) : Option Address :=
  if auth.yParity ≠ 0 ∧ auth.yParity ≠ 1 then none
  else if auth.r = 0 ∨ auth.r ≥ SECP256K1N then none
  else if auth.s = 0 ∨ auth.s > SECP256K1N / 2 then none
  else match C.secp256k1Recover auth.r auth.s (BitVec.ofNat 256 auth.yParity) (authorizationSigningHash C auth) with
    | none => none
    | some publicKey => some (toAddressMasked (C.keccak256 publicKey))

/-- Accumulator of the loop in `set_delegation`. -/
structure DelegationAcc where
  state : State
  accessed : List Address
  refund : Nat

/-- Body of the loop, osaka/vm/eoa_delegation.py:167-200. `refund_counter` is a U256; the overflow check is made once
at the end (`setDelegation`), which is equivalent because the counter only grows. -/
def delegationStep (E : Env) (acc : DelegationAcc) (auth : Authorization) : DelegationAcc :=
  if auth.chainId ≠ E.block.chainId.setWidth 256 ∧ auth.chainId ≠ 0 then acc
  else if auth.nonce.toNat ≥ 2 ^ 64 - 1 then acc
  else match recoverAuthority E.crypto auth with
    | none => acc
    | some authority =>
      let accessed := setAdd acc.accessed authority
      let account := getAccount acc.state authority
      if account.code ≠ [] ∧ ¬ isValidDelegation account.code then { acc with accessed := accessed }
      else if account.nonce ≠ auth.nonce.toNat then { acc with accessed := accessed }
      else
        let refund := if accountExists acc.state authority
          then acc.refund + (PER_EMPTY_ACCOUNT_COST - PER_AUTH_BASE_COST) else acc.refund
        let codeToSet := if auth.address = NULL_ADDRESS then [] else EOA_DELEGATION_MARKER ++ addressBytes auth.address
        { state := incrementNonce (setCode acc.state authority codeToSet) authority
          accessed := accessed
          refund := refund }

/-- osaka/vm/eoa_delegation.py:149-207 `set_delegation`: the refund, the updated message and state. -/
def setDelegation (E : Env) (msg : Message) (s : State) : Except Crash (Word × Message × State) :=
  let acc := E.tx.authorizations.foldl (delegationStep E) ⟨s, msg.accessedAddresses, 0⟩
  if acc.refund ≥ 2 ^ 256 then .error .overflowError
  else match msg.codeAddress with
    | none => .error .invalidBlock
    | some ca =>
      .ok (BitVec.ofNat 256 acc.refund,
           { msg with accessedAddresses := acc.accessed, code := (getAccount acc.state ca).code },
           acc.state)

/-- osaka/vm/interpreter.py:71-90 `MessageCallOutput`. -/
structure MessageCallOutput where
  gasLeft : Nat
  refundCounter : Word
  logs : List Log
  accountsToDelete : List Address
  error : Option Exn
  returnData : Bytes
  /-- only from spurious_dragon to gray_glacier -/
  touchedAccounts : List Address

/-- osaka/vm/interpreter.py:129-134: follow a delegation designator in the message's code. Absent before prague. -/
def resolveDelegation (msg : Message) (s : State) : Message :=
  if s.fork.since .prague then
    match getDelegatedCodeAddress msg.code with
    | none => msg
    | some a =>
      { msg with
        disablePrecompiles := true
        accessedAddresses := setAdd msg.accessedAddresses a
        code := (getAccount s a).code
        codeAddress := some a }
  else msg

/-- osaka/vm/interpreter.py:138-158: the result of the top-level frame. `U256(evm.refund_counter)` and the `+=` are
checked. -/
def messageCallOutput (refund : Word) (evm : Evm) : Except Crash MessageCallOutput :=
  if evm.error.isSome then
    .ok ⟨evm.gasLeft, refund, [], [], evm.error, evm.output, []⟩
  else if evm.refundCounter < 0 then .error .overflowError
  else if refund.toNat + evm.refundCounter.toNat < 2 ^ 256 then
    .ok ⟨evm.gasLeft, BitVec.ofNat 256 (refund.toNat + evm.refundCounter.toNat), evm.logs, evm.accountsToDelete, none,
      evm.output, evm.touchedAccounts⟩
  else .error .overflowError

/-- spurious_dragon/vm/interpreter.py:117-121, in `process_message_call`: the target of a call is touched if it is empty afterwards. -/
def touchTarget (s : State) (a : Address) (evm : Evm) : Evm :=
  { evm with touchedAccounts := touchedIfEmpty s a evm.touchedAccounts }

/-- osaka/vm/interpreter.py:93-158 `process_message_call`, given the main loop. There are no authorizations before prague. -/
def processMessageCallWith (E : Env) (loop : Loop) (msg : Message) (w : World) :
    Except (Exn × World) (MessageCallOutput × World) :=
  match msg.target with
  | none =>
    if accountHasCodeOrNonce w.state msg.currentTarget || accountHasStorage w.state msg.currentTarget then
      .ok (⟨0, 0, [], [], some (.halt .addressCollision), [], []⟩, w)
    else
      match processCreateMessage E loop msg w with
      | .error e => .error e
      | .ok (evm, w') =>
        match messageCallOutput 0 evm with
        | .error c => .error (.crash c, w')
        | .ok out => .ok (out, w')
  | some target =>
    match (if w.state.fork.since .prague ∧ E.tx.authorizations ≠ [] then setDelegation E msg w.state else .ok (0, msg, w.state)) with
    | .error c => .error (.crash c, w)
    | .ok (refund, msg1, s1) =>
      let msg2 := resolveDelegation msg1 s1
      match processMessage E loop msg2 { w with state := s1 } with
      | .error e => .error e
      | .ok (evm, w') =>
        match messageCallOutput refund (touchTarget w'.state target evm) with
        | .error c => .error (.crash c, w')
        | .ok out => .ok (out, w')

/-- osaka/vm/interpreter.py:93-158 `process_message_call`. -/
def processMessageCall (E : Env) (msg : Message) (w : World) : Except (Exn × World) (MessageCallOutput × World) :=
  processMessageCallWith E (exec E) msg w

end Verif
