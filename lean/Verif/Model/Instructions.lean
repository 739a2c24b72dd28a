import Verif.Model.Evm
import Verif.Model.Rlp
/-
osaka/vm/instructions/*.py except the call/create family (see `System.lean`).
-/
namespace Verif

/-! ### Value computations of arithmetic.py, bitwise.py, comparison.py -/

/-- `bool -> U256`. -/
def boolWord (b : Bool) : Word := if b then 1 else 0

/-- `int.bit_length()` for naturals. -/
def bitLength (n : Nat) : Nat := if n = 0 then 0 else Nat.log2 n + 1

/-- arithmetic.py:132-135. -/
def divVal (dividend divisor : Word) : Word := if divisor = 0 then 0 else dividend / divisor

/-- arithmetic.py:158-173; `U256.from_signed` is reduction modulo 2^256. -/
def sdivVal (x y : Word) : Word :=
  let dividend := x.toInt
  let divisor := y.toInt
  let quotient : Int :=
    if divisor = 0 then 0
    else if dividend = -(2 ^ 255) ∧ divisor = -1 then -(2 ^ 255)
    else getSign (dividend * divisor) * ((dividend.natAbs / divisor.natAbs : Nat) : Int)
  BitVec.ofInt 256 quotient

/-- arithmetic.py:198-201. -/
def modVal (x y : Word) : Word := if y = 0 then 0 else x % y

/-- arithmetic.py:221-233. -/
def smodVal (x y : Word) : Word :=
  let x := x.toInt
  let y := y.toInt
  let remainder : Int := if y = 0 then 0 else getSign x * ((x.natAbs % y.natAbs : Nat) : Int)
  BitVec.ofInt 256 remainder

/-- arithmetic.py:259-262; the remainder is below `z`, so `U256(...)` cannot raise. -/
def addmodVal (x y z : Word) : Word :=
  if z = 0 then 0 else BitVec.ofNat 256 ((x.toNat + y.toNat) % z.toNat)

/-- arithmetic.py:290-293. -/
def mulmodVal (x y z : Word) : Word :=
  if z = 0 then 0 else BitVec.ofNat 256 ((x.toNat * y.toNat) % z.toNat)

/-- Python's three-argument `pow` (for a positive modulus). -/
def powMod (b e m : Nat) : Nat := b ^ e % m

/-- arithmetic.py:326. -/
def expVal (base exponent : Word) : Word := BitVec.ofNat 256 (powMod base.toNat exponent.toNat (2 ^ 256))

/-- arithmetic.py:353-369. -/
def signextendVal (byteNum value : Word) : Word :=
  if byteNum > 31 then value
  else
    let valueBytes := (wordBytes value).drop (31 - byteNum.toNat)
    match valueBytes with
    | [] => 0 -- unreachable: at least one byte is left
    | b :: _ =>
      if b >>> 7 = 0 then BitVec.ofNat 256 (fromBE valueBytes)
      else
        let numBytesPrepend := 32 - (byteNum.toNat + 1)
        BitVec.ofNat 256 (fromBE (List.replicate numBytesPrepend 0xFF ++ valueBytes))

/-- bitwise.py:141-149. -/
def byteVal (byteIndex word : Word) : Word :=
  if byteIndex ≥ 32 then 0
  else
    let extraBytesToRight := (31 : Word) - byteIndex
    let word := word >>> (extraBytesToRight * 8)
    word &&& 0xFF

/-- bitwise.py:174-177. -/
def shlVal (shift value : Word) : Word :=
  if shift.toNat < 256 then BitVec.ofNat 256 ((value.toNat <<< shift.toNat) &&& (2 ^ 256 - 1)) else 0

/-- bitwise.py:202-205. -/
def shrVal (shift value : Word) : Word :=
  if shift < 256 then value >>> shift else 0

/-- bitwise.py:223-235; Python's `>>` on ints is floor division by a power of two. -/
def sarVal (shift value : Word) : Word :=
  let shift := shift.toNat
  let signedValue := value.toInt
  if shift < 256 then BitVec.ofInt 256 (signedValue >>> shift)
  else if signedValue ≥ 0 then 0
  else BitVec.allOnes 256

/-- bitwise.py:262-263. -/
def clzVal (x : Word) : Word := BitVec.ofNat 256 256 - BitVec.ofNat 256 (bitLength x.toNat)

/-! ### arithmetic.py -/

/-- arithmetic.py:32-56 -/
def opAdd : M Unit := do
  let x ← pop; let y ← pop
  chargeGas GAS_VERY_LOW
  push (x + y)
  incPc 1
/-- arithmetic.py:59-83 -/
def opSub : M Unit := do
  let x ← pop; let y ← pop
  chargeGas GAS_VERY_LOW
  push (x - y)
  incPc 1
/-- arithmetic.py:86-110 -/
def opMul : M Unit := do
  let x ← pop; let y ← pop
  chargeGas GAS_LOW
  push (x * y)
  incPc 1
/-- arithmetic.py:113-140 -/
def opDiv : M Unit := do
  let dividend ← pop; let divisor ← pop
  chargeGas GAS_LOW
  push (divVal dividend divisor)
  incPc 1
/-- arithmetic.py:146-176 -/
def opSdiv : M Unit := do
  let dividend ← pop; let divisor ← pop
  chargeGas GAS_LOW
  push (sdivVal dividend divisor)
  incPc 1
/-- arithmetic.py:179-206 -/
def opMod : M Unit := do
  let x ← pop; let y ← pop
  chargeGas GAS_LOW
  push (modVal x y)
  incPc 1
/-- arithmetic.py:209-236 -/
def opSmod : M Unit := do
  let x ← pop; let y ← pop
  chargeGas GAS_LOW
  push (smodVal x y)
  incPc 1
/-- arithmetic.py:239-267 -/
def opAddmod : M Unit := do
  let x ← pop; let y ← pop; let z ← pop
  chargeGas GAS_MID
  push (addmodVal x y z)
  incPc 1
/-- arithmetic.py:270-298 -/
def opMulmod : M Unit := do
  let x ← pop; let y ← pop; let z ← pop
  chargeGas GAS_MID
  push (mulmodVal x y z)
  incPc 1
/-- arithmetic.py:301-331 -/
def opExp : M Unit := do
  let base ← pop; let exponent ← pop
  let exponentBits := bitLength exponent.toNat
  let exponentBytes := (exponentBits + 7) / 8
  let f := (← getState).fork
  chargeGas (GAS_EXPONENTIATION + gasExponentiationPerByte f * exponentBytes)
  push (expVal base exponent)
  incPc 1
/-- arithmetic.py:334-374 -/
def opSignextend : M Unit := do
  let byteNum ← pop; let value ← pop
  chargeGas GAS_LOW
  push (signextendVal byteNum value)
  incPc 1

/-! ### comparison.py -/

/-- comparison.py:22-46 -/
def opLt : M Unit := do
  let left ← pop; let right ← pop
  chargeGas GAS_VERY_LOW
  push (boolWord (decide (left < right)))
  incPc 1
/-- comparison.py:49-72 -/
def opSlt : M Unit := do
  let left ← pop; let right ← pop
  chargeGas GAS_VERY_LOW
  push (boolWord (decide (left.toInt < right.toInt)))
  incPc 1
/-- comparison.py:75-99 -/
def opGt : M Unit := do
  let left ← pop; let right ← pop
  chargeGas GAS_VERY_LOW
  push (boolWord (decide (left > right)))
  incPc 1
/-- comparison.py:102-125 -/
def opSgt : M Unit := do
  let left ← pop; let right ← pop
  chargeGas GAS_VERY_LOW
  push (boolWord (decide (left.toInt > right.toInt)))
  incPc 1
/-- comparison.py:128-152 -/
def opEq : M Unit := do
  let left ← pop; let right ← pop
  chargeGas GAS_VERY_LOW
  push (boolWord (decide (left = right)))
  incPc 1
/-- comparison.py:155-178 -/
def opIszero : M Unit := do
  let x ← pop
  chargeGas GAS_VERY_LOW
  push (boolWord (decide (x = 0)))
  incPc 1

/-! ### bitwise.py -/

/-- bitwise.py:22-44 -/
def opAnd : M Unit := do
  let x ← pop; let y ← pop
  chargeGas GAS_VERY_LOW
  push (x &&& y)
  incPc 1
/-- bitwise.py:47-69 -/
def opOr : M Unit := do
  let x ← pop; let y ← pop
  chargeGas GAS_VERY_LOW
  push (x ||| y)
  incPc 1
/-- bitwise.py:72-94 -/
def opXor : M Unit := do
  let x ← pop; let y ← pop
  chargeGas GAS_VERY_LOW
  push (x ^^^ y)
  incPc 1
/-- bitwise.py:97-118 -/
def opNot : M Unit := do
  let x ← pop
  chargeGas GAS_VERY_LOW
  push (~~~x)
  incPc 1
/-- bitwise.py:121-154 -/
def opByte : M Unit := do
  let byteIndex ← pop; let word ← pop
  chargeGas GAS_VERY_LOW
  push (byteVal byteIndex word)
  incPc 1
/-- bitwise.py:157-182 -/
def opShl : M Unit := do
  let shift ← pop; let value ← pop
  chargeGas GAS_VERY_LOW
  push (shlVal shift value)
  incPc 1
/-- bitwise.py:185-210 -/
def opShr : M Unit := do
  let shift ← pop; let value ← pop
  chargeGas GAS_VERY_LOW
  push (shrVal shift value)
  incPc 1
/-- bitwise.py:213-240 -/
def opSar : M Unit := do
  let shift ← pop; let value ← pop
  chargeGas GAS_VERY_LOW
  push (sarVal shift value)
  incPc 1
/-- bitwise.py:243-268 -/
def opClz : M Unit := do
  let x ← pop
  chargeGas GAS_LOW
  push (clzVal x)
  incPc 1

/-! ### block.py -/

/-- block.py:48-59: the value pushed by BLOCKHASH. Negative list indices count from the end; IndexError if too far.
The index `-(current - number)` is taken to be a negative Python integer (`ethereum_types` is not available here). -/
def blockHashVal (blockHashes : List Word) (currentBlockNumber blockNumber : Nat) : Except Crash Word :=
  let maxBlockNumber := blockNumber + 256
  if currentBlockNumber ≤ blockNumber ∨ currentBlockNumber > maxBlockNumber then .ok 0
  else
    let back := currentBlockNumber - blockNumber
    if back ≤ blockHashes.length then
      match blockHashes[blockHashes.length - back]? with
      | some h => .ok h
      | none => .error .indexError
    else .error .indexError

/-- block.py:22-64 -/
def opBlockhash (E : Env) : M Unit := do
  let blockNumber ← pop
  chargeGas GAS_BLOCK_HASH
  let h ← liftCrash (blockHashVal E.block.blockHashes E.block.number blockNumber.toNat)
  push h
  incPc 1
/-- block.py:67-97 -/
def opCoinbase (E : Env) : M Unit := do
  chargeGas GAS_BASE
  push (addressWord E.block.coinbase)
  incPc 1
/-- block.py:100-130 -/
def opTimestamp (E : Env) : M Unit := do
  chargeGas GAS_BASE
  push E.block.time
  incPc 1
/-- block.py:133-162 -/
def opNumber (E : Env) : M Unit := do
  chargeGas GAS_BASE
  let n ← u256 E.block.number
  push n
  incPc 1
/-- What opcode 0x44 pushes: PREVRANDAO since paris (block.py:165-194), `U256(block_env.difficulty)` before
(gray_glacier/vm/instructions/block.py:165-193). -/
def randaoOrDifficulty (E : Env) : M Word := fun m =>
  if m.world.state.fork.since .paris then .ok E.block.prevRandao m else u256 E.block.difficulty m
/-- block.py:165-194 -/
def opPrevrandao (E : Env) : M Unit := do
  chargeGas GAS_BASE
  let v ← randaoOrDifficulty E
  push v
  incPc 1
/-- block.py:197-226 -/
def opGaslimit (E : Env) : M Unit := do
  chargeGas GAS_BASE
  let n ← u256 E.block.blockGasLimit
  push n
  incPc 1
/-- block.py:229-255 -/
def opChainid (E : Env) : M Unit := do
  chargeGas GAS_BASE
  push (E.block.chainId.setWidth 256)
  incPc 1

/-! ### environment.py -/

/-- The pattern "warm price, or add to accessed_addresses and cold price" (e.g. environment.py:345-349). Before berlin there are no
such sets and the price depends on the instruction only (istanbul/vm/instructions/environment.py:64-87, 325-384, 442-468). -/
def accessAddress (k : AccessKind) (a : Address) : M Nat := do
  let evm ← getEvm
  let f := (← getState).fork
  if ¬ f.since .berlin then pure (flatAccessCost f k)
  else if a ∈ evm.accessedAddresses then
    pure GAS_WARM_ACCESS
  else
    warmAddress a
    pure GAS_COLD_ACCOUNT_ACCESS

/-- environment.py:43-63 -/
def opAddress : M Unit := do
  chargeGas GAS_BASE
  let evm ← getEvm
  push (addressWord evm.message.currentTarget)
  incPc 1
/-- environment.py:66-93 -/
def opBalance : M Unit := do
  let a ← pop
  let address := toAddressMasked a
  let cost ← accessAddress .balance address
  chargeGas cost
  let s ← getState
  push (getAccount s address).balance
  incPc 1
/-- environment.py:96-117 -/
def opOrigin (E : Env) : M Unit := do
  chargeGas GAS_BASE
  push (addressWord E.tx.origin)
  incPc 1
/-- environment.py:120-140 -/
def opCaller : M Unit := do
  chargeGas GAS_BASE
  let evm ← getEvm
  push (addressWord evm.message.caller)
  incPc 1
/-- environment.py:143-163 -/
def opCallvalue : M Unit := do
  chargeGas GAS_BASE
  let evm ← getEvm
  push evm.message.value
  incPc 1
/-- environment.py:166-189 -/
def opCalldataload : M Unit := do
  let startIndex ← pop
  chargeGas GAS_VERY_LOW
  let evm ← getEvm
  push (BitVec.ofNat 256 (fromBE (bufferRead evm.message.data startIndex.toNat 32)))
  incPc 1
/-- environment.py:192-212 -/
def opCalldatasize : M Unit := do
  chargeGas GAS_BASE
  let evm ← getEvm
  let n ← u256 evm.message.data.length
  push n
  incPc 1

/-- `calculate_gas_extend_memory(evm.memory, extensions)`. -/
def extendCost (extensions : List (Word × Word)) : M ExtendMemory := do
  let evm ← getEvm
  pure (calculateGasExtendMemory evm.memory.length extensions)

/-- environment.py:215-247 -/
def opCalldatacopy : M Unit := do
  let memoryStartIndex ← pop; let dataStartIndex ← pop; let size ← pop
  let words := ceil32 size.toNat / 32
  let copyGasCost := GAS_COPY * words
  let ext ← extendCost [(memoryStartIndex, size)]
  chargeGas (GAS_VERY_LOW + copyGasCost + ext.cost)
  expandMemory ext.expandBy
  let evm ← getEvm
  writeMemory memoryStartIndex.toNat (bufferRead evm.message.data dataStartIndex.toNat size.toNat)
  incPc 1
/-- environment.py:250-270 -/
def opCodesize : M Unit := do
  chargeGas GAS_BASE
  let evm ← getEvm
  let n ← u256 evm.code.length
  push n
  incPc 1
/-- environment.py:273-305 -/
def opCodecopy : M Unit := do
  let memoryStartIndex ← pop; let codeStartIndex ← pop; let size ← pop
  let words := ceil32 size.toNat / 32
  let copyGasCost := GAS_COPY * words
  let ext ← extendCost [(memoryStartIndex, size)]
  chargeGas (GAS_VERY_LOW + copyGasCost + ext.cost)
  expandMemory ext.expandBy
  let evm ← getEvm
  writeMemory memoryStartIndex.toNat (bufferRead evm.code codeStartIndex.toNat size.toNat)
  incPc 1
/-- environment.py:308-328 -/
def opGasprice (E : Env) : M Unit := do
  chargeGas GAS_BASE
  let n ← u256 E.tx.gasPrice
  push n
  incPc 1
/-- environment.py:331-360 -/
def opExtcodesize : M Unit := do
  let a ← pop
  let address := toAddressMasked a
  let cost ← accessAddress .external address
  chargeGas cost
  let s ← getState
  let n ← u256 (getAccount s address).code.length
  push n
  incPc 1
/-- environment.py:363-402 -/
def opExtcodecopy : M Unit := do
  let a ← pop
  let address := toAddressMasked a
  let memoryStartIndex ← pop; let codeStartIndex ← pop; let size ← pop
  let words := ceil32 size.toNat / 32
  let copyGasCost := GAS_COPY * words
  let ext ← extendCost [(memoryStartIndex, size)]
  let accessGasCost ← accessAddress .external address
  chargeGas (accessGasCost + copyGasCost + ext.cost)
  expandMemory ext.expandBy
  let s ← getState
  let code := (getAccount s address).code
  writeMemory memoryStartIndex.toNat (bufferRead code codeStartIndex.toNat size.toNat)
  incPc 1
/-- environment.py:405-424 -/
def opReturndatasize : M Unit := do
  chargeGas GAS_BASE
  let evm ← getEvm
  let n ← u256 evm.returnData.length
  push n
  incPc 1
/-- environment.py:427-458; line 453 adds two `U256`, which the check at 448 keeps below 2^256. -/
def opReturndatacopy : M Unit := do
  let memoryStartIndex ← pop; let returnDataStartPosition ← pop; let size ← pop
  let words := ceil32 size.toNat / 32
  let copyGasCost := GAS_RETURN_DATA_COPY * words
  let ext ← extendCost [(memoryStartIndex, size)]
  chargeGas (GAS_VERY_LOW + copyGasCost + ext.cost)
  let evm ← getEvm
  if returnDataStartPosition.toNat + size.toNat > evm.returnData.length then
    raiseHalt .outOfBoundsRead
  else do
    expandMemory ext.expandBy
    let stop ← u256 (returnDataStartPosition.toNat + size.toNat)
    let value := slice evm.returnData returnDataStartPosition.toNat stop.toNat
    writeMemory memoryStartIndex.toNat value
    incPc 1
/-- environment.py:461-493 -/
def opExtcodehash (E : Env) : M Unit := do
  let a ← pop
  let address := toAddressMasked a
  let cost ← accessAddress .codeHash address
  chargeGas cost
  let s ← getState
  let account := getAccount s address
  push (if account = emptyAccount then 0 else E.crypto.keccak256 account.code)
  incPc 1
/-- environment.py:496-521 -/
def opSelfbalance : M Unit := do
  chargeGas GAS_FAST_STEP
  let evm ← getEvm
  let s ← getState
  push (getAccount s evm.message.currentTarget).balance
  incPc 1
/-- environment.py:524-544 -/
def opBasefee (E : Env) : M Unit := do
  chargeGas GAS_BASE
  let n ← u256 E.block.baseFeePerGas
  push n
  incPc 1
/-- environment.py:547-571 -/
def opBlobhash (E : Env) : M Unit := do
  let index ← pop
  chargeGas GAS_BLOBHASH_OPCODE
  push (match E.tx.blobVersionedHashes[index.toNat]? with
    | some h => h
    | none => 0)
  incPc 1
/-- environment.py:574-597 -/
def opBlobbasefee (E : Env) : M Unit := do
  chargeGas GAS_BASE
  let n ← u256 (calculateBlobGasPrice (← getState).fork E.block.excessBlobGas)
  push n
  incPc 1

/-! ### control_flow.py -/

/-- control_flow.py:23-42 -/
def opStop : M Unit := do
  stopRunning
  incPc 1
/-- control_flow.py:45-67 -/
def opJump : M Unit := do
  let jumpDest ← pop
  chargeGas GAS_MID
  let evm ← getEvm
  if jumpDest.toNat ∈ evm.validJumpDestinations then setPc jumpDest.toNat
  else raiseHalt .invalidJumpDest
/-- control_flow.py:70-98 -/
def opJumpi : M Unit := do
  let jumpDest ← pop; let conditionalValue ← pop
  chargeGas GAS_HIGH
  let evm ← getEvm
  if conditionalValue = 0 then setPc (evm.pc + 1)
  else if jumpDest.toNat ∈ evm.validJumpDestinations then setPc jumpDest.toNat
  else raiseHalt .invalidJumpDest
/-- control_flow.py:101-122 -/
def opPc : M Unit := do
  chargeGas GAS_BASE
  let evm ← getEvm
  let n ← u256 evm.pc
  push n
  incPc 1
/-- control_flow.py:125-146 -/
def opGas : M Unit := do
  chargeGas GAS_BASE
  let evm ← getEvm
  let n ← u256 evm.gasLeft
  push n
  incPc 1
/-- control_flow.py:149-171 -/
def opJumpdest : M Unit := do
  chargeGas GAS_JUMPDEST
  incPc 1

/-! ### keccak.py -/

/-- keccak.py:31-64 -/
def opKeccak (E : Env) : M Unit := do
  let memoryStartIndex ← pop; let size ← pop
  let words := ceil32 size.toNat / 32
  let wordGasCost := GAS_KECCAK256_WORD * words
  let ext ← extendCost [(memoryStartIndex, size)]
  chargeGas (GAS_KECCAK256 + wordGasCost + ext.cost)
  expandMemory ext.expandBy
  let evm ← getEvm
  push (E.crypto.keccak256 (memoryReadBytes evm.memory memoryStartIndex.toNat size.toNat))
  incPc 1

/-! ### log.py -/

/-- The loop at log.py:51-54. -/
def popN : Nat → M (List Word)
  | 0 => pure []
  | n + 1 => do
    let t ← pop
    let r ← popN n
    pure (t :: r)

/-- log.py:32-81 -/
def opLog (numTopics : Nat) : M Unit := do
  let memoryStartIndex ← pop; let size ← pop
  let topics ← popN numTopics
  let ext ← extendCost [(memoryStartIndex, size)]
  chargeGas (GAS_LOG + GAS_LOG_DATA * size.toNat + GAS_LOG_TOPIC * numTopics + ext.cost)
  expandMemory ext.expandBy
  let evm ← getEvm
  if evm.message.isStatic then raiseHalt .writeInStaticContext
  else do
    addLog ⟨evm.message.currentTarget, topics, memoryReadBytes evm.memory memoryStartIndex.toNat size.toNat⟩
    incPc 1

/-! ### memory.py -/

/-- memory.py:31-59 -/
def opMstore : M Unit := do
  let startPosition ← pop; let value ← pop
  let ext ← extendCost [(startPosition, 32)]
  chargeGas (GAS_VERY_LOW + ext.cost)
  expandMemory ext.expandBy
  writeMemory startPosition.toNat (wordBytes value)
  incPc 1
/-- memory.py:62-91 -/
def opMstore8 : M Unit := do
  let startPosition ← pop; let value ← pop
  let ext ← extendCost [(startPosition, 1)]
  chargeGas (GAS_VERY_LOW + ext.cost)
  expandMemory ext.expandBy
  writeMemory startPosition.toNat [UInt8.ofNat (value &&& 0xFF).toNat]
  incPc 1
/-- memory.py:94-121 -/
def opMload : M Unit := do
  let startPosition ← pop
  let ext ← extendCost [(startPosition, 32)]
  chargeGas (GAS_VERY_LOW + ext.cost)
  expandMemory ext.expandBy
  let evm ← getEvm
  push (BitVec.ofNat 256 (fromBE (memoryReadBytes evm.memory startPosition.toNat 32)))
  incPc 1
/-- memory.py:124-144 -/
def opMsize : M Unit := do
  chargeGas GAS_BASE
  let evm ← getEvm
  let n ← u256 evm.memory.length
  push n
  incPc 1
/-- memory.py:147-177 -/
def opMcopy : M Unit := do
  let destination ← pop; let source ← pop; let length ← pop
  let words := ceil32 length.toNat / 32
  let copyGasCost := GAS_COPY * words
  let ext ← extendCost [(source, length), (destination, length)]
  chargeGas (GAS_VERY_LOW + copyGasCost + ext.cost)
  expandMemory ext.expandBy
  let evm ← getEvm
  writeMemory destination.toNat (memoryReadBytes evm.memory source.toNat length.toNat)
  incPc 1

/-! ### stack.py -/

/-- instructions/stack.py:25-45 -/
def opPop : M Unit := do
  let _ ← pop
  chargeGas GAS_BASE
  incPc 1
/-- instructions/stack.py:48-78; `U256(evm.pc + 1)` is checked. -/
def opPush (numBytes : Nat) : M Unit := do
  chargeGas (if numBytes = 0 then GAS_BASE else GAS_VERY_LOW)
  let evm ← getEvm
  let start ← u256 (evm.pc + 1)
  push (BitVec.ofNat 256 (fromBE (bufferRead evm.code start.toNat numBytes)))
  incPc (1 + numBytes)
/-- instructions/stack.py:81-106; `itemNumber` 0 duplicates the top. -/
def opDup (itemNumber : Nat) : M Unit := do
  chargeGas GAS_VERY_LOW
  let evm ← getEvm
  match evm.stack[itemNumber]? with
  | none => raiseHalt .stackUnderflow
  | some w => do
    push w
    incPc 1
/-- instructions/stack.py:109-140; exchanges the top with the item `itemNumber` below it. -/
def opSwap (itemNumber : Nat) : M Unit := do
  chargeGas GAS_VERY_LOW
  let evm ← getEvm
  match evm.stack[0]?, evm.stack[itemNumber]? with
  | some a, some b => do
    setStack ((evm.stack.set 0 b).set itemNumber a)
    incPc 1
  | _, _ => raiseHalt .stackUnderflow

/-! ### storage.py -/

/-- storage.py:37-66 -/
def opSload : M Unit := do
  let key ← pop
  let evm ← getEvm
  let s ← getState
  if ¬ s.fork.since .berlin then chargeGas (gasSload s.fork)
  else if (evm.message.currentTarget, key) ∈ evm.accessedStorageKeys then
    chargeGas GAS_WARM_ACCESS
  else do
    warmSlot evm.message.currentTarget key
    chargeGas GAS_COLD_SLOAD
  push (getStorage s evm.message.currentTarget key)
  incPc 1

/-- The price of an SSTORE that changes nothing new, and what is left of `GAS_STORAGE_UPDATE`: since berlin the cold read is charged
apart (storage.py:97-103), before it is not (istanbul/vm/instructions/storage.py). -/
def sstoreBase (f : Fork) : Nat := if f.since .berlin then GAS_WARM_ACCESS else gasSload f
def sstoreUpdate (f : Fork) : Nat := if f.since .berlin then GAS_STORAGE_UPDATE - GAS_COLD_SLOAD else GAS_STORAGE_UPDATE

/-- storage.py:97-103: the part of the cost that does not depend on warmth (istanbul/vm/instructions/storage.py before berlin,
constantinople/vm/instructions/storage.py:58-95 before istanbul, where the original value plays no role). -/
def sstoreGas (f : Fork) (original current new : Word) : Nat :=
  if f.since .istanbul then
    if original = current ∧ current ≠ new then
      if original = 0 then GAS_STORAGE_SET else sstoreUpdate f
    else sstoreBase f
  else if new ≠ 0 ∧ current = 0 then GAS_STORAGE_SET else GAS_STORAGE_UPDATE

/-- storage.py:106-124: change of the refund counter (the same files in the older forks). -/
def sstoreRefund (f : Fork) (original current new : Word) : Int :=
  if f.since .istanbul then
    if current ≠ new then
      (if original ≠ 0 ∧ current ≠ 0 ∧ new = 0 then (storageClearRefund f : Int) else 0)
      + (if original ≠ 0 ∧ current = 0 then -(storageClearRefund f : Int) else 0)
      + (if original = new then
          (if original = 0 then ((GAS_STORAGE_SET - sstoreBase f : Nat) : Int)
           else ((sstoreUpdate f - sstoreBase f : Nat) : Int))
         else 0)
    else 0
  else if new = 0 ∧ current ≠ 0 then (storageClearRefund f : Int) else 0

/-- storage.py:79-81: the value at the start of the transaction. It is not looked up before istanbul. -/
def sstoreOriginal (s : State) (a : Address) (key : Word) : Except Crash Word :=
  if s.fork.since .istanbul then getStorageOriginal s a key else .ok 0

/-- storage.py:69-132. Before istanbul there is no stipend check, before berlin no set of accessed keys. -/
def opSstore : M Unit := do
  let key ← pop; let newValue ← pop
  let evm ← getEvm
  let s ← getState
  if s.fork.since .istanbul ∧ evm.gasLeft ≤ GAS_CALL_STIPEND then raiseHalt .outOfGas
  else do
    let originalValue ← liftCrash (sstoreOriginal s evm.message.currentTarget key)
    let currentValue := getStorage s evm.message.currentTarget key
    let coldCost ← if ¬ s.fork.since .berlin ∨ (evm.message.currentTarget, key) ∈ evm.accessedStorageKeys then pure 0
      else do
        warmSlot evm.message.currentTarget key
        pure GAS_COLD_SLOAD
    let gasCost := coldCost + sstoreGas s.fork originalValue currentValue newValue
    addRefund (sstoreRefund s.fork originalValue currentValue newValue)
    chargeGas gasCost
    if evm.message.isStatic then raiseHalt .writeInStaticContext
    else do
      let s' ← liftCrash (setStorage s evm.message.currentTarget key newValue)
      setState s'
      incPc 1
/-- storage.py:135-157 -/
def opTload : M Unit := do
  let key ← pop
  chargeGas GAS_WARM_ACCESS
  let evm ← getEvm
  let t ← getTransient
  push (getTransientStorage t evm.message.currentTarget key)
  incPc 1
/-- storage.py:160-184 -/
def opTstore : M Unit := do
  let key ← pop; let newValue ← pop
  chargeGas GAS_WARM_ACCESS
  let evm ← getEvm
  if evm.message.isStatic then raiseHalt .writeInStaticContext
  else do
    let t ← getTransient
    setTransient (setTransientStorage t evm.message.currentTarget key newValue)
    incPc 1

end Verif
