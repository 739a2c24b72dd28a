import Verif.Model.Base
/-
osaka/vm/gas.py: constants (27-85) and pure cost functions; osaka/vm/memory.py.
-/
namespace Verif

/-! Gas constants, osaka/vm/gas.py:27-85. -/
def GAS_JUMPDEST := 1
def GAS_BASE := 2
def GAS_VERY_LOW := 3
def GAS_STORAGE_SET := 20000
def GAS_STORAGE_UPDATE := 5000
def GAS_STORAGE_CLEAR_REFUND := 4800
/-- berlin/vm/gas.py:52 `REFUND_SELF_DESTRUCT`, in the forks before london. -/
def REFUND_SELF_DESTRUCT := 24000
def GAS_LOW := 5
def GAS_MID := 8
def GAS_HIGH := 10
def GAS_EXPONENTIATION := 10
def GAS_EXPONENTIATION_PER_BYTE := 50
def GAS_MEMORY := 3
def GAS_KECCAK256 := 30
def GAS_KECCAK256_WORD := 6
def GAS_COPY := 3
def GAS_BLOCK_HASH := 20
def GAS_LOG := 375
def GAS_LOG_DATA := 8
def GAS_LOG_TOPIC := 375
def GAS_CREATE := 32000
def GAS_CODE_DEPOSIT := 200
def GAS_ZERO := 0
def GAS_NEW_ACCOUNT := 25000
def GAS_CALL_VALUE := 9000
def GAS_CALL_STIPEND := 2300
def GAS_SELF_DESTRUCT := 5000
def GAS_SELF_DESTRUCT_NEW_ACCOUNT := 25000
def GAS_ECRECOVER := 3000
def GAS_P256VERIFY := 6900
def GAS_SHA256 := 60
def GAS_SHA256_WORD := 12
def GAS_RIPEMD160 := 600
def GAS_RIPEMD160_WORD := 120
def GAS_IDENTITY := 15
def GAS_IDENTITY_WORD := 3
def GAS_RETURN_DATA_COPY := 3
def GAS_FAST_STEP := 5
def GAS_BLAKE2_PER_ROUND := 1
def GAS_COLD_SLOAD := 2100
def GAS_COLD_ACCOUNT_ACCESS := 2600
def GAS_WARM_ACCESS := 100
def GAS_INIT_CODE_WORD_COST := 2
def GAS_BLOBHASH_OPCODE := 3
def GAS_POINT_EVALUATION := 50000
def GAS_PER_BLOB := 2 ^ 17
def BLOB_SCHEDULE_TARGET := 6
def TARGET_BLOB_GAS_PER_BLOCK := GAS_PER_BLOB * BLOB_SCHEDULE_TARGET
def BLOB_BASE_COST := 2 ^ 13
def BLOB_SCHEDULE_MAX := 9
def MIN_BLOB_GASPRICE := 1
def BLOB_BASE_FEE_UPDATE_FRACTION := 5007716
def GAS_BLS_G1_ADD := 375
def GAS_BLS_G1_MUL := 12000
def GAS_BLS_G1_MAP := 5500
def GAS_BLS_G2_ADD := 600
def GAS_BLS_G2_MUL := 22500
def GAS_BLS_G2_MAP := 23800

/-! Constants whose value depends on the fork (src/ethereum/<fork>/vm/gas.py). -/

/-- `GAS_STORAGE_CLEAR_REFUND`. -/
def storageClearRefund (f : Fork) : Nat := if f.since .london then GAS_STORAGE_CLEAR_REFUND else 15000
/-- `GAS_EXPONENTIATION_PER_BYTE`. -/
def gasExponentiationPerByte (f : Fork) : Nat := if f.since .spuriousDragon then GAS_EXPONENTIATION_PER_BYTE else 10
/-- `GAS_SLOAD`, in the forks before berlin. -/
def gasSload (f : Fork) : Nat := if f.since .istanbul then 800 else if f.since .tangerineWhistle then 200 else 50
/-- `GAS_SELF_DESTRUCT`; before tangerine_whistle the instruction costs `GAS_ZERO`. -/
def gasSelfDestruct (f : Fork) : Nat := if f.since .tangerineWhistle then GAS_SELF_DESTRUCT else GAS_ZERO

/-- The instructions that pay for reading another account. -/
inductive AccessKind where
  | balance | external | codeHash | call
  deriving DecidableEq, Repr

/-- `GAS_BALANCE`, `GAS_EXTERNAL`, `GAS_CODE_HASH` and `GAS_CALL`, in the forks before berlin. -/
def flatAccessCost (f : Fork) : AccessKind → Nat
  | .balance => if f.since .istanbul then 700 else if f.since .tangerineWhistle then 400 else 20
  | .external => if f.since .tangerineWhistle then 700 else 20
  | .codeHash => if f.since .istanbul then 700 else 400
  | .call => if f.since .tangerineWhistle then 700 else 40

/-- osaka/vm/interpreter.py:65-67. -/
def STACK_DEPTH_LIMIT := 1024
def MAX_CODE_SIZE := 0x6000
def MAX_INIT_CODE_SIZE := 2 * MAX_CODE_SIZE

/-- osaka/vm/gas.py:88-100 `ExtendMemory`. -/
structure ExtendMemory where
  cost : Nat
  expandBy : Nat
  deriving DecidableEq, Repr

/-- osaka/vm/gas.py:103-118 `MessageCallGas`. -/
structure MessageCallGas where
  cost : Nat
  subCall : Nat
  deriving DecidableEq, Repr

/-- osaka/vm/gas.py:141-164 `calculate_memory_gas_cost` (the `try` there can never raise). -/
def calculateMemoryGasCost (sizeInBytes : Nat) : Nat :=
  let sizeInWords := ceil32 sizeInBytes / 32
  let linearCost := sizeInWords * GAS_MEMORY
  let quadraticCost := sizeInWords ^ 2 / 512
  linearCost + quadraticCost

/-- Loop state of `calculate_gas_extend_memory`: (size_to_extend, to_be_paid, current_size). -/
structure ExtendLoop where
  sizeToExtend : Nat
  toBePaid : Nat
  currentSize : Nat

/-- Loop body, osaka/vm/gas.py:188-201. The subtractions are guarded (`after > before`, cost monotone), so
`Uint` underflow cannot happen; theorem `memory_cost_mono` (C15) covers the second one. -/
def extendStep (l : ExtendLoop) (ext : Word × Word) : ExtendLoop :=
  if ext.2 = 0 then l
  else
    let beforeSize := ceil32 l.currentSize
    let afterSize := ceil32 (ext.1.toNat + ext.2.toNat)
    if afterSize ≤ beforeSize then l
    else
      { sizeToExtend := l.sizeToExtend + (afterSize - beforeSize)
        toBePaid := l.toBePaid + (calculateMemoryGasCost afterSize - calculateMemoryGasCost beforeSize)
        currentSize := afterSize }

/-- osaka/vm/gas.py:167-203 `calculate_gas_extend_memory`; `memSize` is `len(memory)`. -/
def calculateGasExtendMemory (memSize : Nat) (extensions : List (Word × Word)) : ExtendMemory :=
  let l := extensions.foldl extendStep ⟨0, 0, memSize⟩
  ⟨l.toBePaid, l.sizeToExtend⟩

/-- osaka/vm/gas.py:248-262 `max_message_call_gas`. -/
def maxMessageCallGas (gas : Nat) : Nat := gas - gas / 64

/-- The gas handed to the init code by CREATE and CREATE2: all of it before tangerine_whistle
(homestead/vm/instructions/system.py:45-135 `create`). -/
def createMessageGas (f : Fork) (gas : Nat) : Nat := if f.since .tangerineWhistle then maxMessageCallGas gas else gas

/-- osaka/vm/gas.py:206-245 `calculate_message_call_gas` (with the default stipend). Before tangerine_whistle the gas asked for is not
limited (homestead/vm/gas.py:184-209, where the extra gas is computed in the function). -/
def calculateMessageCallGas (f : Fork) (value : Word) (gas gasLeft memoryCost extraGas : Nat) : MessageCallGas :=
  let callStipend := if value = 0 then 0 else GAS_CALL_STIPEND
  if ¬ f.since .tangerineWhistle ∨ gasLeft < extraGas + memoryCost then
    ⟨gas + extraGas, gas + callStipend⟩
  else
    let gas := min gas (maxMessageCallGas (gasLeft - memoryCost - extraGas))
    ⟨gas + extraGas, gas + callStipend⟩

/-- osaka/vm/gas.py:265-281 `init_code_cost`. -/
def initCodeCost (initCodeLength : Nat) : Nat := GAS_INIT_CODE_WORD_COST * ceil32 initCodeLength / 32

/-- The init code cost in CREATE and CREATE2; there is none before shanghai (paris/vm/instructions/system.py:139-220). -/
def initCodeCostIn (f : Fork) (initCodeLength : Nat) : Nat := if f.since .shanghai then initCodeCost initCodeLength else 0

/-- Loop of utils/numeric.py:196-201 `taylor_exponential`, with fuel. -/
def taylorLoop (numerator denominator : Nat) : Nat → Nat → Nat → Nat → Option Nat
  | 0, _, _, _ => none
  | fuel + 1, i, output, acc =>
    if acc > 0 then taylorLoop numerator denominator fuel (i + 1) (output + acc) (acc * numerator / (denominator * i))
    else some output

/-- Number of iterations granted to the loop of `taylor_exponential`; theorem `C32_fuel` shows it is
always enough, so the `none` case of `taylorLoop` is never reached. -/
def taylorFuel (factor numerator denominator : Nat) : Nat :=
  let q := numerator / denominator + 1
  2 * q + (Nat.log2 (factor * denominator) + 1) + 2 * q * (Nat.log2 q + 1) + 2

/-- utils/numeric.py:171-202 `taylor_exponential`. A zero denominator (ZeroDivisionError) gives `none`. -/
def taylorExponential (factor numerator denominator : Nat) : Option Nat :=
  if denominator = 0 then none
  else match taylorLoop numerator denominator (taylorFuel factor numerator denominator) 1 0 (factor * denominator) with
    | none => none
    | some output => some (output / denominator)

/-- `BLOB_BASE_FEE_UPDATE_FRACTION` (osaka/vm/gas.py:78, prague/vm/gas.py:74, cancun/vm/gas.py:74). -/
def blobBaseFeeUpdateFraction (f : Fork) : Nat := if f.since .prague then BLOB_BASE_FEE_UPDATE_FRACTION else 3338477

/-- osaka/vm/gas.py:348-366 `calculate_blob_gas_price`. `none` never occurs (C32). -/
def calculateBlobGasPrice (f : Fork) (excessBlobGas : U64) : Nat :=
  (taylorExponential MIN_BLOB_GASPRICE excessBlobGas.toNat (blobBaseFeeUpdateFraction f)).getD 0

/-! ### osaka/vm/memory.py -/

/-- osaka/vm/memory.py:20-35 `memory_write`: Python slice assignment (a start beyond the end appends). -/
def memoryWrite (memory : Bytes) (start : Nat) (value : Bytes) : Bytes :=
  memory.take start ++ value ++ memory.drop (start + value.length)

/-- osaka/vm/memory.py:38-58 `memory_read_bytes`. -/
def memoryReadBytes (memory : Bytes) (start size : Nat) : Bytes := slice memory start (start + size)

end Verif
