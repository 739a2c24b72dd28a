import Verif.Model.TrieRoot
/-
src/ethereum/<fork>/fork.py (the block rules of the forks before paris are in Model/Pow.lean), osaka/utils/message.py, the blob functions of osaka/vm/gas.py and osaka/requests.py
`parse_deposit_requests`.

Functions that mutate the state or the block output return them explicitly, also when they raise: `Except (BlockExn ×
BlockState)`.
-/
namespace Verif

/-- osaka/fork.py:91-116 constants. -/
def BASE_FEE_MAX_CHANGE_DENOMINATOR := 8
def ELASTICITY_MULTIPLIER := 2
def GAS_LIMIT_ADJUSTMENT_FACTOR := 1024
def GAS_LIMIT_MINIMUM := 5000
def SYSTEM_ADDRESS : Address := 0xfffffffffffffffffffffffffffffffffffffffe
def BEACON_ROOTS_ADDRESS : Address := 0x000F3df6D732807Ef1319fB7B8bB8522d0Beac02
def SYSTEM_TRANSACTION_GAS := 30000000
def VERSIONED_HASH_VERSION_KZG : Bytes := [0x01]
def WITHDRAWAL_REQUEST_PREDEPLOY_ADDRESS : Address := 0x00000961Ef480Eb55e80D19ad83579A64c007002
def CONSOLIDATION_REQUEST_PREDEPLOY_ADDRESS : Address := 0x0000BBdDc7CE488642fb579F8B00f3a590007251
def HISTORY_STORAGE_ADDRESS : Address := 0x0000F90827F1C53a10cb7A02335B175320002935
def MAX_BLOCK_SIZE := 10485760
def SAFETY_MARGIN := 2097152
def MAX_RLP_BLOCK_SIZE := MAX_BLOCK_SIZE - SAFETY_MARGIN
def BLOB_COUNT_LIMIT := 6

/-- `MAX_BLOB_GAS_PER_BLOCK` (osaka/fork.py:101, prague/fork.py:100, cancun/fork.py:90). -/
def maxBlobGasPerBlock (f : Fork) : Nat := if f.since .prague then 1179648 else 786432

/-- `TARGET_BLOB_GAS_PER_BLOCK` (osaka/vm/gas.py:74, prague/vm/gas.py:72, cancun/vm/gas.py:72). -/
def targetBlobGasPerBlock (f : Fork) : Nat := if f.since .prague then TARGET_BLOB_GAS_PER_BLOCK else 393216

/-- osaka/fork.py:95 `EMPTY_OMMER_HASH = keccak256(rlp.encode([]))`. -/
def emptyOmmerHash (C : Crypto) : Word := C.keccak256 (Rlp.encode (.list []))

/-- What the functions of fork.py raise. -/
inductive BlockExn where
  /-- `InvalidBlock` -/
  | invalidBlock
  /-- `InvalidTransaction` or a subclass of it (not an `InvalidBlock`: ethereum/exceptions.py:13-27) -/
  | invalidTx (e : TxError)
  /-- an error of `decode_transaction` -/
  | decode (e : DecodeError)
  /-- anything else that leaves the EVM, and Python errors -/
  | exn (e : Exn)
  deriving DecidableEq, Repr

/-- osaka/vm/__init__.py:53-92 `BlockOutput`. `blob_gas_used` (a U64) is a natural number whose range is checked. -/
structure BlockOutput where
  blockGasUsed : Nat
  transactionsTrie : Trie Bytes (Option (LegacyTx ⊕ Bytes))
  receiptsTrie : Trie Bytes (Option (Receipt ⊕ Bytes))
  receiptKeys : List Bytes
  blockLogs : List Log
  withdrawalsTrie : Trie Bytes (Option Bytes)
  blobGasUsed : Nat
  requests : List Bytes

/-- `BlockOutput()`. -/
def BlockOutput.empty : BlockOutput :=
  ⟨0, ⟨false, none, Dict.empty⟩, ⟨false, none, Dict.empty⟩, [], [], ⟨false, none, Dict.empty⟩, 0, []⟩

/-- The two mutable objects that block processing acts on. -/
structure BlockState where
  state : State
  out : BlockOutput

/-- Raise at a block level state. -/
def crashAt {α : Type} (b : BlockState) (x : Except Crash α) : Except (BlockExn × BlockState) α :=
  match x with
  | .ok a => .ok a
  | .error c => .error (.exn (.crash c), b)

/-- `Uint` subtraction, checked. -/
def usub (a b : Nat) : Except Crash Nat := if b ≤ a then .ok (a - b) else .error .overflowError
/-- `U256(n)`, checked. -/
def toU256 (n : Nat) : Except Crash Word := if n < 2 ^ 256 then .ok (BitVec.ofNat 256 n) else .error .overflowError
/-- A `U64` result, checked. -/
def toU64 (n : Nat) : Except Crash Nat := if n < 2 ^ 64 then .ok n else .error .overflowError

/-! ### Header rules -/

/-- osaka/fork.py:1017-1053 `check_gas_limit`. The subtraction cannot underflow. -/
def checkGasLimit (gasLimit parentGasLimit : Nat) : Bool :=
  let maxAdjustmentDelta := parentGasLimit / GAS_LIMIT_ADJUSTMENT_FACTOR
  if gasLimit ≥ parentGasLimit + maxAdjustmentDelta then false
  else if gasLimit ≤ parentGasLimit - maxAdjustmentDelta then false
  else if gasLimit < GAS_LIMIT_MINIMUM then false
  else true

/-- `a // b`; the ZeroDivisionError is not distinguished from an OverflowError. -/
def udiv (a b : Nat) : Except Crash Nat := if b = 0 then .error .overflowError else .ok (a / b)

/-- osaka/fork.py:273-332 `calculate_base_fee_per_gas`. Division by zero is an error. -/
def calculateBaseFeePerGas (blockGasLimit parentGasLimit parentGasUsed parentBaseFeePerGas : Nat) : Except BlockExn Nat :=
  let parentGasTarget := parentGasLimit / ELASTICITY_MULTIPLIER
  if ¬ checkGasLimit blockGasLimit parentGasLimit then .error .invalidBlock
  else if parentGasUsed = parentGasTarget then .ok parentBaseFeePerGas
  else if parentGasUsed > parentGasTarget then
    let gasUsedDelta := parentGasUsed - parentGasTarget
    let parentFeeGasDelta := parentBaseFeePerGas * gasUsedDelta
    match udiv parentFeeGasDelta parentGasTarget with
    | .error c => .error (.exn (.crash c))
    | .ok targetFeeGasDelta =>
      let baseFeePerGasDelta := max (targetFeeGasDelta / BASE_FEE_MAX_CHANGE_DENOMINATOR) 1
      .ok (parentBaseFeePerGas + baseFeePerGasDelta)
  else
    let gasUsedDelta := parentGasTarget - parentGasUsed
    let parentFeeGasDelta := parentBaseFeePerGas * gasUsedDelta
    match udiv parentFeeGasDelta parentGasTarget with
    | .error c => .error (.exn (.crash c))
    | .ok targetFeeGasDelta =>
      let baseFeePerGasDelta := targetFeeGasDelta / BASE_FEE_MAX_CHANGE_DENOMINATOR
      match usub parentBaseFeePerGas baseFeePerGasDelta with
      | .error c => .error (.exn (.crash c))
      | .ok fee => .ok fee

/-- osaka/vm/gas.py:284-325 `calculate_excess_blob_gas`. `own`: the parent header is an instance of this fork's
`Header` class (not of the previous fork's). U64 sums and products are checked. The reserve price is new in osaka
(prague/vm/gas.py:280-308, cancun/vm/gas.py:273-301). -/
def calculateExcessBlobGas (f : Fork) (own : Bool) (parent : Header) : Except Crash Nat :=
  let excess := if own then parent.excessBlobGas.toNat else 0
  let used := if own then parent.blobGasUsed.toNat else 0
  let baseFee := if own then parent.baseFeePerGas else 0
  match toU64 (excess + used) with
  | .error c => .error c
  | .ok parentBlobGas =>
    if parentBlobGas < targetBlobGasPerBlock f then .ok 0
    else if ¬ f.since .osaka then .ok (parentBlobGas - targetBlobGasPerBlock f)
    else
      let targetBlobGasPrice := GAS_PER_BLOB * calculateBlobGasPrice f (BitVec.ofNat 64 excess)
      let baseBlobTxPrice := BLOB_BASE_COST * baseFee
      if baseBlobTxPrice > targetBlobGasPrice then
        let blobScheduleDelta := BLOB_SCHEDULE_MAX - BLOB_SCHEDULE_TARGET
        match toU64 (used * blobScheduleDelta) with
        | .error c => .error c
        | .ok p => toU64 (excess + p / BLOB_SCHEDULE_MAX)
      else .ok (parentBlobGas - targetBlobGasPerBlock f)

/-- A block of the chain. `fork`: the package to whose classes the object belongs; blocks imported before the fork are of an older
one. -/
structure ChainBlock where
  fork : Fork
  block : Block
  deriving DecidableEq, Repr

/-- osaka/fork.py:119-127 `BlockChain`; the oldest block first. The package whose code runs is `state.fork`. -/
structure BlockChain where
  blocks : List ChainBlock
  state : State
  chainId : U64

/-- `keccak256(rlp.encode(header))`. -/
def headerHash (C : Crypto) (f : Fork) (h : Header) : Word := C.keccak256 (Rlp.encode (.ofHeader f h))

/-- The last `n` elements: `l[-n:]`. -/
def lastN {α : Type} (n : Nat) (l : List α) : List α := l.drop (l.length - n)

/-- osaka/fork.py:152-189 `get_last_256_block_hashes`. -/
def getLast256BlockHashes (C : Crypto) (chain : BlockChain) : List Word :=
  let recentBlocks := lastN 255 chain.blocks
  match recentBlocks.getLast? with
  | none => []
  | some last => recentBlocks.map (fun b => b.block.header.parentHash) ++ [headerHash C last.fork last.block.header]

/-- osaka/fork.py:335-388 `validate_header`. There is no blob gas before cancun (shanghai/fork.py:278-327). -/
def validateHeader (C : Crypto) (chain : BlockChain) (header : Header) : Except BlockExn Unit :=
  if header.number < 1 then .error .invalidBlock
  else match chain.blocks.getLast? with
    | none => .error (.exn (.crash .indexError))
    | some parent =>
      let parentHeader := parent.block.header
      let fork := chain.state.fork
      match (if fork.since .cancun then calculateExcessBlobGas fork (decide (parent.fork = fork)) parentHeader
             else .ok header.excessBlobGas.toNat) with
      | .error c => .error (.exn (.crash c))
      | .ok excessBlobGas =>
        if header.excessBlobGas.toNat ≠ excessBlobGas then .error .invalidBlock
        else if header.gasUsed > header.gasLimit then .error .invalidBlock
        else
          match calculateBaseFeePerGas header.gasLimit parentHeader.gasLimit parentHeader.gasUsed parentHeader.baseFeePerGas with
          | .error e => .error e
          | .ok expected =>
            if expected ≠ header.baseFeePerGas then .error .invalidBlock
            else if header.timestamp ≤ parentHeader.timestamp then .error .invalidBlock
            else if header.number ≠ parentHeader.number + 1 then .error .invalidBlock
            else if header.extraData.length > 32 then .error .invalidBlock
            else if header.difficulty ≠ 0 then .error .invalidBlock
            else if header.nonce ≠ 0 then .error .invalidBlock
            else if header.ommersHash ≠ emptyOmmerHash C then .error .invalidBlock
            else if header.parentHash ≠ headerHash C parent.fork parentHeader then .error .invalidBlock
            else .ok ()

/-! ### Transactions -/

/-- osaka/vm/gas.py:328-345 `calculate_total_blob_gas` (U64, checked). -/
def calculateTotalBlobGas (tx : Transaction) : Except Crash Nat :=
  match tx with
  | .blob t => toU64 (GAS_PER_BLOB * t.blobVersionedHashes.length)
  | _ => .ok 0

/-- What `check_transaction` returns. -/
structure CheckedTx where
  sender : Address
  effectiveGasPrice : Nat
  blobVersionedHashes : List Word
  blobGasUsed : Nat

/-- osaka/fork.py:469-483: (effective_gas_price, max_gas_fee) of a transaction with a fee cap. -/
def feeMarketPrices (baseFee gas maxFee maxPriorityFee : Nat) : Except BlockExn (Nat × Nat) :=
  if maxFee < maxPriorityFee then .error (.invalidTx .priorityFeeGreaterThanMaxFee)
  else if maxFee < baseFee then .error (.invalidTx .insufficientMaxFeePerGas)
  else .ok (min maxPriorityFee (maxFee - baseFee) + baseFee, gas * maxFee)

/-- osaka/fork.py:485-488: the same for a transaction with a gas price. -/
def legacyPrices (baseFee gas gasPrice : Nat) : Except BlockExn (Nat × Nat) :=
  if gasPrice < baseFee then .error .invalidBlock else .ok (gasPrice, gas * gasPrice)

/-- osaka/fork.py:466-488. -/
def gasPrices (baseFee : Nat) : Transaction → Except BlockExn (Nat × Nat)
  | .legacy t => legacyPrices baseFee t.gas t.gasPrice
  | .accessList t => legacyPrices baseFee t.gas t.gasPrice
  | .feeMarket t => feeMarketPrices baseFee t.gas t.maxFeePerGas t.maxPriorityFeePerGas
  | .blob t => feeMarketPrices baseFee t.gas t.maxFeePerGas t.maxPriorityFeePerGas
  | .setCode t => feeMarketPrices baseFee t.gas t.maxFeePerGas t.maxPriorityFeePerGas

/-- osaka/fork.py:490-515: the blob checks, and what blobs add to the largest possible fee. In cancun the recipient is checked first
(cancun/fork.py:453-454) and the number of blobs is not limited before osaka (prague/fork.py:479-500). -/
def blobChecks (f : Fork) (excessBlobGas : U64) (blobGas : Nat) : Transaction → Except BlockExn Nat
  | .blob t =>
    if ¬ f.since .prague ∧ t.to = none then .error (.invalidTx .contractCreation)
    else if t.blobVersionedHashes.length = 0 then .error (.invalidTx .noBlobData)
    else if f.since .osaka ∧ t.blobVersionedHashes.length > BLOB_COUNT_LIMIT then .error (.invalidTx .blobCountExceeded)
    else if t.blobVersionedHashes.any (fun h => slice (wordBytes h) 0 1 ≠ VERSIONED_HASH_VERSION_KZG) then
      .error (.invalidTx .invalidBlobVersionedHash)
    else if t.maxFeePerBlobGas.toNat < calculateBlobGasPrice f excessBlobGas then
      .error (.invalidTx .insufficientMaxFeePerBlobGas)
    else .ok (blobGas * t.maxFeePerBlobGas.toNat)
  | _ => .ok 0

/-- osaka/fork.py:517-523: recipient and authorization list. (`any` of a tuple of dataclass objects is false iff the
tuple is empty.) -/
def shapeChecks : Transaction → Except BlockExn Unit
  | .blob t => if t.to = none then .error (.invalidTx .contractCreation) else .ok ()
  | .setCode t =>
    if t.to = none then .error (.invalidTx .contractCreation)
    else if t.authorizations = [] then .error (.invalidTx .emptyAuthorizationList)
    else .ok ()
  | _ => .ok ()

/-- osaka/fork.py:525-533: nonce, balance and code of the sender. Before prague the sender must have no code
(cancun/fork.py:481-482). -/
def senderChecks (f : Fork) (account : Account) (nonce : Word) (cost : Nat) : Except BlockExn Unit :=
  if account.nonce > nonce.toNat then .error (.invalidTx .nonceMismatch)
  else if account.nonce < nonce.toNat then .error (.invalidTx .nonceMismatch)
  else if account.balance.toNat < cost then .error (.invalidTx .insufficientBalance)
  else if account.code ≠ [] ∧ ¬ (f.since .prague ∧ isValidDelegation account.code) then .error (.invalidTx .invalidSender)
  else .ok ()

/-- A Python error, as an exception of a function without effects. -/
def pyErr {α : Type} : Except Crash α → Except BlockExn α
  | .ok a => .ok a
  | .error c => .error (.exn (.crash c))

/-- `InvalidTransaction` errors. -/
def txErr {α : Type} : Except TxError α → Except BlockExn α
  | .ok a => .ok a
  | .error e => .error (.invalidTx e)

/-- osaka/fork.py:454 `blob_gas_available`. There is no blob gas before cancun (shanghai/fork.py:330-408). -/
def blobGasAvailable (f : Fork) (out : BlockOutput) : Except BlockExn Nat :=
  if f.since .cancun then pyErr (usub (maxBlobGasPerBlock f) out.blobGasUsed) else .ok 0

/-- osaka/fork.py:391-540 `check_transaction`. It only reads the state. -/
def checkTransaction (C : Crypto) (B : BlockEnv) (s : State) (out : BlockOutput) (tx : Transaction) : Except BlockExn CheckedTx := do
  let gasAvailable ← pyErr (usub B.blockGasLimit out.blockGasUsed)
  let blobGasAvailable ← blobGasAvailable s.fork out
  if tx.gas > gasAvailable then throw (.invalidTx .gasUsedExceedsLimit)
  let txBlobGasUsed ← pyErr (calculateTotalBlobGas tx)
  if txBlobGasUsed > blobGasAvailable then throw (.invalidTx .blobGasLimitExceeded)
  let sender ← txErr (recoverSender C s.fork B.chainId tx)
  let prices ← gasPrices B.baseFeePerGas tx
  let blobFee ← blobChecks s.fork B.excessBlobGas txBlobGasUsed tx
  shapeChecks tx
  senderChecks s.fork (getAccount s sender) tx.nonce (prices.2 + blobFee + tx.value.toNat)
  return ⟨sender, prices.1, tx.blobHashes, txBlobGasUsed⟩

/-- osaka/vm/gas.py:369-387 `calculate_data_fee`, given the blob gas. -/
def calculateDataFee (f : Fork) (excessBlobGas : U64) (blobGas : Nat) : Nat := blobGas * calculateBlobGasPrice f excessBlobGas

/-- osaka/utils/address.py `compute_contract_address` is modelled in `Verif/Model/System.lean`.
osaka/utils/message.py:27-90 `prepare_message`. -/
def prepareMessage (C : Crypto) (txEnv : TxEnv) (s : State) (tx : Transaction) : Except Crash Message :=
  let accessed := setUpdate (setUpdate [txEnv.origin] (precompileAddresses s.fork)) txEnv.accessListAddresses
  match tx.to with
  | none =>
    match usub (getAccount s txEnv.origin).nonce 1 with
    | .error c => .error c
    | .ok n =>
      let currentTarget := computeContractAddress C txEnv.origin n
      .ok { caller := txEnv.origin, target := none, gas := txEnv.gas, value := tx.value, data := [], code := tx.data, depth := 0,
            currentTarget := currentTarget, codeAddress := none, shouldTransferValue := true, isStatic := false,
            accessedAddresses := setAdd accessed currentTarget, accessedStorageKeys := txEnv.accessListStorageKeys,
            disablePrecompiles := false, parentsToDelete := [] }
  | some a =>
    .ok { caller := txEnv.origin, target := some a, gas := txEnv.gas, value := tx.value, data := tx.data,
          code := (getAccount s a).code, depth := 0, currentTarget := a, codeAddress := some a, shouldTransferValue := true,
          isStatic := false, accessedAddresses := setAdd accessed a, accessedStorageKeys := txEnv.accessListStorageKeys,
          disablePrecompiles := false, parentsToDelete := [] }

/-- osaka/fork.py:543-576 `make_receipt`. -/
def makeReceipt (C : Crypto) (tx : Transaction) (status : ReceiptStatus) (cumulativeGasUsed : Nat) (logs : List Log) :
    Receipt ⊕ Bytes :=
  encodeReceipt tx ⟨status, cumulativeGasUsed, logsBloom C logs, logs⟩

/-- The first field of the receipt: whether the transaction succeeded (osaka/fork.py:567), before byzantium the state root after it
(spurious_dragon/fork.py:676-680, in `process_transaction`). -/
def receiptStatus (C : Crypto) (s : State) (error : Option Exn) : Except Crash ReceiptStatus :=
  if s.fork.since .byzantium then .ok (.succeeded error.isNone)
  else match stateRoot C s with
    | .error c => .error c
    | .ok root => .ok (.postState root)

/-- `rlp.encode(Uint(i))`. -/
def indexKey (i : Nat) : Bytes := Rlp.encode (.ofNat i)

/-- osaka/fork.py:892-911: the addresses of the access list and, since shanghai, the coinbase
(paris/fork.py:536-545). -/
def accessAddresses (f : Fork) (coinbase : Address) (tx : Transaction) : List Address :=
  tx.accesses.foldl (fun s a => setAdd s a.account) (if f.since .shanghai then [coinbase] else [])
/-- osaka/fork.py:893-907: the storage keys of the access list. -/
def accessKeys (tx : Transaction) : List (Address × Word) :=
  tx.accesses.foldl (fun s a => a.slots.foldl (fun s k => setAdd s (a.account, k)) s) []

/-- What is fixed before the message of a transaction runs. -/
structure PreparedTx where
  checked : CheckedTx
  floor : Nat
  txEnv : TxEnv
  message : Message

/-- osaka/fork.py:875-878: the fee for the blobs of a transaction. -/
def blobGasFeeOf (f : Fork) (B : BlockEnv) (tx : Transaction) (blobGasUsed : Nat) : Nat :=
  match tx with
  | .blob _ => calculateDataFee f B.excessBlobGas blobGasUsed
  | _ => 0

/-- osaka/fork.py:854-926: everything before `process_message_call`. -/
def beginTx (C : Crypto) (B : BlockEnv) (b : BlockState) (tx : Transaction) (index : Nat) :
    Except (BlockExn × BlockState) (PreparedTx × BlockState) :=
  let b0 : BlockState :=
    { b with out := { b.out with transactionsTrie := trieSet b.out.transactionsTrie (indexKey index) (some (encodeTransaction tx)) } }
  match validateTransaction b.state.fork tx with
  | .error e => .error (.invalidTx e, b0)
  | .ok (intrinsicGas, floor) =>
    match checkTransaction C B b0.state b0.out tx with
    | .error e => .error (e, b0)
    | .ok checked =>
      let senderAccount := getAccount b0.state checked.sender
      let blobGasFee := blobGasFeeOf b.state.fork B tx checked.blobGasUsed
      let effectiveGasFee := tx.gas * checked.effectiveGasPrice
      match usub tx.gas intrinsicGas with
      | .error c => .error (.exn (.crash c), b0)
      | .ok gas =>
        let b1 := { b0 with state := incrementNonce b0.state checked.sender }
        match usub senderAccount.balance.toNat effectiveGasFee with
        | .error c => .error (.exn (.crash c), b1)
        | .ok n1 =>
          match usub n1 blobGasFee with
          | .error c => .error (.exn (.crash c), b1)
          | .ok n2 =>
            match toU256 n2 with
            | .error c => .error (.exn (.crash c), b1)
            | .ok balance =>
              let b2 := { b1 with state := setAccountBalance b1.state checked.sender balance }
              let txEnv : TxEnv :=
                { origin := checked.sender, gasPrice := checked.effectiveGasPrice, gas := gas,
                  accessListAddresses := accessAddresses b.state.fork B.coinbase tx, accessListStorageKeys := accessKeys tx,
                  blobVersionedHashes := checked.blobVersionedHashes, authorizations := tx.authorizations }
              match prepareMessage C txEnv b2.state tx with
              | .error c => .error (.exn (.crash c), b2)
              | .ok message => .ok (⟨checked, floor, txEnv, message⟩, b2)

/-- The largest share of the gas used that can be refunded: a fifth since london, before that a half (berlin/fork.py:668-670). -/
def maxRefundQuotient (f : Fork) : Nat := if f.since .london then 5 else 2

/-- osaka/fork.py:932-942: the gas a transaction is charged for, from the output of its message. -/
def gasUsedAfterRefund (f : Fork) (gasLimit floor : Nat) (output : MessageCallOutput) : Except Crash Nat :=
  match usub gasLimit output.gasLeft with
  | .error c => .error c
  | .ok beforeRefund =>
    let refund := min (beforeRefund / maxRefundQuotient f) output.refundCounter.toNat
    match usub beforeRefund refund with
    | .error c => .error c
    | .ok afterRefund => .ok (max afterRefund floor)

/-- osaka/fork.py:952-955: credit the unused gas to the sender. -/
def refundSender (s : State) (sender : Address) (amount : Nat) : Except Crash State :=
  match toU256 amount with
  | .error c => .error c
  | .ok a =>
    match checkedAdd (getAccount s sender).balance a with
    | .error c => .error c
    | .ok balance => .ok (setAccountBalance s sender balance)

/-- osaka/fork.py:958-968: pay the coinbase. Before spurious_dragon the balance is written in any case
(tangerine_whistle/fork.py:655-660, in `process_transaction`). -/
def payCoinbase (s : State) (coinbase : Address) (fee : Nat) : Except Crash State :=
  match toU256 fee with
  | .error c => .error c
  | .ok f =>
    match checkedAdd (getAccount s coinbase).balance f with
    | .error c => .error c
    | .ok balance =>
      if balance ≠ 0 ∨ ¬ s.fork.since .spuriousDragon then .ok (setAccountBalance s coinbase balance)
      else if accountExistsAndIsEmpty s coinbase then .ok (destroyAccount s coinbase)
      else .ok s

/-- The deletions at the end of a transaction: osaka/fork.py:970-971; from spurious_dragon to gray_glacier also the touched accounts that are
empty (gray_glacier/fork.py:814, in `process_transaction`). -/
def finalDeletions (s : State) (output : MessageCallOutput) : State :=
  let s' := output.accountsToDelete.foldl destroyAccount s
  if s.fork.since .spuriousDragon ∧ ¬ s.fork.since .paris then destroyTouchedEmptyAccounts s' output.touchedAccounts else s'

/-- osaka/fork.py:974: the blob gas used in the block, a U64; there is none before cancun. -/
def blobGasSum (f : Fork) (before ofTx : Nat) : Except Crash Nat := if f.since .cancun then toU64 (before + ofTx) else .ok before

/-- osaka/fork.py:930-989: everything after `process_message_call`. -/
def endTx (C : Crypto) (B : BlockEnv) (b : BlockState) (tx : Transaction) (index : Nat) (p : PreparedTx) (output : MessageCallOutput) :
    Except (BlockExn × BlockState) BlockState := do
  let gasUsed ← crashAt b (gasUsedAfterRefund b.state.fork tx.gas p.floor output)
  let gasLeft ← crashAt b (usub tx.gas gasUsed)
  let priorityFee ← crashAt b (usub p.checked.effectiveGasPrice B.baseFeePerGas)
  let s1 ← crashAt b (refundSender b.state p.checked.sender (gasLeft * p.checked.effectiveGasPrice))
  let b1 := { b with state := s1 }
  let s2 ← crashAt b1 (payCoinbase s1 B.coinbase (gasUsed * priorityFee))
  let s3 := finalDeletions s2 output
  let b3 := { b with state := s3 }
  let out1 := { b.out with blockGasUsed := b.out.blockGasUsed + gasUsed }
  let blobGasUsed ← crashAt { b3 with out := out1 } (blobGasSum b.state.fork b.out.blobGasUsed p.checked.blobGasUsed)
  let status ← crashAt { b3 with out := out1 } (receiptStatus C s3 output.error)
  let receipt := makeReceipt C tx status out1.blockGasUsed output.logs
  return { b3 with out := { out1 with
    blobGasUsed := blobGasUsed
    receiptKeys := b.out.receiptKeys ++ [indexKey index]
    receiptsTrie := trieSet b.out.receiptsTrie (indexKey index) (some receipt)
    blockLogs := b.out.blockLogs ++ output.logs } }

/-- osaka/fork.py:825-989 `process_transaction`. -/
def processTransaction (C : Crypto) (B : BlockEnv) (b : BlockState) (tx : Transaction) (index : Nat) :
    Except (BlockExn × BlockState) BlockState :=
  match beginTx C B b tx index with
  | .error e => .error e
  | .ok (p, b1) =>
    match processMessageCall ⟨C, B, p.txEnv⟩ p.message ⟨b1.state, TransientStorage.empty⟩ with
    | .error (e, w) => .error (.exn e, { b1 with state := w.state })
    | .ok (output, w) => endTx C B { b1 with state := w.state } tx index p output

/-! ### System transactions, withdrawals, requests -/

/-- The transaction environment of osaka/fork.py:608-619. -/
def systemTxEnv (B : BlockEnv) : TxEnv :=
  { origin := SYSTEM_ADDRESS, gasPrice := B.baseFeePerGas, gas := SYSTEM_TRANSACTION_GAS, accessListAddresses := [],
    accessListStorageKeys := [], blobVersionedHashes := [], authorizations := [] }

/-- The message of osaka/fork.py:621-639. -/
def systemMessage (target : Address) (code data : Bytes) : Message :=
  { caller := SYSTEM_ADDRESS, target := some target, gas := SYSTEM_TRANSACTION_GAS, value := 0, data := data, code := code,
    depth := 0, currentTarget := target, codeAddress := some target, shouldTransferValue := false, isStatic := false,
    accessedAddresses := [], accessedStorageKeys := [], disablePrecompiles := false, parentsToDelete := [] }

/-- osaka/fork.py:579-643 `process_system_transaction`. -/
def processSystemTransaction (C : Crypto) (B : BlockEnv) (s : State) (target : Address) (code data : Bytes) :
    Except (BlockExn × State) (MessageCallOutput × State) :=
  match processMessageCall ⟨C, B, systemTxEnv B⟩ (systemMessage target code data) ⟨s, TransientStorage.empty⟩ with
  | .error (e, w) => .error (.exn e, w.state)
  | .ok (out, w) => .ok (out, w.state)

/-- osaka/fork.py:693-722 `process_unchecked_system_transaction`. -/
def processUncheckedSystemTransaction (C : Crypto) (B : BlockEnv) (s : State) (target : Address) (data : Bytes) :
    Except (BlockExn × State) (MessageCallOutput × State) :=
  processSystemTransaction C B s target (getAccount s target).code data

/-- osaka/fork.py:646-690 `process_checked_system_transaction`. -/
def processCheckedSystemTransaction (C : Crypto) (B : BlockEnv) (s : State) (target : Address) (data : Bytes) :
    Except (BlockExn × State) (MessageCallOutput × State) :=
  let code := (getAccount s target).code
  if code.length = 0 then .error (.invalidBlock, s)
  else match processSystemTransaction C B s target code data with
    | .error e => .error e
    | .ok (out, s') => if out.error.isSome then .error (.invalidBlock, s') else .ok (out, s')

/-- `wd.amount * U256(10**9)` (osaka/fork.py:1002), before the range check. (The factors are swapped, and the definition
irreducible, only to keep Lean from unfolding `10 ^ 9` in unary.) -/
@[irreducible] def weiOfGwei (amount : Nat) : Nat := 10 ^ 9 * amount

/-- The callback of osaka/fork.py:1001-1002; both U256 operations are checked. -/
def withdrawalCredit (amount : Word) (acc : Account) : Except Crash Account :=
  match toU256 (weiOfGwei amount.toNat) with
  | .error c => .error c
  | .ok wei => increaseRecipientBalance wei acc

/-- osaka/fork.py:992-1014 `process_withdrawals`, from withdrawal number `i` on. -/
def processWithdrawalsFrom (b : BlockState) (i : Nat) : List Withdrawal → Except (BlockExn × BlockState) BlockState
  | [] => .ok b
  | wd :: r =>
    let b1 : BlockState :=
      { b with out := { b.out with
          withdrawalsTrie := trieSet b.out.withdrawalsTrie (indexKey i) (some (Rlp.encode (.ofWithdrawal wd))) } }
    match modifyState b1.state wd.address (withdrawalCredit wd.amount) with
    | .error c => .error (.exn (.crash c), b1)
    | .ok s =>
      let s' := if accountExistsAndIsEmpty s wd.address then destroyAccount s wd.address else s
      processWithdrawalsFrom { b1 with state := s' } (i + 1) r

/-- osaka/fork.py:992-1014 `process_withdrawals`. -/
def processWithdrawals (b : BlockState) (withdrawals : List Withdrawal) : Except (BlockExn × BlockState) BlockState :=
  processWithdrawalsFrom b 0 withdrawals

/-- osaka/requests.py:151-169 `parse_deposit_requests`: the loop over the receipt keys. -/
def parseDepositKeys (t : Trie Bytes (Option (Receipt ⊕ Bytes))) (acc : Bytes) : List Bytes → Except BlockExn Bytes
  | [] => .ok acc
  | k :: r =>
    match trieGet t k with
    | none => .error (.exn (.crash .assertionError))
    | some receipt =>
      match decodeReceipt receipt with
      | none => .error (.exn (.crash .assertionError))
      | some decoded =>
        match parseDepositLogs acc decoded.logs with
        | none => .error .invalidBlock
        | some acc' => parseDepositKeys t acc' r

/-- osaka/requests.py:151-169 `parse_deposit_requests`. -/
def parseDepositRequests (out : BlockOutput) : Except BlockExn Bytes := parseDepositKeys out.receiptsTrie [] out.receiptKeys

/-- Append a request if it is not empty (osaka/fork.py:798-799, 807-810, 818-822). -/
def appendRequest (out : BlockOutput) (type data : Bytes) : BlockOutput :=
  if data.length > 0 then { out with requests := out.requests ++ [type ++ data] } else out

/-- osaka/fork.py:781-822 `process_general_purpose_requests`. -/
def processGeneralPurposeRequests (C : Crypto) (B : BlockEnv) (b : BlockState) : Except (BlockExn × BlockState) BlockState :=
  match parseDepositRequests b.out with
  | .error e => .error (e, b)
  | .ok deposits =>
    let out1 := appendRequest b.out DEPOSIT_REQUEST_TYPE deposits
    match processCheckedSystemTransaction C B b.state WITHDRAWAL_REQUEST_PREDEPLOY_ADDRESS [] with
    | .error (e, s) => .error (e, ⟨s, out1⟩)
    | .ok (o1, s1) =>
      let out2 := appendRequest out1 WITHDRAWAL_REQUEST_TYPE o1.returnData
      match processCheckedSystemTransaction C B s1 CONSOLIDATION_REQUEST_PREDEPLOY_ADDRESS [] with
      | .error (e, s) => .error (e, ⟨s, out2⟩)
      | .ok (o2, s2) => .ok ⟨s2, appendRequest out2 CONSOLIDATION_REQUEST_TYPE o2.returnData⟩

/-- osaka/fork.py:768-769: decode and process the transactions one after the other, from number `i` on. -/
def processTransactions (C : Crypto) (B : BlockEnv) (b : BlockState) (i : Nat) :
    List (LegacyTx ⊕ Bytes) → Except (BlockExn × BlockState) BlockState
  | [] => .ok b
  | t :: r =>
    match decodeTransaction b.state.fork t with
    | .error e => .error (.decode e, b)
    | .ok tx =>
      match processTransaction C B b tx i with
      | .error e => .error e
      | .ok b' => processTransactions C B b' (i + 1) r

/-- osaka/fork.py:756-760: the parent's beacon block root is given to a contract, since cancun. -/
def storeBeaconRoot (C : Crypto) (B : BlockEnv) (s : State) : Except (BlockExn × State) State :=
  if s.fork.since .cancun then
    match processUncheckedSystemTransaction C B s BEACON_ROOTS_ADDRESS (wordBytes B.parentBeaconBlockRoot) with
    | .error e => .error e
    | .ok (_, s') => .ok s'
  else .ok s

/-- osaka/fork.py:762-766: the hash of the parent block is given to a contract, since prague. -/
def storeParentHash (C : Crypto) (B : BlockEnv) (s : State) : Except (BlockExn × State) State :=
  if s.fork.since .prague then
    match B.blockHashes.getLast? with
    | none => .error (.exn (.crash .indexError), s)
    | some parentHash =>
      match processUncheckedSystemTransaction C B s HISTORY_STORAGE_ADDRESS (wordBytes parentHash) with
      | .error e => .error e
      | .ok (_, s') => .ok s'
  else .ok s

/-- osaka/fork.py:725-778 `apply_body`. Withdrawals are new in shanghai, requests in prague (paris/fork.py:442-473,
shanghai/fork.py:447-485, cancun/fork.py:624-666). -/
def applyBody (C : Crypto) (B : BlockEnv) (s : State) (transactions : List (LegacyTx ⊕ Bytes)) (withdrawals : List Withdrawal) :
    Except (BlockExn × BlockState) BlockState :=
  let out := BlockOutput.empty
  match storeBeaconRoot C B s with
  | .error (e, s') => .error (e, ⟨s', out⟩)
  | .ok s1 =>
    match storeParentHash C B s1 with
    | .error (e, s') => .error (e, ⟨s', out⟩)
    | .ok s2 =>
      match processTransactions C B ⟨s2, out⟩ 0 transactions with
      | .error e => .error e
      | .ok b3 =>
        match (if s.fork.since .shanghai then processWithdrawals b3 withdrawals else .ok b3) with
        | .error e => .error e
        | .ok b4 => if s.fork.since .prague then processGeneralPurposeRequests C B b4 else .ok b4

/-- osaka/fork.py:221-233: the block environment. -/
def blockEnvOf (C : Crypto) (chain : BlockChain) (h : Header) : BlockEnv :=
  { chainId := chain.chainId, blockGasLimit := h.gasLimit, blockHashes := getLast256BlockHashes C chain, coinbase := h.coinbase,
    number := h.number, baseFeePerGas := h.baseFeePerGas, time := h.timestamp, prevRandao := h.prevRandao,
    excessBlobGas := h.excessBlobGas, parentBeaconBlockRoot := h.parentBeaconBlockRoot, difficulty := h.difficulty }

/-- The commitments computed in osaka/fork.py:240-245. -/
structure Commitments where
  stateRoot : Word
  transactionsRoot : Word
  receiptRoot : Word
  bloom : BitVec 2048
  withdrawalsRoot : Word
  requestsHash : Word

/-- osaka/fork.py:240-245. -/
def commitments (C : Crypto) (b : BlockState) : Except Crash Commitments := do
  let stateRoot ← stateRoot C b.state
  let transactionsRoot ← indexTrieRoot C encodeTxNode b.out.transactionsTrie
  let receiptRoot ← indexTrieRoot C encodeReceiptNode b.out.receiptsTrie
  let withdrawalsRoot ← indexTrieRoot C id b.out.withdrawalsTrie
  return ⟨stateRoot, transactionsRoot, receiptRoot, logsBloom C b.out.blockLogs, withdrawalsRoot, computeRequestsHash C b.out.requests⟩

/-- shanghai/fork.py:83-102, cancun/fork.py:105-124, prague/fork.py:125-144, osaka/fork.py:130-149 `apply_fork`: the chain object is kept as
it is. From then on the functions of the new package are applied to it, which is what `state.fork` records. -/
def applyFork (f : Fork) (chain : BlockChain) : BlockChain := { chain with state := { chain.state with fork := f } }

/-- osaka/fork.py:192-270 `state_transition` (prague/fork.py:187-262, cancun/fork.py:167-239, shanghai/fork.py:145-213,
paris/fork.py:144-208): the size limit is new in osaka, the withdrawals root in shanghai, blob gas in cancun, the requests hash in prague.
When it raises, `chain.state` keeps what was done so far; the list of
blocks is only changed at the end. -/
def stateTransition (C : Crypto) (chain : BlockChain) (block : Block) : Except (BlockExn × BlockChain) BlockChain :=
  if chain.state.fork.since .osaka ∧ (Rlp.encode (.ofBlock chain.state.fork block)).length > MAX_RLP_BLOCK_SIZE then .error (.invalidBlock, chain)
  else match validateHeader C chain block.header with
    | .error e => .error (e, chain)
    | .ok () =>
      if block.ommers ≠ [] then .error (.invalidBlock, chain)
      else match applyBody C (blockEnvOf C chain block.header) chain.state block.transactions block.withdrawals with
        | .error (e, b) => .error (e, { chain with state := b.state })
        | .ok b =>
          let chain1 := { chain with state := b.state }
          match commitments C b with
          | .error c => .error (.exn (.crash c), chain1)
          | .ok k =>
            if b.out.blockGasUsed ≠ block.header.gasUsed then .error (.invalidBlock, chain1)
            else if k.transactionsRoot ≠ block.header.transactionsRoot then .error (.invalidBlock, chain1)
            else if k.stateRoot ≠ block.header.stateRoot then .error (.invalidBlock, chain1)
            else if k.receiptRoot ≠ block.header.receiptRoot then .error (.invalidBlock, chain1)
            else if k.bloom ≠ block.header.bloom then .error (.invalidBlock, chain1)
            else if chain.state.fork.since .shanghai ∧ k.withdrawalsRoot ≠ block.header.withdrawalsRoot then .error (.invalidBlock, chain1)
            else if chain.state.fork.since .cancun ∧ b.out.blobGasUsed ≠ block.header.blobGasUsed.toNat then .error (.invalidBlock, chain1)
            else if chain.state.fork.since .prague ∧ k.requestsHash ≠ block.header.requestsHash then .error (.invalidBlock, chain1)
            else
              let blocks := chain.blocks ++ [⟨chain.state.fork, block⟩]
              .ok { chain1 with blocks := if blocks.length > 255 then lastN 255 blocks else blocks }

end Verif
