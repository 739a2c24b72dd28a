import Verif.Model.Interpreter
/-
osaka/transactions.py. `to = none` is `Bytes0()`. The classes for blob and set-code transactions declare `to: Address`;
the model allows `none` there as well, because `check_transaction` tests for it.
-/
namespace Verif

/-- osaka/transactions.py:29-66 constants. -/
def TX_BASE_COST := 21000
def FLOOR_CALLDATA_COST := 10
def STANDARD_CALLDATA_TOKEN_COST := 4
def TX_CREATE_COST := 32000
def TX_ACCESS_LIST_ADDRESS_COST := 2400
def TX_ACCESS_LIST_STORAGE_KEY_COST := 1900
def TX_MAX_GAS_LIMIT := 16777216

/-- osaka/transactions.py:69-128 `LegacyTransaction`. -/
structure LegacyTx where
  nonce : Word
  gasPrice : Nat
  gas : Nat
  to : Option Address
  value : Word
  data : Bytes
  v : Word
  r : Word
  s : Word
  deriving DecidableEq, Repr

/-- osaka/transactions.py:131-147 `Access`. -/
structure Access where
  account : Address
  slots : List Word
  deriving DecidableEq, Repr

/-- osaka/transactions.py:150-219 `AccessListTransaction`. -/
structure AccessListTx where
  chainId : U64
  nonce : Word
  gasPrice : Nat
  gas : Nat
  to : Option Address
  value : Word
  data : Bytes
  accessList : List Access
  yParity : Word
  r : Word
  s : Word
  deriving DecidableEq, Repr

/-- osaka/transactions.py:222-296 `FeeMarketTransaction`. -/
structure FeeMarketTx where
  chainId : U64
  nonce : Word
  maxPriorityFeePerGas : Nat
  maxFeePerGas : Nat
  gas : Nat
  to : Option Address
  value : Word
  data : Bytes
  accessList : List Access
  yParity : Word
  r : Word
  s : Word
  deriving DecidableEq, Repr

/-- osaka/transactions.py:299-384 `BlobTransaction`. -/
structure BlobTx where
  chainId : U64
  nonce : Word
  maxPriorityFeePerGas : Nat
  maxFeePerGas : Nat
  gas : Nat
  to : Option Address
  value : Word
  data : Bytes
  accessList : List Access
  maxFeePerBlobGas : Word
  blobVersionedHashes : List Word
  yParity : Word
  r : Word
  s : Word
  deriving DecidableEq, Repr

/-- osaka/transactions.py:387-467 `SetCodeTransaction`. -/
structure SetCodeTx where
  chainId : U64
  nonce : U64
  maxPriorityFeePerGas : Nat
  maxFeePerGas : Nat
  gas : Nat
  to : Option Address
  value : Word
  data : Bytes
  accessList : List Access
  authorizations : List Authorization
  yParity : Word
  r : Word
  s : Word
  deriving DecidableEq, Repr

/-- osaka/transactions.py:470-479 `Transaction`. -/
inductive Transaction where
  | legacy (t : LegacyTx)
  | accessList (t : AccessListTx)
  | feeMarket (t : FeeMarketTx)
  | blob (t : BlobTx)
  | setCode (t : SetCodeTx)
  deriving DecidableEq, Repr

namespace Transaction

/-! Attribute access on the union type. -/

/-- `U256(tx.nonce)`. -/
def nonce : Transaction → Word
  | .legacy t => t.nonce | .accessList t => t.nonce | .feeMarket t => t.nonce | .blob t => t.nonce
  | .setCode t => t.nonce.setWidth 256
/-- `tx.gas`. -/
def gas : Transaction → Nat
  | .legacy t => t.gas | .accessList t => t.gas | .feeMarket t => t.gas | .blob t => t.gas | .setCode t => t.gas
/-- `tx.to`. -/
def to : Transaction → Option Address
  | .legacy t => t.to | .accessList t => t.to | .feeMarket t => t.to | .blob t => t.to | .setCode t => t.to
/-- `tx.value`. -/
def value : Transaction → Word
  | .legacy t => t.value | .accessList t => t.value | .feeMarket t => t.value | .blob t => t.value | .setCode t => t.value
/-- `tx.data`. -/
def data : Transaction → Bytes
  | .legacy t => t.data | .accessList t => t.data | .feeMarket t => t.data | .blob t => t.data | .setCode t => t.data
/-- `tx.r`. -/
def r : Transaction → Word
  | .legacy t => t.r | .accessList t => t.r | .feeMarket t => t.r | .blob t => t.r | .setCode t => t.r
/-- `tx.s`. -/
def s : Transaction → Word
  | .legacy t => t.s | .accessList t => t.s | .feeMarket t => t.s | .blob t => t.s | .setCode t => t.s
/-- `tx.access_list`, empty for legacy transactions, where the code skips it. -/
def accesses : Transaction → List Access
  | .legacy _ => [] | .accessList t => t.accessList | .feeMarket t => t.accessList | .blob t => t.accessList
  | .setCode t => t.accessList
/-- `tx.authorizations` of a set-code transaction, `()` for the others (osaka/fork.py:909-911). -/
def authorizations : Transaction → List Authorization
  | .setCode t => t.authorizations
  | _ => []
/-- `tx.blob_versioned_hashes` of a blob transaction, `()` for the others. -/
def blobHashes : Transaction → List Word
  | .blob t => t.blobVersionedHashes
  | _ => []

end Transaction

/-- Subclasses of `InvalidTransaction` (exceptions.py:25-75, osaka/exceptions.py), and the error of `rlp.decode_to`. -/
inductive TxError where
  | transactionType | contractCreation | blobGasLimitExceeded | insufficientMaxFeePerBlobGas | insufficientMaxFeePerGas
  | invalidBlobVersionedHash | noBlobData | blobCountExceeded | priorityFeeGreaterThanMaxFee | emptyAuthorizationList
  | initCodeTooLarge | transactionGasLimitExceeded | invalidSender | invalidSignature | insufficientBalance | nonceMismatch
  | gasUsedExceedsLimit | insufficientTransactionGas | nonceOverflow
  deriving DecidableEq, Repr

/-! ### RLP items of the fields. `rlp.encode` of a dataclass is the list of its fields. -/

namespace Rlp
/-- `tx.to`: 0 or 20 bytes. -/
def ofTo : Option Address → Rlp
  | none => .bytes []
  | some a => .ofAddress a
/-- An `Access`. -/
def ofAccess (a : Access) : Rlp := .list [.ofAddress a.account, .list (a.slots.map .ofWord32)]
/-- An `Authorization` (osaka/fork_types.py:67-79). -/
def ofAuthorization (a : Authorization) : Rlp :=
  .list [.ofNat a.chainId.toNat, .ofAddress a.address, .ofNat a.nonce.toNat, .ofNat a.yParity, .ofNat a.r.toNat, .ofNat a.s.toNat]

/-- Fields of a legacy transaction covered by every signature. -/
def legacyFields (t : LegacyTx) : List Rlp :=
  [.ofNat t.nonce.toNat, .ofNat t.gasPrice, .ofNat t.gas, .ofTo t.to, .ofNat t.value.toNat, .bytes t.data]
/-- Fields of an access-list transaction except the signature. -/
def accessListFields (t : AccessListTx) : List Rlp :=
  [.ofNat t.chainId.toNat, .ofNat t.nonce.toNat, .ofNat t.gasPrice, .ofNat t.gas, .ofTo t.to, .ofNat t.value.toNat,
   .bytes t.data, .list (t.accessList.map ofAccess)]
/-- Fields of a fee-market transaction except the signature. -/
def feeMarketFields (t : FeeMarketTx) : List Rlp :=
  [.ofNat t.chainId.toNat, .ofNat t.nonce.toNat, .ofNat t.maxPriorityFeePerGas, .ofNat t.maxFeePerGas, .ofNat t.gas,
   .ofTo t.to, .ofNat t.value.toNat, .bytes t.data, .list (t.accessList.map ofAccess)]
/-- Fields of a blob transaction except the signature. -/
def blobFields (t : BlobTx) : List Rlp :=
  [.ofNat t.chainId.toNat, .ofNat t.nonce.toNat, .ofNat t.maxPriorityFeePerGas, .ofNat t.maxFeePerGas, .ofNat t.gas,
   .ofTo t.to, .ofNat t.value.toNat, .bytes t.data, .list (t.accessList.map ofAccess), .ofNat t.maxFeePerBlobGas.toNat,
   .list (t.blobVersionedHashes.map .ofWord32)]
/-- Fields of a set-code transaction except the signature. -/
def setCodeFields (t : SetCodeTx) : List Rlp :=
  [.ofNat t.chainId.toNat, .ofNat t.nonce.toNat, .ofNat t.maxPriorityFeePerGas, .ofNat t.maxFeePerGas, .ofNat t.gas,
   .ofTo t.to, .ofNat t.value.toNat, .bytes t.data, .list (t.accessList.map ofAccess),
   .list (t.authorizations.map ofAuthorization)]
/-- The three signature fields. -/
def signature (v r s : Word) : List Rlp := [.ofNat v.toNat, .ofNat r.toNat, .ofNat s.toNat]

/-- `LegacyTransaction` as an item. -/
def ofLegacyTx (t : LegacyTx) : Rlp := .list (legacyFields t ++ signature t.v t.r t.s)
end Rlp

/-- osaka/transactions.py:482-501 `encode_transaction`: a legacy transaction is left as it is. -/
def encodeTransaction : Transaction → LegacyTx ⊕ Bytes
  | .legacy t => .inl t
  | .accessList t => .inr (0x01 :: Rlp.encode (.list (Rlp.accessListFields t ++ Rlp.signature t.yParity t.r t.s)))
  | .feeMarket t => .inr (0x02 :: Rlp.encode (.list (Rlp.feeMarketFields t ++ Rlp.signature t.yParity t.r t.s)))
  | .blob t => .inr (0x03 :: Rlp.encode (.list (Rlp.blobFields t ++ Rlp.signature t.yParity t.r t.s)))
  | .setCode t => .inr (0x04 :: Rlp.encode (.list (Rlp.setCodeFields t ++ Rlp.signature t.yParity t.r t.s)))

/-- osaka/transactions.py:873-886 `get_transaction_hash`. -/
def getTransactionHash (C : Crypto) : LegacyTx ⊕ Bytes → Word
  | .inl t => C.keccak256 (Rlp.encode (Rlp.ofLegacyTx t))
  | .inr b => C.keccak256 b

/-! ### Intrinsic cost and validation -/

/-- osaka/transactions.py:599-604 `tokens_in_calldata`. -/
def tokensInCalldata (data : Bytes) : Nat :=
  let zeroBytes := data.countP (· == 0)
  zeroBytes + (data.length - zeroBytes) * 4

/-- The price of the data: 4 for a zero byte and 16 for another; 68 for the latter before istanbul
(constantinople/transactions.py:27-29). -/
def dataCostIn (f : Fork) (data : Bytes) : Nat :=
  if f.since .istanbul then tokensInCalldata data * STANDARD_CALLDATA_TOKEN_COST
  else data.countP (· == 0) * 4 + (data.length - data.countP (· == 0)) * 68

/-- osaka/transactions.py:571-646 `calculate_intrinsic_cost`: (intrinsic_gas, calldata_floor_gas_cost). Before prague there is no
floor (cancun/transactions.py:467-514 returns the first component only), which has the effect of a floor of 0. Before shanghai there is no
charge for init code (paris/transactions.py:358-401), in frontier none for creations. -/
def calculateIntrinsicCost (f : Fork) (tx : Transaction) : Nat × Nat :=
  let tokens := tokensInCalldata tx.data
  let calldataFloorGasCost := if f.since .prague then tokens * FLOOR_CALLDATA_COST + TX_BASE_COST else 0
  let dataCost := dataCostIn f tx.data
  let createCost := if f.since .homestead ∧ tx.to = none then TX_CREATE_COST + initCodeCostIn f tx.data.length else 0
  let accessListCost := tx.accesses.foldl
    (fun c a => c + TX_ACCESS_LIST_ADDRESS_COST + a.slots.length * TX_ACCESS_LIST_STORAGE_KEY_COST) 0
  let authCost := PER_EMPTY_ACCOUNT_COST * tx.authorizations.length
  (TX_BASE_COST + dataCost + createCost + accessListCost + authCost, calldataFloorGasCost)

/-- osaka/transactions.py:527-568 `validate_transaction`. The limit on init code is absent before shanghai
(paris/transactions.py:327-355), the limit on gas before osaka (prague/transactions.py:521-560). -/
def validateTransaction (f : Fork) (tx : Transaction) : Except TxError (Nat × Nat) :=
  let c := calculateIntrinsicCost f tx
  if max c.1 c.2 > tx.gas then .error .insufficientTransactionGas
  else if tx.nonce.toNat ≥ 2 ^ 64 - 1 then .error .nonceOverflow
  else if f.since .shanghai ∧ tx.to = none ∧ tx.data.length > MAX_INIT_CODE_SIZE then .error .initCodeTooLarge
  else if f.since .osaka ∧ tx.gas > TX_MAX_GAS_LIMIT then .error .transactionGasLimitExceeded
  else .ok c

/-! ### Signatures -/

/-- osaka/transactions.py:713-734 `signing_hash_pre155`, before hashing. -/
def signingPayloadPre155 (t : LegacyTx) : Bytes := Rlp.encode (.list (Rlp.legacyFields t))
/-- osaka/transactions.py:737-760 `signing_hash_155`, before hashing. -/
def signingPayload155 (t : LegacyTx) (chainId : U64) : Bytes :=
  Rlp.encode (.list (Rlp.legacyFields t ++ [.ofNat chainId.toNat, .ofNat 0, .ofNat 0]))
/-- osaka/transactions.py:763-786 `signing_hash_2930`, before hashing. -/
def signingPayload2930 (t : AccessListTx) : Bytes := 0x01 :: Rlp.encode (.list (Rlp.accessListFields t))
/-- osaka/transactions.py:789-813 `signing_hash_1559`, before hashing. -/
def signingPayload1559 (t : FeeMarketTx) : Bytes := 0x02 :: Rlp.encode (.list (Rlp.feeMarketFields t))
/-- osaka/transactions.py:816-842 `signing_hash_4844`, before hashing. -/
def signingPayload4844 (t : BlobTx) : Bytes := 0x03 :: Rlp.encode (.list (Rlp.blobFields t))
/-- osaka/transactions.py:845-870 `signing_hash_7702`, before hashing. -/
def signingPayload7702 (t : SetCodeTx) : Bytes := 0x04 :: Rlp.encode (.list (Rlp.setCodeFields t))

/-- `Address(keccak256(public_key)[12:32])` (osaka/transactions.py:710). -/
def publicKeyAddress (C : Crypto) (publicKey : Bytes) : Address := toAddressMasked (C.keccak256 publicKey)

/-- The tail of `recover_sender`: recover the key and hash it. -/
def recoverWith (C : Crypto) (r s v : Word) (payload : Bytes) : Except TxError Address :=
  match C.secp256k1Recover r s v (C.keccak256 payload) with
  | none => .error .invalidSignature
  | some pk => .ok (publicKeyAddress C pk)

/-- osaka/transactions.py:649-710 `recover_sender`. The U256 sums with the 64-bit chain id cannot overflow, and the
differences cannot underflow where they are evaluated. Before spurious_dragon `v` is 27 or 28 (homestead/transactions.py:168-191), in frontier
`s` may be large. -/
def recoverSender (C : Crypto) (f : Fork) (chainId : U64) (tx : Transaction) : Except TxError Address :=
  if tx.r = 0 ∨ tx.r ≥ SECP256K1N then .error .invalidSignature
  else if tx.s = 0 ∨ tx.s ≥ SECP256K1N ∨ (f.since .homestead ∧ tx.s > SECP256K1N / 2) then .error .invalidSignature
  else match tx with
    | .legacy t =>
      if t.v = 27 ∨ t.v = 28 then recoverWith C t.r t.s (t.v - 27) (signingPayloadPre155 t)
      else if ¬ f.since .spuriousDragon then .error .invalidSignature
      else
        let chainIdX2 : Word := chainId.setWidth 256 * 2
        if t.v ≠ 35 + chainIdX2 ∧ t.v ≠ 36 + chainIdX2 then .error .invalidSignature
        else recoverWith C t.r t.s (t.v - 35 - chainIdX2) (signingPayload155 t chainId)
    | .accessList t =>
      if t.yParity ≠ 0 ∧ t.yParity ≠ 1 then .error .invalidSignature
      else recoverWith C t.r t.s t.yParity (signingPayload2930 t)
    | .feeMarket t =>
      if t.yParity ≠ 0 ∧ t.yParity ≠ 1 then .error .invalidSignature
      else recoverWith C t.r t.s t.yParity (signingPayload1559 t)
    | .blob t =>
      if t.yParity ≠ 0 ∧ t.yParity ≠ 1 then .error .invalidSignature
      else recoverWith C t.r t.s t.yParity (signingPayload4844 t)
    | .setCode t =>
      if t.yParity ≠ 0 ∧ t.yParity ≠ 1 then .error .invalidSignature
      else recoverWith C t.r t.s t.yParity (signingPayload7702 t)

end Verif
