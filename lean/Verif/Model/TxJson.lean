import Verif.Model.Alloc
import Verif.Model.B11r
import Verif.Model.T8n
/-!
Transactions in JSON: ethereum_spec_tools/evm_tools/loaders/transaction_loader.py, and how the transition tool reads and signs them
(t8n/t8n_types.py:82-250). A JSON object is the record of its members; a member that is missing is `none`. `none` as a result stands for an exception of
Python: a missing member, a malformed string, a number that is too large, a transaction type that the fork does not have, a key that cannot sign. The
tool catches them all and lists the transaction as rejected.

Simplifications: `null` is only modelled where the code asks for it (`to`, `v`, `r`, `s` and `y_parity` in the transition tool), as a missing member. The
dataclasses do not check their arguments: the tool builds a set-code transaction whose nonce does not fit into 64 bits, which
`validate_transaction` then rejects; here it cannot be read.
-/
namespace Verif.TxJson
open Verif Hex B11r

/-- An element of `accessList` (loaders/transaction_loader.py:76-89). -/
structure AccessData where
  address : Option Str
  storageKeys : Option (List Str)

/-- An element of `authorizationList` (loaders/transaction_loader.py:91-105). -/
structure AuthData where
  chainId : Option Str
  nonce : Option Str
  address : Option Str
  v : Option Str
  r : Option Str
  s : Option Str

/-- The members of a transaction. `gas` and `input` are the names the transition tool has for `gasLimit` and `data`; only that tool looks at `secretKey`
and `protected`; `chainId` nobody looks at. -/
structure TxData where
  type : Option Num := none
  chainId : Option Str := none
  nonce : Option Str := none
  gasPrice : Option Str := none
  maxPriorityFeePerGas : Option Str := none
  maxFeePerGas : Option Str := none
  gas : Option Str := none
  gasLimit : Option Str := none
  to : Option Str := none
  value : Option Str := none
  input : Option Str := none
  data : Option Str := none
  accessList : Option (List AccessData) := none
  maxFeePerBlobGas : Option Str := none
  blobVersionedHashes : Option (List Str) := none
  authorizationList : Option (List AuthData) := none
  v : Option Str := none
  yParity : Option Str := none
  r : Option Str := none
  s : Option Str := none
  secretKey : Option Str := none
  «protected» : Option Bool := none

/-- `hex_to_u256` with a 256-bit result. -/
def word (s : Str) : Option Word := (hexToU256 s).map fun n => BitVec.ofNat 256 n
/-- `hex_to_u64` with a 64-bit result. -/
def u64 (s : Str) : Option U64 := (hexToU64 s).map fun n => BitVec.ofNat 64 n
/-- `hex_to_address` of the fork. -/
def address (s : Str) : Option Address := (hexToAddress s).map fun b => BitVec.ofNat 160 (fromBE b)
/-- `hex_to_bytes32`. -/
def slot (s : Str) : Option Word := (hexToBytes32 s).map fun b => BitVec.ofNat 256 (fromBE b)

/-- loaders/transaction_loader.py:59-63 `json_to_to`. -/
def readTo (o : Option Str) : Option (Option Address) :=
  match o with
  | none => none
  | some [] => some none
  | some s => (address s).map some

/-- loaders/transaction_loader.py:65-70 `json_to_value`. -/
def readValue (s : Str) : Option Word := if s = ['0', 'x'] then some 0 else word s

/-- loaders/transaction_loader.py:79-88 `json_to_access_list`, one element. -/
def readAccess (a : AccessData) : Option Access := do
  let account ← a.address.bind address
  let slots ← a.storageKeys.bind fun l => l.mapM slot
  return ⟨account, slots⟩

/-- loaders/transaction_loader.py:76-89 `json_to_access_list`. -/
def readAccessList (o : Option (List AccessData)) : Option (List Access) := (o.getD []).mapM readAccess

/-- loaders/transaction_loader.py:91-105 `json_to_authorizations`, one element. -/
def readAuthorization (a : AuthData) : Option Authorization := do
  let chainId ← a.chainId.bind word
  let nonce ← a.nonce.bind u64
  let addr ← a.address.bind address
  let yParity ← a.v.bind hexToU8
  let r ← a.r.bind word
  let s ← a.s.bind word
  return { chainId := chainId, nonce := nonce, address := addr, yParity := yParity, r := r, s := s }

/-- loaders/transaction_loader.py:128-134 `json_to_v`, and 136-138 `json_to_y_parity`. -/
def readV (d : TxData) : Option Word := (if d.yParity.isSome then d.yParity else d.v).bind word

/-- The classes of transactions. -/
inductive TxKind where
  | legacy | accessList | feeMarket | blob | setCode
  deriving DecidableEq, Repr

/-- The fork whose module is the first to have the class. -/
def TxKind.firstFork : TxKind → Fork
  | .legacy => .frontier
  | .accessList => .berlin
  | .feeMarket => .london
  | .blob => .cancun
  | .setCode => .prague

/-- loaders/transaction_loader.py:166-200, the choice of the class in `read`. -/
def txKind (d : TxData) : Option TxKind :=
  match d.type with
  | some t =>
    match parseHexOrInt t with
    | some 4 => some .setCode
    | some 3 => some .blob
    | some 2 => some .feeMarket
    | some 1 => some .accessList
    | some 0 => some .legacy
    | _ => none
  | none =>
    if d.authorizationList.isSome then some .setCode
    else if d.maxFeePerBlobGas.isSome then some .blob
    else if d.maxFeePerGas.isSome then some .feeMarket
    else if d.accessList.isSome then some .accessList
    else some .legacy

/-- loaders/transaction_loader.py:148-155 `get_parameters` for the fields of the class. The chain id is always 1 (43-45 `json_to_chain_id`). -/
def readAs (d : TxData) : TxKind → Option Transaction
  | .legacy => do
    let nonce ← d.nonce.bind word
    let gasPrice ← d.gasPrice.bind hexToUint
    let gas ← d.gasLimit.bind hexToUint
    let to ← readTo d.to
    let value ← d.value.bind readValue
    let data ← d.data.bind hexToBytes
    let v ← readV d
    let r ← d.r.bind word
    let s ← d.s.bind word
    return .legacy ⟨nonce, gasPrice, gas, to, value, data, v, r, s⟩
  | .accessList => do
    let nonce ← d.nonce.bind word
    let gasPrice ← d.gasPrice.bind hexToUint
    let gas ← d.gasLimit.bind hexToUint
    let to ← readTo d.to
    let value ← d.value.bind readValue
    let data ← d.data.bind hexToBytes
    let accessList ← readAccessList d.accessList
    let v ← readV d
    let r ← d.r.bind word
    let s ← d.s.bind word
    return .accessList ⟨1, nonce, gasPrice, gas, to, value, data, accessList, v, r, s⟩
  | .feeMarket => do
    let nonce ← d.nonce.bind word
    let maxPriorityFeePerGas ← d.maxPriorityFeePerGas.bind hexToUint
    let maxFeePerGas ← d.maxFeePerGas.bind hexToUint
    let gas ← d.gasLimit.bind hexToUint
    let to ← readTo d.to
    let value ← d.value.bind readValue
    let data ← d.data.bind hexToBytes
    let accessList ← readAccessList d.accessList
    let v ← readV d
    let r ← d.r.bind word
    let s ← d.s.bind word
    return .feeMarket ⟨1, nonce, maxPriorityFeePerGas, maxFeePerGas, gas, to, value, data, accessList, v, r, s⟩
  | .blob => do
    let nonce ← d.nonce.bind word
    let maxPriorityFeePerGas ← d.maxPriorityFeePerGas.bind hexToUint
    let maxFeePerGas ← d.maxFeePerGas.bind hexToUint
    let gas ← d.gasLimit.bind hexToUint
    let to ← readTo d.to
    let value ← d.value.bind readValue
    let data ← d.data.bind hexToBytes
    let accessList ← readAccessList d.accessList
    let maxFeePerBlobGas ← d.maxFeePerBlobGas.bind word
    let hashes ← d.blobVersionedHashes.bind fun l => l.mapM hash32
    let v ← readV d
    let r ← d.r.bind word
    let s ← d.s.bind word
    return .blob ⟨1, nonce, maxPriorityFeePerGas, maxFeePerGas, gas, to, value, data, accessList, maxFeePerBlobGas, hashes, v, r, s⟩
  | .setCode => do
    let nonce ← d.nonce.bind u64
    let maxPriorityFeePerGas ← d.maxPriorityFeePerGas.bind hexToUint
    let maxFeePerGas ← d.maxFeePerGas.bind hexToUint
    let gas ← d.gasLimit.bind hexToUint
    let to ← readTo d.to
    let value ← d.value.bind readValue
    let data ← d.data.bind hexToBytes
    let accessList ← readAccessList d.accessList
    let authorizations ← d.authorizationList.bind fun l => l.mapM readAuthorization
    let v ← readV d
    let r ← d.r.bind word
    let s ← d.s.bind word
    return .setCode ⟨1, nonce, maxPriorityFeePerGas, maxFeePerGas, gas, to, value, data, accessList, authorizations, v, r, s⟩

/-- loaders/transaction_loader.py:164-208 `read`. -/
def read (f : Fork) (d : TxData) : Option Transaction := do
  let k ← txKind d
  if f.since k.firstFork then readAs d k else none

/-! ### Signing -/

/-- evm_tools/utils.py:164-175 `secp256k1_sign`: the hash and the secret key give r, s and the parity, or nothing if there is no such key. -/
abbrev Signer := Word → Nat → Option (Word × Word × Word)

/-- t8n/t8n_types.py:212-243: what is signed, and what is added to the parity. Before spurious_dragon `signing_hash` is what
`signing_hash_pre155` is later. -/
def signingData (f : Fork) (prot : Bool) : Transaction → Bytes × Word
  | .legacy t =>
    if f.since .spuriousDragon then
      if prot then (signingPayload155 t 1, 37) else (signingPayloadPre155 t, 27)
    else (signingPayloadPre155 t, 27)
  | .accessList t => (signingPayload2930 t, 0)
  | .feeMarket t => (signingPayload1559 t, 0)
  | .blob t => (signingPayload4844 t, 0)
  | .setCode t => (signingPayload7702 t, 0)

/-- t8n/t8n_types.py:189-250 `sign_transaction`. The parity is one byte, so that the sum cannot overflow. -/
def signTransaction (C : Crypto) (sign : Signer) (f : Fork) (d : TxData) : Option TxData := do
  let tx ← read f d
  let key ← d.secretKey.bind fun s => hexToUint (s.drop 2)
  let sig ← sign (C.keccak256 (signingData f (d.protected.getD true) tx).1) key
  let v := T8n.hex (sig.2.2 + (signingData f (d.protected.getD true) tx).2).toNat
  return { d with
    r := some (T8n.hex sig.1.toNat)
    s := some (T8n.hex sig.2.1.toNat)
    v := some v
    yParity := if (signingData f (d.protected.getD true) tx).2 = 0 then some v else d.yParity }

/-- Python's `o or default`: the empty string counts as missing. -/
def orElse (o : Option Str) (default : Str) : Str :=
  match o with
  | none => default
  | some [] => default
  | some s => s

/-- t8n/t8n_types.py:161-171: the members under the names `TransactionLoad` uses, with defaults. -/
def prepare (d : TxData) (gas input : Str) : TxData :=
  { d with
    gasLimit := some gas
    data := some input
    to := some (d.to.getD [])
    v := some (orElse d.v (orElse d.yParity ['0', 'x', '0', '0']))
    r := some (orElse d.r ['0', 'x', '0', '0'])
    s := some (orElse d.s ['0', 'x', '0', '0']) }

/-- t8n/t8n_types.py:173-178: the transaction is signed if it has a key and no signature. -/
def signIfAsked (C : Crypto) (sign : Signer) (f : Fork) (d : TxData) (v r s : Word) : Option TxData :=
  if d.secretKey.isSome ∧ v = 0 ∧ r = 0 ∧ s = 0 then signTransaction C sign f d else some d

/-- t8n/t8n_types.py:153-187 `parse_json_tx`. (`decode_transaction` leaves an object as it is.) -/
def parseJsonTx (C : Crypto) (sign : Signer) (f : Fork) (d : TxData) : Option Transaction := do
  let gas ← d.gas
  let input ← d.input
  let p := prepare d gas input
  let v ← p.v.bind word
  let r ← p.r.bind word
  let s ← p.s.bind word
  let q ← signIfAsked C sign f p v r s
  read f q

/-- t8n/t8n_types.py:111-131 `Txs.__init__`: the transactions that can be read, with their places in the input. -/
def readTxs (C : Crypto) (sign : Signer) (f : Fork) (i : Nat) : List TxData → List (Nat × Transaction)
  | [] => []
  | d :: r =>
    match parseJsonTx C sign f d with
    | some tx => (i, tx) :: readTxs C sign f (i + 1) r
    | none => readTxs C sign f (i + 1) r

/-- The dataclass of a transaction as an RLP item: the list of its fields. -/
def fieldsItem : Transaction → Rlp
  | .legacy t => .ofLegacyTx t
  | .accessList t => .list (Rlp.accessListFields t ++ Rlp.signature t.yParity t.r t.s)
  | .feeMarket t => .list (Rlp.feeMarketFields t ++ Rlp.signature t.yParity t.r t.s)
  | .blob t => .list (Rlp.blobFields t ++ Rlp.signature t.yParity t.r t.s)
  | .setCode t => .list (Rlp.setCodeFields t ++ Rlp.signature t.yParity t.r t.s)

/-- t8n/t8n_types.py:181 (`all_txs`) and t8n/__init__.py:347-355: the body that the tool puts out for transactions read from JSON. -/
def outputBody (txs : List Transaction) : Str := '0' :: 'x' :: T8n.bytesHex (Rlp.encode (.list (txs.map fieldsItem)))

/-- t8n/t8n_types.py:104-107 and 133-151 (`parse_rlp_tx`): the items of a body given as a string. A list is decoded as a legacy transaction. -/
def readBody (s : Str) : Option (List Rlp) :=
  match (hexToBytes s).bind Rlp.decode with
  | some (.list l) => some l
  | _ => none

/-- `rlp.decode_to(LegacyTransaction, ...)` (before berlin `Transaction`) on an item. -/
def asLegacyTx : Rlp → Option LegacyTx
  | .list [n, p, g, t, x, b, v, r, s] => do
    return { nonce := ← Rlp.asWord n, gasPrice := ← Rlp.asNat p, gas := ← Rlp.asNat g, to := ← Rlp.asTo t, value := ← Rlp.asWord x,
             data := ← Rlp.asBytes b, v := ← Rlp.asWord v, r := ← Rlp.asWord r, s := ← Rlp.asWord s }
  | _ => none

/-- t8n/t8n_types.py:133-151 `parse_rlp_tx`, on an item. -/
def parseRlpTx (f : Fork) : Rlp → Option Transaction
  | .bytes b =>
    if f.since .berlin then
      match decodeTransaction f (.inr b) with
      | .ok tx => some tx
      | .error _ => none
    else none
  | .list l => (asLegacyTx (.list l)).map .legacy

end Verif.TxJson
