import Verif.Model.TxJson
import Verif.Spec.B11r
import Verif.Spec.AllocJson
import Verif.Spec.Tx
/-! What a transaction in JSON says, and what a signature is. -/
namespace Verif.Spec
open Verif

/-- The member is there, and what it is satisfies `P`. -/
def Has {α : Type} (o : Option α) (P : α → Prop) : Prop := ∃ x, o = some x ∧ P x

/-- The string writes the number in hexadecimal, with at least one digit after an optional `0x`. -/
def WritesHex (s : List Char) (n : Nat) : Prop := ∃ t, Spec.Body s t ∧ t ≠ [] ∧ Numeral 16 t ∧ n = numeralValue 16 t

/-- The string writes the address, with at most 40 hexadecimal digits after an optional `0x`. -/
def WritesAddress (s : List Char) (a : Address) : Prop := ∃ t, Spec.Body s t ∧ Numeral 16 t ∧ t.length ≤ 40 ∧ a.toNat = numeralValue 16 t

/-- The JSON object describes the entry of an access list. -/
def DescribesAccess (d : TxJson.AccessData) (a : Access) : Prop :=
  Has d.address (WritesAddress · a.account) ∧ Has d.storageKeys fun l => Each HexWord l a.slots

/-- The JSON object describes the authorization. -/
structure DescribesAuthorization (d : TxJson.AuthData) (a : Authorization) : Prop where
  chainId : Has d.chainId (WritesHex · a.chainId.toNat)
  nonce : Has d.nonce (WritesHex · a.nonce.toNat)
  address : Has d.address (WritesAddress · a.address)
  yParity : Has d.v (WritesHex · a.yParity) ∧ a.yParity < 256
  r : Has d.r (WritesHex · a.r.toNat)
  s : Has d.s (WritesHex · a.s.toNat)

/-- The number of the type of a transaction. -/
def typeNumber : Transaction → Nat
  | .legacy _ => 0 | .accessList _ => 1 | .feeMarket _ => 2 | .blob _ => 3 | .setCode _ => 4

/-- The type that the members of the object reveal, if it is not given. -/
def impliedType (d : TxJson.TxData) : Nat :=
  if d.authorizationList ≠ none then 4 else if d.maxFeePerBlobGas ≠ none then 3 else if d.maxFeePerGas ≠ none then 2
  else if d.accessList ≠ none then 1 else 0

/-- The fork knows the type. -/
def TypeIn (f : Fork) (n : Nat) : Prop :=
  n = 0 ∨ (n = 1 ∧ f.since .berlin = true) ∨ (n = 2 ∧ f.since .london = true) ∨ (n = 3 ∧ f.since .cancun = true) ∨ (n = 4 ∧ f.since .prague = true)

/-- What the transaction pays for gas. -/
def DescribesFees (d : TxJson.TxData) : Transaction → Prop
  | .legacy t => Has d.gasPrice (WritesHex · t.gasPrice)
  | .accessList t => Has d.gasPrice (WritesHex · t.gasPrice)
  | .feeMarket t => Has d.maxPriorityFeePerGas (WritesHex · t.maxPriorityFeePerGas) ∧ Has d.maxFeePerGas (WritesHex · t.maxFeePerGas)
  | .blob t => Has d.maxPriorityFeePerGas (WritesHex · t.maxPriorityFeePerGas) ∧ Has d.maxFeePerGas (WritesHex · t.maxFeePerGas) ∧
      Has d.maxFeePerBlobGas (WritesHex · t.maxFeePerBlobGas.toNat)
  | .setCode t => Has d.maxPriorityFeePerGas (WritesHex · t.maxPriorityFeePerGas) ∧ Has d.maxFeePerGas (WritesHex · t.maxFeePerGas)

/-- What only some types of transactions have: the chain, which is 1 whatever the object says, the access list, the blobs and the authorizations. -/
def DescribesLists (d : TxJson.TxData) : Transaction → Prop
  | .legacy _ => True
  | .accessList t => t.chainId = 1 ∧ Each DescribesAccess (d.accessList.getD []) t.accessList
  | .feeMarket t => t.chainId = 1 ∧ Each DescribesAccess (d.accessList.getD []) t.accessList
  | .blob t => t.chainId = 1 ∧ Each DescribesAccess (d.accessList.getD []) t.accessList ∧
      Has d.blobVersionedHashes fun l => Each (fun s x => WritesBytes s (wordBytes x)) l t.blobVersionedHashes
  | .setCode t => t.chainId = 1 ∧ Each DescribesAccess (d.accessList.getD []) t.accessList ∧
      Has d.authorizationList fun l => Each DescribesAuthorization l t.authorizations

/-- The object describes the transaction, apart from its signature. -/
structure DescribesTx (f : Fork) (d : TxJson.TxData) (tx : Transaction) : Prop where
  type : match d.type with | some t => WritesNumber t (typeNumber tx) | none => typeNumber tx = impliedType d
  known : TypeIn f (typeNumber tx)
  nonce : Has d.nonce (WritesHex · tx.nonce.toNat)
  fees : DescribesFees d tx
  gas : Has d.gasLimit (WritesHex · tx.gas)
  recipient : Has d.to fun s => (s = [] ∧ tx.to = none) ∨ (s ≠ [] ∧ ∃ a, tx.to = some a ∧ WritesAddress s a)
  value : Has d.value fun s => (s = ['0', 'x'] ∧ tx.value = 0) ∨ WritesHex s tx.value.toNat
  data : Has d.data (WritesBytes · tx.data)
  lists : DescribesLists d tx

/-- The signature of a transaction. -/
def signatureOf : Transaction → Word × Word × Word
  | .legacy t => (t.v, t.r, t.s)
  | .accessList t => (t.yParity, t.r, t.s)
  | .feeMarket t => (t.yParity, t.r, t.s)
  | .blob t => (t.yParity, t.r, t.s)
  | .setCode t => (t.yParity, t.r, t.s)

/-- The object has the signature: `y_parity`, or else `v`, and `r` and `s`. -/
def DescribesSignature (d : TxJson.TxData) (sig : Word × Word × Word) : Prop :=
  Has (if d.yParity = none then d.v else d.yParity) (WritesHex · sig.1.toNat) ∧ Has d.r (WritesHex · sig.2.1.toNat) ∧
    Has d.s (WritesHex · sig.2.2.toNat)

/-- What the transition tool calls `gas` and `input` is elsewhere called `gasLimit` and `data`, and it takes a transaction without `to` as a creation. -/
def fromTool (d : TxJson.TxData) : TxJson.TxData := { d with gasLimit := d.gas, data := d.input, to := some (d.to.getD []) }

/-- A number that may be missing or empty, which means 0. -/
def OptionalNumber (o : Option (List Char)) (x : Word) : Prop :=
  ((o = none ∨ o = some []) ∧ x = 0) ∨ Has o fun s => s ≠ [] ∧ WritesHex s x.toNat

/-- The first of the two that is there and not empty. -/
def either (o o' : Option (List Char)) : Option (List Char) := if o = none ∨ o = some [] then o' else o

/-- The object the tool is given has the signature: `v`, or else `y_parity`, must be well-formed, but a `y_parity` has precedence. -/
def GivenSignature (d : TxJson.TxData) (sig : Word × Word × Word) : Prop :=
  (∃ v, OptionalNumber (either d.v d.yParity) v ∧ (d.yParity = none → sig.1 = v)) ∧ (∀ y, d.yParity = some y → WritesHex y sig.1.toNat) ∧
    OptionalNumber d.r sig.2.1 ∧ OptionalNumber d.s sig.2.2

/-- The object has no signature: the three numbers are missing, empty or 0. -/
def NoSignature (d : TxJson.TxData) : Prop := OptionalNumber (either d.v d.yParity) 0 ∧ OptionalNumber d.r 0 ∧ OptionalNumber d.s 0

/-- The message that is signed (EIPs 155, 2930, 1559, 4844 and 7702), and the value that says the parity `y`. -/
def toSign (f : Fork) (prot : Bool) : Transaction → Bytes
  | .legacy t => if f.since .spuriousDragon = true ∧ prot = true then signingPayload155 t 1 else signingPayloadPre155 t
  | .accessList t => signingPayload2930 t
  | .feeMarket t => signingPayload1559 t
  | .blob t => signingPayload4844 t
  | .setCode t => signingPayload7702 t

/-- How a signature with the parity `y` is marked. -/
def marked (f : Fork) (prot : Bool) (y : Word) : Transaction → Word
  | .legacy _ => if f.since .spuriousDragon = true ∧ prot = true then y + 37 else y + 27
  | _ => y

/-- Signing and recovery fit together: a signature is in range, and the public key of the signer can be recovered from it. -/
def SignsFor (C : Crypto) (sign : TxJson.Signer) (pub : Nat → Bytes) : Prop :=
  ∀ h key r s y, sign h key = some (r, s, y) → 0 < r ∧ r < SECP256K1N ∧ 0 < s ∧ s ≤ SECP256K1N / 2 ∧ (y = 0 ∨ y = 1) ∧
    C.secp256k1Recover r s y h = some (pub key)

/-- An entry of an access list written the usual way. -/
def writtenAccess (a : Access) : TxJson.AccessData := ⟨some (writtenBytes (addressBytes a.account)), some (a.slots.map fun x => writtenBytes (wordBytes x))⟩

/-- An authorization written the usual way. -/
def writtenAuthorization (a : Authorization) : TxJson.AuthData where
  chainId := some (T8n.hex a.chainId.toNat)
  nonce := some (T8n.hex a.nonce.toNat)
  address := some (writtenBytes (addressBytes a.address))
  v := some (T8n.hex a.yParity)
  r := some (T8n.hex a.r.toNat)
  s := some (T8n.hex a.s.toNat)

/-- A transaction written the usual way. -/
def writtenTx (tx : Transaction) : TxJson.TxData :=
  let d : TxJson.TxData := {
    type := some (writtenNumber (typeNumber tx))
    nonce := some (T8n.hex tx.nonce.toNat)
    gas := some (T8n.hex tx.gas)
    to := tx.to.map fun a => writtenBytes (addressBytes a)
    value := some (T8n.hex tx.value.toNat)
    input := some (writtenBytes tx.data)
    v := some (T8n.hex (signatureOf tx).1.toNat)
    r := some (T8n.hex tx.r.toNat)
    s := some (T8n.hex tx.s.toNat) }
  match tx with
  | .legacy t => { d with gasPrice := some (T8n.hex t.gasPrice) }
  | .accessList t => { d with gasPrice := some (T8n.hex t.gasPrice), accessList := some (t.accessList.map writtenAccess) }
  | .feeMarket t => { d with
      maxPriorityFeePerGas := some (T8n.hex t.maxPriorityFeePerGas), maxFeePerGas := some (T8n.hex t.maxFeePerGas)
      accessList := some (t.accessList.map writtenAccess) }
  | .blob t => { d with
      maxPriorityFeePerGas := some (T8n.hex t.maxPriorityFeePerGas), maxFeePerGas := some (T8n.hex t.maxFeePerGas)
      accessList := some (t.accessList.map writtenAccess), maxFeePerBlobGas := some (T8n.hex t.maxFeePerBlobGas.toNat)
      blobVersionedHashes := some (t.blobVersionedHashes.map fun x => writtenBytes (wordBytes x)) }
  | .setCode t => { d with
      maxPriorityFeePerGas := some (T8n.hex t.maxPriorityFeePerGas), maxFeePerGas := some (T8n.hex t.maxFeePerGas)
      accessList := some (t.accessList.map writtenAccess), authorizationList := some (t.authorizations.map writtenAuthorization) }

/-- The transaction names no other chain than 1, and the parities of its authorizations are bytes. -/
def OnChainOne : Transaction → Prop
  | .legacy _ => True
  | .accessList t => t.chainId = 1
  | .feeMarket t => t.chainId = 1
  | .blob t => t.chainId = 1
  | .setCode t => t.chainId = 1 ∧ ∀ a ∈ t.authorizations, a.yParity < 256

end Verif.Spec
