import Verif.Model.RlpDecode
/-! Vocabulary for properties of transactions. -/
namespace Verif.Spec

/-- The transaction with its signature erased. -/
def unsigned : Transaction → Transaction
  | .legacy t => .legacy { t with v := 0, r := 0, s := 0 }
  | .accessList t => .accessList { t with yParity := 0, r := 0, s := 0 }
  | .feeMarket t => .feeMarket { t with yParity := 0, r := 0, s := 0 }
  | .blob t => .blob { t with yParity := 0, r := 0, s := 0 }
  | .setCode t => .setCode { t with yParity := 0, r := 0, s := 0 }

/-- What the classes' field types guarantee and the model's types do not: blob and set-code transactions have a
recipient, and the parity of an authorization is a `U8`. -/
def WellTyped : Transaction → Prop
  | .blob t => t.to ≠ none
  | .setCode t => t.to ≠ none ∧ ∀ a ∈ t.authorizations, a.yParity < 256
  | _ => True

/-- The byte string whose hash identifies the transaction (EIP-2718): the type byte and the RLP of the fields, or the
RLP of the fields alone for legacy transactions. -/
def wireBytes (tx : Transaction) : Bytes :=
  match encodeTransaction tx with
  | .inl t => Rlp.encode (Rlp.ofLegacyTx t)
  | .inr b => b

/-- The message the sender signed, before hashing. -/
def signedBytes (chainId : U64) (tx : Transaction) : Bytes :=
  match tx with
  | .legacy t => if t.v = 27 ∨ t.v = 28 then signingPayloadPre155 t else signingPayload155 t chainId
  | .accessList t => signingPayload2930 t
  | .feeMarket t => signingPayload1559 t
  | .blob t => signingPayload4844 t
  | .setCode t => signingPayload7702 t

/-- Protected legacy transactions sign the chain id of the block. -/
def ChainBound : Transaction → Prop
  | .legacy t => ¬ (t.v = 27 ∨ t.v = 28)
  | _ => False

end Verif.Spec
