import Verif.Model.Blocks
/-
Decoding: `rlp.decode`, `rlp.decode_to` (package `ethereum_rlp`, external to /repo and not available
here), osaka/transactions.py `decode_transaction` and osaka/blocks.py `decode_receipt`.
`none` stands for the package's `DecodingError`. The decoder was written down from memory of the package and not compared
with its source: that bytes after the first item of the input are ignored, that non-minimal encodings are refused and
that integers may have leading zeros are assumptions. C38 and C39 only use that encodings decode; C37 also shows that the
decoder written here accepts canonical encodings only.
-/
namespace Verif
namespace Rlp

/-- The payload of a string or list whose first byte is `offset + 56 ..`: length bytes, then the data.
Rejects a leading zero in the length, lengths below 56 and truncated input. -/
def longPayload (lengthLength : Nat) (rest : Bytes) : Option Bytes :=
  if rest.length < lengthLength then none
  else
    let l := rest.take lengthLength
    if l.head? = some 0 then none
    else
      let len := fromBE l
      if len < 56 then none
      else if rest.length < lengthLength + len then none
      else some ((rest.drop lengthLength).take len)

/-- `rlp.decode_to_bytes`: the byte string encoded by a first byte at most 0xbf and the rest. -/
def decodeToBytes (first : UInt8) (rest : Bytes) : Option Bytes :=
  if rest = [] ∧ first < 0x80 then some [first]
  else if first ≤ 0xb7 then
    if first < 0x80 then none
    else
      let len := first.toNat - 0x80
      if rest.length < len then none
      else
        let raw := rest.take len
        match raw with
        | [x] => if x < 0x80 then none else some raw
        | _ => some raw
  else longPayload (first.toNat - 0xb7) rest

/-- The joined encodings of a list (first half of `rlp.decode_to_sequence`). -/
def sequencePayload (first : UInt8) (rest : Bytes) : Option Bytes :=
  if first ≤ 0xf7 then
    let len := first.toNat - 0xc0
    if rest.length < len then none else some (rest.take len)
  else longPayload (first.toNat - 0xf7) rest

/-- Length of an item whose length is written in `lengthLength` bytes. -/
def longItemLength (lengthLength : Nat) (rest : Bytes) : Option Nat :=
  if rest.length < lengthLength then none
  else
    let l := rest.take lengthLength
    if l.head? = some 0 then none else some (1 + lengthLength + fromBE l)

/-- `rlp.decode_item_length`: the length of the encoding that starts here. -/
def decodeItemLength : Bytes → Option Nat
  | [] => none
  | first :: rest =>
    if first < 0x80 then some 1
    else if first ≤ 0xb7 then some (1 + (first.toNat - 0x80))
    else if first ≤ 0xbf then longItemLength (first.toNat - 0xb7) rest
    else if first ≤ 0xf7 then some (1 + (first.toNat - 0xc0))
    else longItemLength (first.toNat - 0xf7) rest

mutual
/-- `rlp.decode` with fuel; theorem `C37_fuel` shows that the fuel used by `decode` is always enough. -/
def decodeF : Nat → Bytes → Option Rlp
  | 0, _ => none
  | _ + 1, [] => none
  | fuel + 1, first :: rest =>
    if first ≤ 0xbf then (decodeToBytes first rest).map .bytes
    else
      match sequencePayload first rest with
      | none => none
      | some joined => (decodeJoinedF fuel joined).map .list
/-- `rlp.decode_joined_encodings`. -/
def decodeJoinedF : Nat → Bytes → Option (List Rlp)
  | 0, _ => none
  | _ + 1, [] => some []
  | fuel + 1, b =>
    match decodeItemLength b with
    | none => none
    | some n =>
      if b.length < n then none
      else
        match decodeF fuel (b.take n) with
        | none => none
        | some x => (decodeJoinedF fuel (b.drop n)).map (x :: ·)
end

/-- `rlp.decode`. Bytes after the first item are ignored, as in the package. -/
def decode (b : Bytes) : Option Rlp := decodeF (2 * b.length + 1) b

/-! ### `rlp.decode_to`: from items to typed values -/

/-- `Bytes`. -/
def asBytes : Rlp → Option Bytes
  | .bytes b => some b
  | .list _ => none
/-- A sequence. -/
def asList : Rlp → Option (List Rlp)
  | .bytes _ => none
  | .list l => some l
/-- `Uint`. -/
def asNat (x : Rlp) : Option Nat := (asBytes x).map fromBE
/-- `U8`, `U64` and `U256`: at most `n` bytes. -/
def asFixed (n : Nat) (x : Rlp) : Option Nat := (asBytes x).bind fun b => if b.length ≤ n then some (fromBE b) else none
/-- `U256`. -/
def asWord (x : Rlp) : Option Word := (asFixed 32 x).map (BitVec.ofNat 256)
/-- `U64`. -/
def asU64 (x : Rlp) : Option U64 := (asFixed 8 x).map (BitVec.ofNat 64)
/-- A byte string of exactly `n` bytes, as a number. -/
def asExact (n : Nat) (x : Rlp) : Option Nat := (asBytes x).bind fun b => if b.length = n then some (fromBE b) else none
/-- `Bytes32`, `Hash32`. -/
def asWord32 (x : Rlp) : Option Word := (asExact 32 x).map (BitVec.ofNat 256)
/-- `Address`. -/
def asAddress (x : Rlp) : Option Address := (asExact 20 x).map (BitVec.ofNat 160)
/-- `Bloom`. -/
def asBloom (x : Rlp) : Option (BitVec 2048) := (asExact 256 x).map (BitVec.ofNat 2048)
/-- `bool`: empty or the byte 1. -/
def asBool : Rlp → Option Bool
  | .bytes [] => some false
  | .bytes [x] => if x = 1 then some true else none
  | _ => none
/-- `Bytes0 | Address`. -/
def asTo (x : Rlp) : Option (Option Address) :=
  match x with
  | .bytes [] => some none
  | x => (asAddress x).map some
/-- `Tuple[T, ...]`. -/
def asTuple {α : Type} (f : Rlp → Option α) (x : Rlp) : Option (List α) := (asList x).bind (·.mapM f)

/-- `Access`. -/
def asAccess : Rlp → Option Access
  | .list [a, s] => do some ⟨← asAddress a, ← asTuple asWord32 s⟩
  | _ => none
/-- `Authorization`. -/
def asAuthorization : Rlp → Option Authorization
  | .list [c, a, n, y, r, s] => do some ⟨← asWord c, ← asAddress a, ← asU64 n, ← asFixed 1 y, ← asWord r, ← asWord s⟩
  | _ => none
/-- `AccessListTransaction`. -/
def asAccessListTx : Rlp → Option AccessListTx
  | .list [c, n, gp, g, t, v, d, al, y, r, s] => do
    some ⟨← asU64 c, ← asWord n, ← asNat gp, ← asNat g, ← asTo t, ← asWord v, ← asBytes d, ← asTuple asAccess al,
      ← asWord y, ← asWord r, ← asWord s⟩
  | _ => none
/-- `FeeMarketTransaction`. -/
def asFeeMarketTx : Rlp → Option FeeMarketTx
  | .list [c, n, pf, mf, g, t, v, d, al, y, r, s] => do
    some ⟨← asU64 c, ← asWord n, ← asNat pf, ← asNat mf, ← asNat g, ← asTo t, ← asWord v, ← asBytes d,
      ← asTuple asAccess al, ← asWord y, ← asWord r, ← asWord s⟩
  | _ => none
/-- `BlobTransaction`; `to: Address`, so an empty `to` is a decoding error. -/
def asBlobTx : Rlp → Option BlobTx
  | .list [c, n, pf, mf, g, t, v, d, al, bf, bh, y, r, s] => do
    some ⟨← asU64 c, ← asWord n, ← asNat pf, ← asNat mf, ← asNat g, some (← asAddress t), ← asWord v, ← asBytes d,
      ← asTuple asAccess al, ← asWord bf, ← asTuple asWord32 bh, ← asWord y, ← asWord r, ← asWord s⟩
  | _ => none
/-- `SetCodeTransaction`; `to: Address`. -/
def asSetCodeTx : Rlp → Option SetCodeTx
  | .list [c, n, pf, mf, g, t, v, d, al, au, y, r, s] => do
    some ⟨← asU64 c, ← asU64 n, ← asNat pf, ← asNat mf, ← asNat g, some (← asAddress t), ← asWord v, ← asBytes d,
      ← asTuple asAccess al, ← asTuple asAuthorization au, ← asWord y, ← asWord r, ← asWord s⟩
  | _ => none
/-- `Log`. -/
def asLog : Rlp → Option Log
  | .list [a, t, d] => do some ⟨← asAddress a, ← asTuple asWord32 t, ← asBytes d⟩
  | _ => none
/-- `Receipt`. -/
def asReceipt : Rlp → Option Receipt
  | .list [s, g, b, l] => do some ⟨.succeeded (← asBool s), ← asNat g, ← asBloom b, ← asTuple asLog l⟩
  | _ => none
end Rlp

/-- Outcomes of `decode_transaction` other than a transaction. -/
inductive DecodeError where
  /-- `tx[0]` of an empty byte string. -/
  | indexError
  /-- `TransactionTypeError`. -/
  | transactionType
  /-- `rlp.DecodingError`. -/
  | decodingError
  deriving DecidableEq, Repr

/-- The first fork that knows a transaction type: the versions of `decode_transaction` in src/ethereum/<fork>/transactions.py differ
in the types they have a case for. -/
def txTypeFirstFork (b : UInt8) : Fork :=
  if b = 1 then .berlin else if b = 2 then .london else if b = 3 then .cancun else .prague

/-- osaka/transactions.py:504-524 `decode_transaction`, in the given fork. -/
def decodeTransaction (f : Fork) : LegacyTx ⊕ Bytes → Except DecodeError Transaction
  | .inl t => .ok (.legacy t)
  | .inr [] => .error .indexError
  | .inr (b :: rest) =>
    let decoded : Option (Option Transaction) :=
      if ¬ f.since (txTypeFirstFork b) then none
      else if b = 1 then some (((Rlp.decode rest).bind Rlp.asAccessListTx).map .accessList)
      else if b = 2 then some (((Rlp.decode rest).bind Rlp.asFeeMarketTx).map .feeMarket)
      else if b = 3 then some (((Rlp.decode rest).bind Rlp.asBlobTx).map .blob)
      else if b = 4 then some (((Rlp.decode rest).bind Rlp.asSetCodeTx).map .setCode)
      else none
    match decoded with
    | none => .error .transactionType
    | some none => .error .decodingError
    | some (some tx) => .ok tx

/-- osaka/blocks.py:384-403 `decode_receipt`; `none` = the assertion, an index error or a decoding error. Only
called since prague, where the four types are known. -/
def decodeReceipt : Receipt ⊕ Bytes → Option Receipt
  | .inl r => some r
  | .inr [] => none
  | .inr (b :: rest) =>
    if b = 1 ∨ b = 2 ∨ b = 3 ∨ b = 4 then (Rlp.decode rest).bind Rlp.asReceipt else none

end Verif
