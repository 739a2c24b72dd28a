import Verif.Lemmas.RlpCanonical
import Verif.Spec.Tx
import Verif.Lemmas.TxCodec
import Verif.Spec.Sample
/-!
C37: RLP encoding is uniquely decodable. C38: transactions survive encoding and decoding. C39: signatures cover every
field that matters.
-/
namespace Verif
open Spec

/-! ### C37 -/

/-- C37: decoding the encoding of any nested structure gives it back (for encodings below 2^64 bytes, the limit of
the format). -/
theorem C37_decode_encode (x : Rlp) (h : (Rlp.encode x).length < 2 ^ 64) : Rlp.decode (Rlp.encode x) = some x :=
  Rlp.decode_encode x (Rlp.small_of_length x h)

example : (Rlp.encode (.list [.bytes [1, 2], .list [.bytes []], .bytes (List.replicate 60 7)])).length < 2 ^ 64 := by
  decide +kernel

/-- C37: different structures have different encodings; even concatenations of encodings split in one way only. -/
theorem C37_injective (x y : Rlp) (s t : Bytes) (hx : (Rlp.encode x).length < 2 ^ 64) (hy : (Rlp.encode y).length < 2 ^ 64)
    (h : Rlp.encode x ++ s = Rlp.encode y ++ t) : x = y ∧ s = t :=
  Rlp.encode_prefix (Rlp.small_of_length x hx) (Rlp.small_of_length y hy) h

/-- C37: the decoder always ends: its fuel is never the reason for a failure (more fuel gives the same result). -/
theorem C37_fuel (b : Bytes) (extra : Nat) : Rlp.decodeF (2 * b.length + 1 + extra) b = Rlp.decode b :=
  (Rlp.decodeF_fuel _).1 _ b (Nat.le_add_right _ _) (Nat.le_refl _)

/-- C37: the decoder accepts nothing but canonical encodings: whatever it accepts starts with the one encoding of the result (the
bytes after it are ignored). -/
theorem C37_canonical (b : Bytes) (x : Rlp) (h : Rlp.decode b = some x) : ∃ t, b = Rlp.encode x ++ t :=
  ((Rlp.decodeF_canonical _).1 b x h).2

/-- Non-minimal forms of the byte 5, of the empty list and of a 55-byte string, and a list whose items overrun it, are refused. -/
example : Rlp.decode [0x81, 5] = none ∧ Rlp.decode [0xb8, 1, 5] = none ∧ Rlp.decode [0xf8, 0] = none ∧
    Rlp.decode (0xb8 :: 55 :: List.replicate 55 7) = none ∧ Rlp.decode [0xc1, 0x81, 0x80] = none ∧
    (Rlp.decode [0xc2, 0x81, 0x80]).isSome := by decide +kernel

/-! ### C38 -/

theorem wire_length (tx : Transaction) (h : (wireBytes tx).length < 2 ^ 64) :
    match tx with
    | .legacy t => (Rlp.encode (Rlp.ofLegacyTx t)).length < 2 ^ 64
    | .accessList t => (Rlp.encode (.list (Rlp.accessListFields t ++ Rlp.signature t.yParity t.r t.s))).length < 2 ^ 64
    | .feeMarket t => (Rlp.encode (.list (Rlp.feeMarketFields t ++ Rlp.signature t.yParity t.r t.s))).length < 2 ^ 64
    | .blob t => (Rlp.encode (.list (Rlp.blobFields t ++ Rlp.signature t.yParity t.r t.s))).length < 2 ^ 64
    | .setCode t => (Rlp.encode (.list (Rlp.setCodeFields t ++ Rlp.signature t.yParity t.r t.s))).length < 2 ^ 64 := by
  cases tx <;> simp only [wireBytes, encodeTransaction, List.length_cons] at h ⊢ <;> omega

/-- The forks that know the type of the transaction. -/
def KnownIn (f : Fork) : Transaction → Prop
  | .legacy _ => True
  | .accessList _ => f.since .berlin = true
  | .feeMarket _ => f.since .london = true
  | .blob _ => f.since .cancun = true
  | .setCode _ => f.since .prague = true

/-- C38: every transaction of each of the five types decodes to itself, in every fork that knows its type. -/
theorem C38_round_trip (f : Fork) (tx : Transaction) (hf : KnownIn f tx) (hw : WellTyped tx) (h : (wireBytes tx).length < 2 ^ 64) :
    decodeTransaction f (encodeTransaction tx) = .ok tx := by
  have hl := wire_length tx h
  cases tx with
  | legacy t => rfl
  | accessList t =>
    simp only [encodeTransaction, decodeTransaction, if_true]
    rw [if_neg (not_not_intro (show f.since (txTypeFirstFork 1) = true from hf)), Rlp.decode_encode _ (Rlp.small_of_length _ hl), Option.bind_some, Rlp.asAccessListTx_of]; rfl
  | feeMarket t =>
    simp only [encodeTransaction, decodeTransaction]
    rw [if_neg (not_not_intro (show f.since (txTypeFirstFork 2) = true from hf)), if_neg (by decide), if_pos trivial,
      Rlp.decode_encode _ (Rlp.small_of_length _ hl), Option.bind_some, Rlp.asFeeMarketTx_of]; rfl
  | blob t =>
    simp only [encodeTransaction, decodeTransaction]
    rw [if_neg (not_not_intro (show f.since (txTypeFirstFork 3) = true from hf)), if_neg (by decide), if_neg (by decide), if_pos trivial,
      Rlp.decode_encode _ (Rlp.small_of_length _ hl), Option.bind_some, Rlp.asBlobTx_of t hw]; rfl
  | setCode t =>
    simp only [encodeTransaction, decodeTransaction]
    rw [if_neg (not_not_intro (show f.since (txTypeFirstFork 4) = true from hf)), if_neg (by decide), if_neg (by decide), if_neg (by decide), if_pos trivial,
      Rlp.decode_encode _ (Rlp.small_of_length _ hl), Option.bind_some, Rlp.asSetCodeTx_of t hw.1 hw.2]; rfl

/-- A set-code transaction with an access list and an authorization. -/
def sampleSetCode : Transaction := .setCode
  ⟨1, 7, 2, 300, 100000, some 0x1234, 5, [0, 1, 255], [⟨9, [1, 2]⟩], [⟨1, 0xabc, 3, 1, 11, 12⟩], 1, 77, 78⟩

example : WellTyped sampleSetCode ∧ (wireBytes sampleSetCode).length < 2 ^ 64 := by
  refine ⟨⟨by simp, by simp⟩, by decide +kernel⟩

theorem encodeList_head (l : List Rlp) (h : (Rlp.encode (.list l)).length < 2 ^ 64) :
    ∃ first rest, Rlp.encode (.list l) = first :: rest ∧ ¬ first ≤ 0xbf := by
  rw [Rlp.encode] at h ⊢
  rw [List.length_append] at h
  obtain ⟨f, r, h1, h2, _⟩ := Rlp.encodeList_decode (Rlp.encodeSeq l) (by omega)
  exact ⟨f, r, h1, h2⟩

theorem ofLegacyTx_inj {t u : LegacyTx} (h : Rlp.ofLegacyTx t = Rlp.ofLegacyTx u) : t = u := by
  simp only [Rlp.ofLegacyTx, Rlp.legacyFields, Rlp.signature, List.cons_append, List.nil_append, Rlp.list.injEq,
    List.cons.injEq] at h
  obtain ⟨h1, h2, h3, h4, h5, h6, h7, h8, h9, _⟩ := h
  have e1 := Rlp.ofNat_bv_inj h1; have e2 := Rlp.ofNat_inj h2; have e3 := Rlp.ofNat_inj h3; have e4 := Rlp.ofTo_inj h4
  have e5 := Rlp.ofNat_bv_inj h5; have e6 := Rlp.bytes.inj h6; have e7 := Rlp.ofNat_bv_inj h7
  have e8 := Rlp.ofNat_bv_inj h8; have e9 := Rlp.ofNat_bv_inj h9
  cases t; cases u; simp only at *; subst e1 e2 e3 e4 e5 e6 e7 e8 e9; rfl

/-- The type byte of a typed transaction, or the list marker. -/
theorem wire_head (tx : Transaction) (h : (wireBytes tx).length < 2 ^ 64) :
    ∃ first rest, wireBytes tx = first :: rest ∧
      match tx with
      | .legacy _ => ¬ first ≤ 0xbf
      | .accessList _ => first = 1 | .feeMarket _ => first = 2 | .blob _ => first = 3 | .setCode _ => first = 4 := by
  cases tx with
  | legacy t => exact encodeList_head _ h
  | accessList t => exact ⟨_, _, rfl, rfl⟩
  | feeMarket t => exact ⟨_, _, rfl, rfl⟩
  | blob t => exact ⟨_, _, rfl, rfl⟩
  | setCode t => exact ⟨_, _, rfl, rfl⟩

/-- C38: no two transactions, typed or legacy, have the same wire bytes; so equal transaction hashes mean a hash
collision or the same transaction. -/
theorem C38_no_clash (tx tx' : Transaction) (hw : WellTyped tx) (hw' : WellTyped tx') (h : (wireBytes tx).length < 2 ^ 64)
    (he : wireBytes tx = wireBytes tx') : tx = tx' := by
  have h' := h; rw [he] at h'
  obtain ⟨f, r, h1, h2⟩ := wire_head tx h
  obtain ⟨f', r', h1', h2'⟩ := wire_head tx' h'
  have hf : f = f' := by have := h1.symm.trans (he.trans h1'); exact (List.cons.inj this).1
  subst hf
  have hl := wire_length tx h
  have hl' := wire_length tx' h'
  by_cases hleg : (∃ t, tx = .legacy t) ∧ ∃ t, tx' = .legacy t
  · obtain ⟨⟨t, rfl⟩, t', rfl⟩ := hleg
    exact congrArg _ (ofLegacyTx_inj (Rlp.encode_inj (Rlp.small_of_length _ hl) (Rlp.small_of_length _ hl') he))
  · have e1 := C38_round_trip .osaka tx (by cases tx <;> first | trivial | rfl) hw h
    have e2 := C38_round_trip .osaka tx' (by cases tx' <;> first | trivial | rfl) hw' h'
    have e : encodeTransaction tx = encodeTransaction tx' := by
      cases tx <;> cases tx' <;> simp only [wireBytes, encodeTransaction] at * <;>
        first
        | exact congrArg Sum.inr he
        | exact absurd ⟨⟨_, rfl⟩, _, rfl⟩ hleg
        | (subst h2; exact absurd h2' (by decide))
        | (subst h2'; exact absurd h2 (by decide))
    rw [e, e2] at e1
    exact (Except.ok.inj e1).symm

example : wireBytes sampleSetCode ≠ wireBytes (.legacy ⟨7, 300, 100000, some 0x1234, 5, [0, 1, 255], 27, 77, 78⟩) := by
  decide +kernel

/-! ### C39 -/

/-- C39: the sender returned by `recover_sender` is the address of the key recovered from the transaction's signature
over the hash of `signedBytes`. -/
theorem C39_recovered_from_signed_bytes (C : Crypto) (f : Fork) (chainId : U64) (tx : Transaction) (a : Address)
    (h : recoverSender C f chainId tx = .ok a) :
    ∃ v pk, C.secp256k1Recover tx.r tx.s v (C.keccak256 (signedBytes chainId tx)) = some pk ∧
      a = (C.keccak256 pk).setWidth 160 := by
  have hw : ∀ (r s v : Word) p, recoverWith C r s v p = .ok a →
      ∃ v pk, C.secp256k1Recover r s v (C.keccak256 p) = some pk ∧ a = (C.keccak256 pk).setWidth 160 := by
    intro r s v p hr
    unfold recoverWith at hr
    match hx : C.secp256k1Recover r s v (C.keccak256 p) with
    | none => simp [hx] at hr
    | some pk => simp only [hx] at hr; exact ⟨v, pk, hx, (Except.ok.inj hr).symm⟩
  unfold recoverSender at h
  split at h
  · cases h
  split at h
  · cases h
  cases tx with
  | legacy t =>
    simp only at h
    by_cases hv : t.v = 27 ∨ t.v = 28
    · rw [if_pos hv] at h
      simp only [signedBytes, hv, if_true]; exact hw _ _ _ _ h
    · rw [if_neg hv] at h
      simp only [signedBytes, hv, if_false]
      split at h
      · cases h
      split at h
      · cases h
      · exact hw _ _ _ _ h
  | accessList t => simp only at h; split at h; cases h; exact hw _ _ _ _ h
  | feeMarket t => simp only at h; split at h; cases h; exact hw _ _ _ _ h
  | blob t => simp only at h; split at h; cases h; exact hw _ _ _ _ h
  | setCode t => simp only at h; split at h; cases h; exact hw _ _ _ _ h

/-- A primitive that recovers a key from every signature. -/
def sampleCrypto : Crypto := { Sample.crypto with coincurveRecover := fun sig _ => some (sig.take 32) }

example : recoverSender sampleCrypto .osaka 1 sampleSetCode = .ok 77 := by decide +kernel

theorem legacyFields_inj {t u : LegacyTx} {x y : List Rlp} (h : Rlp.legacyFields t ++ x = Rlp.legacyFields u ++ y) :
    unsigned (.legacy t) = unsigned (.legacy u) ∧ x = y := by
  simp only [Rlp.legacyFields, List.cons_append, List.nil_append, List.cons.injEq] at h
  obtain ⟨h1, h2, h3, h4, h5, h6, h7⟩ := h
  have e1 := Rlp.ofNat_bv_inj h1; have e2 := Rlp.ofNat_inj h2; have e3 := Rlp.ofNat_inj h3; have e4 := Rlp.ofTo_inj h4
  have e5 := Rlp.ofNat_bv_inj h5; have e6 := Rlp.bytes.inj h6
  exact ⟨by simp only [unsigned, e1, e2, e3, e4, e5, e6], h7⟩

/-- C39: if two transactions have the same signed bytes, then they have the same type and agree on every field other
than the signature; both or neither are protected, and protected ones were checked against the same chain id. -/
theorem C39_covers_all_fields (c c' : U64) (tx tx' : Transaction) (h : (signedBytes c tx).length < 2 ^ 64)
    (he : signedBytes c tx = signedBytes c' tx') :
    unsigned tx = unsigned tx' ∧ (ChainBound tx ↔ ChainBound tx') ∧ (ChainBound tx → c = c') := by
  have h' := h; rw [he] at h'
  have key : ∀ l m : List Rlp, (Rlp.encode (.list l)).length < 2 ^ 64 → (Rlp.encode (.list m)).length < 2 ^ 64 →
      Rlp.encode (.list l) = Rlp.encode (.list m) → l = m := fun l m hl hm e =>
    Rlp.list.inj (Rlp.encode_inj (Rlp.small_of_length _ hl) (Rlp.small_of_length _ hm) e)
  have hleg : ∀ (x : U64) (t : LegacyTx), ∃ l, signedBytes x (.legacy t) = Rlp.encode (.list l) := by
    intro x t
    simp only [signedBytes]
    split
    · exact ⟨_, rfl⟩
    · exact ⟨_, rfl⟩
  have hno : ∀ (x : U64) (t : LegacyTx) (b : UInt8) (r : Bytes), b ≤ 0xbf → (b :: r).length < 2 ^ 64 →
      signedBytes x (.legacy t) ≠ b :: r := by
    intro x t b r hb hlen e
    obtain ⟨l, hl⟩ := hleg x t
    rw [hl] at e
    obtain ⟨f, q, h1, h2⟩ := encodeList_head l (by rw [e]; exact hlen)
    rw [e] at h1
    exact h2 ((List.cons.inj h1).1 ▸ hb)
  cases tx with
  | legacy t =>
    cases tx' with
    | legacy u =>
      simp only [signedBytes] at h h' he
      by_cases hv : t.v = 27 ∨ t.v = 28 <;> by_cases hu : u.v = 27 ∨ u.v = 28
      · rw [if_pos hv, if_pos hu] at he; rw [if_pos hv] at h; rw [if_pos hu] at h'
        have e := key _ _ h h' he
        have e' : Rlp.legacyFields t ++ [] = Rlp.legacyFields u ++ [] := by simpa using e
        exact ⟨(legacyFields_inj e').1, ⟨fun h => absurd hv h, fun h => absurd hu h⟩, fun h => absurd hv h⟩
      · rw [if_pos hv, if_neg hu] at he; rw [if_pos hv] at h; rw [if_neg hu] at h'
        have e := key _ _ h h' he
        have := congrArg List.length e
        simp [Rlp.legacyFields] at this
      · rw [if_neg hv, if_pos hu] at he; rw [if_neg hv] at h; rw [if_pos hu] at h'
        have e := key _ _ h h' he
        have := congrArg List.length e
        simp [Rlp.legacyFields] at this
      · rw [if_neg hv, if_neg hu] at he; rw [if_neg hv] at h; rw [if_neg hu] at h'
        have e := key _ _ h h' he
        have e' := legacyFields_inj e
        refine ⟨e'.1, ⟨fun _ => hu, fun _ => hv⟩, fun _ => ?_⟩
        simp only [List.cons.injEq, and_true] at e'
        exact Rlp.ofNat_bv_inj e'.2
    | accessList u => exact absurd he (hno c t _ _ (by decide) h')
    | feeMarket u => exact absurd he (hno c t _ _ (by decide) h')
    | blob u => exact absurd he (hno c t _ _ (by decide) h')
    | setCode u => exact absurd he (hno c t _ _ (by decide) h')
  | accessList t =>
    cases tx' with
    | legacy u => exact absurd he.symm (hno c' u _ _ (by decide) h)
    | accessList u =>
      simp only [signedBytes, signingPayload2930, List.cons.injEq, true_and, List.length_cons] at he h h'
      have e := key _ _ (by omega) (by omega) he
      simp only [Rlp.accessListFields, List.cons.injEq] at e
      obtain ⟨h1, h2, h3, h4, h5, h6, h7, h8, _⟩ := e
      exact ⟨by simp only [unsigned, Rlp.ofNat_bv_inj h1, Rlp.ofNat_bv_inj h2, Rlp.ofNat_inj h3, Rlp.ofNat_inj h4,
        Rlp.ofTo_inj h5, Rlp.ofNat_bv_inj h6, Rlp.bytes.inj h7, Rlp.accesses_inj h8], Iff.rfl, False.elim⟩
    | feeMarket u => exact absurd (List.cons.inj he).1 (by decide)
    | blob u => exact absurd (List.cons.inj he).1 (by decide)
    | setCode u => exact absurd (List.cons.inj he).1 (by decide)
  | feeMarket t =>
    cases tx' with
    | legacy u => exact absurd he.symm (hno c' u _ _ (by decide) h)
    | accessList u => exact absurd (List.cons.inj he).1 (by decide)
    | feeMarket u =>
      simp only [signedBytes, signingPayload1559, List.cons.injEq, true_and, List.length_cons] at he h h'
      have e := key _ _ (by omega) (by omega) he
      simp only [Rlp.feeMarketFields, List.cons.injEq] at e
      obtain ⟨h1, h2, h3, h4, h5, h6, h7, h8, h9, _⟩ := e
      exact ⟨by simp only [unsigned, Rlp.ofNat_bv_inj h1, Rlp.ofNat_bv_inj h2, Rlp.ofNat_inj h3, Rlp.ofNat_inj h4,
        Rlp.ofNat_inj h5, Rlp.ofTo_inj h6, Rlp.ofNat_bv_inj h7, Rlp.bytes.inj h8, Rlp.accesses_inj h9], Iff.rfl, False.elim⟩
    | blob u => exact absurd (List.cons.inj he).1 (by decide)
    | setCode u => exact absurd (List.cons.inj he).1 (by decide)
  | blob t =>
    cases tx' with
    | legacy u => exact absurd he.symm (hno c' u _ _ (by decide) h)
    | accessList u => exact absurd (List.cons.inj he).1 (by decide)
    | feeMarket u => exact absurd (List.cons.inj he).1 (by decide)
    | blob u =>
      simp only [signedBytes, signingPayload4844, List.cons.injEq, true_and, List.length_cons] at he h h'
      have e := key _ _ (by omega) (by omega) he
      simp only [Rlp.blobFields, List.cons.injEq] at e
      obtain ⟨h1, h2, h3, h4, h5, h6, h7, h8, h9, h10, h11, _⟩ := e
      exact ⟨by simp only [unsigned, Rlp.ofNat_bv_inj h1, Rlp.ofNat_bv_inj h2, Rlp.ofNat_inj h3, Rlp.ofNat_inj h4,
        Rlp.ofNat_inj h5, Rlp.ofTo_inj h6, Rlp.ofNat_bv_inj h7, Rlp.bytes.inj h8, Rlp.accesses_inj h9, Rlp.ofNat_bv_inj h10,
        Rlp.words_inj h11], Iff.rfl, False.elim⟩
    | setCode u => exact absurd (List.cons.inj he).1 (by decide)
  | setCode t =>
    cases tx' with
    | legacy u => exact absurd he.symm (hno c' u _ _ (by decide) h)
    | accessList u => exact absurd (List.cons.inj he).1 (by decide)
    | feeMarket u => exact absurd (List.cons.inj he).1 (by decide)
    | blob u => exact absurd (List.cons.inj he).1 (by decide)
    | setCode u =>
      simp only [signedBytes, signingPayload7702, List.cons.injEq, true_and, List.length_cons] at he h h'
      have e := key _ _ (by omega) (by omega) he
      simp only [Rlp.setCodeFields, List.cons.injEq] at e
      obtain ⟨h1, h2, h3, h4, h5, h6, h7, h8, h9, h10, _⟩ := e
      exact ⟨by simp only [unsigned, Rlp.ofNat_bv_inj h1, Rlp.ofNat_bv_inj h2, Rlp.ofNat_inj h3, Rlp.ofNat_inj h4,
        Rlp.ofNat_inj h5, Rlp.ofTo_inj h6, Rlp.ofNat_bv_inj h7, Rlp.bytes.inj h8, Rlp.accesses_inj h9,
        Rlp.authorizations_inj h10], Iff.rfl, False.elim⟩

example : (signedBytes 1 sampleSetCode).length < 2 ^ 64 := by decide +kernel

/-- C39: of a signature `(r, s)` and its mirror image `(r, n - s)` at most one is accepted, since homestead. -/
theorem C39_not_malleable (C : Crypto) (f f' : Fork) (hf : f.since .homestead = true) (hf' : f'.since .homestead = true) (c c' : U64)
    (tx tx' : Transaction) (a a' : Address) (h : recoverSender C f c tx = .ok a) (h' : recoverSender C f' c' tx' = .ok a') : tx'.s.toNat + tx.s.toNat ≠ SECP256K1N.toNat := by
  have hs : ∀ (f : Fork) (x : U64) (t : Transaction) b, f.since .homestead = true → recoverSender C f x t = .ok b → t.s.toNat ≤ SECP256K1N.toNat / 2 := by
    intro f x t b hf hr
    unfold recoverSender at hr
    split at hr
    · cases hr
    split at hr
    · cases hr
    · rename_i hn
      have hn := (not_or.mp (not_or.mp hn).2).2
      rw [hf] at hn; simp only [true_and] at hn
      rw [gt_iff_lt, BitVec.lt_def, BitVec.toNat_udiv] at hn
      exact Nat.le_of_not_lt hn
  have h1 := hs _ _ _ _ hf h
  have h2 := hs _ _ _ _ hf' h'
  have h3 : SECP256K1N.toNat % 2 = 1 := by decide +kernel
  omega

end Verif
