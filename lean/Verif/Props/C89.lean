import Verif.Lemmas.TxJson
import Verif.Lemmas.SampleBlock
/-! C89: transactions in JSON, and how the transition tool signs them. -/
namespace Verif
open Spec Hex B11r TxJson

/-- C89: what is read from a JSON object is the transaction that the object describes, and an object that describes none is not read. -/
theorem C89_load (f : Fork) (d : TxData) (tx : Transaction) :
    TxJson.read f d = some tx ↔ DescribesTx f d tx ∧ DescribesSignature d (signatureOf tx) := read_iff f d tx

/-- C89: the transition tool reads the transaction that the object describes, with the signature it has, unless there is a key and no signature. -/
theorem C89_read (C : Crypto) (sign : Signer) (f : Fork) (d : TxData) (hn : d.secretKey = none ∨ ¬ NoSignature d) (tx : Transaction) :
    parseJsonTx C sign f d = some tx ↔ DescribesTx f (fromTool d) tx ∧ GivenSignature d (signatureOf tx) := by
  rw [parse_ok]
  have hask : ∀ g i v r s, OptionalNumber (either d.v d.yParity) v → OptionalNumber d.r r → OptionalNumber d.s s →
      signIfAsked C sign f (prepare d g i) v r s = some (prepare d g i) := by
    intro g i v r s hv hr hs
    unfold signIfAsked
    rw [if_neg]
    rintro ⟨hk, rfl, rfl, rfl⟩
    rcases hn with h | h
    · rw [show (prepare d g i).secretKey = d.secretKey from rfl, h] at hk; cases hk
    · exact h ⟨hv, hr, hs⟩
  constructor
  · rintro ⟨g, i, v, r, s, hg, hi, hv, hr, hs, h⟩
    rw [hask g i v r s hv hr hs] at h
    obtain ⟨h1, h2⟩ := (read_iff _ _ _).mp h
    obtain ⟨h3, h4, h5, h6⟩ := (prepare_signature d g i v r s hv hr hs _).mp h2
    exact ⟨(describes_prepare hg hi _).mp h1, ⟨v, hv, h3⟩, h4, h5 ▸ hr, h6 ▸ hs⟩
  · rintro ⟨h1, ⟨v, hv, h3⟩, h4, hr, hs⟩
    obtain ⟨g, hg, -⟩ := h1.gas
    obtain ⟨i, hi, -⟩ := h1.data
    refine ⟨g, i, v, _, _, hg, hi, hv, hr, hs, ?_⟩
    rw [hask g i v _ _ hv hr hs]
    exact (read_iff _ _ _).mpr ⟨(describes_prepare hg hi _).mpr h1, (prepare_signature d g i v _ _ hv hr hs _).mpr ⟨h3, h4, rfl, rfl⟩⟩

/-- C89: an object with a key and no signature is read as the transaction that it describes, signed with that key: the signature is one of the message
that the fork prescribes for the type, and is marked as the fork prescribes. A legacy transaction must not have a member `y_parity`. -/
theorem C89_sign (C : Crypto) (sign : Signer) (f : Fork) (d : TxData) (k : Str) (hk : d.secretKey = some k) (hn : NoSignature d) (tx : Transaction)
    (hy : ∀ y, d.yParity = some y → typeNumber tx ≠ 0 ∧ ∃ x : Word, WritesHex y x.toNat) :
    parseJsonTx C sign f d = some tx ↔ DescribesTx f (fromTool d) tx ∧ ∃ key r s y, WritesHex (k.drop 2) key ∧
      sign (C.keccak256 (toSign f (d.protected.getD true) tx)) key = some (r, s, y) ∧ signatureOf tx = (marked f (d.protected.getD true) y tx, r, s) := by
  rw [parse_ok]
  obtain ⟨hv, hr, hs⟩ := hn
  have hask : ∀ g i, signIfAsked C sign f (prepare d g i) 0 0 0 = signTransaction C sign f (prepare d g i) := by
    intro g i
    unfold signIfAsked
    rw [if_pos]
    exact ⟨by rw [show (prepare d g i).secretKey = d.secretKey from rfl, hk]; rfl, rfl, rfl, rfl⟩
  constructor
  · rintro ⟨g, i, v, r, s, hg, hi, hv', hr', hs', h⟩
    cases optionalNumber_unique hv hv'
    cases optionalNumber_unique hr hr'
    cases optionalNumber_unique hs hs'
    rw [hask] at h
    obtain ⟨q, hq, h⟩ := Option.bind_eq_some_iff.mp h
    unfold signTransaction at hq
    obtain ⟨u, hu, hq⟩ := Option.bind_eq_some_iff.mp hq
    obtain ⟨key, hkey, hq⟩ := Option.bind_eq_some_iff.mp hq
    obtain ⟨⟨r, s, y⟩, hsig, hq⟩ := Option.bind_eq_some_iff.mp hq
    cases hq
    obtain ⟨⟨t1, t2, t3, t4, t5, t6, t7, t8, t9⟩, h2⟩ := (read_iff _ _ _).mp h
    have h1 : DescribesTx f (prepare d g i) tx := ⟨t1, t2, t3, t4, t5, t6, t7, t8, t9⟩
    have e := describes_same h1 ((read_iff _ _ _).mp hu).1
    rw [signingData_eq, e, toSign_with] at hsig
    have hkey : WritesHex (k.drop 2) key := by
      have hkey : d.secretKey.bind (fun s => hexToUint (s.drop 2)) = some key := hkey
      rw [hk] at hkey; exact (uint_iff _ _).mp hkey
    refine ⟨(describes_prepare hg hi _).mp h1, key, r, s, y, hkey, hsig, ?_⟩
    obtain ⟨g1, ⟨_, e2, g2⟩, ⟨_, e3, g3⟩⟩ := h2
    cases e2
    cases e3
    have f2 := BitVec.eq_of_toNat_eq (writesHex_unique g2 (writesHex_hex r.toNat))
    have f3 := BitVec.eq_of_toNat_eq (writesHex_unique g3 (writesHex_hex s.toNat))
    have f1 : (signatureOf tx).1 = marked f (d.protected.getD true) y tx := by
      have hm : y + (signingData f (d.protected.getD true) u).2 = marked f (d.protected.getD true) y tx := by
        rw [signingData_mark, e, marked_with]
      by_cases hz : (signingData f (d.protected.getD true) u).2 = 0
      · obtain ⟨_, e1, g1⟩ := g1
        dsimp only at e1
        rw [show (prepare d g i).protected = d.protected from rfl, if_pos hz, if_neg (by simp)] at e1
        cases e1
        rw [← hm]
        exact BitVec.eq_of_toNat_eq (writesHex_unique g1 (writesHex_hex _))
      · have ht : typeNumber tx = 0 := by
          rw [signingData_zero, e, typeNumber_with] at hz
          exact Decidable.not_not.mp hz
        have hnone : d.yParity = none := by
          cases hyp : d.yParity with
          | none => rfl
          | some y => exact absurd ht (hy y hyp).1
        obtain ⟨_, e1, g1⟩ := g1
        dsimp only at e1
        rw [show (prepare d g i).protected = d.protected from rfl, if_neg hz, show (prepare d g i).yParity = d.yParity from rfl, hnone, if_pos rfl] at e1
        cases e1
        rw [← hm]
        exact BitVec.eq_of_toNat_eq (writesHex_unique g1 (writesHex_hex _))
    exact Prod.ext f1 (Prod.ext f2 f3)
  · rintro ⟨h1, key, r, s, y, hkey, hsig, hsg⟩
    obtain ⟨g, hg, -⟩ := h1.gas
    obtain ⟨i, hi, -⟩ := h1.data
    refine ⟨g, i, 0, 0, 0, hg, hi, hv, hr, hs, ?_⟩
    rw [hask]
    have h1' := (describes_prepare hg hi _).mpr h1
    obtain ⟨x, hx1, hx2⟩ : ∃ x : Word, (d.yParity = none → x = 0) ∧ ∀ y, d.yParity = some y → WritesHex y x.toNat := by
      cases hyp : d.yParity with
      | none => exact ⟨0, fun _ => rfl, nofun⟩
      | some y =>
        obtain ⟨x, hx⟩ := (hy y hyp).2
        exact ⟨x, nofun, fun y' e => by cases e; exact hx⟩
    have hu : TxJson.read f (prepare d g i) = some (withSignature (x, 0, 0) tx) := by
      refine (read_iff _ _ _).mpr ⟨describes_with _ h1', ?_⟩
      rw [signatureOf_with]
      exact (prepare_signature d g i 0 0 0 hv hr hs _).mpr ⟨hx1, hx2, rfl, rfl⟩
    unfold signTransaction
    rw [hu]
    have hk' : (prepare d g i).secretKey.bind (fun s => hexToUint (s.drop 2)) = some key := by
      rw [show (prepare d g i).secretKey = d.secretKey from rfl, hk]; exact (uint_iff _ _).mpr hkey
    show Option.bind (Option.bind ((prepare d g i).secretKey.bind _) _) _ = _
    rw [hk', Option.bind_some, signingData_eq, toSign_with, show (prepare d g i).protected = d.protected from rfl, hsig]
    show TxJson.read f _ = _
    rw [read_iff]
    refine ⟨?_, ?_⟩
    · obtain ⟨t1, t2, t3, t4, t5, t6, t7, t8, t9⟩ := h1'
      exact ⟨t1, t2, t3, t4, t5, t6, t7, t8, t9⟩
    · rw [hsg]
      refine ⟨?_, ⟨_, rfl, writesHex_hex _⟩, ⟨_, rfl, writesHex_hex _⟩⟩
      dsimp only
      have hm : y + (signingData f (d.protected.getD true) (withSignature (x, 0, 0) tx)).2 = marked f (d.protected.getD true) y tx := by
        rw [signingData_mark, marked_with]
      rw [hm]
      by_cases hz : (signingData f (d.protected.getD true) (withSignature (x, 0, 0) tx)).2 = 0
      · rw [if_pos hz, if_neg (by simp)]; exact ⟨_, rfl, writesHex_hex _⟩
      · have ht : typeNumber tx = 0 := by
          rw [signingData_zero, typeNumber_with] at hz
          exact Decidable.not_not.mp hz
        have hnone : d.yParity = none := by
          cases hyp : d.yParity with
          | none => rfl
          | some y => exact absurd ht (hy y hyp).1
        rw [if_neg hz, show (prepare d g i).yParity = d.yParity from rfl, hnone, if_pos rfl]; exact ⟨_, rfl, writesHex_hex _⟩

/-- C89: whoever has a key can have the tool sign with it: the transaction is sent by the account of that key, in every fork and for every type. -/
theorem C89_sender (C : Crypto) (sign : Signer) (pub : Nat → Bytes) (hC : SignsFor C sign pub) (f : Fork) (d : TxData) (k : Str)
    (hk : d.secretKey = some k) (hn : NoSignature d) (tx : Transaction)
    (hy : ∀ y, d.yParity = some y → typeNumber tx ≠ 0 ∧ ∃ x : Word, WritesHex y x.toNat) (h : parseJsonTx C sign f d = some tx) :
    ∃ key, WritesHex (k.drop 2) key ∧ recoverSender C f 1 tx = .ok (publicKeyAddress C (pub key)) := by
  obtain ⟨-, key, r, s, y, hkey, hsig, hs⟩ := (C89_sign C sign f d k hk hn tx hy).mp h
  obtain ⟨r1, r2, s1, s2, hy', hrec⟩ := hC _ _ _ _ _ hsig
  refine ⟨key, hkey, ?_⟩
  have hn1 : (SECP256K1N / 2 : Word) < SECP256K1N := by decide
  have er : tx.r = r := by cases tx <;> exact (Prod.mk.inj (Prod.mk.inj hs).2).1
  have es : tx.s = s := by cases tx <;> exact (Prod.mk.inj (Prod.mk.inj hs).2).2
  unfold recoverSender
  rw [er, es]
  rw [if_neg (by
    rintro (h | h)
    · rw [h] at r1; exact absurd r1 (by decide)
    · exact absurd r2 (BitVec.not_lt.mpr h))]
  rw [if_neg (by
    rintro (h | h | ⟨-, h⟩)
    · rw [h] at s1; exact absurd s1 (by decide)
    · exact absurd ((Nat.lt_of_le_of_lt s2 hn1 : s < SECP256K1N)) (BitVec.not_lt.mpr h)
    · exact absurd s2 (BitVec.not_le.mpr h))]
  have fin : ∀ b : Bytes, toSign f (d.protected.getD true) tx = b → recoverWith C r s y b = .ok (publicKeyAddress C (pub key)) := by
    rintro b rfl
    unfold recoverWith
    rw [hrec]
  cases tx with
  | legacy t =>
    have ev : t.v = marked f (d.protected.getD true) y (.legacy t) := (Prod.mk.inj hs).1
    have er : t.r = r := er
    have es : t.s = s := es
    dsimp only
    rw [er, es, ev]
    unfold marked
    dsimp only
    by_cases hp : f.since .spuriousDragon = true ∧ d.protected.getD true = true
    · rw [if_pos hp]
      rw [if_neg (by rcases hy' with rfl | rfl <;> decide), if_neg (not_not_intro hp.1)]
      rw [if_neg (by rcases hy' with rfl | rfl <;> decide)]
      rw [show y + 37 - 35 - (1 : U64).setWidth 256 * 2 = y from by rcases hy' with rfl | rfl <;> decide]
      exact fin _ (if_pos hp)
    · rw [if_neg hp]
      rw [if_pos (by rcases hy' with rfl | rfl <;> decide)]
      rw [show y + 27 - 27 = y from by rcases hy' with rfl | rfl <;> decide]
      exact fin _ (if_neg hp)
  | accessList t =>
    have ev : t.yParity = y := (Prod.mk.inj hs).1
    have er : t.r = r := er
    have es : t.s = s := es
    dsimp only
    rw [er, es, ev, if_neg (by rcases hy' with rfl | rfl <;> decide)]
    exact fin _ rfl
  | feeMarket t =>
    have ev : t.yParity = y := (Prod.mk.inj hs).1
    have er : t.r = r := er
    have es : t.s = s := es
    dsimp only
    rw [er, es, ev, if_neg (by rcases hy' with rfl | rfl <;> decide)]
    exact fin _ rfl
  | blob t =>
    have ev : t.yParity = y := (Prod.mk.inj hs).1
    have er : t.r = r := er
    have es : t.s = s := es
    dsimp only
    rw [er, es, ev, if_neg (by rcases hy' with rfl | rfl <;> decide)]
    exact fin _ rfl
  | setCode t =>
    have ev : t.yParity = y := (Prod.mk.inj hs).1
    have er : t.r = r := er
    have es : t.s = s := es
    dsimp only
    rw [er, es, ev, if_neg (by rcases hy' with rfl | rfl <;> decide)]
    exact fin _ rfl

/-- C89: the tool keeps the places of the transactions in the input, leaving out those that cannot be read. -/
theorem C89_places (C : Crypto) (sign : Signer) (f : Fork) (l : List TxData) (i : Nat) (tx : Transaction) :
    (i, tx) ∈ TxJson.readTxs C sign f 0 l ↔ ∃ d, l[i]? = some d ∧ parseJsonTx C sign f d = some tx := by
  have key : ∀ (l : List TxData) (k i : Nat), (i, tx) ∈ TxJson.readTxs C sign f k l ↔ ∃ n d, i = k + n ∧ l[n]? = some d ∧ parseJsonTx C sign f d = some tx := by
    intro l
    induction l with
    | nil => intro k i; exact ⟨nofun, fun ⟨n, d, _, h, _⟩ => nomatch h⟩
    | cons a r ih =>
      intro k i
      have step : (i, tx) ∈ TxJson.readTxs C sign f k (a :: r) ↔ (i = k ∧ parseJsonTx C sign f a = some tx) ∨ (i, tx) ∈ TxJson.readTxs C sign f (k + 1) r := by
        rw [TxJson.readTxs]
        cases parseJsonTx C sign f a with
        | none => simp
        | some t => simp [eq_comm]
      rw [step, ih]
      constructor
      · rintro (⟨rfl, h⟩ | ⟨n, d, e, h, h'⟩)
        · exact ⟨0, a, rfl, rfl, h⟩
        · exact ⟨n + 1, d, by omega, h, h'⟩
      · rintro ⟨n, d, e, h, h'⟩
        cases n with
        | zero => cases h; exact .inl ⟨e, h'⟩
        | succ n => exact .inr ⟨n, d, by omega, h, h'⟩
  rw [key]
  constructor
  · rintro ⟨n, d, e, h⟩
    rw [Nat.zero_add] at e
    exact ⟨d, e ▸ h⟩
  · rintro ⟨d, h⟩; exact ⟨i, d, by omega, h⟩

/-! ### Every transaction can be written -/

private theorem writesBytes (b : Bytes) : WritesBytes (writtenBytes b) b := ⟨_, .inl rfl, bytesHex_spec b⟩

private theorem writesAddress (a : Address) : WritesAddress (writtenBytes (addressBytes a)) a := by
  obtain ⟨h1, h2, h3⟩ := bytesHex_spec (addressBytes a)
  refine ⟨_, .inl rfl, h1, ?_, ?_⟩
  · rw [h2, addressBytes_length]
  · rw [← h3, fromBE_addressBytes]

private theorem hexWord (x : Word) : HexWord (writtenBytes (wordBytes x)) x := by
  obtain ⟨h1, h2, h3⟩ := bytesHex_spec (wordBytes x)
  refine ⟨_, .inl rfl, h1, ?_, ?_⟩
  · rw [h2, wordBytes_length]
  · rw [← h3, fromBE_wordBytes]

private theorem each_map {α β : Type} {R : β → α → Prop} {g : α → β} : ∀ {l : List α}, (∀ a ∈ l, R (g a) a) → Each R (l.map g) l
  | [], _ => trivial
  | a :: _, h => ⟨h a List.mem_cons_self, each_map fun b hb => h b (List.mem_cons_of_mem _ hb)⟩

private theorem accesses (l : List Access) : Each DescribesAccess (l.map writtenAccess) l :=
  each_map fun a _ => ⟨⟨_, rfl, writesAddress a.account⟩, ⟨_, rfl, each_map fun x _ => hexWord x⟩⟩

private theorem authorizations {l : List Authorization} (h : ∀ a ∈ l, a.yParity < 256) : Each DescribesAuthorization (l.map writtenAuthorization) l :=
  each_map fun a ha => ⟨⟨_, rfl, writesHex_hex _⟩, ⟨_, rfl, writesHex_hex _⟩, ⟨_, rfl, writesAddress a.address⟩, ⟨⟨_, rfl, writesHex_hex _⟩, h a ha⟩,
    ⟨_, rfl, writesHex_hex _⟩, ⟨_, rfl, writesHex_hex _⟩⟩

private theorem writtenTx_members (tx : Transaction) : let d := writtenTx tx
    d.type = some (writtenNumber (typeNumber tx)) ∧ d.nonce = some (T8n.hex tx.nonce.toNat) ∧ d.gas = some (T8n.hex tx.gas) ∧
    d.to = tx.to.map (fun a => writtenBytes (addressBytes a)) ∧ d.value = some (T8n.hex tx.value.toNat) ∧ d.input = some (writtenBytes tx.data) ∧
    d.v = some (T8n.hex (signatureOf tx).1.toNat) ∧ d.r = some (T8n.hex (signatureOf tx).2.1.toNat) ∧ d.s = some (T8n.hex (signatureOf tx).2.2.toNat) ∧
    d.yParity = none ∧ d.secretKey = none := by
  cases tx <;> exact ⟨rfl, rfl, rfl, rfl, rfl, rfl, rfl, rfl, rfl, rfl, rfl⟩

/-- C89: every transaction for chain 1 of a type that the fork knows can be written so that the tool reads it. -/
theorem C89_written (C : Crypto) (sign : Signer) (f : Fork) (tx : Transaction) (hf : TypeIn f (typeNumber tx)) (hc : OnChainOne tx) :
    parseJsonTx C sign f (writtenTx tx) = some tx := by
  obtain ⟨m1, m2, m3, m4, m5, m6, m7, m8, m9, m10, m11⟩ := writtenTx_members tx
  rw [C89_read _ _ _ _ (.inl m11)]
  have num : ∀ {o : Option Str} {x : Word}, o = some (T8n.hex x.toNat) → OptionalNumber o x := by
    rintro o x rfl
    exact .inr ⟨_, rfl, List.cons_ne_nil _ _, writesHex_hex _⟩
  refine ⟨⟨?_, hf, ?_, ?_, ?_, ?_, ?_, ?_, ?_⟩, ⟨_, num ?_, fun _ => rfl⟩, ?_, num m8, num m9⟩
  · show match (writtenTx tx).type with | some t => _ | none => _
    rw [m1]
    obtain ⟨h1, h2, h3, -⟩ := toDigits_spec (typeNumber tx)
    exact .inl ⟨_, rfl, h1, h2, h3.symm⟩
  · show Has (writtenTx tx).nonce _
    rw [m2]; exact ⟨_, rfl, writesHex_hex _⟩
  · cases tx with
    | legacy t => exact ⟨_, rfl, writesHex_hex _⟩
    | accessList t => exact ⟨_, rfl, writesHex_hex _⟩
    | feeMarket t => exact ⟨⟨_, rfl, writesHex_hex _⟩, ⟨_, rfl, writesHex_hex _⟩⟩
    | blob t => exact ⟨⟨_, rfl, writesHex_hex _⟩, ⟨_, rfl, writesHex_hex _⟩, ⟨_, rfl, writesHex_hex _⟩⟩
    | setCode t => exact ⟨⟨_, rfl, writesHex_hex _⟩, ⟨_, rfl, writesHex_hex _⟩⟩
  · show Has (writtenTx tx).gas _
    rw [m3]; exact ⟨_, rfl, writesHex_hex _⟩
  · refine ⟨_, rfl, ?_⟩
    rw [m4]
    cases tx.to with
    | none => exact .inl ⟨rfl, rfl⟩
    | some a => exact .inr ⟨List.cons_ne_nil _ _, a, rfl, writesAddress a⟩
  · show Has (writtenTx tx).value _
    rw [m5]; exact ⟨_, rfl, .inr (writesHex_hex _)⟩
  · show Has (writtenTx tx).input _
    rw [m6]; exact ⟨_, rfl, writesBytes _⟩
  · cases tx with
    | legacy t => trivial
    | accessList t => exact ⟨hc, accesses _⟩
    | feeMarket t => exact ⟨hc, accesses _⟩
    | blob t => exact ⟨hc, accesses _, _, rfl, each_map fun x _ => writesBytes _⟩
    | setCode t => exact ⟨hc.1, accesses _, _, rfl, authorizations hc.2⟩
  · rw [m7]; rfl
  · intro y e
    rw [m10] at e; cases e

/-! ### The body that the tool puts out -/

theorem asLegacyTx_of (t : LegacyTx) : asLegacyTx (Rlp.ofLegacyTx t) = some t := by
  simp only [Rlp.ofLegacyTx, Rlp.legacyFields, Rlp.signature, List.cons_append, List.nil_append, asLegacyTx, Rlp.asWord_ofNat, Rlp.asNat_ofNat, Rlp.asTo_ofTo,
    Rlp.asBytes_bytes]; rfl

/-- C89: a transaction of any other type is lost in that body (see the findings): the tool cannot read back what it put out for it. -/
theorem C89_body_lost (f : Fork) (txs : List Transaction) (hs : (Rlp.encode (.list (txs.map fieldsItem))).length < 2 ^ 64) :
    ∃ items, TxJson.readBody (outputBody txs) = some items ∧ items.map (parseRlpTx f) = txs.map fun tx => if typeNumber tx = 0 then some tx else none := by
  refine ⟨txs.map fieldsItem, ?_, ?_⟩
  · unfold TxJson.readBody outputBody
    rw [(hexToBytes_writes _ _).mpr ⟨_, .inl rfl, bytesHex_spec _⟩, Option.bind_some, Rlp.decode_encode _ (Rlp.small_of_length _ hs)]
  · rw [List.map_map]
    refine List.map_congr_left fun tx htx => ?_
    cases tx with
    | legacy t =>
      show (asLegacyTx (Rlp.ofLegacyTx t)).map Transaction.legacy = _
      rw [asLegacyTx_of]; rfl
    | _ => rfl

/-- C89: the body that the tool puts out for transactions in JSON can be given to it as input, and holds the legacy transactions. -/
theorem C89_body (f : Fork) (txs : List Transaction) (hl : ∀ tx ∈ txs, typeNumber tx = 0)
    (hs : (Rlp.encode (.list (txs.map fieldsItem))).length < 2 ^ 64) :
    ∃ items, TxJson.readBody (outputBody txs) = some items ∧ items.map (parseRlpTx f) = txs.map some := by
  obtain ⟨items, h1, h2⟩ := C89_body_lost f txs hs
  exact ⟨items, h1, h2.trans (List.map_congr_left fun tx htx => if_pos (hl tx htx))⟩

/-! ### Examples -/

/-- A key signs with itself as `s`; the public key is `s` in bytes. -/
def signingCrypto : Crypto := { sampleCrypto with coincurveRecover := fun sig _ => some ((sig.drop 32).take 32) }
/-- Such signatures; 0 is no key. -/
def sampleSign : Signer := fun _ k => if 0 < k ∧ k < 1000 then some (1, BitVec.ofNat 256 k, 1) else none

theorem sampleSign_ok : SignsFor signingCrypto sampleSign fun k => wordBytes (BitVec.ofNat 256 k) := by
  intro h key r s y e
  unfold sampleSign at e
  split at e
  · rename_i hk
    cases e
    have e : (BitVec.ofNat 256 key).toNat = key := by
      rw [BitVec.toNat_ofNat, Nat.mod_eq_of_lt (Nat.lt_trans hk.2 (by decide))]
    refine ⟨by decide, by decide, ?_, ?_, .inr rfl, ?_⟩
    · show 0 < (BitVec.ofNat 256 key).toNat
      rw [e]; exact hk.1
    · show (BitVec.ofNat 256 key).toNat ≤ _
      rw [e]; exact Nat.le_trans (Nat.le_of_lt hk.2) (by decide)
    · unfold Crypto.secp256k1Recover
      rw [show secp256k1IsSquare 1 = 1 from by decide +kernel, if_neg (by simp)]
      show some (List.take 32 (List.drop 32 _)) = _
      rw [List.append_assoc, List.drop_left' (wordBytes_length _), List.take_left' (wordBytes_length _)]
  · cases e

/-- A transaction for the tool to sign. -/
def toBeSigned : TxData :=
  { nonce := some "0x1".toList, maxPriorityFeePerGas := some "0x2".toList, maxFeePerGas := some "0x3".toList, gas := some "0x5208".toList,
    «to» := some "0xa".toList, value := some "0x".toList, input := some "0x00ff".toList, secretKey := some "0x2a".toList,
    accessList := some [⟨some "0xb".toList, some ["0x1".toList]⟩], v := some "0x0".toList, r := some "0x0".toList, s := some "0x0".toList }

/-- It is signed, and sent by the account of the key 42. -/
example : parseJsonTx signingCrypto sampleSign .london toBeSigned =
      some (.feeMarket ⟨1, 1, 2, 3, 21000, some 10, 0, [0, 255], [⟨11, [1]⟩], 1, 1, 42⟩) ∧
    NoSignature toBeSigned ∧ toBeSigned.yParity = none := by
  refine ⟨by decide +kernel, ⟨(orElse_iff _ _).mp (by decide +kernel), (orElse_iff _ _).mp (by decide +kernel), (orElse_iff _ _).mp (by decide +kernel)⟩, rfl⟩

/-- A legacy transaction, which the tool signs with or without the chain as asked, and without before spurious_dragon. A key that cannot sign, and a type
the fork does not know, are refused. -/
def legacyToBeSigned : TxData := { toBeSigned with maxFeePerGas := none, accessList := none, gasPrice := some "0x3".toList }

example : parseJsonTx signingCrypto sampleSign .london legacyToBeSigned = some (.legacy ⟨1, 3, 21000, some 10, 0, [0, 255], 38, 1, 42⟩) ∧
    parseJsonTx signingCrypto sampleSign .london { legacyToBeSigned with «protected» := some false } =
      some (.legacy ⟨1, 3, 21000, some 10, 0, [0, 255], 28, 1, 42⟩) ∧
    parseJsonTx signingCrypto sampleSign .homestead legacyToBeSigned = some (.legacy ⟨1, 3, 21000, some 10, 0, [0, 255], 28, 1, 42⟩) ∧
    parseJsonTx signingCrypto sampleSign .london { legacyToBeSigned with secretKey := some "0x0".toList } = none ∧
    parseJsonTx signingCrypto sampleSign .berlin toBeSigned = none := by decide +kernel

/-- A legacy transaction with a member `y_parity` keeps it, and its signature is worthless (see the findings). -/
example : parseJsonTx signingCrypto sampleSign .london { legacyToBeSigned with yParity := some "0x0".toList } =
      some (.legacy ⟨1, 3, 21000, some 10, 0, [0, 255], 0, 1, 42⟩) ∧
    recoverSender signingCrypto .london 1 (.legacy ⟨1, 3, 21000, some 10, 0, [0, 255], 0, 1, 42⟩) = .error .invalidSignature := by decide +kernel

/-- The chain that the object names is ignored (see the findings). -/
example : parseJsonTx signingCrypto sampleSign .london { toBeSigned with chainId := some "0x5".toList } =
    parseJsonTx signingCrypto sampleSign .london toBeSigned := rfl

/-- A set-code transaction, written and read. -/
example : TypeIn .prague 4 ∧ OnChainOne (.setCode ⟨1, 7, 1, 2, 100000, some 9, 5, [1, 2], [⟨3, [4]⟩], [⟨1, 8, 0, 1, 6, 7⟩], 1, 2, 3⟩) :=
  ⟨.inr (.inr (.inr (.inr ⟨rfl, rfl⟩))), rfl, by decide⟩

/-- Of a body with a legacy transaction and another, the former can be read back. -/
example : (TxJson.readBody (outputBody [.legacy ⟨1, 3, 21000, some 10, 0, [0, 255], 38, 1, 42⟩, .accessList ⟨1, 1, 2, 3, none, 0, [], [], 1, 1, 42⟩])).map
    (fun l => l.map (parseRlpTx .london)) = some [some (.legacy ⟨1, 3, 21000, some 10, 0, [0, 255], 38, 1, 42⟩), none] := by decide +kernel

end Verif
