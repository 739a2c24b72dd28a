import Verif.Spec.B11r
import Verif.Lemmas.Alloc
import Verif.Props.C37_C39
/-! Lemmas on the block builder. -/
namespace Verif
open Spec Hex Pow B11r

theorem hexToBytes_writes (s : Str) (b : Bytes) : hexToBytes s = some b ↔ WritesBytes s b := hexToBytes_iff s b

theorem writesBytes_unique {s : Str} {b b' : Bytes} (h : WritesBytes s b) (h' : WritesBytes s b') : b = b' := by
  rw [← hexToBytes_writes] at h h'
  rw [h] at h'; exact Option.some.inj h'

theorem fixed_writes (n : Nat) (s : Str) (x : BitVec (8 * n)) :
    (fixed n (hexToBytes s)).map (fun b => BitVec.ofNat (8 * n) (fromBE b)) = some x ↔ WritesBytes s (toBE n x.toNat) := by
  have hp : (256 : Nat) ^ n = 2 ^ (8 * n) := by rw [Nat.pow_mul]
  rw [← hexToBytes_writes]
  constructor
  · intro h
    obtain ⟨b, hb, rfl⟩ := Option.map_eq_some_iff.mp h
    obtain ⟨hb, hl⟩ := (fixed_iff _ _ _).mp hb
    rw [hb, BitVec.toNat_ofNat, ← hp]
    have := fromBE_lt b
    rw [hl] at this
    rw [Nat.mod_eq_of_lt this, ← hl, toBE_fromBE]
  · intro h
    rw [Option.map_eq_some_iff]
    refine ⟨_, (fixed_iff _ _ _).mpr ⟨h, toBE_length _ _⟩, ?_⟩
    rw [fromBE_toBE, hp]
    apply BitVec.eq_of_toNat_eq
    rw [BitVec.toNat_ofNat, Nat.mod_mod, Nat.mod_eq_of_lt x.isLt]

theorem hash32_iff (s : Str) (x : Word) : hash32 s = some x ↔ WritesBytes s (wordBytes x) := fixed_writes 32 s x
theorem bytes20_iff (s : Str) (x : Address) : bytes20 s = some x ↔ WritesBytes s (addressBytes x) := fixed_writes 20 s x
theorem bytes256_iff (s : Str) (x : BitVec 2048) : bytes256 s = some x ↔ WritesBytes s (toBE 256 x.toNat) := fixed_writes 256 s x

theorem bytes8_iff (s : Str) (x : BitVec 64) :
    bytes8 s = some x ↔ ∃ t, Spec.Body s t ∧ Numeral 16 t ∧ t.length ≤ 16 ∧ x.toNat = numeralValue 16 t := by
  unfold bytes8 hexToBytes8
  obtain ⟨t, ht⟩ := body_exists s
  rw [removeHexPrefix_body ht]
  have hlt : ∀ {t : Str}, Numeral 16 t → t.length ≤ 16 → numeralValue 16 t < 2 ^ 64 := fun h1 h2 =>
    Nat.lt_of_lt_of_le (numeral_lt h1) (Nat.le_trans (Nat.pow_le_pow_right (by decide) h2) (by decide))
  constructor
  · intro h
    obtain ⟨b, hb, rfl⟩ := Option.map_eq_some_iff.mp h
    obtain ⟨h1, h2, rfl⟩ := (padded_iff 8 t b).mp hb
    refine ⟨t, ht, h1, h2, ?_⟩
    have := hlt h1 h2
    rw [fromBE_toBE, BitVec.toNat_ofNat, Nat.mod_eq_of_lt (a := numeralValue 16 t) (b := 256 ^ 8) this, Nat.mod_eq_of_lt this]
  · rintro ⟨t', ht', h1, h2, h3⟩
    cases body_unique ht ht'
    rw [Option.map_eq_some_iff]
    refine ⟨_, (padded_iff 8 t _).mpr ⟨h1, h2, rfl⟩, ?_⟩
    have := hlt h1 h2
    rw [fromBE_toBE, Nat.mod_eq_of_lt (a := numeralValue 16 t) (b := 256 ^ 8) this, ← h3, BitVec.ofNat_toNat, BitVec.setWidth_eq]

theorem parseHexOrInt_iff (v : Num) (n : Nat) : parseHexOrInt v = some n ↔ WritesNumber v n := by
  match v with
  | .inr i =>
    unfold parseHexOrInt WritesNumber
    dsimp only
    split
    · rw [Option.some.injEq]; omega
    · simp; omega
  | .inl s =>
    unfold parseHexOrInt WritesNumber
    dsimp only
    by_cases h : hasHexPrefix s = true
    · rw [if_pos h]
      obtain ⟨t, rfl⟩ := (hasHexPrefix_iff s).mp h
      rw [int_iff (by decide)]
      show t ≠ [] ∧ _ ↔ _
      constructor
      · intro h; exact .inl ⟨t, rfl, h⟩
      · rintro (⟨t', e, h⟩ | ⟨h, -⟩)
        · cases e; exact h
        · exact absurd rfl (h t)
    · rw [if_neg h, int_iff (by decide)]
      have hn : ∀ t, s ≠ '0' :: 'x' :: t := fun t e => h ((hasHexPrefix_iff s).mpr ⟨t, e⟩)
      constructor
      · intro h; exact .inr ⟨hn, h⟩
      · rintro (⟨t', e, -⟩ | ⟨-, h⟩)
        · exact absurd e (hn t')
        · exact h

theorem mapM_each {α β : Type} {f : α → Option β} {R : α → β → Prop} (h : ∀ a b, f a = some b ↔ R a b) : ∀ (l : List α) (l' : List β),
    l.mapM f = some l' ↔ Each R l l' := by
  intro l
  induction l with
  | nil => intro l'; cases l' <;> simp [Each]
  | cons a r ih =>
    intro l'
    rw [List.mapM_cons]
    cases l' with
    | nil =>
      refine ⟨fun e => ?_, fun e => e.elim⟩
      obtain ⟨x, -, e⟩ := Option.bind_eq_some_iff.mp e
      obtain ⟨y, -, e⟩ := Option.bind_eq_some_iff.mp e
      cases e
    | cons b l' =>
      simp only [Each, ← h, ← ih, Option.bind_eq_bind, Option.bind_eq_some_iff, Option.pure_def, Option.some.injEq, List.cons.injEq]
      constructor
      · rintro ⟨x, hx, y, hy, rfl, rfl⟩; exact ⟨hx, hy⟩
      · rintro ⟨hx, hy⟩; exact ⟨b, hx, l', hy, rfl, rfl⟩

theorem item_iff (s : Str) (x : Rlp) : (hexToBytes s).bind Rlp.decode = some x ↔ WritesItem s x := by
  unfold WritesItem
  simp only [Option.bind_eq_some_iff, hexToBytes_writes]

theorem readTxs_iff (s : Str) (x : Rlp) : B11r.readTxs s = some x ↔ (s = [] ∧ x = .list []) ∨ (s ≠ [] ∧ WritesItem s x) := by
  unfold B11r.readTxs
  by_cases h : s = []
  · rw [if_pos h]; simp [h, eq_comm]
  · rw [if_neg h, item_iff]; simp [h]

theorem readOmmer_iff (s : Str) (x : Rlp) : readOmmer s = some x ↔ ∃ rest, WritesItem s (.list (x :: rest)) := by
  unfold readOmmer
  simp only [← item_iff]
  match (hexToBytes s).bind Rlp.decode with
  | none => simp
  | some (.bytes b) => simp
  | some (.list []) => simp
  | some (.list (y :: r)) => simp

theorem readWithdrawal_iff (d : WithdrawalData) (x : Rlp) : readWithdrawal d = some x ↔ ∃ index validatorIndex address amount,
    DescribesWithdrawal d index validatorIndex address amount ∧
    x = .list [.ofNat index, .ofNat validatorIndex, .ofAddress address, .ofNat amount] := by
  unfold readWithdrawal DescribesWithdrawal
  simp only [Option.bind_eq_bind, Option.bind_eq_some_iff, bounded_iff, parseHexOrInt_iff, bytes20_iff, Option.pure_def, Option.some.injEq]
  constructor
  · rintro ⟨i, ⟨h1, h2⟩, v, ⟨h3, h4⟩, a, h5, n, h6, rfl⟩
    exact ⟨i, v, a, n, ⟨h2, h4, h1, h3, h5, h6⟩, rfl⟩
  · rintro ⟨i, v, a, n, ⟨h2, h4, h1, h3, h5, h6⟩, rfl⟩
    exact ⟨i, ⟨h1, h2⟩, v, ⟨h3, h4⟩, a, h5, n, h6, rfl⟩

theorem readBody_iff (i : Input) (b : B11r.Body) : readBody i = some b ↔ DescribesBody i b.transactions b.ommers b.withdrawals := by
  obtain ⟨txs, ommers, wds⟩ := b
  unfold readBody
  have ho := mapM_each readOmmer_iff i.ommers
  simp only [Option.bind_eq_bind, Option.bind_eq_some_iff, readTxs_iff, ho]
  match hw : i.withdrawals with
  | none =>
    simp only [Option.pure_def, Option.some.injEq, B11r.Body.mk.injEq]
    constructor
    · rintro ⟨_, h1, _, h2, rfl, rfl, rfl⟩; exact ⟨h1, h2, by rw [hw]⟩
    · rintro ⟨h1, h2, h3⟩; rw [hw] at h3; exact ⟨_, h1, _, h2, rfl, rfl, h3.symm⟩
  | some l =>
    have hx := mapM_each readWithdrawal_iff l
    simp only [Option.pure_def, Option.some.injEq, B11r.Body.mk.injEq, Option.bind_eq_some_iff, hx]
    constructor
    · rintro ⟨_, h1, _, h2, ws, h3, rfl, rfl, rfl⟩; exact ⟨h1, h2, by rw [hw]; exact ⟨_, rfl, h3⟩⟩
    · rintro ⟨h1, h2, h3⟩; rw [hw] at h3
      obtain ⟨ws, h3, h4⟩ := h3
      exact ⟨_, h1, _, h2, _, h4, rfl, rfl, h3.symm⟩

theorem default_coinbase (x : Address) : bytes20 DEFAULT_COINBASE = some x ↔ x = 0 := by
  rw [show bytes20 DEFAULT_COINBASE = some 0 from by decide +kernel]; rw [Option.some.injEq, eq_comm]
theorem default_root (x : Word) : hash32 DEFAULT_TRIE_ROOT = some x ↔ x = 0x56e81f171bcc55a6ff8345e692c0f86e5b48e01b996cadc001622fb5e363b421 := by
  rw [show hash32 DEFAULT_TRIE_ROOT = some 0x56e81f171bcc55a6ff8345e692c0f86e5b48e01b996cadc001622fb5e363b421 from by decide +kernel]; rw [Option.some.injEq, eq_comm]
theorem default_nonce (x : BitVec 64) : bytes8 "0x0000000000000000".toList = some x ↔ x = 0 := by
  rw [show bytes8 "0x0000000000000000".toList = some 0 from by decide +kernel]; rw [Option.some.injEq, eq_comm]

theorem bind_writes {α β : Type} {f : α → Option β} {R : α → β → Prop} (h : ∀ a b, f a = some b ↔ R a b) (o : Option α) (x : β) :
    o.bind f = some x ↔ ∃ s, o = some s ∧ R s x := by
  rw [Option.bind_eq_some_iff]; simp only [h]

theorem readHeader_iff (keccak : Bytes → Word) (d : HeaderData) (body : B11r.Body) (h : B11r.Header) :
    readHeader keccak d body = some h ↔ DescribesHeader keccak d body.ommers h.base h.withdrawalsRoot := by
  obtain ⟨⟨f1, f2, f3, f4, f5, f6, f7, f8, f9, f10, f11, f12, f13, f14, f15, f16⟩, f17⟩ := h
  unfold readHeader
  have root : ∀ (o : Option Str) (x : Word), hash32 (o.getD DEFAULT_TRIE_ROOT) = some x ↔
      match o with | some s => WritesBytes s (wordBytes x) | none => x = 0x56e81f171bcc55a6ff8345e692c0f86e5b48e01b996cadc001622fb5e363b421 := by
    intro o x; cases o
    · exact default_root x
    · exact hash32_iff _ x
  have iOmmers : ∀ x, readOmmersHash keccak d body.ommers = some x ↔
      match d.ommersHash with | some s => WritesBytes s (wordBytes x) | none => x = keccak (Rlp.encode (.list body.ommers)) := by
    intro x; unfold readOmmersHash; cases d.ommersHash
    · rw [Option.some.injEq, eq_comm]
    · exact hash32_iff _ x
  have iMiner : ∀ x, bytes20 (d.miner.getD DEFAULT_COINBASE) = some x ↔
      match d.miner with | some s => WritesBytes s (addressBytes x) | none => x = 0 := by
    intro x; cases d.miner
    · exact default_coinbase x
    · exact bytes20_iff _ x
  have iDifficulty : ∀ x, parseHexOrInt (d.difficulty.getD (.inr 0)) = some x ↔ match d.difficulty with | some v => WritesNumber v x | none => x = 0 := by
    intro x; cases d.difficulty
    · rw [show parseHexOrInt ((none : Option Num).getD (.inr 0)) = some 0 from rfl, Option.some.injEq, eq_comm]
    · exact parseHexOrInt_iff _ x
  have iExtra : ∀ x, hexToBytes (d.extraData.getD ['0', 'x']) = some x ↔ match d.extraData with | some s => WritesBytes s x | none => x = [] := by
    intro x; cases d.extraData
    · rw [show hexToBytes ((none : Option Str).getD ['0', 'x']) = some [] from rfl, Option.some.injEq, eq_comm]
    · exact hexToBytes_writes _ x
  have iNonce : ∀ x, bytes8 (d.nonce.getD "0x0000000000000000".toList) = some x ↔ match d.nonce with
      | some s => ∃ t, Spec.Body s t ∧ Numeral 16 t ∧ t.length ≤ 16 ∧ x.toNat = numeralValue 16 t
      | none => x = 0 := by
    intro x; cases d.nonce
    · exact default_nonce x
    · exact bytes8_iff _ x
  have iFee : ∀ x, readBaseFee d = some x ↔ match d.baseFeePerGas with
      | some v => ∃ n, x = some n ∧ WritesNumber v n
      | none => x = if d.withdrawalsRoot.isSome then some 0 else none := by
    intro x; unfold readBaseFee; cases d.baseFeePerGas
    · rw [Option.some.injEq, eq_comm]
    · dsimp only; rw [Option.map_eq_some_iff]; simp only [parseHexOrInt_iff]
      exact ⟨fun ⟨n, h1, h2⟩ => ⟨n, h2.symm, h1⟩, fun ⟨n, h1, h2⟩ => ⟨n, h2, h1.symm⟩⟩
  have iRoot : ∀ x, readWithdrawalsRoot d = some x ↔ match d.withdrawalsRoot with
      | some s => ∃ r, x = some r ∧ WritesBytes s (wordBytes r)
      | none => x = none := by
    intro x; unfold readWithdrawalsRoot; cases d.withdrawalsRoot
    · rw [Option.some.injEq, eq_comm]
    · dsimp only; rw [Option.map_eq_some_iff]; simp only [hash32_iff]
      exact ⟨fun ⟨n, h1, h2⟩ => ⟨n, h2.symm, h1⟩, fun ⟨n, h1, h2⟩ => ⟨n, h2, h1.symm⟩⟩
  constructor
  · intro h
    obtain ⟨x1, h1, h⟩ := Option.bind_eq_some_iff.mp h
    obtain ⟨x2, h2, h⟩ := Option.bind_eq_some_iff.mp h
    obtain ⟨x3, h3, h⟩ := Option.bind_eq_some_iff.mp h
    obtain ⟨x4, h4, h⟩ := Option.bind_eq_some_iff.mp h
    obtain ⟨x5, h5, h⟩ := Option.bind_eq_some_iff.mp h
    obtain ⟨x6, h6, h⟩ := Option.bind_eq_some_iff.mp h
    obtain ⟨x7, h7, h⟩ := Option.bind_eq_some_iff.mp h
    obtain ⟨x8, h8, h⟩ := Option.bind_eq_some_iff.mp h
    obtain ⟨x9, h9, h⟩ := Option.bind_eq_some_iff.mp h
    obtain ⟨x10, h10, h⟩ := Option.bind_eq_some_iff.mp h
    obtain ⟨x11, h11, h⟩ := Option.bind_eq_some_iff.mp h
    obtain ⟨x12, h12, h⟩ := Option.bind_eq_some_iff.mp h
    obtain ⟨x13, h13, h⟩ := Option.bind_eq_some_iff.mp h
    obtain ⟨x14, h14, h⟩ := Option.bind_eq_some_iff.mp h
    obtain ⟨x15, h15, h⟩ := Option.bind_eq_some_iff.mp h
    obtain ⟨x16, h16, h⟩ := Option.bind_eq_some_iff.mp h
    obtain ⟨x17, h17, h⟩ := Option.bind_eq_some_iff.mp h
    cases h
    obtain ⟨h12, h12'⟩ := (bounded_iff _ _ _).mp h12
    refine ⟨(bind_writes hash32_iff _ _).mp h1, (iOmmers _).mp h2, (iMiner _).mp h3, (bind_writes hash32_iff _ _).mp h4, (root _ _).mp h5, (root _ _).mp h6, (bind_writes bytes256_iff _ _).mp h7,
      (iDifficulty _).mp h8, (bind_writes parseHexOrInt_iff _ _).mp h9, (bind_writes parseHexOrInt_iff _ _).mp h10, (bind_writes parseHexOrInt_iff _ _).mp h11, ?_, (iExtra _).mp h13, (bind_writes hash32_iff _ _).mp h14, (iNonce _).mp h15, (iFee _).mp h16, (iRoot _).mp h17⟩
    dsimp only
    rw [BitVec.toNat_ofNat, Nat.mod_eq_of_lt h12']
    exact (bind_writes parseHexOrInt_iff _ _).mp h12
  · intro H
    refine Option.bind_eq_some_iff.mpr ⟨_, (bind_writes hash32_iff _ _).mpr H.parentHash, ?_⟩
    refine Option.bind_eq_some_iff.mpr ⟨_, (iOmmers _).mpr H.ommersHash, ?_⟩
    refine Option.bind_eq_some_iff.mpr ⟨_, (iMiner _).mpr H.coinbase, ?_⟩
    refine Option.bind_eq_some_iff.mpr ⟨_, (bind_writes hash32_iff _ _).mpr H.stateRoot, ?_⟩
    refine Option.bind_eq_some_iff.mpr ⟨_, (root _ _).mpr H.transactionsRoot, ?_⟩
    refine Option.bind_eq_some_iff.mpr ⟨_, (root _ _).mpr H.receiptRoot, ?_⟩
    refine Option.bind_eq_some_iff.mpr ⟨_, (bind_writes bytes256_iff _ _).mpr H.bloom, ?_⟩
    refine Option.bind_eq_some_iff.mpr ⟨_, (iDifficulty _).mpr H.difficulty, ?_⟩
    refine Option.bind_eq_some_iff.mpr ⟨_, (bind_writes parseHexOrInt_iff _ _).mpr H.number, ?_⟩
    refine Option.bind_eq_some_iff.mpr ⟨_, (bind_writes parseHexOrInt_iff _ _).mpr H.gasLimit, ?_⟩
    refine Option.bind_eq_some_iff.mpr ⟨_, (bind_writes parseHexOrInt_iff _ _).mpr H.gasUsed, ?_⟩
    refine Option.bind_eq_some_iff.mpr ⟨_, (bounded_iff _ _ _).mpr ⟨(bind_writes parseHexOrInt_iff _ _).mpr H.timestamp, f12.isLt⟩, ?_⟩
    refine Option.bind_eq_some_iff.mpr ⟨_, (iExtra _).mpr H.extraData, ?_⟩
    refine Option.bind_eq_some_iff.mpr ⟨_, (bind_writes hash32_iff _ _).mpr H.mixDigest, ?_⟩
    refine Option.bind_eq_some_iff.mpr ⟨_, (iNonce _).mpr H.nonce, ?_⟩
    refine Option.bind_eq_some_iff.mpr ⟨_, (iFee _).mpr H.baseFee, ?_⟩
    refine Option.bind_eq_some_iff.mpr ⟨_, (iRoot _).mpr H.withdrawalsRoot, ?_⟩
    dsimp only
    rw [BitVec.ofNat_toNat, BitVec.setWidth_eq]
    rfl

end Verif
