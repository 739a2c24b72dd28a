import Verif.Spec.Deposit
import Verif.Lemmas.Bytes
/-! Deposit events. -/
namespace Verif
open Spec

theorem slice_skip (a b : Bytes) (i j n : Nat) (ha : a.length = n) (hi : n ≤ i) (hj : n ≤ j) :
    slice (a ++ b) i j = slice b (i - n) (j - n) := by
  unfold slice
  subst ha
  rw [List.drop_append, List.drop_of_length_le hi, List.nil_append, show j - a.length - (i - a.length) = j - i by omega]

theorem slice_congr (b : Bytes) {i j k l : Nat} (h : i = k) (h' : j = l) : slice b i j = slice b k l := by rw [h, h']

theorem slice_first (a b : Bytes) (n : Nat) (ha : a.length = n) : slice (a ++ b) 0 n = a := by
  unfold slice
  subst ha
  rw [List.drop_zero, Nat.sub_zero, List.take_left]

theorem slice_all (a : Bytes) (n : Nat) (h : a.length = n) : slice a 0 n = a := by
  unfold slice; subst h; rw [List.drop_zero, Nat.sub_zero, List.take_length]

theorem drop_slice (b : Bytes) (i j : Nat) (h : i ≤ j) : b.drop i = slice b i j ++ b.drop j := by
  unfold slice
  rw [show b.drop j = (b.drop i).drop (j - i) by rw [List.drop_drop]; congr 1; omega, List.take_append_drop]

theorem slice_length' (b : Bytes) (i j : Nat) (hij : i ≤ j) (h : j ≤ b.length) : (slice b i j).length = j - i := by
  unfold slice; rw [List.length_take, List.length_drop]; omega

theorem slice_word (b : Bytes) (i n : Nat) (h : i + 32 ≤ b.length) (hn : fromBE (slice b i (i + 32)) = n) :
    slice b i (i + 32) = abiWord n := by
  have hl := slice_length' b i (i + 32) (by omega) h
  have := toBE_fromBE (slice b i (i + 32))
  rw [hl, hn, Nat.add_sub_cancel_left] at this
  exact this.symm

theorem abiWord_length (n : Nat) : (abiWord n).length = 32 := toBE_length _ _
theorem fromBE_abiWord {n : Nat} (h : n < 1000) : fromBE (abiWord n) = n := by
  unfold abiWord; rw [fromBE_toBE]
  exact Nat.mod_eq_of_lt (Nat.lt_trans h (by decide))

theorem extractDeposit_layout {pubkey pad1 credentials amount pad2 signature index pad3 : Bytes}
    (h1 : pubkey.length = 48) (h2 : pad1.length = 16) (h3 : credentials.length = 32) (h4 : amount.length = 8)
    (h5 : pad2.length = 24) (h6 : signature.length = 96) (h7 : index.length = 8) (h8 : pad3.length = 24) :
    extractDepositData (depositLayout pubkey pad1 credentials amount pad2 signature index pad3) =
      some (pubkey ++ credentials ++ amount ++ signature ++ index) := by
  have w := abiWord_length
  have f := @fromBE_abiWord
  unfold extractDepositData
  have hl : (depositLayout pubkey pad1 credentials amount pad2 signature index pad3).length = 576 := by
    unfold depositLayout; simp only [List.length_append, w, h1, h2, h3, h4, h5, h6, h7, h8]
  rw [if_neg (by rw [hl]; decide)]
  dsimp only
  have s1 : slice (depositLayout pubkey pad1 credentials amount pad2 signature index pad3) 0 32 = abiWord 160 :=
    slice_first _ _ 32 (w _)
  have s2 : slice (depositLayout pubkey pad1 credentials amount pad2 signature index pad3) 32 64 = abiWord 256 := by
    unfold depositLayout
    rw [slice_skip _ _ _ _ 32 (w _) (by decide) (by decide)]
    exact slice_first _ _ 32 (w _)
  have s3 : slice (depositLayout pubkey pad1 credentials amount pad2 signature index pad3) 64 96 = abiWord 320 := by
    unfold depositLayout
    rw [slice_skip _ _ _ _ 32 (w _) (by decide) (by decide), slice_skip _ _ _ _ 32 (w _) (by decide) (by decide)]
    exact slice_first _ _ 32 (w _)
  have s4 : slice (depositLayout pubkey pad1 credentials amount pad2 signature index pad3) 96 128 = abiWord 384 := by
    unfold depositLayout
    rw [slice_skip _ _ _ _ 32 (w _) (by decide) (by decide), slice_skip _ _ _ _ 32 (w _) (by decide) (by decide),
      slice_skip _ _ _ _ 32 (w _) (by decide) (by decide)]
    exact slice_first _ _ 32 (w _)
  have s5 : slice (depositLayout pubkey pad1 credentials amount pad2 signature index pad3) 128 160 = abiWord 512 := by
    unfold depositLayout
    rw [slice_skip _ _ _ _ 32 (w _) (by decide) (by decide), slice_skip _ _ _ _ 32 (w _) (by decide) (by decide),
      slice_skip _ _ _ _ 32 (w _) (by decide) (by decide), slice_skip _ _ _ _ 32 (w _) (by decide) (by decide)]
    exact slice_first _ _ 32 (w _)
  have key : ∀ i j, 160 ≤ i → 160 ≤ j → slice (depositLayout pubkey pad1 credentials amount pad2 signature index pad3) i j =
      slice (abiWord 48 ++ (pubkey ++ (pad1 ++ (abiWord 32 ++ (credentials ++ (abiWord 8 ++ (amount ++ (pad2 ++
      (abiWord 96 ++ (signature ++ (abiWord 8 ++ (index ++ pad3)))))))))))) (i - 160) (j - 160) := by
    intro i j hi hj
    unfold depositLayout
    rw [slice_skip _ _ _ _ 32 (w _) (by omega) (by omega), slice_skip _ _ _ _ 32 (w _) (by omega) (by omega),
      slice_skip _ _ _ _ 32 (w _) (by omega) (by omega), slice_skip _ _ _ _ 32 (w _) (by omega) (by omega),
      slice_skip _ _ _ _ 32 (w _) (by omega) (by omega)]
    exact slice_congr _ (by omega) (by omega)
  rw [s1, s2, s3, s4, s5, f (n := 160) (by decide), f (n := 256) (by decide), f (n := 320) (by decide),
    f (n := 384) (by decide), f (n := 512) (by decide)]
  have s6 : slice (depositLayout pubkey pad1 credentials amount pad2 signature index pad3) 160 192 = abiWord 48 := by
    rw [key _ _ (by decide) (by decide)]; exact slice_first _ _ 32 (w _)
  have s7 : slice (depositLayout pubkey pad1 credentials amount pad2 signature index pad3) 192 240 = pubkey := by
    rw [key _ _ (by decide) (by decide), slice_skip _ _ _ _ 32 (w _) (by decide) (by decide)]
    exact slice_first _ _ 48 h1
  have s8 : slice (depositLayout pubkey pad1 credentials amount pad2 signature index pad3) 256 288 = abiWord 32 := by
    rw [key _ _ (by decide) (by decide), slice_skip _ _ _ _ 32 (w _) (by decide) (by decide),
      slice_skip _ _ _ _ 48 h1 (by decide) (by decide), slice_skip _ _ _ _ 16 h2 (by decide) (by decide)]
    exact slice_first _ _ 32 (w _)
  have s9 : slice (depositLayout pubkey pad1 credentials amount pad2 signature index pad3) 288 320 = credentials := by
    rw [key _ _ (by decide) (by decide), slice_skip _ _ _ _ 32 (w _) (by decide) (by decide),
      slice_skip _ _ _ _ 48 h1 (by decide) (by decide), slice_skip _ _ _ _ 16 h2 (by decide) (by decide),
      slice_skip _ _ _ _ 32 (w _) (by decide) (by decide)]
    exact slice_first _ _ 32 h3
  have key2 : ∀ i j, 320 ≤ i → 320 ≤ j → slice (depositLayout pubkey pad1 credentials amount pad2 signature index pad3) i j =
      slice (abiWord 8 ++ (amount ++ (pad2 ++ (abiWord 96 ++ (signature ++ (abiWord 8 ++ (index ++ pad3))))))) (i - 320) (j - 320) := by
    intro i j hi hj
    rw [key _ _ (by omega) (by omega), slice_skip _ _ _ _ 32 (w _) (by omega) (by omega),
      slice_skip _ _ _ _ 48 h1 (by omega) (by omega), slice_skip _ _ _ _ 16 h2 (by omega) (by omega),
      slice_skip _ _ _ _ 32 (w _) (by omega) (by omega), slice_skip _ _ _ _ 32 h3 (by omega) (by omega)]
    exact slice_congr _ (by omega) (by omega)
  have s10 : slice (depositLayout pubkey pad1 credentials amount pad2 signature index pad3) 320 352 = abiWord 8 := by
    rw [key2 _ _ (by decide) (by decide)]; exact slice_first _ _ 32 (w _)
  have s11 : slice (depositLayout pubkey pad1 credentials amount pad2 signature index pad3) 352 360 = amount := by
    rw [key2 _ _ (by decide) (by decide), slice_skip _ _ _ _ 32 (w _) (by decide) (by decide)]
    exact slice_first _ _ 8 h4
  have key3 : ∀ i j, 384 ≤ i → 384 ≤ j → slice (depositLayout pubkey pad1 credentials amount pad2 signature index pad3) i j =
      slice (abiWord 96 ++ (signature ++ (abiWord 8 ++ (index ++ pad3)))) (i - 384) (j - 384) := by
    intro i j hi hj
    rw [key2 _ _ (by omega) (by omega), slice_skip _ _ _ _ 32 (w _) (by omega) (by omega),
      slice_skip _ _ _ _ 8 h4 (by omega) (by omega), slice_skip _ _ _ _ 24 h5 (by omega) (by omega)]
    exact slice_congr _ (by omega) (by omega)
  have s12 : slice (depositLayout pubkey pad1 credentials amount pad2 signature index pad3) 384 416 = abiWord 96 := by
    rw [key3 _ _ (by decide) (by decide)]; exact slice_first _ _ 32 (w _)
  have s13 : slice (depositLayout pubkey pad1 credentials amount pad2 signature index pad3) 416 512 = signature := by
    rw [key3 _ _ (by decide) (by decide), slice_skip _ _ _ _ 32 (w _) (by decide) (by decide)]
    exact slice_first _ _ 96 h6
  have s14 : slice (depositLayout pubkey pad1 credentials amount pad2 signature index pad3) 512 544 = abiWord 8 := by
    rw [key3 _ _ (by decide) (by decide), slice_skip _ _ _ _ 32 (w _) (by decide) (by decide),
      slice_skip _ _ _ _ 96 h6 (by decide) (by decide)]
    exact slice_first _ _ 32 (w _)
  have s15 : slice (depositLayout pubkey pad1 credentials amount pad2 signature index pad3) 544 552 = index := by
    rw [key3 _ _ (by decide) (by decide), slice_skip _ _ _ _ 32 (w _) (by decide) (by decide),
      slice_skip _ _ _ _ 96 h6 (by decide) (by decide), slice_skip _ _ _ _ 32 (w _) (by decide) (by decide)]
    exact slice_first _ _ 8 h7
  simp only [PUBKEY_OFFSET, WITHDRAWAL_CREDENTIALS_OFFSET, AMOUNT_OFFSET, SIGNATURE_OFFSET, INDEX_OFFSET, PUBKEY_SIZE,
    WITHDRAWAL_CREDENTIALS_SIZE, AMOUNT_SIZE, SIGNATURE_SIZE, INDEX_SIZE, ne_eq, not_true_eq_false, if_false, Nat.reduceAdd,
    s6, s7, s8, s9, s10, s11, s12, s13, s14, s15, f (n := 48) (by decide), f (n := 32) (by decide), f (n := 8) (by decide),
    f (n := 96) (by decide)]

theorem ite_none {α : Type} {c : Prop} [Decidable c] {x : Option α} {r : α} : ((if c then none else x) = some r) ↔ ¬ c ∧ x = some r := by
  by_cases h : c
  · rw [if_pos h]; exact ⟨fun h' => (by cases h'), fun h' => absurd h h'.1⟩
  · rw [if_neg h]; exact ⟨fun h' => ⟨h, h'⟩, fun h' => h'.2⟩

theorem extractDeposit_some {data r : Bytes} (h : extractDepositData data = some r) : DepositEvent data r := by
  unfold extractDepositData at h
  dsimp only at h
  simp only [ite_none, ne_eq, Decidable.not_not] at h
  obtain ⟨h0, h1, h2, h3, h4, h5, h6, h7, h8, h9, h10, h⟩ := h
  simp only [PUBKEY_OFFSET, WITHDRAWAL_CREDENTIALS_OFFSET, AMOUNT_OFFSET, SIGNATURE_OFFSET, INDEX_OFFSET, PUBKEY_SIZE,
    WITHDRAWAL_CREDENTIALS_SIZE, AMOUNT_SIZE, SIGNATURE_SIZE, INDEX_SIZE, DEPOSIT_EVENT_LENGTH] at h0 h1 h2 h3 h4 h5
  simp only [h1, h2, h3, h4, h5, PUBKEY_SIZE, WITHDRAWAL_CREDENTIALS_SIZE, AMOUNT_SIZE, SIGNATURE_SIZE, INDEX_SIZE,
    Nat.reduceAdd] at h6 h7 h8 h9 h10 h
  refine ⟨slice data 192 240, slice data 240 256, slice data 288 320, slice data 352 360, slice data 360 384,
    slice data 416 512, slice data 544 552, slice data 552 576, ?_, ?_, ?_, ?_, ?_, ?_, ?_, ?_, ?_, (Option.some.inj h).symm⟩
  · rw [slice_length' _ _ _ (by decide) (by omega)]
  · rw [slice_length' _ _ _ (by decide) (by omega)]
  · rw [slice_length' _ _ _ (by decide) (by omega)]
  · rw [slice_length' _ _ _ (by decide) (by omega)]
  · rw [slice_length' _ _ _ (by decide) (by omega)]
  · rw [slice_length' _ _ _ (by decide) (by omega)]
  · rw [slice_length' _ _ _ (by decide) (by omega)]
  · rw [slice_length' _ _ _ (by decide) (by omega)]
  · unfold depositLayout
    rw [← slice_word data 0 160 (by omega) h1, ← slice_word data 32 256 (by omega) h2, ← slice_word data 64 320 (by omega) h3,
      ← slice_word data 96 384 (by omega) h4, ← slice_word data 128 512 (by omega) h5, ← slice_word data 160 48 (by omega) h6,
      ← slice_word data 256 32 (by omega) h7, ← slice_word data 384 96 (by omega) h9]
    have a1 : abiWord 8 = slice data 320 352 := (slice_word data 320 8 (by omega) h8).symm
    have a2 : abiWord 8 = slice data 512 544 := (slice_word data 512 8 (by omega) h10).symm
    have e : data = data.drop 0 := rfl
    conv => lhs; rw [e]
    rw [drop_slice data 0 32 (by decide), drop_slice data 32 64 (by decide), drop_slice data 64 96 (by decide),
      drop_slice data 96 128 (by decide), drop_slice data 128 160 (by decide), drop_slice data 160 192 (by decide),
      drop_slice data 192 240 (by decide), drop_slice data 240 256 (by decide), drop_slice data 256 288 (by decide),
      drop_slice data 288 320 (by decide), drop_slice data 320 352 (by decide), drop_slice data 352 360 (by decide),
      drop_slice data 360 384 (by decide), drop_slice data 384 416 (by decide), drop_slice data 416 512 (by decide),
      drop_slice data 512 544 (by decide), drop_slice data 544 552 (by decide), drop_slice data 552 576 (by decide),
      List.drop_of_length_le (i := 576) (by omega), List.append_nil, ← a1]
    rw [a2]

theorem extractDeposit_iff (data r : Bytes) : extractDepositData data = some r ↔ DepositEvent data r := by
  constructor
  · exact extractDeposit_some
  · rintro ⟨_, _, _, _, _, _, _, _, h1, h2, h3, h4, h5, h6, h7, h8, rfl, rfl⟩
    exact extractDeposit_layout h1 h2 h3 h4 h5 h6 h7 h8

theorem parseDepositLogs_iff (logs : List Log) (acc out : Bytes) :
    parseDepositLogs acc logs = some out ↔ ∃ r, Deposits logs r ∧ out = acc ++ r := by
  induction logs generalizing acc with
  | nil =>
    rw [parseDepositLogs]
    constructor
    · intro h; exact ⟨[], .nil, by rw [List.append_nil]; exact (Option.some.inj h).symm⟩
    · rintro ⟨r, h, rfl⟩; cases h; rw [List.append_nil]
  | cons l ls ih =>
    rw [parseDepositLogs]
    by_cases hd : IsDepositLog l
    · rw [if_pos (show l.address = DEPOSIT_CONTRACT_ADDRESS ∧ l.topics.head? = some DEPOSIT_EVENT_SIGNATURE_HASH from hd)]
      match he : extractDepositData l.data with
      | none =>
        dsimp only
        constructor
        · intro h; cases h
        · rintro ⟨r, h, _⟩
          cases h with
          | skip hn _ => exact absurd hd hn
          | deposit _ e _ => rw [(extractDeposit_iff _ _).mpr e] at he; cases he
      | some d =>
        dsimp only
        rw [ih]
        constructor
        · rintro ⟨r, h, rfl⟩
          exact ⟨d ++ r, .deposit hd ((extractDeposit_iff _ _).mp he) h, List.append_assoc _ _ _⟩
        · rintro ⟨r, h, rfl⟩
          cases h with
          | skip hn _ => exact absurd hd hn
          | @deposit _ _ d' r' _ e t =>
            rw [(extractDeposit_iff _ _).mpr e] at he
            have := Option.some.inj he
            subst this
            exact ⟨r', t, (List.append_assoc _ _ _).symm⟩
    · rw [if_neg (show ¬ (l.address = DEPOSIT_CONTRACT_ADDRESS ∧ l.topics.head? = some DEPOSIT_EVENT_SIGNATURE_HASH) from hd), ih]
      constructor
      · rintro ⟨r, h, rfl⟩; exact ⟨r, .skip hd h, rfl⟩
      · rintro ⟨r, h, rfl⟩
        cases h with
        | skip _ t => exact ⟨r, t, rfl⟩
        | deposit hn _ _ => exact absurd hn hd

theorem Spec.Deposits.append {a b : List Log} {r t : Bytes} (h : Deposits a r) (h' : Deposits b t) : Deposits (a ++ b) (r ++ t) := by
  induction h with
  | nil => exact h'
  | skip hn _ ih => exact .skip hn ih
  | deposit hd e _ ih => rw [List.append_assoc]; exact .deposit hd e ih

theorem Spec.Deposits.split {a b : List Log} {r : Bytes} (h : Deposits (a ++ b) r) : ∃ x y, Deposits a x ∧ Deposits b y ∧ r = x ++ y := by
  induction a generalizing r with
  | nil => exact ⟨[], r, .nil, h, rfl⟩
  | cons l a ih =>
    cases h with
    | skip hn t => obtain ⟨x, y, h1, h2, h3⟩ := ih t; exact ⟨x, y, .skip hn h1, h2, h3⟩
    | @deposit _ _ d _ hd e t =>
      obtain ⟨x, y, h1, h2, rfl⟩ := ih t
      exact ⟨d ++ x, y, .deposit hd e h1, h2, (List.append_assoc _ _ _).symm⟩

theorem parseDepositKeys_iff (t : Trie Bytes (Option (Receipt ⊕ Bytes))) (keys : List Bytes) (rs : List Receipt)
    (hl : keys.length = rs.length)
    (hr : ∀ (i : Nat) (k : Bytes) (r : Receipt), keys[i]? = some k → rs[i]? = some r → ∃ x, trieGet t k = some x ∧ decodeReceipt x = some r)
    (acc out : Bytes) :
    (parseDepositKeys t acc keys = .ok out ↔ ∃ r, Deposits (rs.flatMap (·.logs)) r ∧ out = acc ++ r) ∧
    ∀ e, parseDepositKeys t acc keys = .error e → e = .invalidBlock := by
  induction keys generalizing rs acc with
  | nil =>
    cases rs with
    | cons _ _ => simp at hl
    | nil =>
      rw [parseDepositKeys]
      refine ⟨⟨fun h => ⟨[], .nil, by rw [List.append_nil]; exact (Except.ok.inj h).symm⟩, ?_⟩, fun e h => by cases h⟩
      rintro ⟨r, h, rfl⟩; cases h; rw [List.append_nil]
  | cons k ks ih =>
    cases rs with
    | nil => simp at hl
    | cons r rs =>
      obtain ⟨x, hx, hd⟩ := hr 0 k r rfl rfl
      rw [parseDepositKeys, hx]
      dsimp only
      rw [hd]
      dsimp only
      have ih' := fun acc => ih rs (by simpa using hl) (fun i k' r' h1 h2 => hr (i + 1) k' r' h1 h2) acc
      match hp : parseDepositLogs acc r.logs with
      | none =>
        dsimp only
        refine ⟨⟨fun h => (by cases h), ?_⟩, fun e h => (Except.error.inj h).symm⟩
        rintro ⟨q, h, _⟩
        rw [List.flatMap_cons] at h
        obtain ⟨a, b, h1, _, _⟩ := h.split
        rw [(parseDepositLogs_iff r.logs acc (acc ++ a)).mpr ⟨a, h1, rfl⟩] at hp
        cases hp
      | some acc' =>
        dsimp only
        obtain ⟨a, ha, rfl⟩ := (parseDepositLogs_iff r.logs acc acc').mp hp
        refine ⟨?_, (ih' _).2⟩
        rw [(ih' _).1, List.flatMap_cons]
        constructor
        · rintro ⟨b, hb, rfl⟩
          exact ⟨a ++ b, ha.append hb, List.append_assoc _ _ _⟩
        · rintro ⟨q, h, rfl⟩
          obtain ⟨a', b, h1, h2, rfl⟩ := h.split
          have e := (parseDepositLogs_iff r.logs acc _).mpr ⟨a', h1, rfl⟩
          rw [hp] at e
          have := List.append_cancel_left (Option.some.inj e)
          subst this
          exact ⟨b, h2, (List.append_assoc _ _ _).symm⟩

end Verif
