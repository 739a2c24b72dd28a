import Verif.Model.Alloc
import Verif.Spec.AllocJson
import Verif.Lemmas.Genesis
import Verif.Lemmas.RootState
/-! Lemmas on the state as the transition tool reads and writes it. -/
namespace Verif
open Spec Hex Genesis T8n

theorem numeralValue_concat (b : Nat) (l : Str) (c : Char) : numeralValue b (l ++ [c]) = numeralValue b l * b + digitValue c := by
  induction l with
  | nil => simp [numeralValue]
  | cons x r ih =>
    rw [List.cons_append, numeralValue, numeralValue, ih, List.length_append, List.length_singleton, Nat.pow_succ, Nat.add_mul, Nat.mul_assoc,
      Nat.add_assoc]

theorem digitChar_value {d : Nat} (h : d < 16) : digitValue (Nat.digitChar d) = d ∧ Nat.digitChar d ≠ 'x' := by
  have h16 : ∀ i : Fin 16, digitValue (Nat.digitChar i) = i ∧ Nat.digitChar i ≠ 'x' := by decide +kernel
  exact h16 ⟨d, h⟩

theorem toDigitsCore_spec : ∀ (fuel n : Nat) (acc : Str), n < fuel → ∃ l, Nat.toDigitsCore 16 fuel n acc = l ++ acc ∧ l ≠ [] ∧ Numeral 16 l ∧
    numeralValue 16 l = n ∧ ∀ k, 1 ≤ k → n < 16 ^ k → l.length ≤ k := by
  intro fuel
  induction fuel with
  | zero => intro n acc h; omega
  | succ fuel ih =>
    intro n acc h
    obtain ⟨d1, -⟩ := digitChar_value (d := n % 16) (by omega)
    have hn : Numeral 16 [Nat.digitChar (n % 16)] := by
      intro c hc
      rw [List.mem_singleton.mp hc, d1]; omega
    unfold Nat.toDigitsCore
    by_cases h0 : n / 16 = 0
    · refine ⟨[Nat.digitChar (n % 16)], ?_, by simp, hn, ?_, fun k hk _ => hk⟩
      · simp [h0]
      · have := numeralValue_concat 16 [] (Nat.digitChar (n % 16))
        rw [List.nil_append] at this
        rw [this, d1, numeralValue]; omega
    · obtain ⟨l, e, l1, l2, l3, l4⟩ := ih (n / 16) (Nat.digitChar (n % 16) :: acc) (by omega)
      refine ⟨l ++ [Nat.digitChar (n % 16)], ?_, by simp, ?_, ?_, ?_⟩
      · simp only [h0, if_false]
        rw [e]; simp
      · intro c hc
        rcases List.mem_append.mp hc with hc | hc
        · exact l2 c hc
        · exact hn c hc
      · rw [numeralValue_concat, l3, d1]; omega
      · intro k hk hlt
        rw [List.length_append, List.length_singleton]
        match k with
        | 1 => omega
        | k + 2 =>
          have := l4 (k + 1) (by omega) (by rw [Nat.pow_succ] at hlt; omega)
          omega

theorem toDigits_spec (n : Nat) : Nat.toDigits 16 n ≠ [] ∧ Numeral 16 (Nat.toDigits 16 n) ∧ numeralValue 16 (Nat.toDigits 16 n) = n ∧
    ∀ k, 1 ≤ k → n < 16 ^ k → (Nat.toDigits 16 n).length ≤ k := by
  obtain ⟨l, e, h⟩ := toDigitsCore_spec (n + 1) n [] (by omega)
  rw [List.append_nil] at e
  unfold Nat.toDigits
  rw [e]; exact h

theorem hex_amount (n : Nat) : Amount (hex n) n := by
  obtain ⟨h1, h2, h3, -⟩ := toDigits_spec n
  exact .inl ⟨_, rfl, h1, h2, h3.symm⟩

theorem hex_word (x : Word) : HexWord (hex x.toNat) x := by
  obtain ⟨h1, h2, h3, h4⟩ := toDigits_spec x.toNat
  refine ⟨_, .inl rfl, h2, h4 64 (by decide) ?_, h3.symm⟩
  have := x.isLt
  exact Nat.lt_of_lt_of_le this (by decide)

theorem bytesHex_spec (b : Bytes) : Numeral 16 (bytesHex b) ∧ (bytesHex b).length = 2 * b.length ∧ fromBE b = numeralValue 16 (bytesHex b) := by
  induction b with
  | nil => exact ⟨(fun _ h => by cases h), rfl, rfl⟩
  | cons x r ih =>
    obtain ⟨i1, i2, i3⟩ := ih
    have hx := x.toNat_lt
    have d1 := (digitChar_value (d := x.toNat / 16) (by omega)).1
    have d2 := (digitChar_value (d := x.toNat % 16) (by omega)).1
    refine ⟨?_, by show (bytesHex r).length + 1 + 1 = 2 * (r.length + 1); omega, ?_⟩
    · intro c hc
      rcases List.mem_cons.mp hc with rfl | hc
      · rw [d1]; omega
      · rcases List.mem_cons.mp hc with rfl | hc
        · rw [d2]; omega
        · exact i1 c hc
    · rw [fromBE_cons, i3]
      show _ = digitValue _ * 16 ^ ((bytesHex r).length + 1) + (digitValue _ * 16 ^ (bytesHex r).length + numeralValue 16 (bytesHex r))
      rw [d1, d2, i2, Nat.pow_succ, Nat.pow_mul, show 16 ^ 2 = 256 from rfl]
      have hm : (x.toNat / 16) * (256 ^ r.length * 16) + x.toNat % 16 * 256 ^ r.length = x.toNat * 256 ^ r.length := by
        rw [Nat.mul_comm (256 ^ r.length) 16, ← Nat.mul_assoc, ← Nat.add_mul]
        congr 1; omega
      omega

theorem numeral_not_x {t : Str} (h : Numeral 16 ('0' :: 'x' :: t)) : False := by
  have := h 'x' (List.mem_cons_of_mem _ List.mem_cons_self)
  revert this; decide

/-- A number as the tool reads it. -/
theorem toolNumber_iff (v : Str) (n : Nat) :
    ((normalized (some v)).bind fun o => uintOf (o.getD ['0', 'x', '0'])) = some n ↔ ToolNumber v n := by
  unfold normalized ToolNumber Amount uintOf
  by_cases h : ∃ t, v = '0' :: 'x' :: t
  · obtain ⟨t, rfl⟩ := h
    dsimp only
    rw [if_pos (.inr ((hasHexPrefix_iff _).mpr ⟨t, rfl⟩))]
    simp only [Option.bind_some, Option.getD_some]
    rw [removeHexPrefix_body (.inl rfl)]
    obtain ⟨u, hu⟩ := body_exists t
    rw [removeHexPrefix_body hu, int_iff (by decide)]
    rcases hu with rfl | ⟨rfl, hu⟩
    · constructor
      · intro h; exact .inr ⟨u, rfl, h⟩
      · rintro ((⟨t, e, -, h, -⟩ | ⟨h, -⟩) | ⟨t, e, h⟩)
        · cases e; exact (numeral_not_x h).elim
        · exact absurd rfl (h _)
        · cases e; exact h
    · constructor
      · intro h; exact .inl (.inl ⟨_, rfl, h⟩)
      · rintro ((⟨t, e, h⟩ | ⟨h, -⟩) | ⟨t, e, h⟩)
        · cases e; exact h
        · exact absurd rfl (h _)
        · cases e; exact absurd rfl (hu _)
  · have h' : ∀ t, v ≠ '0' :: 'x' :: t := fun t e => h ⟨t, e⟩
    by_cases hv : v = []
    · subst hv
      dsimp only
      rw [if_pos (.inl rfl)]
      simp only [Option.bind_some, Option.getD_some]
      constructor
      · intro h; cases h
      · rintro ((⟨t, e, -⟩ | ⟨-, h, -⟩) | ⟨t, e, -⟩)
        · cases e
        · exact absurd rfl h
        · cases e
    · dsimp only
      rw [if_neg (by rw [hasHexPrefix_iff]; exact fun e => e.elim hv h)]
      constructor
      · intro he
        match hm : Hex.int 10 v with
        | none => rw [hm] at he; cases he
        | some k =>
          rw [hm] at he
          simp only [Option.bind_some, Option.getD_some] at he
          obtain ⟨d1, d2, d3, -⟩ := toDigits_spec k
          rw [removeHexPrefix_body (.inl rfl), hex, removeHexPrefix_body (.inl rfl), int_iff (by decide), d3] at he
          obtain ⟨-, -, rfl⟩ := he
          exact .inl (.inr ⟨h', (int_iff (by decide) v n).mp hm⟩)
      · rintro ((⟨t, e, -⟩ | ⟨-, hh⟩) | ⟨t, e, -⟩)
        · exact absurd e (h' _)
        · rw [(int_iff (by decide) v n).mpr hh]
          simp only [Option.bind_some, Option.getD_some]
          obtain ⟨d1, d2, d3, -⟩ := toDigits_spec n
          rw [removeHexPrefix_body (.inl rfl), hex, removeHexPrefix_body (.inl rfl), int_iff (by decide), d3]
          exact ⟨d1, d2, rfl⟩
        · exact absurd e (h' _)

theorem toolNumber_opt (o : Option Str) (n : Nat) :
    (∃ v, normalized o = some v ∧ uintOf (v.getD ['0', 'x', '0']) = some n) ↔ ToolNumber (o.getD ['0', 'x', '0']) n := by
  have h := toolNumber_iff (o.getD ['0', 'x', '0']) n
  match o with
  | some v =>
    rw [Option.getD_some] at h ⊢
    rw [← h, Option.bind_eq_some_iff]
  | none =>
    rw [← h, Option.bind_eq_some_iff]
    constructor
    · rintro ⟨v, hv, e⟩
      cases hv
      exact ⟨some ['0', 'x', '0'], rfl, e⟩
    · rintro ⟨v, hv, e⟩
      cases hv
      exact ⟨none, rfl, e⟩

theorem toolCode_opt (o : Option Str) (b : Bytes) :
    (∃ v, normalized o = some v ∧ hexToBytes (v.getD []) = some b) ↔ (o.getD [] = [] ∧ b = []) ∨
      ∃ t, o.getD [] = '0' :: 'x' :: t ∧ Numeral 16 t ∧ t.length = 2 * b.length ∧ fromBE b = numeralValue 16 t := by
  have hnil : hexToBytes [] = some b ↔ b = [] := ⟨fun h => by cases h; rfl, fun h => by rw [h]; rfl⟩
  match o with
  | none =>
    rw [Option.getD_none]
    constructor
    · rintro ⟨v, hv, e⟩
      cases hv
      exact .inl ⟨rfl, hnil.mp e⟩
    · rintro (⟨-, e⟩ | ⟨t, e, -⟩)
      · exact ⟨none, rfl, hnil.mpr e⟩
      · cases e
  | some v =>
    simp only [Option.getD_some]
    by_cases hv : v = []
    · subst hv
      constructor
      · rintro ⟨v, hv, e⟩
        cases hv
        exact .inl ⟨rfl, hnil.mp e⟩
      · rintro (⟨-, e⟩ | ⟨t, e, -⟩)
        · exact ⟨some [], rfl, hnil.mpr e⟩
        · cases e
    · by_cases h : ∃ t, v = '0' :: 'x' :: t
      · obtain ⟨t, rfl⟩ := h
        have e0 : normalized (some ('0' :: 'x' :: t)) = some (some ('0' :: 'x' :: t)) := by
          unfold normalized
          dsimp only
          rw [if_pos (.inr ((hasHexPrefix_iff _).mpr ⟨t, rfl⟩))]
        rw [e0]
        have hb := hexToBytes_iff ('0' :: 'x' :: t) b
        constructor
        · rintro ⟨v, hv, e⟩
          cases hv
          obtain ⟨u, hu, hh⟩ := hb.mp e
          rw [body_unique hu (.inl rfl)] at hh
          exact .inr ⟨t, rfl, hh⟩
        · rintro (⟨e, -⟩ | ⟨u, e, hh⟩)
          · cases e
          · cases e; exact ⟨_, rfl, hb.mpr ⟨t, .inl rfl, hh⟩⟩
      · constructor
        · rintro ⟨w, hw, e⟩
          unfold normalized at hw
          dsimp only at hw
          rw [if_neg (by rw [hasHexPrefix_iff]; exact fun e => e.elim hv h)] at hw
          split at hw
          · cases hw
          · cases hw
            obtain ⟨u, hu, hh, -⟩ := (hexToBytes_iff _ b).mp e
            rw [Option.getD_some] at hu
            rw [body_unique hu (.inl rfl)] at hh
            exact (numeral_not_x hh).elim
        · rintro (⟨e, -⟩ | ⟨t, e, -⟩)
          · exact absurd e hv
          · exact absurd ⟨t, e⟩ h

theorem accountOfJson_iff (d : AccountData) (acc : Account) :
    accountOfJson d = some acc ↔ ToolNumber (d.nonce.getD ['0', 'x', '0']) acc.nonce ∧ ToolNumber (d.balance.getD ['0', 'x', '0']) acc.balance.toNat ∧
      ((d.code.getD [] = [] ∧ acc.code = []) ∨ ∃ t, d.code.getD [] = '0' :: 'x' :: t ∧ Numeral 16 t ∧
        t.length = 2 * acc.code.length ∧ fromBE acc.code = numeralValue 16 t) := by
  rw [← toolNumber_opt, ← toolNumber_opt, ← toolCode_opt]
  unfold accountOfJson
  simp only [Option.bind_eq_bind, Option.bind_eq_some_iff, bounded_iff]
  constructor
  · rintro ⟨n, hn, b, hb, c, hc, n', hn', b', ⟨hb', hlt⟩, c', hc', e⟩
    cases e
    refine ⟨⟨n, hn, hn'⟩, ⟨b, hb, ?_⟩, ⟨c, hc, hc'⟩⟩
    dsimp only
    rw [BitVec.toNat_ofNat, Nat.mod_eq_of_lt hlt]; exact hb'
  · rintro ⟨⟨n, hn, hn'⟩, ⟨b, hb, hb'⟩, ⟨c, hc, hc'⟩⟩
    refine ⟨n, hn, b, hb, c, hc, _, hn', _, ⟨hb', acc.balance.isLt⟩, _, hc', ?_⟩
    rw [BitVec.ofNat_toNat, BitVec.setWidth_eq]
    rfl

attribute [local irreducible] toBE in
theorem hexWord_iff (v : Str) (x : Word) : (∃ b, hexToBytes32 v = some b ∧ x = BitVec.ofNat 256 (fromBE b)) ↔ HexWord v x := by
  unfold HexWord
  simp only [bytes32_iff]
  constructor
  · rintro ⟨b, ⟨t, t1, t2, t3, rfl⟩, rfl⟩
    obtain ⟨e1, e2⟩ := key_padded t2 t3
    exact ⟨t, t1, t2, t3, by rw [BitVec.toNat_ofNat, e1, Nat.mod_eq_of_lt e2]⟩
  · rintro ⟨t, t1, t2, t3, h⟩
    obtain ⟨e1, -⟩ := key_padded t2 t3
    exact ⟨_, ⟨t, t1, t2, t3, rfl⟩, by rw [e1, ← h, BitVec.ofNat_toNat, BitVec.setWidth_eq]⟩

theorem slotsOfJson_iff (a : Address) (l : List (Str × Str)) : ∀ (s s' : State), accountExists s a = true →
    (slotsOfJson s a l = some s' ↔ ∃ ys, Matched (fun y z => HexWord y.1 z.1 ∧ HexWord y.2 z.2) l ys ∧ s' = writeSlots s a ys) := by
  induction l with
  | nil =>
    intro s s' _
    constructor
    · intro h; cases h; exact ⟨[], .nil, rfl⟩
    · rintro ⟨ys, h, rfl⟩; cases h; rfl
  | cons e r ih =>
    intro s s' hs
    obtain ⟨key, value⟩ := e
    have hset : ∀ k v, setStorage s a k v = .ok { s with storageTries := triesSet s.storageTries a k v } := by
      intro k v
      unfold setStorage
      unfold accountExists at hs
      match h : getAccountOptional s a with
      | none => rw [h] at hs; cases hs
      | some _ => rfl
    unfold slotsOfJson
    simp only [Option.bind_eq_bind, Option.bind_eq_some_iff, hset]
    have ih' := fun k v => ih { s with storageTries := triesSet s.storageTries a k v } s' hs
    constructor
    · rintro ⟨k, hk, v, hv, h⟩
      obtain ⟨ys, h1, h2⟩ := (ih' _ _).mp h
      exact ⟨(_, _) :: ys, .cons ⟨(hexWord_iff _ _).mp ⟨k, hk, rfl⟩, (hexWord_iff _ _).mp ⟨v, hv, rfl⟩⟩ h1, h2⟩
    · rintro ⟨ys, h, rfl⟩
      cases h with
      | cons h t =>
        rename_i y m
        obtain ⟨k, hk, e1⟩ := (hexWord_iff _ _).mpr h.1
        obtain ⟨v, hv, e2⟩ := (hexWord_iff _ _).mpr h.2
        refine ⟨k, hk, v, hv, (ih' _ _).mpr ⟨m, t, ?_⟩⟩
        rw [← e1, ← e2]
        rfl

attribute [local irreducible] toBE in
theorem jsonToState_iff (l : List (Str × AccountData)) : ∀ (s s' : State),
    jsonToState s l = some s' ↔ ∃ xs, Matched AllocDenotes l xs ∧ (s.fork.since .paris = true → ∀ x ∈ xs, x.account ≠ ⟨0, 0, []⟩) ∧ s' = allot s xs := by
  induction l with
  | nil =>
    intro s s'
    constructor
    · intro h; cases h; exact ⟨[], .nil, (fun _ _ h => by cases h), rfl⟩
    · rintro ⟨ys, h, -, rfl⟩; cases h; rfl
  | cons e r ih =>
    intro s s'
    obtain ⟨hexAddress, data⟩ := e
    have hex : ∀ (a : Address) (acc : Account), accountExists (setAccount s a (some acc)) a = true := by
      intro a acc
      unfold accountExists
      rw [getAccountOptional_setAccount, if_pos rfl]; rfl
    unfold jsonToState
    simp only [Option.bind_eq_bind, Option.bind_eq_some_iff, address_iff, accountOfJson_iff]
    constructor
    · rintro ⟨b, ⟨t, t1, t2, t3, hk⟩, acc, ⟨h1, h2, h3⟩, h⟩
      by_cases hemp : s.fork.since .paris = true ∧ acc = emptyAccount
      · rw [if_pos hemp] at h; cases h
      rw [if_neg hemp] at h
      obtain ⟨s1, hs, h⟩ := Option.bind_eq_some_iff.mp h
      rw [hk] at hs
      obtain ⟨ys, y1, rfl⟩ := (slotsOfJson_iff _ _ _ _ (hex _ _)).mp hs
      obtain ⟨xs, x1, x2, rfl⟩ := (ih _ _).mp h
      obtain ⟨e1, e2⟩ := address_padded t2 t3
      refine ⟨⟨BitVec.ofNat 160 (fromBE (toBE 20 (numeralValue 16 t))), acc, ys⟩ :: xs, .cons ⟨⟨t, t1, t2, t3, ?_⟩, h1, h2, h3, y1⟩ x1, ?_, rfl⟩
      · dsimp only; rw [BitVec.toNat_ofNat, e1, Nat.mod_eq_of_lt e2]
      · intro hp x hx
        rcases List.mem_cons.mp hx with rfl | hx
        · exact fun e => hemp ⟨hp, e⟩
        · rw [(writeSlots_fields _ _ _).2.2.2] at x2
          exact x2 hp x hx
    · rintro ⟨ys, h, hp, rfl⟩
      cases h with
      | cons h t =>
        rename_i x m
        obtain ⟨u, u1, u2, u3, u4⟩ := h.address
        obtain ⟨e1, e2⟩ := address_padded u2 u3
        refine ⟨_, ⟨u, u1, u2, u3, rfl⟩, x.account, ⟨h.nonce, h.balance, h.code⟩, ?_⟩
        rw [if_neg (fun e => hp e.1 x List.mem_cons_self e.2), e1, ← u4, BitVec.ofNat_toNat, BitVec.setWidth_eq]
        refine Option.bind_eq_some_iff.mpr ⟨_, (slotsOfJson_iff _ _ _ _ (hex _ _)).mpr ⟨x.slots, h.slots, rfl⟩, (ih _ _).mpr ⟨m, t, ?_, rfl⟩⟩
        rw [(writeSlots_fields _ _ _).2.2.2]
        exact fun hq y hy => hp hq y (List.mem_cons_of_mem _ hy)

/-! ### What is written -/

/-- The accounts and the slots of a state. -/
def allotmentOf (s : State) (a : Address) (acc : Account) : Allotment :=
  ⟨a, acc, match s.storageTries.get? a with
    | some t => t.data.entries
    | none => []⟩

def allotmentsOf (s : State) : List (Address × Option Account) → List Allotment
  | [] => []
  | (_, none) :: r => allotmentsOf s r
  | (a, some acc) :: r => allotmentOf s a acc :: allotmentsOf s r

theorem accountToJson_denotes (s : State) (a : Address) (acc : Account) : AllocDenotes (accountToJson s a acc) (allotmentOf s a acc) := by
  have hnum : ∀ (n : Nat) (p : Prop) [Decidable p], (¬ p → n = 0) → ToolNumber ((if p then some (hex n) else none).getD ['0', 'x', '0']) n := by
    intro n p _ h
    by_cases hp : p
    · rw [if_pos hp]; exact .inl (hex_amount n)
    · rw [if_neg hp, h hp]; exact .inl (hex_amount 0)
  refine ⟨?_, ?_, ?_, ?_, ?_⟩
  · obtain ⟨b1, b2, b3⟩ := bytesHex_spec (addressBytes a)
    refine ⟨_, .inl rfl, b1, by rw [b2, addressBytes_length], ?_⟩
    rw [← b3]; exact (fromBE_addressBytes a).symm
  · exact hnum _ _ fun h => Decidable.not_not.mp h
  · refine hnum _ _ fun h => ?_
    have := Decidable.not_not.mp h
    show acc.balance.toNat = 0
    rw [this]; rfl
  · show (((if acc.code ≠ [] then some ('0' :: 'x' :: bytesHex acc.code) else none : Option Str).getD [] = [] ∧ acc.code = []) ∨ _)
    by_cases hc : acc.code = []
    · exact .inl ⟨by rw [if_neg (fun h => h hc)]; rfl, hc⟩
    · obtain ⟨b1, b2, b3⟩ := bytesHex_spec acc.code
      exact .inr ⟨bytesHex acc.code, by show ((if acc.code ≠ [] then some ('0' :: 'x' :: bytesHex acc.code) else none : Option Str)).getD [] = _
                                        rw [if_pos hc]; rfl, b1, b2, b3⟩
  · have hm : ∀ l : List (Word × Word), Matched (fun y z => HexWord y.1 z.1 ∧ HexWord y.2 z.2)
        (l.map fun e => ('0' :: 'x' :: bytesHex (wordBytes e.1), hex e.2.toNat)) l := by
      intro l
      induction l with
      | nil => exact .nil
      | cons e r ih =>
        refine .cons ⟨?_, hex_word e.2⟩ ih
        obtain ⟨b1, b2, b3⟩ := bytesHex_spec (wordBytes e.1)
        refine ⟨_, .inl rfl, b1, by rw [b2, wordBytes_length], ?_⟩
        rw [← b3]; exact (fromBE_wordBytes e.1).symm
    unfold accountToJson allotmentOf
    dsimp only
    split
    · rename_i t e
      simp only [e]
      exact hm _
    · rename_i e
      simp only [e]
      exact .nil

theorem accountsToJson_spec (s : State) : ∀ es : List (Address × Option Account), (∀ e ∈ es, e.2 ≠ none) →
    ∃ l, accountsToJson s es = some l ∧ Matched AllocDenotes l (allotmentsOf s es) := by
  intro es
  induction es with
  | nil => intro _; exact ⟨[], rfl, .nil⟩
  | cons e r ih =>
    intro h
    obtain ⟨l, h1, h2⟩ := ih fun e he => h e (List.mem_cons_of_mem _ he)
    match e, h e List.mem_cons_self with
    | (a, none), h0 => exact absurd rfl h0
    | (a, some acc), _ =>
      exact ⟨accountToJson s a acc :: l, by rw [accountsToJson, h1], .cons (accountToJson_denotes s a acc) h2⟩

theorem mem_allotmentsOf (s : State) (x : Allotment) : ∀ es : List (Address × Option Account),
    x ∈ allotmentsOf s es ↔ ∃ a acc, (a, some acc) ∈ es ∧ x = allotmentOf s a acc := by
  intro es
  induction es with
  | nil => simp [allotmentsOf]
  | cons e r ih =>
    match e with
    | (a, none) => rw [allotmentsOf, ih]; simp
    | (a, some acc) =>
      rw [allotmentsOf, List.mem_cons, ih]
      simp only [List.mem_cons, Prod.mk.injEq, Option.some.injEq]
      constructor
      · rintro (rfl | ⟨b, acc', h, rfl⟩)
        · exact ⟨a, acc, .inl ⟨rfl, rfl⟩, rfl⟩
        · exact ⟨b, acc', .inr h, rfl⟩
      · rintro ⟨b, acc', ⟨rfl, rfl⟩ | h, rfl⟩
        · exact .inl rfl
        · exact .inr ⟨b, acc', h, rfl⟩

theorem allotted_of {s : State} (hw : MainWF s.mainTrie) (a : Address) : allotted (allotmentsOf s s.mainTrie.data.entries) a = getAccountOptional s a := by
  have hget : ∀ b acc, (b, some acc) ∈ s.mainTrie.data.entries → getAccountOptional s b = some acc := by
    intro b acc h
    unfold getAccountOptional trieGet
    rw [(Dict.mem_iff _ _ _).mp h]; rfl
  unfold allotted
  match h : (allotmentsOf s s.mainTrie.data.entries).reverse.find? fun x => x.address = a with
  | some x =>
    obtain ⟨b, acc, hm, rfl⟩ := (mem_allotmentsOf s x _).mp (List.mem_reverse.mp (List.mem_of_find?_eq_some h))
    have hb : b = a := by
      have := List.find?_some h
      exact of_decide_eq_true this
    subst hb
    rw [h, hget b acc hm]; rfl
  | none =>
    rw [h]
    match hg : getAccountOptional s a with
    | none => rfl
    | some acc =>
      exfalso
      have hm : (a, some acc) ∈ s.mainTrie.data.entries := by
        rw [Dict.mem_iff]
        unfold getAccountOptional trieGet at hg
        match hq : s.mainTrie.data.get? a with
        | none => rw [hq, hw.1] at hg; cases hg
        | some v => rw [hq] at hg; exact congrArg some hg
      have := List.find?_eq_none.mp h (allotmentOf s a acc) (List.mem_reverse.mpr ((mem_allotmentsOf s _ _).mpr ⟨a, acc, hm, rfl⟩))
      simp [allotmentOf] at this

theorem written_of {s : State} (hw : s.WF) (ho : ∀ a k, getAccountOptional s a = none → getStorage s a k = 0) (a : Address) (k : Word) :
    written (writes (allotmentsOf s s.mainTrie.data.entries)) a k = getStorage s a k := by
  have hget : ∀ t b v, s.storageTries.get? a = some t → (b, v) ∈ t.data.entries → getStorage s a b = v := by
    intro t b v ht h
    unfold getStorage triesGet
    rw [ht]
    unfold trieGet
    dsimp only
    rw [(Dict.mem_iff _ _ _).mp h]; rfl
  unfold written
  match h : (writes (allotmentsOf s s.mainTrie.data.entries)).reverse.find? fun w => w.1 = a ∧ w.2.1 = k with
  | some w =>
    have hm := List.mem_reverse.mp (List.mem_of_find?_eq_some h)
    have hc : w.1 = a ∧ w.2.1 = k := by simpa using List.find?_some h
    rw [h]
    obtain ⟨x, hx, hw'⟩ := List.mem_flatMap.mp hm
    obtain ⟨y, hy, rfl⟩ := List.mem_map.mp hw'
    obtain ⟨b, acc, hb, rfl⟩ := (mem_allotmentsOf s x _).mp hx
    obtain ⟨rfl, rfl⟩ := hc
    dsimp only [allotmentOf] at hget hy ⊢
    match ht : s.storageTries.get? b with
    | none => rw [ht] at hy; cases hy
    | some t =>
      rw [ht] at hy
      exact (hget t y.1 y.2 ht hy).symm
  | none =>
    rw [h]
    match hg : getAccountOptional s a with
    | none => exact (ho a k hg).symm
    | some acc =>
      have hm : (a, some acc) ∈ s.mainTrie.data.entries := by
        rw [Dict.mem_iff]
        unfold getAccountOptional trieGet at hg
        match hq : s.mainTrie.data.get? a with
        | none => rw [hq, hw.main.1] at hg; cases hg
        | some v => rw [hq] at hg; exact congrArg some hg
      show 0 = getStorage s a k
      unfold getStorage triesGet
      match ht : s.storageTries.get? a with
      | none => rfl
      | some t =>
        dsimp only
        unfold trieGet
        match hq : t.data.get? k with
        | none => exact (hw.storage a t ht).1.symm
        | some v =>
          exfalso
          have hx : allotmentOf s a acc ∈ allotmentsOf s s.mainTrie.data.entries := (mem_allotmentsOf s _ _).mpr ⟨a, acc, hm, rfl⟩
          have : (a, (k, v)) ∈ writes (allotmentsOf s s.mainTrie.data.entries) := by
            refine List.mem_flatMap.mpr ⟨_, hx, List.mem_map.mpr ⟨(k, v), ?_, rfl⟩⟩
            dsimp only [allotmentOf]
            rw [ht]
            exact (Dict.mem_iff _ _ _).mpr hq
          have := List.find?_eq_none.mp h _ (List.mem_reverse.mpr this)
          simp at this

theorem allot_secured (xs : List Allotment) : ∀ {s : State}, Secured s → Secured (allot s xs) := by
  have hslots : ∀ (a : Address) (ys : List (Word × Word)) {s : State}, Secured s → Secured (writeSlots s a ys) := by
    intro a ys
    induction ys with
    | nil => intro s h; exact h
    | cons y r ih =>
      intro s h
      refine ih ⟨h.main, ?_⟩
      have he : setStorage (setAccount s a (some emptyAccount)) a y.1 y.2 =
          .ok { setAccount s a (some emptyAccount) with storageTries := triesSet s.storageTries a y.1 y.2 } := by
        unfold setStorage
        rw [getAccountOptional_setAccount, if_pos rfl]
        rfl
      exact (Secured.setStorage (Secured.setAccount h a (some emptyAccount)) he).storage
  induction xs with
  | nil => intro s h; exact h
  | cons x r ih => intro s h; exact ih (hslots _ _ (Secured.setAccount h _ _))

end Verif
