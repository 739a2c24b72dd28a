import Verif.Spec.Allocation
import Verif.Lemmas.Hex
import Verif.Lemmas.RootTotal
import Verif.Lemmas.Dao
/-! Lemmas on the genesis state. -/
namespace Verif
open Spec Hex Genesis

theorem body_exists (s : Str) : ∃ t, Body s t := by
  by_cases h : ∃ t, s = '0' :: 'x' :: t
  · obtain ⟨t, rfl⟩ := h; exact ⟨t, .inl rfl⟩
  · exact ⟨s, .inr ⟨rfl, fun t e => h ⟨t, e⟩⟩⟩

theorem body_unique {s t u : Str} (h : Body s t) (h' : Body s u) : t = u := by
  rw [← removeHexPrefix_body h, removeHexPrefix_body h']

theorem address_iff (s : Str) (b : Bytes) :
    hexToAddress s = some b ↔ ∃ t, Body s t ∧ Numeral 16 t ∧ t.length ≤ 40 ∧ b = toBE 20 (numeralValue 16 t) := by
  obtain ⟨t, ht⟩ := body_exists s
  unfold hexToAddress
  rw [removeHexPrefix_body ht, padded_iff 20 t b]
  constructor
  · intro h; exact ⟨t, ht, h⟩
  · rintro ⟨u, hu, h⟩; rw [body_unique ht hu]; exact h

theorem bytes32_iff (s : Str) (b : Bytes) :
    hexToBytes32 s = some b ↔ ∃ t, Body s t ∧ Numeral 16 t ∧ t.length ≤ 64 ∧ b = toBE 32 (numeralValue 16 t) := by
  obtain ⟨t, ht⟩ := body_exists s
  unfold hexToBytes32
  rw [removeHexPrefix_body ht, padded_iff 32 t b]
  constructor
  · intro h; exact ⟨t, ht, h⟩
  · rintro ⟨u, hu, h⟩; rw [body_unique ht hu]; exact h

theorem hexToBytes_iff (s : Str) (b : Bytes) :
    hexToBytes s = some b ↔ ∃ t, Body s t ∧ Numeral 16 t ∧ t.length = 2 * b.length ∧ fromBE b = numeralValue 16 t := by
  obtain ⟨t, ht⟩ := body_exists s
  unfold hexToBytes
  rw [removeHexPrefix_body ht, fromHex_iff t b]
  constructor
  · intro h; exact ⟨t, ht, h⟩
  · rintro ⟨u, hu, h⟩; rw [body_unique ht hu]; exact h

theorem hexToU256_iff (s : Str) (n : Nat) : hexToU256 s = some n ↔ HexNumber s n ∧ n < 2 ^ 256 := by
  obtain ⟨t, ht⟩ := body_exists s
  unfold hexToU256
  rw [bounded_iff, removeHexPrefix_body ht, int_iff (by decide)]
  constructor
  · rintro ⟨⟨a, b, c⟩, d⟩; exact ⟨⟨t, ht, a, b, c⟩, d⟩
  · rintro ⟨⟨u, hu, h⟩, d⟩; rw [body_unique ht hu]; exact ⟨h, d⟩

theorem amount_iff (s : Str) (n : Nat) : hexOrBase10StrToU256 s = some n ↔ Amount s n ∧ n < 2 ^ 256 := by
  unfold hexOrBase10StrToU256 Amount
  by_cases h : ∃ t, s = '0' :: 'x' :: t
  · obtain ⟨t, rfl⟩ := h
    rw [if_pos ((hasHexPrefix_iff _).mpr ⟨t, rfl⟩), hexToU256_iff]
    constructor
    · rintro ⟨⟨u, hu, h⟩, d⟩
      have := body_unique hu (.inl rfl : Body ('0' :: 'x' :: t) t)
      subst this
      exact ⟨.inl ⟨u, rfl, h⟩, d⟩
    · rintro ⟨⟨u, e, h⟩ | ⟨h, -⟩, d⟩
      · cases e; exact ⟨⟨t, .inl rfl, h⟩, d⟩
      · exact absurd rfl (h t)
  · have h' : ∀ t, s ≠ '0' :: 'x' :: t := fun t e => h ⟨t, e⟩
    rw [if_neg (by rw [hasHexPrefix_iff]; exact h), bounded_iff, int_iff (by decide)]
    constructor
    · rintro ⟨a, d⟩; exact ⟨.inr ⟨h', a⟩, d⟩
    · rintro ⟨⟨t, e, -⟩ | ⟨-, a⟩, d⟩
      · exact absurd e (h' t)
      · exact ⟨a, d⟩

theorem fromBE_padded {n : Nat} {t : Str} (h : Numeral 16 t) (hl : t.length ≤ 2 * n) : fromBE (toBE n (numeralValue 16 t)) = numeralValue 16 t ∧
    numeralValue 16 t < 2 ^ (8 * n) := by
  have h3 := numeral_lt h
  have h4 : 16 ^ t.length ≤ 16 ^ (2 * n) := Nat.pow_le_pow_right (by decide) hl
  rw [Nat.pow_mul] at h4
  rw [fromBE_toBE, Nat.pow_mul]
  exact ⟨Nat.mod_eq_of_lt (Nat.lt_of_lt_of_le h3 h4), Nat.lt_of_lt_of_le h3 h4⟩

theorem key_padded {t : Str} (h : Numeral 16 t) (hl : t.length ≤ 64) : fromBE (toBE 32 (numeralValue 16 t)) = numeralValue 16 t ∧
    numeralValue 16 t < 2 ^ 256 := fromBE_padded (n := 32) h hl

theorem address_padded {t : Str} (h : Numeral 16 t) (hl : t.length ≤ 40) : fromBE (toBE 20 (numeralValue 16 t)) = numeralValue 16 t ∧
    numeralValue 16 t < 2 ^ 160 := fromBE_padded (n := 20) h hl

attribute [local irreducible] toBE in
theorem accountOf_iff (d : AccountData) (acc : Account) :
    accountOf d = some acc ↔
      (d.nonce.getD ['0'] ≠ [] ∧ Numeral 10 (d.nonce.getD ['0']) ∧ acc.nonce = numeralValue 10 (d.nonce.getD ['0'])) ∧
      (∃ b, d.balance = some b ∧ Amount b acc.balance.toNat) ∧
      (∃ t, Body (d.code.getD ['0', 'x']) t ∧ Numeral 16 t ∧ t.length = 2 * acc.code.length ∧ fromBE acc.code = numeralValue 16 t) := by
  unfold accountOf
  simp only [Option.bind_eq_bind, Option.bind_eq_some_iff, int_iff (show 10 ≤ 16 by decide), amount_iff, hexToBytes_iff]
  constructor
  · rintro ⟨n, hn, b, hb, v, hv, c, hc, e⟩
    cases e
    refine ⟨hn, ⟨b, hb, ?_⟩, hc⟩
    dsimp only
    rw [BitVec.toNat_ofNat, Nat.mod_eq_of_lt hv.2]; exact hv.1
  · rintro ⟨hn, ⟨b, hb, hv⟩, hc⟩
    refine ⟨_, hn, b, hb, _, ⟨hv, acc.balance.isLt⟩, _, hc, ?_⟩
    rw [BitVec.ofNat_toNat, BitVec.setWidth_eq]
    rfl

/-- The state after writing slots of one account. -/
def writeSlots (s : State) (a : Address) : List (Word × Word) → State
  | [] => s
  | (k, v) :: r => writeSlots { s with storageTries := triesSet s.storageTries a k v } a r

/-- The state after the allotments. -/
def allot (s : State) : List Allotment → State
  | [] => s
  | x :: r => allot (writeSlots (setAccount s x.address (some x.account)) x.address x.slots) r

attribute [local irreducible] toBE in
theorem addSlots_iff (a : Address) (l : List (Str × Str)) : ∀ (s s' : State), accountExists s a = true →
    (addSlots s a l = some s' ↔ ∃ ys, Matched SlotDenotes l ys ∧ s' = writeSlots s a ys) := by
  induction l with
  | nil =>
    intro s s' _
    constructor
    · intro h; cases h; exact ⟨[], .nil, rfl⟩
    · rintro ⟨ys, h, rfl⟩; cases h; rfl
  | cons e r ih =>
    intro s s' hs
    obtain ⟨key, value⟩ := e
    have hset : ∀ k v, setStorage s a k v = .ok { s with storageTries := triesSet s.storageTries a k v } := by
      intro k v
      unfold setStorage
      unfold accountExists at hs
      match h : getAccountOptional s a with
      | none => rw [h] at hs; cases hs
      | some _ => rfl
    unfold addSlots
    simp only [Option.bind_eq_bind, Option.bind_eq_some_iff, hset, bytes32_iff, hexToU256_iff]
    have ih' := fun k v => ih { s with storageTries := triesSet s.storageTries a k v } s' hs
    constructor
    · rintro ⟨k, ⟨t, t1, t2, t3, hk⟩, v, ⟨hv, hlt⟩, h⟩
      rw [hk] at h
      obtain ⟨ys, h1, h2⟩ := (ih' _ _).mp h
      obtain ⟨e1, e2⟩ := key_padded t2 t3
      refine ⟨(BitVec.ofNat 256 (fromBE (toBE 32 (numeralValue 16 t))), BitVec.ofNat 256 v) :: ys, .cons ⟨⟨t, t1, t2, t3, ?_⟩, ?_⟩ h1, h2⟩
      · dsimp only; rw [BitVec.toNat_ofNat, e1, Nat.mod_eq_of_lt e2]
      · dsimp only; rw [BitVec.toNat_ofNat, Nat.mod_eq_of_lt hlt]; exact hv
    · rintro ⟨ys, h, rfl⟩
      cases h with
      | cons h t =>
        rename_i y m
        obtain ⟨⟨u, u1, u2, u3, u4⟩, hv⟩ := h
        obtain ⟨e1, e2⟩ := key_padded u2 u3
        refine ⟨_, ⟨u, u1, u2, u3, rfl⟩, _, ⟨hv, y.2.isLt⟩, (ih' _ _).mpr ⟨m, t, ?_⟩⟩
        rw [e1, ← u4, BitVec.ofNat_toNat, BitVec.setWidth_eq, BitVec.ofNat_toNat, BitVec.setWidth_eq]
        rfl

theorem writeSlots_fields (a : Address) (ys : List (Word × Word)) : ∀ s : State, (writeSlots s a ys).mainTrie = s.mainTrie ∧
    (writeSlots s a ys).snapshots = s.snapshots ∧ (writeSlots s a ys).createdAccounts = s.createdAccounts ∧
    (writeSlots s a ys).fork = s.fork := by
  induction ys with
  | nil => intro s; exact ⟨rfl, rfl, rfl, rfl⟩
  | cons y r ih => intro s; exact ih _

attribute [local irreducible] toBE in
theorem addAccounts_iff (l : List (Str × AccountData)) : ∀ (s s' : State),
    addAccounts s l = some s' ↔ ∃ xs, Matched Denotes l xs ∧ s' = allot s xs := by
  induction l with
  | nil =>
    intro s s'
    constructor
    · intro h; cases h; exact ⟨[], .nil, rfl⟩
    · rintro ⟨ys, h, rfl⟩; cases h; rfl
  | cons e r ih =>
    intro s s'
    obtain ⟨hexAddress, data⟩ := e
    have hex : ∀ (a : Address) (acc : Account), accountExists (setAccount s a (some acc)) a = true := by
      intro a acc
      unfold accountExists
      rw [getAccountOptional_setAccount, if_pos rfl]; rfl
    unfold addAccounts
    simp only [Option.bind_eq_bind, Option.bind_eq_some_iff, address_iff, accountOf_iff]
    constructor
    · rintro ⟨b, ⟨t, t1, t2, t3, hk⟩, acc, ⟨h1, h2, h3⟩, s1, hs, h⟩
      rw [hk] at hs
      obtain ⟨ys, y1, rfl⟩ := (addSlots_iff _ _ _ _ (hex _ _)).mp hs
      obtain ⟨xs, x1, rfl⟩ := (ih _ _).mp h
      obtain ⟨e1, e2⟩ := address_padded t2 t3
      refine ⟨⟨BitVec.ofNat 160 (fromBE (toBE 20 (numeralValue 16 t))), acc, ys⟩ :: xs, .cons ⟨⟨t, t1, t2, t3, ?_⟩, h1, h2, h3, y1⟩ x1, rfl⟩
      dsimp only; rw [BitVec.toNat_ofNat, e1, Nat.mod_eq_of_lt e2]
    · rintro ⟨ys, h, rfl⟩
      cases h with
      | cons h t =>
        rename_i x m
        obtain ⟨u, u1, u2, u3, u4⟩ := h.address
        obtain ⟨e1, e2⟩ := address_padded u2 u3
        refine ⟨_, ⟨u, u1, u2, u3, rfl⟩, x.account, ⟨h.nonce, h.balance, h.code⟩, _, ?_, (ih _ _).mpr ⟨m, t, rfl⟩⟩
        rw [e1, ← u4, BitVec.ofNat_toNat, BitVec.setWidth_eq]
        exact (addSlots_iff _ _ _ _ (hex _ _)).mpr ⟨x.slots, h.slots, rfl⟩

/-! ### The state described by the allotments -/

theorem writeSlots_wf (a : Address) (ys : List (Word × Word)) : ∀ {s : State}, s.WF → (writeSlots s a ys).WF := by
  induction ys with
  | nil => intro s h; exact h
  | cons y r ih => intro s h; exact ih ⟨h.main, TriesWF.set h.storage _ _ _, h.snaps⟩

theorem writeSlots_get (a : Address) (ys : List (Word × Word)) : ∀ {s : State}, s.WF → ∀ x k,
    getStorage (writeSlots s a ys) x k =
      (((ys.map fun y => (a, y)).reverse.find? fun w => w.1 = x ∧ w.2.1 = k).map (·.2.2)).getD (getStorage s x k) := by
  induction ys with
  | nil => intro s _ x k; rfl
  | cons y r ih =>
    intro s h x k
    obtain ⟨k', v⟩ := y
    have h1 : State.WF { s with storageTries := triesSet s.storageTries a k' v } := ⟨h.main, TriesWF.set h.storage _ _ _, h.snaps⟩
    rw [writeSlots, ih h1, List.map_cons, List.reverse_cons, List.find?_append]
    have h2 : getStorage { s with storageTries := triesSet s.storageTries a k' v } x k = if a = x ∧ k' = k then v else getStorage s x k :=
      triesGet_triesSet h.storage a k' v x k
    rw [h2]
    cases hf : ((r.map fun y => (a, y)).reverse.find? fun w => w.1 = x ∧ w.2.1 = k) with
    | some z => rfl
    | none =>
      simp only [Option.none_or, List.find?_cons, List.find?_nil, Option.map_none, Option.getD_none]
      by_cases hc : a = x ∧ k' = k
      · rw [if_pos hc]; simp [hc]
      · rw [if_neg hc]; simp [hc]

theorem allot_quiet (xs : List Allotment) : ∀ {s : State}, s.WF → (allot s xs).WF ∧ (allot s xs).snapshots = s.snapshots ∧
    (allot s xs).createdAccounts = s.createdAccounts ∧ (allot s xs).fork = s.fork := by
  induction xs with
  | nil => intro s h; exact ⟨h, rfl, rfl, rfl⟩
  | cons x r ih =>
    intro s h
    obtain ⟨a1, a2, a3, a4⟩ := ih (writeSlots_wf x.address x.slots (h.setAccount x.address (some x.account)))
    obtain ⟨-, b2, b3, b4⟩ := writeSlots_fields x.address x.slots (setAccount s x.address (some x.account))
    exact ⟨a1, a2.trans b2, a3.trans b3, a4.trans b4⟩

theorem allot_account (xs : List Allotment) : ∀ (s : State) (a : Address),
    getAccountOptional (allot s xs) a = (allotted xs a).or (getAccountOptional s a) := by
  induction xs with
  | nil => intro s a; rfl
  | cons x r ih =>
    intro s a
    rw [allot, ih]
    have h1 : getAccountOptional (writeSlots (setAccount s x.address (some x.account)) x.address x.slots) a =
        if x.address = a then some x.account else getAccountOptional s a := by
      rw [← getAccountOptional_setAccount]
      unfold getAccountOptional
      rw [(writeSlots_fields x.address x.slots _).1]
    rw [h1]
    unfold allotted
    rw [List.reverse_cons, List.find?_append]
    cases hf : r.reverse.find? fun x => x.address = a with
    | some z => rfl
    | none =>
      by_cases hc : x.address = a <;> simp [hc]

theorem allot_storage (xs : List Allotment) : ∀ {s : State}, s.WF → ∀ a k,
    getStorage (allot s xs) a k =
      (((writes xs).reverse.find? fun w => w.1 = a ∧ w.2.1 = k).map (·.2.2)).getD (getStorage s a k) := by
  induction xs with
  | nil => intro s _ a k; rfl
  | cons x r ih =>
    intro s h a k
    have h0 := h.setAccount x.address (some x.account)
    rw [allot, ih (writeSlots_wf x.address x.slots h0), writeSlots_get _ _ h0]
    have e : writes (x :: r) = (x.slots.map fun y => (x.address, y)) ++ writes r := by
      unfold writes; rw [List.flatMap_cons]
    rw [e, List.reverse_append, List.find?_append]
    cases hf : ((writes r).reverse.find? fun w => w.1 = a ∧ w.2.1 = k) with
    | some z => rfl
    | none => rfl

theorem supply_mainTrie {s s' : State} (h : s.mainTrie = s'.mainTrie) : supply s = supply s' := by unfold supply; rw [h]

theorem allot_supply (xs : List Allotment) : ∀ {s : State}, s.WF →
    supply (allot s xs) ≤ supply s + (xs.map fun x => x.account.balance.toNat).sum ∧
    ((xs.map (·.address)).Nodup → (∀ x ∈ xs, getAccountOptional s x.address = none) →
      supply (allot s xs) = supply s + (xs.map fun x => x.account.balance.toNat).sum) := by
  induction xs with
  | nil => intro s _; exact ⟨Nat.le_refl _, fun _ _ => rfl⟩
  | cons x r ih =>
    intro s h
    have h0 := h.setAccount x.address (some x.account)
    obtain ⟨i1, i2⟩ := ih (writeSlots_wf x.address x.slots h0)
    have hs := Dao.supply_set h.main.1 x.address x.account
    rw [supply_mainTrie (writeSlots_fields x.address x.slots _).1] at i1 i2
    rw [List.map_cons, List.sum_cons, List.map_cons, List.nodup_cons, allot]
    refine ⟨by omega, fun hn hx => ?_⟩
    have hb : (getAccount s x.address).balance.toNat = 0 := by
      unfold getAccount; rw [hx x List.mem_cons_self]; rfl
    have := i2 hn.2 fun y hy => by
      have hne : x.address ≠ y.address := fun e => hn.1 (e ▸ List.mem_map_of_mem hy)
      have : getAccountOptional (writeSlots (setAccount s x.address (some x.account)) x.address x.slots) y.address =
          getAccountOptional s y.address := by
        have h1 := getAccountOptional_setAccount s x.address (some x.account) y.address
        rw [if_neg hne] at h1
        rw [← h1]
        unfold getAccountOptional
        rw [(writeSlots_fields x.address x.slots _).1]
      rw [this]; exact hx y (List.mem_cons_of_mem _ hy)
    omega

end Verif
