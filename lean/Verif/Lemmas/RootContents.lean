import Verif.Lemmas.RootState
import Verif.Lemmas.ImportTotal
/-! The state root as a function of what can be read. -/
namespace Verif
open Spec Verif.Props

/-- No two keys of the account trie or of one storage trie have the same hash. -/
structure KeysDiffer (C : Crypto) (s : State) : Prop where
  accounts : ∀ a b, getAccountOptional s a ≠ none → getAccountOptional s b ≠ none →
    C.keccak256 (addressBytes a) = C.keccak256 (addressBytes b) → a = b
  slots : ∀ a k l, getStorage s a k ≠ 0 → getStorage s a l ≠ 0 → C.keccak256 (wordBytes k) = C.keccak256 (wordBytes l) → k = l

theorem keys_nodup {C : Crypto} {l : List (Bytes × Bytes)} (hn : (l.map Prod.fst).Nodup)
    (hc : ∀ e ∈ l, ∀ e' ∈ l, C.keccak256 e.1 = C.keccak256 e'.1 → e.1 = e'.1) : (l.map fun e => trieKey C true e.1).Nodup := by
  refine trieKeys_nodup hn fun x hx y hy h => ?_
  simp only [if_true, List.mem_map] at hx hy
  obtain ⟨e, he, rfl⟩ := hx
  obtain ⟨e', he', rfl⟩ := hy
  exact hc e he e' he' h

theorem storageRoot_eq {C : Crypto} {s : State} (h : Secured s) (a : Address) :
    storageRoot C s a = if s.storageTries.get? a = none then .ok EMPTY_TRIE_ROOT else trieRoot C true (entriesOf s a) := by
  unfold storageRoot entriesOf
  match e : s.storageTries.get? a with
  | none => rfl
  | some t => rw [if_neg (by simp)]; dsimp only; rw [h.storage a t e]

theorem noTrie_iff {s : State} (hs : s.WF) (a : Address) : s.storageTries.get? a = none ↔ ∀ k, getStorage s a k = 0 := by
  constructor
  · intro h k; unfold getStorage triesGet; rw [h]
  · intro h
    match e : s.storageTries.get? a with
    | none => rfl
    | some t =>
      obtain ⟨-, -, h3⟩ := hs.storage a t e
      have : ∃ k v, t.data.get? k = some v := by
        refine Classical.byContradiction fun hc => ?_
        have hn : ∀ k, t.data.get? k = none := by
          intro k
          match e' : t.data.get? k with
          | none => rfl
          | some v => exact absurd ⟨k, v, e'⟩ hc
        rw [(Dict.isEmpty_iff _).mpr hn] at h3
        cases h3
      obtain ⟨k, v, hk⟩ := this
      have := (triesGet_nonzero hs.storage e).mp hk
      exact absurd (this.1.symm.trans (h k)) this.2

theorem storageRoot_reads {C : Crypto} {s s' : State} (hs : s.WF) (hs' : s'.WF) (h : Secured s) (h' : Secured s') (hk : KeysDiffer C s)
    (hr : ∀ a k, getStorage s a k = getStorage s' a k) (a : Address) : storageRoot C s a = storageRoot C s' a := by
  rw [storageRoot_eq h, storageRoot_eq h']
  have h1 : s.storageTries.get? a = none ↔ s'.storageTries.get? a = none := by
    rw [noTrie_iff hs, noTrie_iff hs']
    exact ⟨fun h k => (hr a k).symm.trans (h k), fun h k => (hr a k).trans (h k)⟩
  have hp : (entriesOf s a).Perm (entriesOf s' a) := by
    rw [List.perm_ext_iff_of_nodup (nodup_of_keys (entriesOf_nodup s a)) (nodup_of_keys (entriesOf_nodup s' a))]
    intro e
    rw [mem_entriesOf hs, mem_entriesOf hs']
    simp only [hr a]
  by_cases hn : s.storageTries.get? a = none
  · rw [if_pos hn, if_pos (h1.mp hn)]
  · rw [if_neg hn, if_neg (fun x => hn (h1.mpr x))]
    refine trieRoot_perm (keys_nodup (entriesOf_nodup s a) fun e he e' he' hh => ?_) hp
    obtain ⟨k, hk1, rfl⟩ := (mem_entriesOf hs).mp he
    obtain ⟨l, hl1, rfl⟩ := (mem_entriesOf hs).mp he'
    dsimp only at hh ⊢
    rw [hk.slots a k l hk1 hl1 hh]

/-- The root of the storage of an account, as a word. -/
def rootOf (C : Crypto) (s : State) (a : Address) : Word :=
  match storageRoot C s a with
  | .ok r => r
  | .error _ => 0

theorem rootOf_spec (C : Crypto) (s : State) (a : Address) : storageRoot C s a = .ok (rootOf C s a) := by
  obtain ⟨r, h⟩ := storageRoot_total C s a
  unfold rootOf; rw [h]

/-- The encoded entry of one account. -/
def accountRow (C : Crypto) (s : State) (e : Address × Option Account) : Bytes × Bytes :=
  (addressBytes e.1, encodeAccount C (e.2.getD emptyAccount) (rootOf C s e.1))

theorem accountEntries_map (C : Crypto) (s : State) : ∀ l : List (Address × Option Account), (∀ e ∈ l, e.2 ≠ none) →
    accountEntries C s l = .ok (l.map (accountRow C s))
  | [], _ => rfl
  | (a, none) :: r, h => absurd rfl (h _ List.mem_cons_self)
  | (a, some acc) :: r, h => by
    rw [accountEntries, rootOf_spec, accountEntries_map C s r fun e he => h e (List.mem_cons_of_mem _ he)]
    rfl

theorem main_some {s : State} (hs : s.WF) : ∀ e ∈ s.mainTrie.data.entries, e.2 ≠ none := by
  rintro ⟨a, acc⟩ he
  have := hs.main.2 a acc ((Dict.mem_iff _ _ _).mp he)
  rw [hs.main.1] at this; exact this

theorem main_get {s : State} (hs : s.WF) {a : Address} {acc : Option Account} :
    s.mainTrie.data.get? a = some acc ↔ acc ≠ none ∧ getAccountOptional s a = acc := by
  unfold getAccountOptional trieGet
  rw [hs.main.1]
  constructor
  · intro h
    refine ⟨?_, by rw [h]; rfl⟩
    have := hs.main.2 a acc h
    rwa [hs.main.1] at this
  · rintro ⟨h1, h2⟩
    match e : s.mainTrie.data.get? a with
    | none => rw [e] at h2; exact absurd h2.symm h1
    | some x => rw [e] at h2; exact congrArg some h2

theorem mem_rows {C : Crypto} {s : State} (hs : s.WF) {e : Bytes × Bytes} :
    e ∈ s.mainTrie.data.entries.map (accountRow C s) ↔
      ∃ a acc, getAccountOptional s a = some acc ∧ e = (addressBytes a, encodeAccount C acc (rootOf C s a)) := by
  rw [List.mem_map]
  constructor
  · rintro ⟨⟨a, o⟩, hm, rfl⟩
    obtain ⟨h1, h2⟩ := (main_get hs).mp ((Dict.mem_iff _ _ _).mp hm)
    match o, h1, h2 with
    | none, h1, _ => exact absurd rfl h1
    | some acc, _, h2 => exact ⟨a, acc, h2, rfl⟩
  · rintro ⟨a, acc, h, rfl⟩
    exact ⟨(a, some acc), (Dict.mem_iff _ _ _).mpr ((main_get hs).mpr ⟨by simp, h⟩), rfl⟩

theorem rows_nodup (C : Crypto) (s : State) : ((s.mainTrie.data.entries.map (accountRow C s)).map Prod.fst).Nodup := by
  rw [List.map_map, List.nodup_iff_pairwise_ne, List.pairwise_map]
  have := s.mainTrie.data.nodup
  rw [List.nodup_iff_pairwise_ne, List.pairwise_map] at this
  exact this.imp fun h he => h (addressBytes_inj he)

theorem stateRoot_eq {C : Crypto} {s : State} (hs : s.WF) (h : Secured s) (hi : s.snapshots = []) :
    stateRoot C s = trieRoot C true (s.mainTrie.data.entries.map (accountRow C s)) := by
  unfold stateRoot
  rw [if_neg (fun hc => hc hi), accountEntries_map C s _ (main_some hs), h.main]

theorem stateRoot_reads {C : Crypto} {s s' : State} (hs : s.WF) (hs' : s'.WF) (h : Secured s) (h' : Secured s') (hi : s.snapshots = [])
    (hi' : s'.snapshots = []) (hk : KeysDiffer C s) (ha : ∀ a, getAccountOptional s a = getAccountOptional s' a)
    (hr : ∀ a k, getStorage s a k = getStorage s' a k) : stateRoot C s = stateRoot C s' := by
  rw [stateRoot_eq hs h hi, stateRoot_eq hs' h' hi']
  refine trieRoot_perm (keys_nodup (rows_nodup C s) fun e he e' he' hh => ?_) ?_
  · obtain ⟨a, x, hx, rfl⟩ := (mem_rows hs).mp he
    obtain ⟨b, y, hy, rfl⟩ := (mem_rows hs).mp he'
    dsimp only at hh ⊢
    rw [hk.accounts a b (by rw [hx]; simp) (by rw [hy]; simp) hh]
  · rw [List.perm_ext_iff_of_nodup (nodup_of_keys (rows_nodup C s)) (nodup_of_keys (rows_nodup C s'))]
    intro e
    rw [mem_rows hs, mem_rows hs']
    have hroot : ∀ a, rootOf C s a = rootOf C s' a := fun a => by
      have := storageRoot_reads hs hs' h h' hk hr a
      rw [rootOf_spec, rootOf_spec] at this
      exact Except.ok.inj this
    simp only [ha, hroot]

/-! ### The root determines the contents -/

/-- Nonces of a size that RLP can encode. -/
def NoncesFit (s : State) : Prop := ∀ a acc, getAccountOptional s a = some acc → acc.nonce < 2 ^ 64

theorem encode_ofNat_le {n : Nat} (h : n < 2 ^ 256) : (Rlp.encode (.ofNat n)).length ≤ 41 := by
  have h1 : (natBytes n).length ≤ 32 := by
    rw [natBytes_length]; exact byteLength_le (by omega)
  have := encodeBytes_le (natBytes n) (by omega)
  exact Nat.le_trans this (by omega)

theorem encodeAccount_le {C : Crypto} {acc : Account} {r : Word} (h : acc.nonce < 2 ^ 64) :
    (encodeAccount C acc r).length ≤ 157 := by
  have h1 := encode_ofNat_le (n := acc.nonce) (by omega)
  have h2 := encode_ofNat_le acc.balance.isLt
  have h3 := encode_word r
  have h4 := encode_word (C.keccak256 acc.code)
  have hs : (Rlp.encodeSeq [.ofNat acc.nonce, .ofNat acc.balance.toNat, .ofWord32 r, .ofWord32 (C.keccak256 acc.code)]).length ≤ 148 := by
    simp only [Rlp.encodeSeq, List.length_append, List.length_nil, Rlp.ofWord32]
    omega
  have := encodeList_le _ (Nat.lt_of_le_of_lt hs (by decide))
  unfold encodeAccount
  omega

theorem encodeAccount_inj {C : Crypto} {x y : Account} {r q : Word} (hx : x.nonce < 2 ^ 64) (hy : y.nonce < 2 ^ 64)
    (h : encodeAccount C x r = encodeAccount C y q) :
    x.nonce = y.nonce ∧ x.balance = y.balance ∧ r = q ∧ C.keccak256 x.code = C.keccak256 y.code := by
  have h1 := encodeAccount_le (C := C) (r := r) hx
  have h2 := encodeAccount_le (C := C) (r := q) hy
  unfold encodeAccount at h h1 h2
  have := Rlp.encode_inj (Rlp.small_of_length _ (Nat.lt_of_le_of_lt h1 (by decide))) (Rlp.small_of_length _ (Nat.lt_of_le_of_lt h2 (by decide))) h
  simp only [Rlp.list.injEq, List.cons.injEq, and_true] at this
  obtain ⟨a, b, c, d⟩ := this
  exact ⟨Rlp.ofNat_inj a, BitVec.eq_of_toNat_eq (Rlp.ofNat_inj b), wordBytes_inj (Rlp.bytes.inj c), wordBytes_inj (Rlp.bytes.inj d)⟩

theorem entriesOf_fit {s : State} (hs : s.WF) (a : Address) : EntriesFit (entriesOf s a) := by
  intro e he
  obtain ⟨k, -, rfl⟩ := (mem_entriesOf hs).mp he
  have := encode_ofNat_le (getStorage s a k).isLt
  exact ⟨by rw [wordBytes_length]; decide, Nat.lt_of_le_of_lt this (by decide)⟩

theorem rows_fit {C : Crypto} {s : State} (hs : s.WF) (hn : NoncesFit s) : EntriesFit (s.mainTrie.data.entries.map (accountRow C s)) := by
  intro e he
  obtain ⟨a, acc, ha, rfl⟩ := (mem_rows hs).mp he
  exact ⟨by rw [addressBytes_length]; decide, Nat.lt_of_le_of_lt (encodeAccount_le (hn a acc ha)) (by decide)⟩

theorem storageRoot_trie {C : Crypto} {s : State} (h : Secured s) (hE : C.keccak256 (Rlp.encode (.bytes [])) = EMPTY_TRIE_ROOT) (a : Address) :
    storageRoot C s a = trieRoot C true (entriesOf s a) := by
  rw [storageRoot_eq h]
  split
  · rename_i hn
    unfold entriesOf
    rw [hn]
    dsimp only
    rw [trieRoot_ok (C := C) (secured := true) (l := []) (obj := []) rfl]
    rw [show patricialize C [] 0 = none from rfl, ← hE]; rfl
  · rfl

theorem hashed_rows {C : Crypto} {s : State} (hs : s.WF) (h : Secured s) {x : Bytes}
    (hx : x ∈ hashedByRoot C true (s.mainTrie.data.entries.map (accountRow C s))) : x ∈ hashedByStateRoot C s := by
  unfold hashedByStateRoot
  rw [accountEntries_map C s _ (main_some hs), h.main]
  simp only [List.mem_append]
  exact .inl (.inl (.inl hx))

theorem hashed_storage {C : Crypto} {s : State} (h : Secured s) {a : Address} {x : Bytes} (hx : x ∈ hashedByRoot C true (entriesOf s a)) :
    x ∈ hashedByStateRoot C s := by
  unfold hashedByStateRoot
  simp only [List.mem_append]
  unfold entriesOf at hx
  match e : s.storageTries.get? a with
  | none =>
    rw [e] at hx
    refine .inr ?_
    exact hx
  | some t =>
    rw [e] at hx
    refine .inl (.inl (.inr ?_))
    rw [List.mem_flatMap]
    exact ⟨(a, t), (Dict.mem_iff _ _ _).mpr e, by dsimp only; rw [h.storage a t e]; exact hx⟩

theorem hashed_code {C : Crypto} {s : State} (hs : s.WF) {a : Address} {acc : Account} (h : getAccountOptional s a = some acc) :
    acc.code ∈ hashedByStateRoot C s := by
  unfold hashedByStateRoot
  simp only [List.mem_append]
  refine .inl (.inr ?_)
  rw [List.mem_filterMap]
  exact ⟨(a, some acc), (Dict.mem_iff _ _ _).mpr ((main_get hs).mpr ⟨by simp, h⟩), rfl⟩

theorem storage_incl {C : Crypto} {s s' : State} (hs : s.WF) (hs' : s'.WF) (h : Secured s) (h' : Secured s')
    (hE : C.keccak256 (Rlp.encode (.bytes [])) = EMPTY_TRIE_ROOT)
    (hc : NoCollision C (hashedByStateRoot C s ++ hashedByStateRoot C s')) {a : Address} (he : rootOf C s a = rootOf C s' a) (k : Word)
    (hk : getStorage s a k ≠ 0) : getStorage s' a k = getStorage s a k := by
  have hs1 := (storageRoot_trie h hE a).symm.trans (rootOf_spec C s a)
  have hs2 := (storageRoot_trie h' hE a).symm.trans (rootOf_spec C s' a)
  rw [← he] at hs2
  have hnc : NoCollision C (hashedByRoot C true (entriesOf s a) ++ hashedByRoot C true (entriesOf s' a)) :=
    NoCollision.mono hc fun x hx => by
      rcases List.mem_append.mp hx with hx | hx
      · exact List.mem_append_left _ (hashed_storage h hx)
      · exact List.mem_append_right _ (hashed_storage h' hx)
  have hk2 := root_incl (entriesOf_nodup s a) (entriesOf_nodup s' a) (entriesOf_fit hs a) (entriesOf_fit hs' a) hs1 hs2
    hnc _ ((mem_entriesOf hs).mpr ⟨k, hk, rfl⟩)
  obtain ⟨l, hl, hel⟩ := (mem_entriesOf hs').mp hk2
  have hkl : k = l := wordBytes_inj (Prod.mk.inj hel).1
  subst hkl
  have hv := (Prod.mk.inj hel).2
  have b1 := encode_ofNat_le (getStorage s a k).isLt
  have b2 := encode_ofNat_le (getStorage s' a k).isLt
  have c1 := Rlp.small_of_length _ (Nat.lt_of_le_of_lt b1 (by decide))
  have c2 := Rlp.small_of_length _ (Nat.lt_of_le_of_lt b2 (by decide))
  exact (BitVec.eq_of_toNat_eq (Rlp.ofNat_inj (Rlp.encode_inj c1 c2 hv))).symm

theorem account_incl {C : Crypto} {s s' : State} {r : Word} (hs : s.WF) (hs' : s'.WF) (h : Secured s) (h' : Secured s')
    (hn : NoncesFit s) (hn' : NoncesFit s')
    (hc : NoCollision C (hashedByStateRoot C s ++ hashedByStateRoot C s')) (hi : s.snapshots = []) (hi' : s'.snapshots = [])
    (hr : stateRoot C s = .ok r) (hr' : stateRoot C s' = .ok r) {a : Address} {acc : Account} (ha : getAccountOptional s a = some acc) :
    getAccountOptional s' a = some acc ∧ rootOf C s a = rootOf C s' a := by
  rw [stateRoot_eq hs h hi] at hr
  rw [stateRoot_eq hs' h' hi'] at hr'
  have hnc : NoCollision C (hashedByRoot C true (s.mainTrie.data.entries.map (accountRow C s)) ++
      hashedByRoot C true (s'.mainTrie.data.entries.map (accountRow C s'))) :=
    NoCollision.mono hc fun x hx => by
      rcases List.mem_append.mp hx with hx | hx
      · exact List.mem_append_left _ (hashed_rows hs h hx)
      · exact List.mem_append_right _ (hashed_rows hs' h' hx)
  have hm := root_incl (rows_nodup C s) (rows_nodup C s') (rows_fit hs hn) (rows_fit hs' hn') hr hr' hnc
    _ ((mem_rows hs).mpr ⟨a, acc, ha, rfl⟩)
  obtain ⟨b, acc', hb, he⟩ := (mem_rows hs').mp hm
  have hab : a = b := addressBytes_inj (Prod.mk.inj he).1
  subst hab
  obtain ⟨e1, e2, e3, e4⟩ := encodeAccount_inj (hn a acc ha) (hn' a acc' hb) (Prod.mk.inj he).2
  have e5 : acc.code = acc'.code :=
    hc _ (List.mem_append_left _ (hashed_code hs ha)) _ (List.mem_append_right _ (hashed_code hs' hb)) e4
  have hacc : acc' = acc := by
    cases acc; cases acc'; simp only at e1 e2 e5; rw [e1, e2, e5]
  exact ⟨by rw [hb, hacc], e3⟩

end Verif
