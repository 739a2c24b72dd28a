import Verif.Lemmas.Supply
import Verif.Lemmas.StateProg
import Verif.Model.Interpreter
/-! Relations between the stores before and after an execution. -/
namespace Verif

/-- The account has code or a non-zero nonce. -/
abbrev Owned (s : State) (a : Address) : Prop := accountHasCodeOrNonce s a = true

theorem owned_iff {s : State} {a : Address} : Owned s a ↔ (getAccount s a).nonce ≠ 0 ∨ (getAccount s a).code ≠ [] := by
  simp [Owned, accountHasCodeOrNonce]

theorem Owned.nonempty {s : State} {a : Address} (h : Owned s a) : getAccount s a ≠ emptyAccount := by
  rw [owned_iff] at h; intro he; simp [he, emptyAccount] at h

/-! ### storage under `modify_state` -/

theorem getStorage_modifyState' (s : State) (a : Address) (f : Account → Account) (x : Address) (k : Word) :
    getStorage (modifyState' s a f) x k =
      if a = x ∧ s.fork.since .paris = true ∧ f (getAccount s a) = emptyAccount then 0 else getStorage s x k := by
  simp only [getStorage, modifyState'_storage]
  by_cases h : s.fork.since .paris = true ∧ f (getAccount s a) = emptyAccount
  · simp [h, triesGet_del]
  · rw [if_neg h, if_neg (fun hh => h hh.2)]

theorem add_ne_zero_of_lt {x y : Word} (hx : x ≠ 0) (h : x.toNat + y.toNat < 2 ^ 256) : x + y ≠ 0 := by
  intro he
  have := congrArg BitVec.toNat he
  rw [BitVec.toNat_add_of_lt h] at this
  apply hx; apply BitVec.eq_of_toNat_eq; simp at this ⊢; omega

/-- What a successful transfer does to accounts: only balances change. -/
theorem moveEther_account {s s' : State} {a b : Address} {v : Word} (h : moveEther s a b v = .ok s') (x : Address) :
    (getAccount s' x).nonce = (getAccount s x).nonce ∧ (getAccount s' x).code = (getAccount s x).code := by
  obtain ⟨_, s1, rfl, _, rfl⟩ := moveEther_ok h
  simp only [getAccount_modifyState']
  grind

theorem moveEther_owned {s s' : State} {a b : Address} {v : Word} (h : moveEther s a b v = .ok s') (x : Address) :
    accountHasCodeOrNonce s' x = accountHasCodeOrNonce s x := by
  obtain ⟨h1, h2⟩ := moveEther_account h x
  simp [accountHasCodeOrNonce, h1, h2]

/-- A transfer does not touch the storage of accounts with code or nonce. -/
theorem moveEther_storage {s s' : State} {a b : Address} {v : Word} (h : moveEther s a b v = .ok s')
    {x : Address} (hx : Owned s x) (k : Word) : getStorage s' x k = getStorage s x k := by
  obtain ⟨_, s1, hs1, _, rfl⟩ := moveEther_ok h
  rw [owned_iff] at hx
  have e1 : getStorage s1 x k = getStorage s x k := by
    subst hs1
    rw [getStorage_modifyState']
    split
    · rename_i hh; obtain ⟨rfl, -, he⟩ := hh
      simp [emptyAccount] at he; simp [he] at hx
    · rfl
  have hx1 : (getAccount s1 x).nonce = (getAccount s x).nonce ∧ (getAccount s1 x).code = (getAccount s x).code := by
    subst hs1; rw [getAccount_modifyState']; grind
  rw [← e1, getStorage_modifyState']
  split
  · rename_i hh; obtain ⟨rfl, -, he⟩ := hh
    simp [emptyAccount] at he; rw [← hx1.1, ← hx1.2] at hx; simp [he] at hx
  · rfl

theorem moveEther_snaps {s s' : State} {a b : Address} {v : Word} (h : moveEther s a b v = .ok s') :
    s'.snapshots = s.snapshots ∧ s'.createdAccounts = s.createdAccounts := by
  obtain ⟨_, s1, rfl, _, rfl⟩ := moveEther_ok h; simp

theorem moveEther_fork {s s' : State} {a b : Address} {v : Word} (h : moveEther s a b v = .ok s') : s'.fork = s.fork := by
  obtain ⟨_, s1, rfl, _, rfl⟩ := moveEther_ok h; simp
theorem commit_fork {w w' : World} (h : commitTransaction w = .ok w') : w'.state.fork = w.state.fork := by
  unfold commitTransaction at h
  split at h <;> cases h
  split <;> rfl
theorem rollback_fork {w w' : World} (h : rollbackTransaction w = .ok w') : w'.state.fork = w.state.fork := by
  unfold rollbackTransaction at h
  split at h <;> cases h
  split <;> rfl

/-- A transfer from an owned account to itself changes nothing that can be read. -/
theorem moveEther_self {s s' : State} {a : Address} {v : Word}
    (ha : Owned s a) (h : moveEther s a a v = .ok s') (x : Address) :
    getAccountOptional s' x = getAccountOptional s x := by
  obtain ⟨hle, s1, rfl, hov, rfl⟩ := moveEther_ok h
  rw [getAccountOptional_modifyState', getAccountOptional_modifyState', getAccount_modifyState']
  simp only [if_true]
  split
  · rename_i hx; subst hx
    have h1 : (getAccount s a).balance - v + v = (getAccount s a).balance := BitVec.sub_add_cancel _ _
    simp only [h1]
    rw [owned_iff] at ha
    unfold normAccount
    unfold getAccount at ha ⊢
    cases hg : getAccountOptional s a with
    | none => simp [hg, emptyAccount] at ha
    | some acc =>
      simp only [hg] at ha ⊢
      split
      · rename_i he; replace he := he.2; simp [emptyAccount] at he; simp [he] at ha
      · rfl
  · rfl

theorem moveEther_self_storage {s s' : State} {a : Address} {v : Word}
    (ha : Owned s a) (h : moveEther s a a v = .ok s') (x : Address) (k : Word) : getStorage s' x k = getStorage s x k := by
  by_cases hx : x = a
  · subst hx; exact moveEther_storage h ha k
  · obtain ⟨_, s1, rfl, _, rfl⟩ := moveEther_ok h
    rw [getStorage_modifyState', getStorage_modifyState']
    simp [Ne.symm hx]

/-! ### slots cleared relative to the start of the transaction -/

/-- The storage at the start of the transaction (the oldest snapshot). -/
def origTries (s : State) : StorageTries :=
  match s.snapshots.getLast? with
  | none => Dict.empty
  | some p => p.2

/-- The slots that were non-zero at the start of the transaction. -/
def origSlots (s : State) : List (Address × Word) :=
  (origTries s).entries.flatMap fun e =>
    (e.2.data.entries.filter (fun kv => decide (kv.2 ≠ 0))).map (fun kv => (e.1, kv.1))

/-- The slot is zero now and belongs to an account with code or nonce that was not created since. -/
def isCleared (s : State) (p : Address × Word) : Bool :=
  decide (p.1 ∉ s.createdAccounts ∧ Owned s p.1 ∧ getStorage s p.1 p.2 = 0)

/-- Number of such slots. -/
def cleared (s : State) : Nat := (origSlots s).countP (isCleared s)

theorem nodup_flatMap_pairs {K V W : Type} (l : List (K × V)) (hl : (l.map Prod.fst).Nodup) (f : V → List W)
    (hf : ∀ e ∈ l, (f e.2).Nodup) : (l.flatMap fun e => (f e.2).map (fun w => (e.1, w))).Nodup := by
  induction l with
  | nil => simp
  | cons e r ih =>
    simp only [List.map_cons, List.nodup_cons] at hl
    simp only [List.flatMap_cons]
    rw [List.nodup_append]
    refine ⟨?_, ih hl.2 fun e' he' => hf e' (List.mem_cons_of_mem _ he'), ?_⟩
    · have := hf e (by simp)
      unfold List.Nodup at *
      rw [List.pairwise_map]
      exact this.imp (by intro a b h hh; exact h (by simpa using hh))
    · intro p hp q hq hpq
      subst hpq
      simp only [List.mem_map, List.mem_flatMap] at hp hq
      obtain ⟨w, _, rfl⟩ := hp
      obtain ⟨e', he', w', _, hh⟩ := hq
      simp at hh
      exact hl.1 (hh.1 ▸ List.mem_map_of_mem he')

theorem origSlots_nodup (s : State) : (origSlots s).Nodup := by
  unfold origSlots
  have := nodup_flatMap_pairs (origTries s).entries (origTries s).nodup
    (fun t : Trie Word Word => (t.data.entries.filter (fun kv => decide (kv.2 ≠ 0))).map Prod.fst)
    (fun e _ => e.2.data.nodup.sublist ((List.filter_sublist).map _))
  simpa [List.map_map, Function.comp_def] using this

theorem mem_origSlots {s : State} (hw : TriesWF (origTries s)) (a : Address) (k : Word) :
    (a, k) ∈ origSlots s ↔ triesGet (origTries s) a k ≠ 0 := by
  unfold origSlots triesGet
  simp only [List.mem_flatMap, List.mem_map, List.mem_filter, Prod.mk.injEq]
  constructor
  · rintro ⟨⟨a', t⟩, he, ⟨k', v⟩, ⟨hkv, hv⟩, rfl, rfl⟩
    rw [Dict.mem_iff] at he hkv
    simp only [he, trieGet, hkv]
    simpa using hv
  · intro h
    match hg : (origTries s).get? a with
    | none => simp [hg] at h
    | some t =>
      simp only [hg, trieGet] at h
      obtain ⟨hd, _, _⟩ := hw a t hg
      match hk : t.data.get? k with
      | none => simp [hk, hd] at h
      | some v =>
        simp only [hk, Option.getD_some] at h
        exact ⟨(a, t), (Dict.mem_iff _ _ _).mpr hg, (k, v), ⟨(Dict.mem_iff _ _ _).mpr hk, by simpa using h⟩, rfl, rfl⟩

/-- `cleared` only depends on the snapshots, the created set and the storage. -/
theorem cleared_mono {s s' : State} (hsn : s'.snapshots = s.snapshots)
    (h : ∀ a k, triesGet (origTries s) a k ≠ 0 → TriesWF (origTries s) → isCleared s' (a, k) = true → isCleared s (a, k) = true)
    (hwf : TriesWF (origTries s)) : cleared s' ≤ cleared s := by
  have ho : origSlots s' = origSlots s := by simp [origSlots, origTries, hsn]
  unfold cleared
  rw [ho]
  exact List.countP_mono_left fun p hp hc => h p.1 p.2 ((mem_origSlots hwf p.1 p.2).mp hp) hwf hc

/-! ### the relation -/

/-- What every execution keeps, apart from snapshots and the set of created accounts. -/
structure WCore (w w' : World) : Prop where
  wf : w.WF → w'.WF
  fresh : ∀ a ∈ w'.state.createdAccounts, a ∈ w.state.createdAccounts ∨ ¬ Owned w.state a
  keep : ∀ a, Owned w.state a → (getAccount w'.state a).code = (getAccount w.state a).code ∧
    (getAccount w.state a).nonce ≤ (getAccount w'.state a).nonce
  supply : w.WF → supply w'.state ≤ supply w.state
  fork : w'.state.fork = w.state.fork

structure WRel (w w' : World) : Prop extends WCore w w' where
  snaps : SameSnaps w' w
  created : w.state.snapshots ≠ [] → ∀ a ∈ w.state.createdAccounts, a ∈ w'.state.createdAccounts

theorem WCore.refl (w : World) : WCore w w :=
  ⟨id, fun _ h => .inl h, fun _ _ => ⟨rfl, Nat.le_refl _⟩, fun _ => Nat.le_refl _, rfl⟩
theorem WRel.refl (w : World) : WRel w w := ⟨WCore.refl w, ⟨rfl, rfl, rfl⟩, fun _ _ h => h⟩

theorem WCore.owned {w w' : World} (h : WCore w w') {a : Address} (ha : Owned w.state a) : Owned w'.state a := by
  obtain ⟨h1, h2⟩ := h.keep a ha
  rw [owned_iff] at ha ⊢
  rw [h1]
  rcases ha with ha | ha
  · left; omega
  · right; exact ha

theorem WCore.trans {a b c : World} (h : WCore a b) (h' : WCore b c) : WCore a c := by
  refine ⟨fun x => h'.wf (h.wf x), ?_, ?_, ?_, h'.fork.trans h.fork⟩
  · intro x hx
    rcases h'.fresh x hx with h1 | h1
    · exact h.fresh x h1
    · exact .inr fun ho => h1 (h.owned ho)
  · intro x hx
    obtain ⟨h1, h2⟩ := h.keep x hx
    obtain ⟨h3, h4⟩ := h'.keep x (h.owned hx)
    exact ⟨h3.trans h1, Nat.le_trans h2 h4⟩
  · intro hw; exact Nat.le_trans (h'.supply (h.wf hw)) (h.supply hw)

theorem WRel.trans {a b c : World} (h : WRel a b) (h' : WRel b c) : WRel a c := by
  refine ⟨h.toWCore.trans h'.toWCore, ⟨h'.snaps.1.trans h.snaps.1, h'.snaps.2.1.trans h.snaps.2.1, h'.snaps.2.2.trans h.snaps.2.2⟩, ?_⟩
  intro hs x hx
  exact h'.created (by rw [h.snaps.1]; exact hs) x (h.created hs x hx)

/-- Worlds with the same contents. -/
theorem sameContents_acc {w w' : World} (h : SameContents w' w) (a : Address) :
    getAccount w'.state a = getAccount w.state a := getAccount_congr h.1 a
theorem sameContents_owned {w w' : World} (h : SameContents w' w) (a : Address) :
    accountHasCodeOrNonce w'.state a = accountHasCodeOrNonce w.state a := by
  simp [accountHasCodeOrNonce, sameContents_acc h a]
theorem sameContents_stor {w w' : World} (h : SameContents w' w) (a : Address) (k : Word) :
    getStorage w'.state a k = getStorage w.state a k := by simp [getStorage, h.2.1]
theorem sameContents_supply {w w' : World} (h : SameContents w' w) : supply w'.state = supply w.state := by
  simp [Verif.supply, h.1]
theorem sameContents_wf {w w' : World} (h : SameContents w' w) (hs : SameSnaps w' w) (hw : w.WF) : w'.WF :=
  ⟨⟨by rw [h.1]; exact hw.state.main, by rw [h.2.1]; exact hw.state.storage, by rw [hs.1]; exact hw.state.snaps⟩,
   ⟨by rw [h.2.2.1]; exact hw.transient.tries, by rw [hs.2.1]; exact hw.transient.snaps⟩⟩

/-- Opening a snapshot. -/
theorem WCore.begin (w : World) : WCore w (beginTransaction w) :=
  ⟨fun h => h.begin, fun _ h => .inl h, fun _ _ => ⟨rfl, Nat.le_refl _⟩, fun _ => Nat.le_refl _, rfl⟩

theorem WCore.moveEther {w : World} {s' : State} {a b : Address} {v : Word}
    (h : moveEther w.state a b v = .ok s') : WCore w { w with state := s' } := by
  refine ⟨fun hw => ⟨hw.state.moveEther h, hw.transient⟩, ?_, ?_, ?_, moveEther_fork h⟩
  · intro x hx; left; rw [← (moveEther_snaps h).2]; exact hx
  · intro x _; obtain ⟨h1, h2⟩ := moveEther_account h x; exact ⟨h2, Nat.le_of_eq h1.symm⟩
  · intro hw; exact Nat.le_of_eq (supply_moveEther hw.state.main.1 h)

/-- Closing a snapshot with `commit`. -/
theorem wrel_commit {w w3 w4 : World} (h : WCore w w3) (hs : SameSnaps w3 (beginTransaction w))
    (hcr : ∀ a ∈ w.state.createdAccounts, a ∈ w3.state.createdAccounts)
    (he : commitTransaction w3 = .ok w4) : WRel w w4 ∧ SameContents w4 w3 := by
  obtain ⟨w', e, hc, hss, hcre⟩ := commit_ok hs
  rw [e] at he; cases he
  refine ⟨⟨⟨?_, ?_, ?_, ?_, (commit_fork e).trans h.fork⟩, hss, ?_⟩, hc⟩
  · intro hw; exact (h.wf hw).commit e
  · intro a ha; rw [hcre] at ha
    split at ha
    · simp at ha
    · exact h.fresh a ha
  · intro a ha; rw [sameContents_acc hc]; exact h.keep a ha
  · intro hw; rw [sameContents_supply hc]; exact h.supply hw
  · intro hne a ha
    rw [hcre]
    have : w.state.snapshots.isEmpty = false := by cases hq : w.state.snapshots <;> simp_all
    rw [this]; exact hcr a ha

/-- Closing a snapshot with `rollback`. -/
theorem wrel_rollback {w w3 w4 : World} (h : WCore w w3) (hs : SameSnaps w3 (beginTransaction w))
    (hcr : ∀ a ∈ w.state.createdAccounts, a ∈ w3.state.createdAccounts)
    (he : rollbackTransaction w3 = .ok w4) : WRel w w4 ∧ SameContents w4 w := by
  obtain ⟨w', e, hc, hss, hcre⟩ := rollback_ok hs
  rw [e] at he; cases he
  refine ⟨⟨⟨?_, ?_, ?_, ?_, (rollback_fork e).trans h.fork⟩, hss, ?_⟩, hc⟩
  · intro hw; exact (h.wf hw).rollback e
  · intro a ha; rw [hcre] at ha
    split at ha
    · simp at ha
    · exact h.fresh a ha
  · intro a ha; rw [sameContents_acc hc]; exact ⟨rfl, Nat.le_refl _⟩
  · intro hw; rw [sameContents_supply hc]; exact Nat.le_refl _
  · intro hne a ha
    rw [hcre]
    have : w.state.snapshots.isEmpty = false := by cases hq : w.state.snapshots <;> simp_all
    rw [this]; exact hcr a ha

/-- What SELFDESTRUCT keeps of the state. -/
structure SdRel (s : State) (o : Address) (s' : State) : Prop where
  wf : s.WF → s'.WF
  snaps : s'.snapshots = s.snapshots
  created : s'.createdAccounts = s.createdAccounts
  fork : s'.fork = s.fork
  account : ∀ x, (getAccount s' x).nonce = (getAccount s x).nonce ∧ (getAccount s' x).code = (getAccount s x).code
  storage : ∀ x, Owned s x → ∀ k, getStorage s' x k = getStorage s x k
  supply : s.mainTrie.default = none → Verif.supply s' ≤ Verif.supply s
  supplyEq : s.WF → selfdestructDeletes s o = false → Verif.supply s' = Verif.supply s

theorem SdRel.owned {s s' : State} {self : Address} (h : SdRel s self s') (x : Address) : Owned s' x ↔ Owned s x := by
  rw [owned_iff, owned_iff, (h.account x).1, (h.account x).2]

theorem setBalance_account (s : State) (a : Address) (v : Word) (x : Address) :
    (getAccount (setAccountBalance s a v) x).nonce = (getAccount s x).nonce ∧
    (getAccount (setAccountBalance s a v) x).code = (getAccount s x).code := by
  unfold setAccountBalance; rw [getAccount_modifyState']; split
  · rename_i hx; subst hx; exact ⟨rfl, rfl⟩
  · exact ⟨rfl, rfl⟩

theorem setBalance_storage (s : State) (a : Address) (v : Word) {x : Address} (ho : Owned s x) (k : Word) :
    getStorage (setAccountBalance s a v) x k = getStorage s x k := by
  unfold setAccountBalance
  rw [getStorage_modifyState']
  split
  · rename_i hh; obtain ⟨h1, he⟩ := hh
    subst h1
    rw [owned_iff] at ho; simp [emptyAccount] at he; simp [he] at ho
  · rfl

theorem setBalance_owned (s : State) (a : Address) (v : Word) (x : Address) : Owned (setAccountBalance s a v) x ↔ Owned s x := by
  rw [owned_iff, owned_iff, (setBalance_account s a v x).1, (setBalance_account s a v x).2]

theorem supply_setBalance {s : State} (hd : s.mainTrie.default = none) (a : Address) (v : Word) :
    supply (setAccountBalance s a v) + (getAccount s a).balance.toNat = supply s + v.toNat := by
  have := supply_modifyState' hd a (fun acc => { acc with balance := v })
  simpa [setAccountBalance] using this

theorem checkedAdd_ok {a b c : Word} (h : checkedAdd a b = .ok c) : c.toNat = a.toNat + b.toNat := by
  unfold checkedAdd at h
  split at h
  · cases h
    rw [BitVec.toNat_add]
    exact Nat.mod_eq_of_lt (by assumption)
  · cases h

theorem selfdestructState_rel {s s' : State} {self b : Address} (h : selfdestructState s self b = .ok s') :
    SdRel s self s' := by
  unfold selfdestructState at h
  by_cases hf : s.fork.since .cancun = true
  · simp only [hf, if_true] at h
    match hm : moveEther s self b (getAccount s self).balance with
    | .error c => simp [hm] at h
    | .ok s1 =>
      simp only [hm] at h
      have hsn := moveEther_snaps hm
      have hsup : s.mainTrie.default = none → supply s1 = supply s := fun hw => supply_moveEther hw hm
      have hdef : s.mainTrie.default = none → s1.mainTrie.default = none := fun hw => (moveEther_default hm).trans hw
      by_cases hc : self ∈ s1.createdAccounts
      · simp only [hc, if_true] at h; cases h
        refine ⟨fun hw => (hw.moveEther hm).setAccountBalance _ _, by simp [setAccountBalance, hsn], by simp [setAccountBalance, hsn],
          by simp [setAccountBalance, moveEther_fork hm], fun x => ?_, fun x hx k => ?_, fun hw => ?_, fun hw hd => ?_⟩
        · have h1 := setBalance_account s1 self 0 x
          have h2 := moveEther_account hm x
          exact ⟨h1.1.trans h2.1, h1.2.trans h2.2⟩
        · rw [setBalance_storage _ _ _ (by rw [Owned, moveEther_owned hm]; exact hx), moveEther_storage hm hx]
        · have h1 := supply_setBalance (hdef hw) self 0
          have hz : (0 : Word).toNat = 0 := rfl
          have := hsup hw; omega
        · simp [selfdestructDeletes, hf, ← hsn.2, hc] at hd
      · simp only [hc, if_false] at h; cases h
        exact ⟨fun hw => hw.moveEther hm, hsn.1, hsn.2, moveEther_fork hm, fun x => moveEther_account hm x,
          fun x hx k => moveEther_storage hm hx k, fun hw => Nat.le_of_eq (hsup hw), fun hw _ => hsup hw.main.1⟩
  · simp only [hf, if_false, Bool.false_eq_true] at h
    match ha : checkedAdd (getAccount s b).balance (getAccount s self).balance with
    | .error c => simp [ha] at h
    | .ok v =>
      simp only [ha] at h; cases h
      have hv := checkedAdd_ok ha
      refine ⟨fun hw => (hw.setAccountBalance _ _).setAccountBalance _ _, by simp [setAccountBalance], by simp [setAccountBalance],
        by simp [setAccountBalance], fun x => ?_, fun x hx k => ?_, fun hw => ?_, fun hw hd => ?_⟩
      · have h1 := setBalance_account (setAccountBalance s b v) self 0 x
        have h2 := setBalance_account s b v x
        exact ⟨h1.1.trans h2.1, h1.2.trans h2.2⟩
      · rw [setBalance_storage _ _ _ ((setBalance_owned _ _ _ _).mpr hx), setBalance_storage _ _ _ hx]
      · have h1 := supply_setBalance hw b v
        have h2 := supply_setBalance (s := setAccountBalance s b v) ((modifyState'_default _ _ _).trans hw) self 0
        have hz : (0 : Word).toNat = 0 := rfl
        have h3 : (getAccount s self).balance.toNat ≤ (getAccount (setAccountBalance s b v) self).balance.toNat := by
          unfold setAccountBalance; rw [getAccount_modifyState']
          split
          · rename_i hx; subst hx; simp only; omega
          · exact Nat.le_refl _
        omega
      · simp [selfdestructDeletes, hf] at hd

/-! ### `cleared` under the same operations -/

theorem origTries_wf {s : State} (h : s.WF) : TriesWF (origTries s) := by
  unfold origTries
  match hg : s.snapshots.getLast? with
  | none => exact TriesWF.empty
  | some p => exact (h.snaps p (List.mem_of_getLast? hg)).2

/-- Fewer cleared slots when storage reads the same and the created set grew. -/
theorem cleared_le {s s' : State} (hwf : s.WF) (hsn : s'.snapshots = s.snapshots)
    (hcr : ∀ a ∈ s.createdAccounts, a ∈ s'.createdAccounts)
    (hst : ∀ a k, a ∉ s'.createdAccounts → Owned s' a → getStorage s' a k = 0 → Owned s a ∧ getStorage s a k = 0) :
    cleared s' ≤ cleared s := by
  refine cleared_mono hsn (fun a k _ _ h => ?_) (origTries_wf hwf)
  simp only [isCleared, decide_eq_true_eq] at h ⊢
  exact ⟨fun hc => h.1 (hcr a hc), hst a k h.1 h.2.1 h.2.2⟩

theorem cleared_nil {s : State} (h : s.snapshots = []) : cleared s = 0 := by
  simp [cleared, origSlots, origTries, h, Dict.empty]

theorem cleared_begin {w : World} (hw : w.WF) : cleared (beginTransaction w).state ≤ cleared w.state := by
  match hs : w.state.snapshots with
  | [] =>
    have : cleared (beginTransaction w).state = 0 := by
      unfold cleared
      rw [List.countP_eq_zero]
      intro p hp
      have ho : origTries (beginTransaction w).state = w.state.storageTries := by
        simp [origTries, beginTransaction, hs]
      have := (mem_origSlots (s := (beginTransaction w).state) (by rw [ho]; exact hw.state.storage) p.1 p.2).mp hp
      rw [ho] at this
      simp only [isCleared, decide_eq_true_eq, not_and]
      intro _ _; exact this
    omega
  | x :: r =>
    have ho : origSlots (beginTransaction w).state = origSlots w.state := by
      simp [origSlots, origTries, beginTransaction, hs, List.getLast?_cons_cons]
    unfold cleared
    rw [ho]
    exact Nat.le_refl _

theorem countP_update {α : Type} [DecidableEq α] (l : List α) (hl : l.Nodup) (p q : α → Bool) (x : α)
    (h : ∀ y, y ≠ x → p y = q y) :
    (l.countP q : Int) - l.countP p = if x ∈ l then ((if q x then 1 else 0) - (if p x then 1 else 0) : Int) else 0 := by
  induction l with
  | nil => simp
  | cons y r ih =>
    simp only [List.nodup_cons] at hl
    have ih := ih hl.2
    simp only [List.countP_cons, List.mem_cons]
    by_cases hxy : y = x
    · subst hxy
      simp only [hl.1, if_false] at ih
      simp only [true_or, if_true]
      push_cast
      split <;> split <;> omega
    · have := h y hxy
      have hne : ¬ x = y := fun h => hxy h.symm
      simp only [hne, false_or, this]
      push_cast
      split at ih <;> split <;> simp_all <;> omega

end Verif
