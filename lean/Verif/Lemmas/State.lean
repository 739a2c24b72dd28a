import Verif.Lemmas.Dict
/-! Lemmas about the model of osaka/state.py. -/
namespace Verif

/-- The storage dictionaries that the code can build: every trie has default 0, holds no zero, and is not empty. -/
def TriesWF (d : StorageTries) : Prop :=
  ∀ a t, d.get? a = some t → t.default = 0 ∧ t.WF ∧ t.data.entries.isEmpty = false

/-- The account tries that the code can build. -/
def MainWF (t : AccountTrie) : Prop := t.default = none ∧ t.WF

/-- Well-formed state: what `State()` satisfies and every operation keeps. -/
structure State.WF (s : State) : Prop where
  main : MainWF s.mainTrie
  storage : TriesWF s.storageTries
  snaps : ∀ p ∈ s.snapshots, MainWF p.1 ∧ TriesWF p.2

structure TransientStorage.WF (t : TransientStorage) : Prop where
  tries : TriesWF t.tries
  snaps : ∀ p ∈ t.snapshots, TriesWF p

/-- Well-formed pair of stores. -/
structure World.WF (w : World) : Prop where
  state : w.state.WF
  transient : w.transient.WF

theorem TriesWF.empty : TriesWF Dict.empty := by intro a t h; simp at h
theorem State.empty_wf : State.empty.WF :=
  ⟨⟨rfl, by intro k v h; simp [State.empty] at h⟩, TriesWF.empty, by simp [State.empty]⟩
theorem TransientStorage.empty_wf : TransientStorage.empty.WF :=
  ⟨TriesWF.empty, by simp [TransientStorage.empty]⟩

/-! ### storage tries -/

theorem triesGet_none {d : StorageTries} {a : Address} (h : d.get? a = none) (k : Word) : triesGet d a k = 0 := by
  simp [triesGet, h]

theorem triesGet_del (d : StorageTries) (a x : Address) (k : Word) :
    triesGet (d.del a) x k = if a = x then 0 else triesGet d x k := by
  unfold triesGet
  rw [Dict.get?_del]
  by_cases h : a = x
  · simp [h]
  · simp [h]

theorem triesGet_triesSet {d : StorageTries} (hd : TriesWF d) (a : Address) (k v : Word) (x : Address) (y : Word) :
    triesGet (triesSet d a k v) x y = if a = x ∧ k = y then v else triesGet d x y := by
  unfold triesSet
  have key : ∀ t : Trie Word Word, t.default = 0 → (∀ y, trieGet t y = triesGet d a y) →
      triesGet (if (trieSet t k v).data.entries.isEmpty then (d.set a (trieSet t k v)).del a
        else d.set a (trieSet t k v)) x y = if a = x ∧ k = y then v else triesGet d x y := by
    intro t ht hget
    by_cases hax : a = x
    · subst hax
      have hval := trieGet_trieSet t k v y
      split
      · rename_i hem
        rw [Dict.isEmpty_iff] at hem
        rw [triesGet_del]
        have : trieGet (trieSet t k v) y = 0 := by simp [trieGet, hem, ht]
        rw [this] at hval
        simp only [if_true, true_and]
        rw [← hget y]; exact hval
      · simp only [triesGet, Dict.get?_set_self, true_and]
        rw [hval, hget y]; rfl
    · split
      · rw [triesGet_del]; simp [triesGet, Dict.get?_set, hax]
      · simp [triesGet, Dict.get?_set, hax]
  split
  · rename_i h
    apply key _ rfl
    intro y; simp [trieGet, triesGet, h]
  · rename_i t h
    apply key _ (hd a t h).1
    intro y; simp [triesGet, h]

theorem TriesWF.del {d : StorageTries} (hd : TriesWF d) (a : Address) : TriesWF (d.del a) := by
  intro x t h
  rw [Dict.get?_del] at h
  split at h
  · simp at h
  · exact hd x t h

theorem TriesWF.set {d : StorageTries} (hd : TriesWF d) (a : Address) (k v : Word) : TriesWF (triesSet d a k v) := by
  unfold triesSet
  have key : ∀ t : Trie Word Word, t.default = 0 → t.WF →
      TriesWF (if (trieSet t k v).data.entries.isEmpty then (d.set a (trieSet t k v)).del a
        else d.set a (trieSet t k v)) := by
    intro t h1 h2
    split
    · intro x t' hx
      rw [Dict.get?_del] at hx
      split at hx
      · simp at hx
      · rw [Dict.get?_set] at hx
        rename_i h; simp only [h, if_false] at hx; exact hd x t' hx
    · rename_i hne
      intro x t' hx
      rw [Dict.get?_set] at hx
      split at hx
      · cases hx; exact ⟨by simpa using h1, trieSet_wf h2 _ _, by simpa using hne⟩
      · exact hd x t' hx
  split
  · exact key _ rfl (by intro x y h; simp at h)
  · rename_i t h; exact key _ (hd a t h).1 (hd a t h).2.1

theorem contains_iff {d : StorageTries} (hd : TriesWF d) (a : Address) :
    d.contains a = true ↔ ∃ k, triesGet d a k ≠ 0 := by
  unfold Dict.contains triesGet
  match h : d.get? a with
  | none => simp
  | some t =>
    obtain ⟨h0, hw, hne⟩ := hd a t h
    simp only [Option.isSome_some, true_iff]
    have : ¬ ∀ k, t.data.get? k = none := by rw [← Dict.isEmpty_iff]; simp [hne]
    simp only [Classical.not_forall] at this
    obtain ⟨k, hk⟩ := this
    refine ⟨k, ?_⟩
    match hv : t.data.get? k with
    | none => exact absurd hv hk
    | some v => simpa [trieGet, hv, h0] using hw k v hv

/-! ### accounts -/

theorem getAccountOptional_setAccount (s : State) (a : Address) (acc : Option Account) (x : Address) :
    getAccountOptional (setAccount s a acc) x = if a = x then acc else getAccountOptional s x :=
  trieGet_trieSet _ _ _ _

@[simp] theorem getAccountOptional_destroyStorage (s : State) (a x : Address) :
    getAccountOptional (destroyStorage s a) x = getAccountOptional s x := rfl
@[simp] theorem getAccountOptional_markAccountCreated (s : State) (a x : Address) :
    getAccountOptional (markAccountCreated s a) x = getAccountOptional s x := rfl

theorem getAccountOptional_destroyAccount (s : State) (a x : Address) :
    getAccountOptional (destroyAccount s a) x = if a = x then none else getAccountOptional s x := by
  unfold destroyAccount; rw [getAccountOptional_setAccount]; rfl

/-- An account with, since paris, its empty form identified with absence. -/
def normAccount (f : Fork) (acc : Account) : Option Account :=
  if f.since .paris = true ∧ acc = emptyAccount then none else some acc

theorem accountExistsAndIsEmpty_setAccount (s : State) (a : Address) (acc : Account) :
    accountExistsAndIsEmpty (setAccount s a (some acc)) a = decide (acc = emptyAccount) := by
  unfold accountExistsAndIsEmpty
  rw [getAccountOptional_setAccount]
  obtain ⟨n, b, c⟩ := acc
  simp [emptyAccount]
  grind

theorem dropEmpty_setAccount (s : State) (a : Address) (acc : Account) :
    dropEmpty (setAccount s a (some acc)) a =
      if s.fork.since .paris = true ∧ acc = emptyAccount then destroyAccount (setAccount s a (some acc)) a
      else setAccount s a (some acc) := by
  unfold dropEmpty
  rw [accountExistsAndIsEmpty_setAccount]
  simp only [Bool.and_eq_true, decide_eq_true_eq, show (setAccount s a (some acc)).fork = s.fork from rfl]

theorem modifyState'_unfold (s : State) (a : Address) (f : Account → Account) :
    modifyState' s a f =
      if s.fork.since .paris = true ∧ f (getAccount s a) = emptyAccount then
        destroyAccount (setAccount s a (some (f (getAccount s a)))) a
      else setAccount s a (some (f (getAccount s a))) := dropEmpty_setAccount _ _ _

/-- What `modify_state` does to the accounts. -/
theorem getAccountOptional_modifyState' (s : State) (a : Address) (f : Account → Account) (x : Address) :
    getAccountOptional (modifyState' s a f) x =
      if a = x then normAccount s.fork (f (getAccount s a)) else getAccountOptional s x := by
  rw [modifyState'_unfold]
  unfold normAccount
  split
  · rw [getAccountOptional_destroyAccount, getAccountOptional_setAccount]; split <;> simp_all
  · rw [getAccountOptional_setAccount]

theorem modifyState_eq (s : State) (a : Address) (f : Account → Except Crash Account) :
    modifyState s a f = match f (getAccount s a) with
      | .error c => .error c
      | .ok acc => .ok (modifyState' s a (fun _ => acc)) := rfl

theorem getAccount_modifyState' (s : State) (a : Address) (f : Account → Account) (x : Address) :
    getAccount (modifyState' s a f) x = if a = x then f (getAccount s a) else getAccount s x := by
  have h1 : ∀ s x, getAccount s x = (getAccountOptional s x).getD emptyAccount := by
    intro s x; unfold getAccount; split <;> simp_all
  rw [h1, getAccountOptional_modifyState']
  by_cases h : a = x
  · simp only [h, if_true]
    unfold normAccount
    split <;> simp_all
  · simp only [h, if_false, h1]

/-! Other fields under `modify_state`. -/
theorem modifyState'_storage (s : State) (a : Address) (f : Account → Account) :
    (modifyState' s a f).storageTries =
      if s.fork.since .paris = true ∧ f (getAccount s a) = emptyAccount then s.storageTries.del a else s.storageTries := by
  rw [modifyState'_unfold]
  split <;> rfl
@[simp] theorem modifyState'_fork (s : State) (a : Address) (f : Account → Account) : (modifyState' s a f).fork = s.fork := by
  rw [modifyState'_unfold]
  split <;> simp [setAccount, destroyAccount, destroyStorage]
@[simp] theorem modifyState'_snapshots (s : State) (a : Address) (f : Account → Account) :
    (modifyState' s a f).snapshots = s.snapshots := by
  rw [modifyState'_unfold]; split <;> rfl
@[simp] theorem modifyState'_created (s : State) (a : Address) (f : Account → Account) :
    (modifyState' s a f).createdAccounts = s.createdAccounts := by
  rw [modifyState'_unfold]; split <;> rfl

/-! ### well-formedness is kept -/

theorem MainWF.set {t : AccountTrie} (h : MainWF t) (a : Address) (acc : Option Account) :
    MainWF (trieSet t a acc) := ⟨by simpa using h.1, trieSet_wf h.2 _ _⟩

theorem State.WF.setAccount {s : State} (h : s.WF) (a : Address) (acc : Option Account) :
    (setAccount s a acc).WF := ⟨h.main.set a acc, h.storage, h.snaps⟩
theorem State.WF.destroyStorage {s : State} (h : s.WF) (a : Address) : (destroyStorage s a).WF :=
  ⟨h.main, h.storage.del a, h.snaps⟩
theorem State.WF.destroyAccount {s : State} (h : s.WF) (a : Address) : (destroyAccount s a).WF :=
  (h.destroyStorage a).setAccount a none
theorem State.WF.markAccountCreated {s : State} (h : s.WF) (a : Address) : (markAccountCreated s a).WF :=
  ⟨h.main, h.storage, h.snaps⟩
theorem State.WF.modifyState' {s : State} (h : s.WF) (a : Address) (f : Account → Account) :
    (modifyState' s a f).WF := by
  rw [modifyState'_unfold]
  split
  · exact (h.setAccount _ _).destroyAccount _
  · exact h.setAccount _ _
theorem State.WF.setAccountBalance {s : State} (h : s.WF) (a : Address) (v : Word) : (setAccountBalance s a v).WF :=
  h.modifyState' _ _
theorem State.WF.incrementNonce {s : State} (h : s.WF) (a : Address) : (incrementNonce s a).WF := h.modifyState' _ _
theorem State.WF.setCode {s : State} (h : s.WF) (a : Address) (c : Bytes) : (setCode s a c).WF := h.modifyState' _ _
theorem State.WF.modifyState {s s' : State} (h : s.WF) {a : Address} {f : Account → Except Crash Account}
    (he : modifyState s a f = .ok s') : s'.WF := by
  rw [modifyState_eq] at he
  split at he
  · cases he
  · cases he; exact h.modifyState' _ _
theorem State.WF.moveEther {s s' : State} (h : s.WF) {a b : Address} {v : Word}
    (he : moveEther s a b v = .ok s') : s'.WF := by
  unfold Verif.moveEther at he
  split at he
  · cases he
  · rename_i s1 h1; exact (h.modifyState h1).modifyState he
theorem State.WF.setStorage {s s' : State} (h : s.WF) {a : Address} {k v : Word}
    (he : setStorage s a k v = .ok s') : s'.WF := by
  unfold Verif.setStorage at he
  split at he
  · cases he
  · cases he; exact ⟨h.main, h.storage.set a k v, h.snaps⟩
theorem TransientStorage.WF.set {t : TransientStorage} (h : t.WF) (a : Address) (k v : Word) :
    (setTransientStorage t a k v).WF := ⟨h.tries.set a k v, h.snaps⟩
theorem World.WF.begin {w : World} (h : w.WF) : (beginTransaction w).WF :=
  ⟨⟨h.state.main, h.state.storage, by
      simp only [beginTransaction, List.mem_cons, forall_eq_or_imp]
      exact ⟨⟨h.state.main, h.state.storage⟩, h.state.snaps⟩⟩,
   ⟨h.transient.tries, by
      simp only [beginTransaction, List.mem_cons, forall_eq_or_imp]
      exact ⟨h.transient.tries, h.transient.snaps⟩⟩⟩
theorem World.WF.commit {w w' : World} (h : w.WF) (he : commitTransaction w = .ok w') : w'.WF := by
  unfold commitTransaction at he
  split at he
  · rename_i hs ht; cases he
    have h1 := h.state.snaps; have h2 := h.transient.snaps
    rw [hs] at h1; rw [ht] at h2
    exact ⟨⟨h.state.main, h.state.storage, fun p hp => h1 p (List.mem_cons_of_mem _ hp)⟩,
      ⟨h.transient.tries, fun p hp => h2 p (List.mem_cons_of_mem _ hp)⟩⟩
  · cases he
theorem World.WF.rollback {w w' : World} (h : w.WF) (he : rollbackTransaction w = .ok w') : w'.WF := by
  unfold rollbackTransaction at he
  split at he
  · rename_i hs ht; cases he
    have h1 := h.state.snaps; have h2 := h.transient.snaps
    rw [hs] at h1; rw [ht] at h2
    have h3 := h1 _ (List.mem_cons_self)
    exact ⟨⟨h3.1, h3.2, fun p hp => h1 p (List.mem_cons_of_mem _ hp)⟩,
      ⟨h2 _ List.mem_cons_self, fun p hp => h2 p (List.mem_cons_of_mem _ hp)⟩⟩
  · cases he

end Verif
