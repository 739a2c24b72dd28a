import Verif.Lemmas.State
import Verif.Lemmas.RootContents
/-! States that answer all reads alike, also after going back to a snapshot (for C85): the functions of state.py keep them so. -/
namespace Verif

/-- Two tries with hashed keys, the same default and the same entries, in any order. -/
structure TrieAlike {K V : Type} [DecidableEq K] (t t' : Trie K V) : Prop where
  default : t.default = t'.default
  get : ∀ k, t.data.get? k = t'.data.get? k
  secured : t.secured = true
  secured' : t'.secured = true

/-- The same addresses have storage tries, and these are alike. -/
structure TriesAlike (d d' : StorageTries) : Prop where
  wf : TriesWF d
  wf' : TriesWF d'
  rel : ∀ a, Option.Rel TrieAlike (d.get? a) (d'.get? a)

/-- Account tries that are alike. -/
structure MainAlike (t t' : AccountTrie) : Prop where
  wf : MainWF t
  wf' : MainWF t'
  rel : TrieAlike t t'

/-- Lists of snapshots, alike one by one. -/
inductive SnapsAlike : List (AccountTrie × StorageTries) → List (AccountTrie × StorageTries) → Prop
  | nil : SnapsAlike [] []
  | cons {p q l l'} : MainAlike p.1 q.1 → TriesAlike p.2 q.2 → SnapsAlike l l' → SnapsAlike (p :: l) (q :: l')

/-- The same for the transient storage. -/
inductive TransAlike : List StorageTries → List StorageTries → Prop
  | nil : TransAlike [] []
  | cons {p q l l'} : TriesAlike p q → TransAlike l l' → TransAlike (p :: l) (q :: l')

structure SSim (s s' : State) : Prop where
  fork : s.fork = s'.fork
  main : MainAlike s.mainTrie s'.mainTrie
  storage : TriesAlike s.storageTries s'.storageTries
  snaps : SnapsAlike s.snapshots s'.snapshots
  created : s.createdAccounts = s'.createdAccounts

structure TSim (t t' : TransientStorage) : Prop where
  tries : TriesAlike t.tries t'.tries
  snaps : TransAlike t.snapshots t'.snapshots

structure WSim (w w' : World) : Prop where
  state : SSim w.state w'.state
  transient : TSim w.transient w'.transient

/-- Two possibly raised errors, or two alike values. -/
def ESim {ε α : Type} (R : α → α → Prop) : Except ε α → Except ε α → Prop
  | .ok a, .ok b => R a b
  | .error e, .error e' => e = e'
  | _, _ => False

section
variable {K V : Type} [DecidableEq K] [DecidableEq V]

theorem TrieAlike.refl {t : Trie K V} (h : t.secured = true) : TrieAlike t t := ⟨rfl, fun _ => rfl, h, h⟩

theorem TrieAlike.read {t t' : Trie K V} (h : TrieAlike t t') (k : K) : trieGet t k = trieGet t' k := by
  unfold trieGet; rw [h.get, h.default]

theorem TrieAlike.set {t t' : Trie K V} (h : TrieAlike t t') (k : K) (v : V) : TrieAlike (trieSet t k v) (trieSet t' k v) := by
  unfold trieSet
  rw [h.default]
  split
  · exact ⟨rfl, fun x => by simp only [Dict.get?_del, h.get], h.secured, h.secured'⟩
  · exact ⟨rfl, fun x => by simp only [Dict.get?_set, h.get], h.secured, h.secured'⟩
end

/-- `TriesAlike` without the conditions on each side. -/
abbrev RelTries (d d' : StorageTries) : Prop := ∀ a, Option.Rel TrieAlike (d.get? a) (d'.get? a)

theorem RelTries.del {d d' : StorageTries} (h : RelTries d d') (a : Address) : RelTries (d.del a) (d'.del a) := by
  intro x
  rw [Dict.get?_del, Dict.get?_del]
  split
  · exact .none
  · exact h x

theorem TriesAlike.del {d d' : StorageTries} (h : TriesAlike d d') (a : Address) : TriesAlike (d.del a) (d'.del a) :=
  ⟨h.wf.del a, h.wf'.del a, RelTries.del h.rel a⟩

theorem RelTries.put {d d' : StorageTries} (h : RelTries d d') (a : Address) {t t' : Trie Word Word} (ht : TrieAlike t t') :
    RelTries (d.set a t) (d'.set a t') := by
  intro x
  rw [Dict.get?_set, Dict.get?_set]
  split
  · exact .some ht
  · exact h x

theorem TriesAlike.empty : TriesAlike Dict.empty Dict.empty := ⟨TriesWF.empty, TriesWF.empty, fun _ => .none⟩

theorem TriesAlike.read {d d' : StorageTries} (h : TriesAlike d d') (a : Address) (k : Word) : triesGet d a k = triesGet d' a k := by
  unfold triesGet
  have := h.rel a
  revert this
  cases d.get? a <;> cases d'.get? a <;> intro hr <;> cases hr
  · rfl
  · rename_i hr; exact hr.read k

theorem TriesAlike.contains {d d' : StorageTries} (h : TriesAlike d d') (a : Address) : d.contains a = d'.contains a := by
  unfold Dict.contains
  have := h.rel a
  revert this
  cases d.get? a <;> cases d'.get? a <;> intro hr <;> cases hr <;> rfl

theorem TrieAlike.isEmpty {t t' : Trie Word Word} (h : TrieAlike t t') : t.data.entries.isEmpty = t'.data.entries.isEmpty := by
  rw [Bool.eq_iff_iff, Dict.isEmpty_iff, Dict.isEmpty_iff]
  simp only [h.get]

theorem TriesAlike.set {d d' : StorageTries} (h : TriesAlike d d') (a : Address) (k v : Word) :
    TriesAlike (triesSet d a k v) (triesSet d' a k v) := by
  refine ⟨h.wf.set a k v, h.wf'.set a k v, ?_⟩
  have key : ∀ {t t' : Trie Word Word}, TrieAlike t t' →
      RelTries (if (trieSet t k v).data.entries.isEmpty then (d.set a (trieSet t k v)).del a else d.set a (trieSet t k v))
        (if (trieSet t' k v).data.entries.isEmpty then (d'.set a (trieSet t' k v)).del a else d'.set a (trieSet t' k v)) := by
    intro t t' ht
    have hs := ht.set k v
    rw [hs.isEmpty]
    split
    · exact RelTries.del (RelTries.put h.rel a hs) a
    · exact RelTries.put h.rel a hs
  unfold triesSet
  have := h.rel a
  revert this
  cases d.get? a <;> cases d'.get? a <;> intro hr <;> cases hr
  · exact key (TrieAlike.refl rfl)
  · rename_i hr; exact key hr

theorem SnapsAlike.isEmpty {l l' : List (AccountTrie × StorageTries)} (h : SnapsAlike l l') : l.isEmpty = l'.isEmpty := by
  cases h <;> rfl

theorem SnapsAlike.last {l l' : List (AccountTrie × StorageTries)} (h : SnapsAlike l l') :
    Option.Rel (fun p q => MainAlike p.1 q.1 ∧ TriesAlike p.2 q.2) l.getLast? l'.getLast? := by
  induction h with
  | nil => exact .none
  | @cons p q l l' h1 h2 t ih =>
    cases t with
    | nil => exact .some ⟨h1, h2⟩
    | cons h3 h4 t =>
      rw [List.getLast?_cons_cons, List.getLast?_cons_cons]; exact ih

/-! ### reads -/
section
variable {s s' : State} (h : SSim s s')
include h

theorem SSim.accountOptional : getAccountOptional s = getAccountOptional s' := funext fun a => h.main.rel.read a
theorem SSim.account : getAccount s = getAccount s' := by funext a; unfold getAccount; rw [h.accountOptional]
theorem SSim.slot : getStorage s = getStorage s' := by funext a k; exact h.storage.read a k
theorem SSim.exists_ : accountExists s = accountExists s' := by funext a; unfold accountExists; rw [h.accountOptional]
theorem SSim.codeOrNonce : accountHasCodeOrNonce s = accountHasCodeOrNonce s' := by funext a; unfold accountHasCodeOrNonce; rw [h.account]
theorem SSim.hasStorage : accountHasStorage s = accountHasStorage s' := by funext a; exact h.storage.contains a
theorem SSim.isEmpty : accountExistsAndIsEmpty s = accountExistsAndIsEmpty s' := by
  funext a; unfold accountExistsAndIsEmpty; rw [h.accountOptional]
theorem SSim.alive : isAccountAlive s = isAccountAlive s' := by funext a; unfold isAccountAlive; rw [h.accountOptional]
theorem SSim.original : getStorageOriginal s = getStorageOriginal s' := by
  funext a k
  unfold getStorageOriginal
  rw [h.created]
  split
  · rfl
  · have := h.snaps.last
    revert this
    cases s.snapshots.getLast? <;> cases s'.snapshots.getLast? <;> intro hr <;> cases hr
    · rfl
    · rename_i hr; exact congrArg Except.ok (hr.2.read a k)
theorem SSim.touchedIf (a : Address) (l : List Address) : touchedIfEmpty s a l = touchedIfEmpty s' a l := by
  unfold touchedIfEmpty; rw [h.isEmpty]

/-! ### writes -/

theorem SSim.setAccount (a : Address) (acc : Option Account) : SSim (setAccount s a acc) (Verif.setAccount s' a acc) :=
  ⟨h.fork, ⟨h.main.wf.set a acc, h.main.wf'.set a acc, h.main.rel.set a acc⟩, h.storage, h.snaps, h.created⟩
theorem SSim.destroyStorage (a : Address) : SSim (destroyStorage s a) (Verif.destroyStorage s' a) :=
  ⟨h.fork, h.main, h.storage.del a, h.snaps, h.created⟩
theorem SSim.destroyAccount (a : Address) : SSim (destroyAccount s a) (Verif.destroyAccount s' a) := (h.destroyStorage a).setAccount a none
theorem SSim.markCreated (a : Address) : SSim (markAccountCreated s a) (markAccountCreated s' a) :=
  ⟨h.fork, h.main, h.storage, h.snaps, by unfold markAccountCreated; rw [h.created]⟩
theorem SSim.dropEmpty (a : Address) : SSim (dropEmpty s a) (Verif.dropEmpty s' a) := by
  unfold Verif.dropEmpty
  rw [h.fork, h.isEmpty]
  split
  · exact h.destroyAccount a
  · exact h
theorem SSim.modify' (a : Address) (f : Account → Account) : SSim (modifyState' s a f) (modifyState' s' a f) := by
  unfold modifyState'
  rw [h.account]
  exact (h.setAccount a _).dropEmpty a
theorem SSim.modify (a : Address) (f : Account → Except Crash Account) : ESim SSim (modifyState s a f) (modifyState s' a f) := by
  unfold modifyState
  rw [h.account]
  cases f (getAccount s' a) with
  | error c => exact rfl
  | ok acc => exact (h.setAccount a _).dropEmpty a
theorem SSim.setBalance (a : Address) (v : Word) : SSim (setAccountBalance s a v) (setAccountBalance s' a v) := h.modify' _ _
theorem SSim.incrementNonce (a : Address) : SSim (incrementNonce s a) (Verif.incrementNonce s' a) := h.modify' _ _
theorem SSim.setCode (a : Address) (c : Bytes) : SSim (setCode s a c) (Verif.setCode s' a c) := h.modify' _ _
theorem SSim.touch (a : Address) : SSim (touchAccount s a) (touchAccount s' a) := by
  unfold touchAccount
  rw [h.exists_]
  split
  · exact h
  · exact h.setAccount a _
theorem SSim.touchIn (a : Address) : SSim (touchIn s a) (Verif.touchIn s' a) := by
  unfold Verif.touchIn
  rw [h.fork]
  split
  · exact h
  · exact h.touch a
theorem SSim.setStorage (a : Address) (k v : Word) : ESim SSim (setStorage s a k v) (Verif.setStorage s' a k v) := by
  unfold Verif.setStorage
  rw [h.accountOptional]
  cases getAccountOptional s' a with
  | none => exact rfl
  | some acc => exact ⟨h.fork, h.main, h.storage.set a k v, h.snaps, h.created⟩
end

theorem ESim.bind {ε α β : Type} {R : α → α → Prop} {S : β → β → Prop} {x x' : Except ε α} {f f' : α → Except ε β}
    (h : ESim R x x') (hf : ∀ a a', R a a' → ESim S (f a) (f' a')) : ESim S (x.bind f) (x'.bind f') := by
  cases x <;> cases x' <;> simp only [ESim] at h
  · exact h
  · exact hf _ _ h

theorem SSim.moveEther {s s' : State} (h : SSim s s') (a b : Address) (v : Word) : ESim SSim (moveEther s a b v) (Verif.moveEther s' a b v) := by
  unfold Verif.moveEther
  have h1 := h.modify a (reduceSenderBalance v)
  revert h1
  cases modifyState s a (reduceSenderBalance v) <;> cases modifyState s' a (reduceSenderBalance v) <;> intro h1
  · exact h1
  · cases h1
  · cases h1
  · exact SSim.modify h1 b _

theorem SSim.destroyTouched {s s' : State} (h : SSim s s') (l : List Address) :
    SSim (destroyTouchedEmptyAccounts s l) (destroyTouchedEmptyAccounts s' l) := by
  unfold destroyTouchedEmptyAccounts
  induction l generalizing s s' with
  | nil => exact h
  | cons a r ih =>
    refine ih ?_
    simp only [h.isEmpty]
    split
    · exact h.destroyAccount a
    · exact h

theorem TSim.read {t t' : TransientStorage} (h : TSim t t') : getTransientStorage t = getTransientStorage t' := by
  funext a k; exact h.tries.read a k
theorem TSim.set {t t' : TransientStorage} (h : TSim t t') (a : Address) (k v : Word) :
    TSim (setTransientStorage t a k v) (setTransientStorage t' a k v) := ⟨h.tries.set a k v, h.snaps⟩

theorem WSim.begin {w w' : World} (h : WSim w w') : WSim (beginTransaction w) (beginTransaction w') :=
  ⟨⟨h.state.fork, h.state.main, h.state.storage, .cons h.state.main h.state.storage h.state.snaps, h.state.created⟩,
    ⟨h.transient.tries, .cons h.transient.tries h.transient.snaps⟩⟩

theorem WSim.commit {w w' : World} (h : WSim w w') : ESim WSim (commitTransaction w) (commitTransaction w') := by
  unfold commitTransaction
  have h1 := h.state.snaps
  have h2 := h.transient.snaps
  revert h1 h2
  generalize w.state.snapshots = a, w'.state.snapshots = a', w.transient.snapshots = b, w'.transient.snapshots = b'
  intro h1 h2
  cases h1 with
  | nil => exact rfl
  | cons x y hs =>
    cases h2 with
    | nil => exact rfl
    | cons z ht =>
      refine ⟨⟨h.state.fork, h.state.main, h.state.storage, hs, ?_⟩, ⟨h.transient.tries, ht⟩⟩
      show (if _ then _ else _) = if _ then _ else _
      rw [hs.isEmpty, h.state.created]

theorem WSim.rollback {w w' : World} (h : WSim w w') : ESim WSim (rollbackTransaction w) (rollbackTransaction w') := by
  unfold rollbackTransaction
  have h1 := h.state.snaps
  have h2 := h.transient.snaps
  revert h1 h2
  generalize w.state.snapshots = a, w'.state.snapshots = a', w.transient.snapshots = b, w'.transient.snapshots = b'
  intro h1 h2
  cases h1 with
  | nil => exact rfl
  | cons x y hs =>
    cases h2 with
    | nil => exact rfl
    | cons z ht =>
      refine ⟨⟨h.state.fork, x, y, hs, ?_⟩, ⟨z, ht⟩⟩
      show (if _ then _ else _) = if _ then _ else _
      rw [hs.isEmpty, h.state.created]

/-- Well-formed states without open transactions that answer all reads alike. -/
theorem SSim.of_reads {s s' : State} (hw : s.WF) (hw' : s'.WF) (hs : Secured s) (hs' : Secured s') (hf : s.fork = s'.fork) (hn : s.snapshots = []) (hn' : s'.snapshots = [])
    (hc : s.createdAccounts = s'.createdAccounts) (ha : ∀ a, getAccountOptional s a = getAccountOptional s' a)
    (hk : ∀ a k, getStorage s a k = getStorage s' a k) : SSim s s' := by
  have hd : s.mainTrie.default = s'.mainTrie.default := hw.main.1.trans hw'.main.1.symm
  refine ⟨hf, ⟨hw.main, hw'.main, ⟨hd, Trie.get?_of_trieGet hw.main.2 hw'.main.2 hd ha, hs.main, hs'.main⟩⟩,
    ⟨hw.storage, hw'.storage, fun a => ?_⟩, by rw [hn, hn']; exact .nil, hc⟩
  have e := contains_iff hw.storage a
  have e' := contains_iff hw'.storage a
  have hr : ∀ k, triesGet s.storageTries a k = triesGet s'.storageTries a k := hk a
  have hc' : s.storageTries.contains a = s'.storageTries.contains a := by
    rw [Bool.eq_iff_iff, e, e']
    simp only [hr]
  unfold Dict.contains at hc'
  unfold triesGet at hr
  match g : s.storageTries.get? a, g' : s'.storageTries.get? a with
  | none, none => exact .none
  | none, some t => rw [g, g'] at hc'; cases hc'
  | some t, none => rw [g, g'] at hc'; cases hc'
  | some t, some t' =>
    simp only [g, g'] at hr
    obtain ⟨d1, d2, -⟩ := hw.storage a t g
    obtain ⟨d1', d2', -⟩ := hw'.storage a t' g'
    exact .some ⟨d1.trans d1'.symm, Trie.get?_of_trieGet d2 d2' (d1.trans d1'.symm) hr, hs.storage a t g, hs'.storage a t' g'⟩

/-- Alike states have the same root, if no two keys have the same hash. -/
theorem SSim.root {C : Crypto} {s s' : State} (h : SSim s s') (hk : s.snapshots = [] → KeysDiffer C s) : stateRoot C s = stateRoot C s' := by
  by_cases hn : s.snapshots = []
  · have hn' : s'.snapshots = [] := by
      have := h.snaps.isEmpty
      rw [hn] at this
      exact List.isEmpty_iff.mp this.symm
    refine stateRoot_reads ⟨h.main.wf, h.storage.wf, by rw [hn]; simp⟩ ⟨h.main.wf', h.storage.wf', by rw [hn']; simp⟩
      ⟨h.main.rel.secured, ?_⟩ ⟨h.main.rel.secured', ?_⟩ hn hn' (hk hn) (fun a => congrFun h.accountOptional a) (fun a k => congrFun (congrFun h.slot a) k)
    · intro a t ht
      have := h.storage.rel a
      rw [ht] at this
      generalize s'.storageTries.get? a = o at this
      cases this with
      | some hr => exact hr.secured
    · intro a t ht
      have := h.storage.rel a
      rw [ht] at this
      generalize s.storageTries.get? a = o at this
      cases this with
      | some hr => exact hr.secured'
  · have hn' : s'.snapshots ≠ [] := by
      intro e
      have := h.snaps.isEmpty
      rw [e] at this
      exact hn (List.isEmpty_iff.mp this)
    unfold stateRoot
    rw [if_pos hn, if_pos hn']

end Verif
