import Verif.Lemmas.PatriciaInj
import Verif.Lemmas.StateProg
/-! State roots and contents. -/
namespace Verif
open Spec

/-! ### Dictionaries -/

theorem Dict.entries_nodup {K V : Type} [DecidableEq K] (d : Dict K V) : d.entries.Nodup := by
  have := d.nodup
  rw [List.nodup_iff_pairwise_ne] at this ⊢
  rw [List.pairwise_map] at this
  exact this.imp fun h he => h (by rw [he])

theorem Dict.perm_of_get? {K V : Type} [DecidableEq K] {d d' : Dict K V} (h : ∀ k, d.get? k = d'.get? k) : d.entries.Perm d'.entries := by
  rw [List.perm_ext_iff_of_nodup d.entries_nodup d'.entries_nodup]
  rintro ⟨k, v⟩
  rw [Dict.mem_iff, Dict.mem_iff, h]

theorem Trie.get?_of_trieGet {K V : Type} [DecidableEq K] {t t' : Trie K V} (h : t.WF) (h' : t'.WF) (hd : t.default = t'.default)
    (hg : ∀ k, trieGet t k = trieGet t' k) (k : K) : t.data.get? k = t'.data.get? k := by
  have := hg k
  unfold trieGet at this
  match e : t.data.get? k, e' : t'.data.get? k with
  | none, none => rfl
  | some v, none =>
    rw [e, e'] at this
    exact absurd (this.trans hd.symm) (h k v e)
  | none, some v =>
    rw [e, e'] at this
    exact absurd (this.symm.trans hd) (h' k v e')
  | some v, some v' =>
    rw [e, e'] at this
    exact congrArg some this

theorem trieSet_secured {K V : Type} [DecidableEq K] [DecidableEq V] (t : Trie K V) (k : K) (v : V) : (trieSet t k v).secured = t.secured := by
  unfold trieSet; split <;> rfl

/-- The encoded storage of an account. -/
def entriesOf (s : State) (a : Address) : List (Bytes × Bytes) :=
  match s.storageTries.get? a with
  | none => []
  | some t => storageEntries t

theorem mem_storageEntries {t : Trie Word Word} {e : Bytes × Bytes} :
    e ∈ storageEntries t ↔ ∃ k v, t.data.get? k = some v ∧ e = (wordBytes k, Rlp.encode (.ofNat v.toNat)) := by
  unfold storageEntries
  rw [List.mem_map]
  constructor
  · rintro ⟨⟨k, v⟩, hm, rfl⟩; exact ⟨k, v, (Dict.mem_iff _ _ _).mp hm, rfl⟩
  · rintro ⟨k, v, hm, rfl⟩; exact ⟨(k, v), (Dict.mem_iff _ _ _).mpr hm, rfl⟩

theorem storageEntries_nodup (t : Trie Word Word) : ((storageEntries t).map Prod.fst).Nodup := by
  unfold storageEntries
  rw [List.map_map, List.nodup_iff_pairwise_ne, List.pairwise_map]
  have := t.data.nodup
  rw [List.nodup_iff_pairwise_ne, List.pairwise_map] at this
  exact this.imp fun h he => h (wordBytes_inj he)

theorem triesGet_nonzero {d : StorageTries} (hd : TriesWF d) {a : Address} {t : Trie Word Word} (h : d.get? a = some t) {k v : Word} :
    t.data.get? k = some v ↔ triesGet d a k = v ∧ v ≠ 0 := by
  obtain ⟨h1, h2, -⟩ := hd a t h
  unfold triesGet
  rw [h]
  dsimp only
  unfold trieGet
  constructor
  · intro hk; rw [hk]; exact ⟨rfl, by rw [← h1]; exact h2 k v hk⟩
  · rintro ⟨hk, hv⟩
    match e : t.data.get? k with
    | none => rw [e] at hk; exact absurd (hk.symm.trans h1) hv
    | some v' => rw [e] at hk; exact congrArg some hk

/-- Membership in the encoded storage is about the non-zero slots only. -/
theorem mem_entriesOf {s : State} (hs : s.WF) {a : Address} {e : Bytes × Bytes} :
    e ∈ entriesOf s a ↔ ∃ k, getStorage s a k ≠ 0 ∧ e = (wordBytes k, Rlp.encode (.ofNat (getStorage s a k).toNat)) := by
  unfold entriesOf
  match h : s.storageTries.get? a with
  | none =>
    dsimp only
    constructor
    · intro hm; cases hm
    · rintro ⟨k, hk, -⟩
      unfold getStorage triesGet at hk
      rw [h] at hk
      exact absurd rfl hk
  | some t =>
    dsimp only
    rw [mem_storageEntries]
    constructor
    · rintro ⟨k, v, hk, rfl⟩
      obtain ⟨h1, h2⟩ := (triesGet_nonzero hs.storage h).mp hk
      exact ⟨k, by unfold getStorage; rw [h1]; exact h2, by unfold getStorage; rw [h1]⟩
    · rintro ⟨k, hk, rfl⟩
      exact ⟨k, _, (triesGet_nonzero hs.storage h).mpr ⟨rfl, hk⟩, rfl⟩

theorem entriesOf_nodup (s : State) (a : Address) : ((entriesOf s a).map Prod.fst).Nodup := by
  unfold entriesOf
  split
  · exact List.nodup_nil
  · exact storageEntries_nodup _

theorem nodup_of_keys {l : List (Bytes × Bytes)} (h : (l.map Prod.fst).Nodup) : l.Nodup := by
  rw [List.nodup_iff_pairwise_ne] at h ⊢
  rw [List.pairwise_map] at h
  exact h.imp fun h he => h (by rw [he])

/-! ### Tries of the state are secured; storage belongs to accounts -/

/-- Every trie of the state hashes its keys, as all tries created by the code do. -/
structure Secured (s : State) : Prop where
  main : s.mainTrie.secured = true
  storage : ∀ a t, s.storageTries.get? a = some t → t.secured = true

theorem Secured.of_eq {s s' : State} (h : Secured s) (h1 : s'.mainTrie = s.mainTrie) (h2 : s'.storageTries = s.storageTries) : Secured s' :=
  ⟨by rw [h1]; exact h.main, by rw [h2]; exact h.storage⟩

theorem Secured.setAccount {s : State} (h : Secured s) (a : Address) (acc : Option Account) : Secured (setAccount s a acc) :=
  ⟨(trieSet_secured _ _ _).trans h.main, h.storage⟩

theorem Secured.destroyStorage {s : State} (h : Secured s) (a : Address) : Secured (destroyStorage s a) := by
  refine ⟨h.main, fun x t hx => ?_⟩
  simp only [Verif.destroyStorage, Dict.get?_del] at hx
  split at hx
  · cases hx
  · exact h.storage x t hx

theorem Secured.modifyState' {s : State} (h : Secured s) (a : Address) (f : Account → Account) : Secured (modifyState' s a f) := by
  unfold Verif.modifyState' dropEmpty
  split
  · exact (((h.setAccount _ _).destroyStorage _).setAccount _ _)
  · exact h.setAccount _ _

theorem Secured.modifyState {s s' : State} (h : Secured s) {a : Address} {f : Account → Except Crash Account}
    (he : modifyState s a f = .ok s') : Secured s' := by
  rw [modifyState_eq] at he
  split at he
  · cases he
  · cases he; exact h.modifyState' _ _

theorem Secured.setStorage {s s' : State} (h : Secured s) {a : Address} {k v : Word} (he : setStorage s a k v = .ok s') : Secured s' := by
  unfold Verif.setStorage at he
  split at he
  · cases he
  · cases he
    refine ⟨h.main, fun x t hx => ?_⟩
    have key : ∀ u : Trie Word Word, u.secured = true →
        (if (trieSet u k v).data.entries.isEmpty then (s.storageTries.set a (trieSet u k v)).del a
          else s.storageTries.set a (trieSet u k v)).get? x = some t → t.secured = true := by
      intro u hu hx
      split at hx
      · rw [Dict.get?_del] at hx
        split at hx
        · cases hx
        · rename_i hne; rw [Dict.get?_set, if_neg hne] at hx; exact h.storage x t hx
      · rw [Dict.get?_set] at hx
        split at hx
        · cases hx; rw [trieSet_secured]; exact hu
        · exact h.storage x t hx
    simp only [triesSet] at hx
    split at hx
    · exact key _ rfl hx
    · rename_i u hu; exact key u (h.storage a u hu) hx

theorem Secured.op (o : StateOp) {w w' : World} (hw : Secured w.state) (h : o.exec w = .ok w') : Secured w'.state := by
  cases o <;> simp only [StateOp.exec, Except.map] at h
  case setAccount => cases h; exact hw.setAccount _ _
  case destroyStorage => cases h; exact hw.destroyStorage _
  case destroyAccount => cases h; exact (hw.destroyStorage _).setAccount _ _
  case markCreated => cases h; exact hw.of_eq rfl rfl
  case setBalance => cases h; unfold World.withState Verif.setAccountBalance; dsimp only; exact Secured.modifyState' hw _ _
  case incrementNonce => cases h; unfold World.withState Verif.incrementNonce; dsimp only; exact Secured.modifyState' hw _ _
  case setCode => cases h; unfold World.withState Verif.setCode; dsimp only; exact Secured.modifyState' hw _ _
  case setTransient => cases h; exact hw
  case setStorage =>
    split at h
    · cases h
    · rename_i s' hs; cases h; exact hw.setStorage hs
  case modify =>
    split at h
    · cases h
    · rename_i s' hs; cases h; exact hw.modifyState hs
  case moveEther =>
    split at h
    · cases h
    · rename_i s' hs; cases h
      unfold moveEther at hs
      split at hs
      · cases hs
      · rename_i s1 h1; exact (hw.modifyState h1).modifyState hs

theorem Secured.prog (p : Prog) : ∀ {w w' : World}, Secured w.state → p.exec w = .ok w' → Secured w'.state := by
  induction p with
  | done => intro w w' hw h; cases h; exact hw
  | op o rest ih =>
    intro w w' hw h
    simp only [Prog.exec] at h
    split at h
    · cases h
    · rename_i w1 h1; exact ih (hw.op o h1) h
  | committed body rest ihb ihr =>
    intro w w' hw h
    simp only [Prog.exec] at h
    split at h
    · cases h
    · rename_i w1 h1
      obtain ⟨w2, e, c2, _, _⟩ := commit_ok (body.exec_snaps h1)
      rw [e] at h
      exact ihr ((ihb (w := beginTransaction w) (hw.of_eq rfl rfl) h1).of_eq c2.1 c2.2.1) h
  | rolledBack body rest ihb ihr =>
    intro w w' hw h
    simp only [Prog.exec] at h
    split at h
    · cases h
    · rename_i w1 h1
      obtain ⟨w2, e, c2, _, _⟩ := rollback_ok (body.exec_snaps h1)
      rw [e] at h
      exact ihr (hw.of_eq c2.1 c2.2.1) h

/-- Accounts that do not exist have no storage. -/
def NoOrphans (s : State) : Prop := ∀ a k, getAccountOptional s a = none → getStorage s a k = 0

theorem NoOrphans.of_eq {s s' : State} (h : NoOrphans s) (h1 : s'.mainTrie = s.mainTrie) (h2 : s'.storageTries = s.storageTries) :
    NoOrphans s' := by
  intro a k ha
  have := h a k
  unfold getAccountOptional getStorage at *
  rw [h1] at ha; rw [h2]; exact this ha

theorem NoOrphans.destroyAccount {s : State} (h : NoOrphans s) (a : Address) : NoOrphans (destroyAccount s a) := by
  intro x k hx
  rw [getAccountOptional_destroyAccount] at hx
  by_cases hax : a = x
  · subst hax
    simp [getStorage, Verif.destroyAccount, setAccount, destroyStorage, triesGet, Dict.get?_del]
  · rw [if_neg hax] at hx
    have := h x k hx
    simpa [getStorage, Verif.destroyAccount, setAccount, destroyStorage, triesGet, Dict.get?_del, hax] using this

theorem NoOrphans.modifyState' {s : State} (h : NoOrphans s) (a : Address) (f : Account → Account) : NoOrphans (modifyState' s a f) := by
  have hset : ∀ acc, NoOrphans (setAccount s a (some acc)) := by
    intro acc x k hx
    rw [getAccountOptional_setAccount] at hx
    split at hx
    · cases hx
    · exact h x k hx
  unfold Verif.modifyState' dropEmpty
  split
  · exact (hset _).destroyAccount a
  · exact hset _

theorem NoOrphans.modifyState {s s' : State} (h : NoOrphans s) {a : Address} {f : Account → Except Crash Account}
    (he : modifyState s a f = .ok s') : NoOrphans s' := by
  rw [modifyState_eq] at he
  split at he
  · cases he
  · cases he; exact h.modifyState' _ _

end Verif
