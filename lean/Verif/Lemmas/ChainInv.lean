import Verif.Lemmas.BlockRel
import Verif.Lemmas.RootState
/-! Invariants of the state of a chain. -/
namespace Verif
open Spec Verif.Props

/-- A property of states kept by everything a block does. -/
theorem closed_of {P : State → Prop} (contents : ∀ s s' : State, s'.fork = s.fork → s'.mainTrie = s.mainTrie → s'.storageTries = s.storageTries → P s → P s')
    (modify : ∀ s a f, (∀ x : Account, (f x).code = x.code) → P s → P (modifyState' s a f))
    (code : ∀ s a c, Deployable s.fork c ∨ Designator c → P s → P (setCode s a c))
    (storage : ∀ s s' a k v, setStorage s a k v = .ok s' → P s → P s')
    (destroy : ∀ s a, P s → P (destroyStorage s a)) (remove : ∀ s a, P s → P (destroyAccount s a))
    (touch : ∀ s a, P s → P (touchIn s a)) :
    BlockClosed fun s s' => P s → P s' := by
  have hm : ∀ {s s' : State} {a : Address} {f : Account → Except Crash Account}, (∀ x y, f x = .ok y → y.code = x.code) →
      modifyState s a f = .ok s' → P s → P s' := by
    intro s s' a f hf h hp
    rw [modifyState_eq] at h
    match e : f (getAccount s a) with
    | .error c => rw [e] at h; cases h
    | .ok acc =>
      rw [e] at h
      cases h
      have hc := hf _ _ e
      have : modifyState' s a (fun _ => acc) = modifyState' s a (fun x => { acc with code := x.code }) := by
        unfold modifyState'
        dsimp only
        rw [← hc]
      rw [this]
      exact modify s a _ (fun _ => rfl) hp
  have hmove : ∀ s s' a b v, moveEther s a b v = .ok s' → P s → P s' := by
    intro s s' a b v h hp
    unfold moveEther at h
    split at h
    · cases h
    · rename_i s1 h1
      have q1 : P s1 := hm (fun x y hxy => by
        unfold reduceSenderBalance at hxy; split at hxy <;> cases hxy; rfl) h1 hp
      exact hm (fun x y hxy => by
        unfold increaseRecipientBalance at hxy; split at hxy <;> cases hxy; rfl) h q1
  have hbal : ∀ s a v, P s → P (setAccountBalance s a v) := fun s a v => modify s a _ fun _ => rfl
  refine { contents := contents, trans := fun a b c h h' ha => h' (h ha), move := hmove, balance := hbal,
           selfdestruct := selfdestruct_of (R := fun s s' => P s → P s') hmove hbal fun a b c h h' ha => h' (h ha), nonce := ?_,
           storage := storage, destroy := destroy, code := fun s a c hc => code s a c (.inl hc),
           delegate := fun s a c hc => code s a c (.inr hc), remove := remove, modify := ?_, touch := touch }
  · intro s a _; exact modify s a _ fun _ => rfl
  · intro s s' a n h
    refine hm (fun x y hxy => ?_) h
    unfold withdrawalCredit at hxy
    split at hxy
    · cases hxy
    · unfold increaseRecipientBalance at hxy; split at hxy <;> cases hxy; rfl

theorem imports_rel {R : State → State → Prop} (hR : BlockClosed R) (hu : ∀ (s : State) (f : Fork), f.since s.fork = true → R s { s with fork := f }) {C : Crypto} {c c' : BlockChain} {bs : List ChainBlock}
    (h : Imports C c bs c') : R c.state c'.state := by
  induction h with
  | nil c => exact hR.refl _
  | cons h t ih => exact hR.trans _ _ _ (import_rel hR h) ih
  | upgrade f hf t ih => exact hR.trans _ _ _ (hu _ f hf) ih

theorem secured_closed : BlockClosed fun s s' => Secured s → Secured s' :=
  closed_of (fun _ _ _ h1 h2 h => h.of_eq h1 h2) (fun _ _ _ _ h => h.modifyState' _ _) (fun _ _ _ _ h => h.modifyState' _ _)
    (fun _ _ _ _ _ he h => h.setStorage he) (fun _ _ h => h.destroyStorage _) (fun _ _ h => (h.destroyStorage _).setAccount _ _)
    (fun s a h => by rcases touchIn_cases s a with e | ⟨-, -, e⟩ <;> rw [e]; exacts [h, h.setAccount _ _])

/-- Well-formed dictionaries, and storage only at existing accounts. -/
structure Tidy (s : State) : Prop where
  main : MainWF s.mainTrie
  storage : TriesWF s.storageTries
  owned : NoOrphans s

theorem Tidy.destroyStorage {s : State} (h : Tidy s) (a : Address) : Tidy (destroyStorage s a) := by
  refine ⟨h.main, h.storage.del a, fun x k hx => ?_⟩
  have := h.owned x k hx
  unfold getStorage Verif.destroyStorage at *
  rw [triesGet_del]
  split
  · rfl
  · exact this

theorem Tidy.destroyAccount {s : State} (h : Tidy s) (a : Address) : Tidy (destroyAccount s a) :=
  ⟨h.main.set a none, h.storage.del a, h.owned.destroyAccount a⟩

theorem Tidy.modifyState' {s : State} (h : Tidy s) (a : Address) (f : Account → Account) : Tidy (modifyState' s a f) := by
  refine ⟨?_, ?_, h.owned.modifyState' a f⟩
  · unfold Verif.modifyState' dropEmpty
    split
    · exact (h.main.set _ _).set _ _
    · exact h.main.set _ _
  · unfold Verif.modifyState' dropEmpty
    split
    · exact h.storage.del _
    · exact h.storage

theorem Tidy.setStorage {s s' : State} {a : Address} {k v : Word} (he : setStorage s a k v = .ok s') (h : Tidy s) : Tidy s' := by
  unfold Verif.setStorage at he
  split at he
  · cases he
  · rename_i acc hacc
    cases he
    refine ⟨h.main, h.storage.set a k v, fun x y hx => ?_⟩
    have hx' : getAccountOptional s x = none := hx
    have := h.owned x y hx'
    unfold getStorage at *
    dsimp only
    rw [triesGet_triesSet h.storage]
    split
    · rename_i hax
      obtain ⟨rfl, -⟩ := hax
      rw [hacc] at hx'; cases hx'
    · exact this

theorem tidy_closed : BlockClosed fun s s' => Tidy s → Tidy s' :=
  closed_of (fun s s' _ h1 h2 h => ⟨by rw [h1]; exact h.main, by rw [h2]; exact h.storage, h.owned.of_eq h1 h2⟩)
    (fun _ _ _ _ h => h.modifyState' _ _) (fun _ _ _ _ h => h.modifyState' _ _)
    (fun _ _ _ _ _ he h => h.setStorage he) (fun _ _ h => h.destroyStorage _) (fun _ _ h => h.destroyAccount _)
    (fun s a h => by
      rcases touchIn_cases s a with e | ⟨-, hn, e⟩ <;> rw [e]
      · exact h
      · refine ⟨h.main.set _ _, h.storage, fun x k hx => ?_⟩
        refine h.owned x k ?_
        rw [getAccountOptional_setAccount] at hx
        split at hx
        · cases hx
        · exact hx)

/-- Code that transactions can put into an account: a deployable contract or a delegation designator. -/
def CodeOK (c : Bytes) : Prop := (c.head? ≠ some 0xEF ∧ c.length ≤ 0x6000) ∨ ∃ a : Address, c = [0xEF, 0x01, 0x00] ++ addressBytes a

/-- All codes are such, and the fork checks the code that is deployed. -/
def CodesOK (s : State) : Prop := s.fork.since .london = true ∧ ∀ a, CodeOK (getAccount s a).code

theorem codes_all_closed : BlockClosed fun s s' => CodesOK s → CodesOK s' := by
  have hnil : CodeOK [] := .inl ⟨by simp, by simp⟩
  refine closed_of (P := CodesOK) ?_ ?_ ?_ ?_ ?_ ?_ ?_
  · intro s s' hf h1 _ h; exact ⟨by rw [hf]; exact h.1, fun a => by rw [getAccount_congr h1]; exact h.2 a⟩
  · intro s a f hf ⟨h0, h⟩
    refine ⟨by simpa using h0, fun x => ?_⟩
    rw [getAccount_modifyState']
    split
    · rename_i e; subst e; rw [hf]; exact h a
    · exact h x
  · intro s a c hc ⟨h0, h⟩
    refine ⟨by simpa [setCode] using h0, fun x => ?_⟩
    unfold setCode
    rw [getAccount_modifyState']
    split
    · rcases hc with hc | hc | hc
      · exact .inl ⟨hc.1 h0, hc.2 (since_later h0 rfl)⟩
      · subst hc; exact hnil
      · exact .inr hc
    · exact h x
  · intro s s' a k v he h
    unfold setStorage at he; split at he <;> cases he; exact h
  · intro s a h; exact h
  · intro s a ⟨h0, h⟩
    refine ⟨h0, fun x => ?_⟩
    have := getAccountOptional_destroyAccount s a x
    unfold getAccount
    rw [this]
    by_cases e : a = x
    · rw [if_pos e]; exact hnil
    · rw [if_neg e]; exact h x
  · intro s a ⟨h0, h⟩; exact ⟨by simpa using h0, fun x => by rw [touchIn_account]; exact h x⟩

/-- No account is empty, and the fork is one that removes accounts as they become empty. -/
def NoEmpty (s : State) : Prop := s.fork.since .paris = true ∧ ∀ a, getAccountOptional s a ≠ some ⟨0, 0, []⟩

theorem noEmpty_closed : BlockClosed fun s s' => NoEmpty s → NoEmpty s' := by
  have hm : ∀ (s : State) a f, NoEmpty s → NoEmpty (modifyState' s a f) := by
    intro s a f ⟨h0, h⟩
    refine ⟨by simpa using h0, fun x => ?_⟩
    rw [getAccountOptional_modifyState']
    split
    · unfold normAccount emptyAccount; rw [h0]; grind
    · exact h x
  refine closed_of (P := NoEmpty) ?_ ?_ ?_ ?_ ?_ ?_ ?_
  · intro s s' hf h1 _ ⟨h0, h⟩; refine ⟨by rw [hf]; exact h0, fun a => ?_⟩; unfold getAccountOptional at *; rw [h1]; exact h a
  · intro s a f _ h; exact hm s a f h
  · intro s a c _ h; exact hm s a _ h
  · intro s s' a k v he h
    unfold setStorage at he; split at he <;> cases he; exact h
  · intro s a h; exact h
  · intro s a ⟨h0, h⟩
    refine ⟨h0, fun x => ?_⟩
    rw [getAccountOptional_destroyAccount]
    split
    · simp
    · exact h x
  · intro s a h; rw [touchIn_paris a h.1]; exact h

end Verif
