import Verif.Lemmas.World
/-! Touching an account: before paris an account may come into existence empty; nothing else changes. -/
namespace Verif

theorem since_later {f g k : Fork} (h1 : f.since g = true) (h2 : g.since k = true) : f.since k = true := by
  unfold Fork.since at *
  simp only [decide_eq_true_eq] at *
  omega

theorem touchIn_cases (s : State) (a : Address) : touchIn s a = s ∨
    (s.fork.since .paris = false ∧ getAccountOptional s a = none ∧ touchIn s a = setAccount s a (some emptyAccount)) := by
  unfold touchIn touchAccount accountExists
  cases hf : s.fork.since .paris with
  | true => exact .inl (by simp)
  | false =>
    cases ho : getAccountOptional s a with
    | some _ => exact .inl (by simp)
    | none => exact .inr ⟨rfl, rfl, by simp⟩

theorem touchIn_paris {s : State} (a : Address) (h : s.fork.since .paris = true) : touchIn s a = s := by simp [touchIn, h]

@[simp] theorem touchIn_fork (s : State) (a : Address) : (touchIn s a).fork = s.fork := by
  rcases touchIn_cases s a with h | ⟨_, _, h⟩ <;> rw [h] <;> rfl
@[simp] theorem touchIn_snapshots (s : State) (a : Address) : (touchIn s a).snapshots = s.snapshots := by
  rcases touchIn_cases s a with h | ⟨_, _, h⟩ <;> rw [h] <;> rfl
@[simp] theorem touchIn_created (s : State) (a : Address) : (touchIn s a).createdAccounts = s.createdAccounts := by
  rcases touchIn_cases s a with h | ⟨_, _, h⟩ <;> rw [h] <;> rfl
@[simp] theorem touchIn_tries (s : State) (a : Address) : (touchIn s a).storageTries = s.storageTries := by
  rcases touchIn_cases s a with h | ⟨_, _, h⟩ <;> rw [h] <;> rfl

@[simp] theorem touchIn_account (s : State) (a x : Address) : getAccount (touchIn s a) x = getAccount s x := by
  rcases touchIn_cases s a with h | ⟨_, hn, h⟩ <;> rw [h]
  unfold getAccount
  rw [getAccountOptional_setAccount]
  by_cases he : a = x
  · subst he; simp [hn]
  · simp [he]

@[simp] theorem touchIn_storage (s : State) (a x : Address) (k : Word) : getStorage (touchIn s a) x k = getStorage s x k := by
  unfold getStorage; rw [touchIn_tries]

@[simp] theorem touchIn_hasCodeOrNonce (s : State) (a x : Address) :
    accountHasCodeOrNonce (touchIn s a) x = accountHasCodeOrNonce s x := by
  unfold accountHasCodeOrNonce; rw [touchIn_account]

theorem State.WF.touchIn {s : State} (h : s.WF) (a : Address) : (touchIn s a).WF := by
  rcases touchIn_cases s a with e | ⟨_, _, e⟩ <;> rw [e]
  · exact h
  · exact h.setAccount _ _

theorem touchIn_default (s : State) (a : Address) : (touchIn s a).mainTrie.default = s.mainTrie.default := by
  rcases touchIn_cases s a with e | ⟨_, _, e⟩ <;> rw [e]
  simp [setAccount]

theorem supply_touchIn {s : State} (hd : s.mainTrie.default = none) (a : Address) : supply (touchIn s a) = supply s := by
  rcases touchIn_cases s a with e | ⟨_, hn, e⟩ <;> rw [e]
  have := supply_setAccount hd a (some emptyAccount)
  rw [hn] at this
  have h0 : balanceOf (some emptyAccount) = 0 := rfl
  have h1 : balanceOf none = 0 := rfl
  omega

theorem wcore_touchIn (w : World) (a : Address) : WCore w { w with state := touchIn w.state a } :=
  ⟨fun h => ⟨h.state.touchIn a, h.transient⟩, fun x hx => .inl (by simpa using hx),
   fun x _ => by simp, fun h => Nat.le_of_eq (supply_touchIn h.state.main.1 a), by simp⟩

theorem cleared_touchIn {s : State} (h : s.WF) (a : Address) : cleared (touchIn s a) ≤ cleared s :=
  cleared_le h (by simp) (fun x hx => by simpa using hx) (fun x k _ ho hk => by
    rw [touchIn_storage] at hk; exact ⟨by simpa [Owned] using ho, hk⟩)
end Verif
