import Verif.Lemmas.StateProg
/-!
Properties C01-C05: the state database (osaka/state.py, osaka/trie.py map interface).
Vocabulary: `Verif/Spec/StateProg.lean`.
-/
namespace Verif.Props
open Verif

/-- **C01**. Whatever well-nested sequence of calls runs after `begin_transaction`, if it returns then
`rollback_transaction` returns too, and afterwards every account, slot and transient slot reads as before
`begin_transaction`, with the nesting level unchanged. -/
theorem C01_rollback_restores (w w1 : World) (body : Prog)
    (h : body.exec (beginTransaction w) = .ok w1) :
    ∃ w2, rollbackTransaction w1 = .ok w2 ∧ SameReads w2 w ∧ nesting w2 = nesting w := by
  obtain ⟨w2, e, hc, hs, _⟩ := rollback_ok (body.exec_snaps h)
  exact ⟨w2, e, hc.sameReads, by simp [nesting, hs.1, hs.2]⟩

/-- **C01**, for everything that follows: after the rollback any further well-nested sequence of calls behaves, on
accounts, slots and transient slots, exactly as if the rolled-back block had never run. -/
theorem C01_rollback_forgotten (w w1 : World) (body rest : Prog)
    (h : body.exec (beginTransaction w) = .ok w1) :
    match (Prog.rolledBack body rest).exec w, rest.exec w with
    | .ok a, .ok b => SameReads a b
    | .error c, .error c' => c = c'
    | _, _ => False := by
  obtain ⟨w2, e, hc, _, _⟩ := rollback_ok (body.exec_snaps h)
  have := rest.exec_congr hc
  simp only [Prog.exec, h, e]
  revert this
  generalize rest.exec w2 = r1; generalize rest.exec w = r2
  intro this
  match r1, r2, this with
  | .ok _, .ok _, h => exact h.sameReads
  | .error _, .error _, h => exact h

/-- **C02**. Bracketing a sequence with begin/commit gives the same outcome (same error, or the same reads) as the bare
sequence; and commit itself cannot fail. -/
theorem C02_commit_transparent (w : World) (body : Prog) :
    match (Prog.committed body .done).exec w, body.exec w with
    | .ok a, .ok b => SameReads a b ∧ nesting a = nesting w
    | .error c, .error c' => c = c'
    | _, _ => False := by
  have hc := body.exec_congr (begin_contents w)
  simp only [Prog.exec]
  match h1 : body.exec (beginTransaction w), h2 : body.exec w with
  | .ok a, .ok b =>
    rw [h1, h2] at hc
    obtain ⟨w2, e, c2, s2, _⟩ := commit_ok (body.exec_snaps h1)
    simp only [e]
    exact ⟨(c2.trans hc).sameReads, by simp [nesting, s2.1, s2.2]⟩
  | .error _, .error _ => rw [h1, h2] at hc; exact hc
  | .ok _, .error _ => rw [h1, h2] at hc; exact hc.elim
  | .error _, .ok _ => rw [h1, h2] at hc; exact hc.elim

/-- **C03**, every reachable store is well formed, so that the read/write laws below apply to it: well-formedness holds
initially and is kept by every well-nested sequence of calls. -/
theorem C03_reachable_wf (body : Prog) (w : World)
    (h : body.exec ⟨State.empty, TransientStorage.empty⟩ = .ok w) : w.WF :=
  body.exec_wf ⟨State.empty_wf, TransientStorage.empty_wf⟩ h

/-- **C03**, accounts are an independent map. -/
theorem C03_account_map (s : State) (a x : Address) (acc : Option Account) :
    getAccountOptional (setAccount s a acc) x = (if x = a then acc else getAccountOptional s x) ∧
    (∀ k, getStorage (setAccount s a acc) x k = getStorage s x k) := by
  refine ⟨?_, fun k => rfl⟩
  rw [getAccountOptional_setAccount]; grind

/-- **C03**, storage is an independent map; writing zero erases; no account changes. The write succeeds exactly for
existing accounts. -/
theorem C03_storage_map (s : State) (hs : s.WF) (a : Address) (k v : Word) :
    (getAccountOptional s a = none → setStorage s a k v = .error .assertionError) ∧
    (getAccountOptional s a ≠ none → ∃ s', setStorage s a k v = .ok s' ∧
      (∀ x y, getStorage s' x y = if x = a ∧ y = k then v else getStorage s x y) ∧
      (∀ x, getAccountOptional s' x = getAccountOptional s x)) := by
  constructor
  · intro h; simp [setStorage, h]
  · intro h
    match h' : getAccountOptional s a with
    | none => exact absurd h' h
    | some acc =>
      refine ⟨{ s with storageTries := triesSet s.storageTries a k v }, by simp [setStorage, h'], ?_, fun _ => rfl⟩
      intro x y
      simp only [getStorage]
      rw [triesGet_triesSet hs.storage]; grind

/-- **C03**, writing zero to a slot gives the same reads as a slot never written: the account has storage exactly when
some slot is non-zero. -/
theorem C03_has_storage_iff (s : State) (hs : s.WF) (a : Address) :
    accountHasStorage s a = true ↔ ∃ k, getStorage s a k ≠ 0 := contains_iff hs.storage a

/-- **C03**, transient storage is an independent map. -/
theorem C03_transient_map (t : TransientStorage) (ht : t.WF) (a x : Address) (k y v : Word) :
    getTransientStorage (setTransientStorage t a k v) x y =
      if x = a ∧ y = k then v else getTransientStorage t x y := by
  simp only [getTransientStorage, setTransientStorage]
  rw [triesGet_triesSet ht.tries]; grind

/-- **C03**, destroying storage zeroes exactly that address. -/
theorem C03_destroy_storage (s : State) (a x : Address) (k : Word) :
    getStorage (destroyStorage s a) x k = (if x = a then 0 else getStorage s x k) ∧
    getAccountOptional (destroyStorage s a) x = getAccountOptional s x := by
  refine ⟨?_, rfl⟩
  simp only [getStorage, destroyStorage, triesGet_del]; grind

/-- **C03**, destroying an account removes exactly that account and its storage. -/
theorem C03_destroy_account (s : State) (a x : Address) (k : Word) :
    getStorage (destroyAccount s a) x k = (if x = a then 0 else getStorage s x k) ∧
    getAccountOptional (destroyAccount s a) x = (if x = a then none else getAccountOptional s x) := by
  refine ⟨?_, ?_⟩
  · have := (C03_destroy_storage s a x k).1
    exact this
  · rw [getAccountOptional_destroyAccount]; grind

/-- **C04**. Inside the outermost snapshot of a transaction, after any well-nested sequence of calls,
`get_storage_original` answers zero for addresses marked as created by that sequence (or already marked before), and
for all others the value the slot had when the outermost snapshot was taken. -/
theorem C04_original_storage (w w1 : World) (hout : w.state.snapshots = []) (body : Prog)
    (h : body.exec (beginTransaction w) = .ok w1) (a : Address) (k : Word) :
    getStorageOriginal w1.state a k =
      .ok (if a ∈ w.state.createdAccounts ∨ a ∈ body.marks then 0 else getStorage w.state a k) := by
  have hs := (body.exec_snaps h).1
  have hc := body.exec_created h (by simp [beginTransaction]) a
  unfold getStorageOriginal
  simp only [hc]
  simp only [hs, beginTransaction, hout]
  split
  · rfl
  · rfl

/-- **C05**, one update: after `modify_state` the account is absent if the callback made it empty (since paris), and
otherwise present with the callback's value; no other account changes. -/
theorem C05_modify_state (s s' : State) (a : Address) (f : Account → Except Crash Account)
    (h : modifyState s a f = .ok s') :
    ∃ acc, f (getAccount s a) = .ok acc ∧
      getAccountOptional s' a = (if s.fork.since .paris = true ∧ acc = ⟨0, 0, []⟩ then none else some acc) ∧
      ∀ x, x ≠ a → getAccountOptional s' x = getAccountOptional s x := by
  rw [modifyState_eq] at h
  split at h
  · cases h
  · rename_i acc hf
    cases h
    refine ⟨acc, hf, ?_, ?_⟩
    · rw [getAccountOptional_modifyState']; simp only [if_true, normAccount, emptyAccount]; rfl
    · intro x hx; rw [getAccountOptional_modifyState']; simp [Ne.symm hx]

/-- No account is present with zero nonce, zero balance and no code. -/
def NoEmptyAccounts (w : World) : Prop := ∀ a, getAccountOptional w.state a ≠ some ⟨0, 0, []⟩

/-- The balance, nonce and code updates of osaka/state.py, and the other operations that cannot write a raw account. -/
def IsUpdate : StateOp → Prop
  | .setAccount _ _ => False
  | _ => True

/-- A sequence made of such updates only. -/
def OnlyUpdates : Prog → Prop
  | .done => True
  | .op o rest => IsUpdate o ∧ OnlyUpdates rest
  | .committed body rest => OnlyUpdates body ∧ OnlyUpdates rest
  | .rolledBack body rest => OnlyUpdates body ∧ OnlyUpdates rest

theorem modify_noEmpty {s s' : State} {a : Address} {f : Account → Except Crash Account}
    (hp : s.fork.since .paris = true) (hs : ∀ a, getAccountOptional s a ≠ some ⟨0, 0, []⟩)
    (h : modifyState s a f = .ok s') : ∀ a, getAccountOptional s' a ≠ some ⟨0, 0, []⟩ := by
  intro x
  obtain ⟨acc, _, h1, h2⟩ := C05_modify_state s s' a f h
  by_cases hx : x = a
  · subst hx; rw [h1]; simp only [hp, true_and]; grind
  · rw [h2 x hx]; exact hs x

theorem op_noEmpty (o : StateOp) (ho : IsUpdate o) {w w' : World} (hp : w.state.fork.since .paris = true) (hw : NoEmptyAccounts w)
    (h : o.exec w = .ok w') : NoEmptyAccounts w' := by
  have hm' : ∀ a f, NoEmptyAccounts { w with state := modifyState' w.state a f } := by
    intro a f x
    show getAccountOptional (modifyState' w.state a f) x ≠ _
    rw [getAccountOptional_modifyState']
    split
    · simp only [normAccount, emptyAccount, hp, true_and]; grind
    · exact hw x
  cases o <;> simp only [StateOp.exec, Except.map] at h
  case setAccount => exact ho.elim
  case destroyStorage => cases h; exact hw
  case destroyAccount =>
    cases h; intro x
    simp only [World.withState, getAccountOptional_destroyAccount]; split
    · simp
    · exact hw x
  case markCreated => cases h; exact hw
  case setBalance => cases h; exact hm' _ _
  case incrementNonce => cases h; exact hm' _ _
  case setCode => cases h; exact hm' _ _
  case setTransient => cases h; exact hw
  case setStorage =>
    split at h
    · cases h
    · rename_i s' hs; cases h
      unfold setStorage at hs
      split at hs <;> cases hs
      exact hw
  case modify =>
    split at h
    · cases h
    · rename_i s' hs; cases h; exact modify_noEmpty hp hw hs
  case moveEther =>
    split at h
    · cases h
    · rename_i s' hs; cases h
      unfold moveEther at hs
      split at hs
      · cases hs
      · rename_i s1 h1; exact modify_noEmpty
          (by rw [modifyState_eq] at h1; split at h1 <;> cases h1; simpa using hp) (modify_noEmpty hp hw h1) hs

theorem sameContents_noEmpty {w w' : World} (h : SameContents w w') (hw : NoEmptyAccounts w') : NoEmptyAccounts w := by
  intro a; rw [h.sameReads.1 a]; exact hw a

/-- **C05**, any history: since paris, a state without present-but-empty accounts never acquires one, under any well-nested sequence
of balance, nonce, code and storage updates, destructions, transfers, commits and rollbacks. -/
theorem C05_no_empty_accounts (p : Prog) (hp : OnlyUpdates p) (w w' : World) (hf : w.state.fork.since .paris = true)
    (hw : NoEmptyAccounts w)
    (h : p.exec w = .ok w') : NoEmptyAccounts w' := by
  induction p generalizing w w' with
  | done => cases h; exact hw
  | op o rest ih =>
    simp only [Prog.exec] at h
    split at h
    · cases h
    · rename_i w1 h1; exact ih hp.2 w1 w' (by rw [(stateOp_exec_frame o h1).2.2]; exact hf) (op_noEmpty o hp.1 hf hw h1) h
  | committed body rest ihb ihr =>
    simp only [Prog.exec] at h
    split at h
    · cases h
    · rename_i w1 h1
      obtain ⟨w2, e, c2, s2, _⟩ := commit_ok (body.exec_snaps h1)
      rw [e] at h
      exact ihr hp.2 w2 w' (by rw [s2.2.2]; exact hf) (sameContents_noEmpty c2 (ihb hp.1 (beginTransaction w) w1 hf hw h1)) h
  | rolledBack body rest ihb ihr =>
    simp only [Prog.exec] at h
    split at h
    · cases h
    · rename_i w1 h1
      obtain ⟨w2, e, c2, s2, _⟩ := rollback_ok (body.exec_snaps h1)
      rw [e] at h
      exact ihr hp.2 w2 w' (by rw [s2.2.2]; exact hf) (sameContents_noEmpty c2 hw) h

/-! ### Concrete cases meeting the hypotheses -/

/-- A world with one account (nonce 1, balance 5) and a non-zero slot. -/
def exWorld : World :=
  { state := { State.empty with
      mainTrie := trieSet State.empty.mainTrie 7 (some ⟨1, 5, []⟩)
      storageTries := triesSet Dict.empty 7 3 9 }
    transient := TransientStorage.empty }

/-- A body with writes, a nested commit and a nested rollback. -/
def exBody : Prog :=
  .op (.setStorage 7 3 0) <| .committed (.op (.moveEther 7 8 5) <| .op (.markCreated 9) .done) <|
    .rolledBack (.op (.destroyAccount 7) <| .op (.markCreated 10) .done) <|
    .op (.setTransient 7 1 1) .done

/-- The sequence runs, and changes reads before being rolled back. -/
example : ∃ w1, exBody.exec (beginTransaction exWorld) = .ok w1 ∧ getStorage exWorld.state 7 3 = 9 ∧
    getStorage w1.state 7 3 = 0 ∧ (getAccount w1.state 8).balance = 5 ∧ exWorld.state.snapshots = [] ∧
    exBody.marks = [9, 10] := by
  refine ⟨_, rfl, ?_⟩ <;> decide
example : exWorld.WF ∧ NoEmptyAccounts exWorld ∧ OnlyUpdates exBody := by
  refine ⟨⟨⟨?_, ?_, ?_⟩, TransientStorage.empty_wf⟩, ?_, ?_⟩
  · exact State.empty_wf.main.set _ _
  · exact TriesWF.empty.set _ _ _
  · simp [exWorld, State.empty]
  · intro a
    show trieGet (trieSet State.empty.mainTrie 7 (some ⟨1, 5, []⟩)) a ≠ _
    rw [trieGet_trieSet]; split
    · simp
    · simp [trieGet, State.empty]
  · simp [exBody, OnlyUpdates, IsUpdate]

end Verif.Props
