import Verif.Spec.Create
import Verif.Lemmas.Top
import Verif.Lemmas.StateRel
/-! Creation: the model's terms in the words of `Verif/Spec/Create.lean`. -/
namespace Verif
open Spec

theorem initCode_eq {m : Mach} {o : CreateOperands} (ha : Aligned m.evm.memory) :
    initCode m o = memoryRange m o.start o.size := by
  have hlen : m.evm.memory.length = 32 * (m.evm.memory.length / 32) := by unfold Aligned at ha; omega
  have hcov : o.size.toNat = 0 ∨
      o.start.toNat + o.size.toNat ≤ 32 * max (m.evm.memory.length / 32) (wordsFor o.start o.size) := by
    by_cases h0 : o.size = 0
    · left; rw [h0]; rfl
    · right; unfold wordsFor; rw [if_neg h0]; omega
  unfold initCode memoryRange createMid createFrame memoryReadBytes slice
  simp only
  apply List.ext_getElem?
  intro i
  by_cases hi : i < o.size.toNat
  · rw [List.getElem?_take_of_lt (by omega), List.getElem?_drop, List.getElem?_map, List.getElem?_range hi, Option.map_some]
    by_cases hin : o.start.toNat + i < m.evm.memory.length
    · rw [List.getElem?_append_left hin, List.getElem?_eq_getElem hin]; rfl
    · rw [List.getElem?_append_right (by omega), List.getElem?_replicate, if_pos (by omega),
        List.getElem?_eq_none (by omega)]; rfl
  · rw [List.getElem?_eq_none (by simp; omega), List.getElem?_eq_none (by simp; omega)]

theorem createAddress_eq {E : Env} {m : Mach} {o : CreateOperands} (ha : Aligned m.evm.memory) :
    createAddress E m o = newAddress E m o := by
  unfold createAddress newAddress
  rw [initCode_eq ha]
  cases o.salt <;> rfl

theorem taken_iff {s : State} (hs : s.WF) (a : Address) :
    (accountHasCodeOrNonce s a || accountHasStorage s a) = true ↔ Taken s a := by
  unfold Taken
  rw [Bool.or_eq_true, ← or_assoc]
  have h1 : accountHasCodeOrNonce s a = true ↔ (getAccount s a).nonce ≠ 0 ∨ (getAccount s a).code ≠ [] := owned_iff
  have h2 : accountHasStorage s a = true ↔ ∃ k, getStorage s a k ≠ 0 := contains_iff hs.storage a
  rw [h1, h2]

theorem deployable_iff (f : Fork) (c : Bytes) : Deployable f c ↔ ValidCode f c := by
  unfold Deployable ValidCode; simp only [MAX_CODE_SIZE]; exact ⟨fun h => ⟨h.2, h.1⟩, fun h => ⟨h.2, h.1⟩⟩

/-- The end of a creation whose init code succeeded. -/
theorem create_end {E : Env} {msg : Message} {w w0 : World} {c0 : Evm}
    (h : processMessage E (exec E) msg (createStart w msg.currentTarget) = .ok (c0, w0)) (hn : c0.error = none) :
    ∃ child w', processCreateMessage E (exec E) msg w = .ok (child, w') ∧
      if ValidCode w.state.fork c0.output ∧ 200 * c0.output.length ≤ c0.gasLeft then
        child = { c0 with gasLeft := c0.gasLeft - 200 * c0.output.length } ∧
        SameContents w' { w0 with state := setCode w0.state msg.currentTarget c0.output }
      else if w.state.fork.since .homestead then
        (∃ x, child = { c0 with gasLeft := 0, output := haltOutput w.state.fork c0.output, error := some (.halt x) }) ∧ SameContents w' w
      else child = { c0 with output := [] } ∧ SameContents w' w0 := by
  have hxs := (processMessage_snap' (exec_snap E) h).1
  have hss : SameSnaps w0 (beginTransaction w) := SameSnaps.trans hxs (createStart_snaps w _)
  have hf0 : w0.state.fork = w.state.fork := hss.2.2
  unfold processCreateMessage
  simp only [h, hn, Option.isSome_none, Bool.false_eq_true, if_false]
  rw [hf0]
  match hd : depositCode w.state.fork c0.gasLeft c0.output with
  | .ok g =>
    obtain ⟨h1, h2⟩ := depositCode_ok hd
    have hss3 : SameSnaps { w0 with state := setCode w0.state msg.currentTarget c0.output } (beginTransaction w) :=
      ⟨by simpa [setCode] using hss.1, hss.2.1, by simpa [setCode] using hss.2.2⟩
    obtain ⟨w4, e, hc, hs4, _⟩ := commit_ok hss3
    simp only [e]
    refine ⟨_, _, rfl, ?_⟩
    rw [if_pos ⟨(deployable_iff _ _).mp h1, by omega⟩]
    refine ⟨?_, hc⟩
    have : g = c0.gasLeft - 200 * c0.output.length := by omega
    rw [this]
  | .error x =>
    have hno : ¬ (ValidCode w.state.fork c0.output ∧ 200 * c0.output.length ≤ c0.gasLeft) := by
      rintro ⟨⟨h1, h2⟩, h3⟩
      unfold depositCode at hd
      have h4 : ¬ c0.gasLeft < c0.output.length * GAS_CODE_DEPOSIT := by simp only [GAS_CODE_DEPOSIT]; omega
      have h5 : ¬ (w.state.fork.since .spuriousDragon = true ∧ c0.output.length > MAX_CODE_SIZE) := by
        rintro ⟨h5, h6⟩
        have := h1 h5
        simp only [MAX_CODE_SIZE] at h6; omega
      have h6 : ¬ (w.state.fork.since .london = true ∧ c0.output.head? = some 0xEF) := fun h => h2 h.1 h.2
      simp only at hd
      rw [if_neg h6, if_neg h4, if_neg h5] at hd
      cases hd
    by_cases hh : w.state.fork.since .homestead = true
    · obtain ⟨w4, e, hc, hs4, _⟩ := rollback_ok hss
      simp only [e, if_pos hh, if_neg hno]
      exact ⟨_, _, rfl, ⟨x, rfl⟩, hc⟩
    · obtain ⟨w4, e, hc, hs4, _⟩ := commit_ok hss
      simp only [e, if_neg hh, if_neg hno]
      exact ⟨_, _, rfl, rfl, hc⟩

/-- A successful creation. -/
theorem create_success {E : Env} {msg : Message} {w w' : World} {child : Evm}
    (h : processCreateMessage E (exec E) msg w = .ok (child, w')) (hn : child.error = none)
    (hh : w.state.fork.since .homestead = true) :
    ∃ c0 w0, processMessage E (exec E) msg (createStart w msg.currentTarget) = .ok (c0, w0) ∧ c0.error = none ∧
      ValidCode w.state.fork c0.output ∧ 200 * c0.output.length ≤ c0.gasLeft ∧
      child = { c0 with gasLeft := c0.gasLeft - 200 * c0.output.length } ∧
      SameContents w' { w0 with state := setCode w0.state msg.currentTarget c0.output } := by
  match hx : processMessage E (exec E) msg (createStart w msg.currentTarget) with
  | .error e => unfold processCreateMessage at h; simp only [hx] at h; cases h
  | .ok (c0, w0) =>
    by_cases he : c0.error = none
    · obtain ⟨child', w'', h1, h2⟩ := create_end hx he
      rw [h] at h1; cases h1
      by_cases hc : ValidCode w.state.fork c0.output ∧ 200 * c0.output.length ≤ c0.gasLeft
      · rw [if_pos hc] at h2; exact ⟨c0, w0, rfl, he, hc.1, hc.2, h2.1, h2.2⟩
      · rw [if_neg hc, if_pos hh] at h2
        obtain ⟨⟨x, rfl⟩, -⟩ := h2; cases hn
    · have he' : c0.error.isSome = true := by cases hq : c0.error <;> simp_all
      unfold processCreateMessage at h
      simp only [hx, he', if_true] at h
      split at h <;> cases h
      exact absurd hn he

theorem authOwned_step (E : Env) (acc : DelegationAcc) (auth : Authorization) (x : Address) (h : Owned acc.state x) :
    Owned (delegationStep E acc auth).state x := by
  unfold delegationStep
  split
  · exact h
  split
  · exact h
  split
  · exact h
  · dsimp only
    split
    · exact h
    split
    · exact h
    · rw [owned_iff] at h ⊢
      simp only [incrementNonce, setCode, getAccount_modifyState']
      grind

theorem authOwned_fold (E : Env) (x : Address) : ∀ (l : List Authorization) (acc : DelegationAcc),
    Owned acc.state x → Owned (l.foldl (delegationStep E) acc).state x
  | [], _, h => h
  | a :: r, acc, h => authOwned_fold E x r _ (authOwned_step E acc a x h)

/-- Before prague there are no authorizations. -/
theorem authorized_old {E : Env} {msg msg1 : Message} {w : World} {r : Word} {s1 : State}
    (h : authorized E msg w = .ok (r, msg1, s1)) (hf : w.state.fork.since .prague = false) : s1 = w.state := by
  unfold authorized at h
  split at h
  · cases h; rfl
  · split at h
    · rename_i hc; rw [hf] at hc; exact absurd hc.1 (by decide)
    · cases h; rfl

/-- Authorizations never leave an account without both nonce and code. -/
theorem authorized_owned {E : Env} {msg msg1 : Message} {w : World} {r : Word} {s1 : State}
    (h : authorized E msg w = .ok (r, msg1, s1)) {x : Address} (hx : Owned w.state x) : Owned s1 x := by
  unfold authorized at h
  split at h
  · cases h; exact hx
  · split at h
    case isFalse => cases h; exact hx
    · unfold setDelegation at h
      simp only at h
      split at h
      · cases h
      · split at h
        · cases h
        · cases h
          exact authOwned_fold E x E.tx.authorizations ⟨w.state, msg.accessedAddresses, 0⟩ hx

end Verif
