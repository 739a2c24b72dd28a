import Verif.Lemmas.OwnedKeep
import Verif.Props.C11_C24_any
/-!
Properties C21 and C22 for whole transactions in every fork, from frontier on.
-/
namespace Verif.Props
open Verif Verif.Spec

/-- **C21**, creation transactions in any fork: if the address is taken nothing changes and no gas is left; else a transaction without
error has left valid code there, and since spurious_dragon a nonce of at least 1. -/
theorem C21_any_transaction (E : Env) (msg : Message) (w w' : World) (out : MessageCallOutput) (hw : w.WF) (htar : msg.target = none)
    (h : processMessageCall E msg w = .ok (out, w')) :
    (Taken w.state msg.currentTarget → w' = w ∧ out.gasLeft = 0 ∧ out.error ≠ none) ∧
    (¬ Taken w.state msg.currentTarget → out.error = none → ValidCode w.state.fork (getAccount w'.state msg.currentTarget).code ∧
      (w.state.fork.since .spuriousDragon = true → 1 ≤ (getAccount w'.state msg.currentTarget).nonce)) := by
  have hfull := taken_iff hw.state msg.currentTarget
  unfold processMessageCall at h
  rw [processMessageCallWith_eq] at h
  split at h
  · cases h
  · rw [if_pos htar] at h
    split at h
    · rename_i hc
      cases h
      exact ⟨fun _ => ⟨rfl, rfl, by simp⟩, fun hn => absurd (hfull.mp hc) hn⟩
    · rename_i hc
      refine ⟨fun ht => absurd (hfull.mpr ht) hc, fun hn he => ?_⟩
      split at h
      · cases h
      · rename_i child w1 hp
        split at h
        · cases h
        · rename_i o ho
          cases h
          have he' : child.error = none := by rw [← (messageCallOutput_ok (ts := child.touchedAccounts) ho).2.1]; exact he
          refine ⟨?_, fun hf => Nat.le_trans (Nat.le_add_left 1 _) (created_account hp he' hf).2⟩
          rcases (createMessage_rel codes_closed codes_increment hp).2 msg.currentTarget with e | e
          · rw [e]
            have : (getAccount w.state msg.currentTarget).code = [] := Classical.byContradiction fun h => hn (.inr (.inl h))
            rw [this]; exact ⟨fun _ => Nat.zero_le _, fun _ => by simp⟩
          · exact (deployable_iff _ _).mp e

/-- **C21**, everything together, in any fork: whatever a transaction executes, an account whose code it changes (not counting the
authorizations, after which the state is `s1`) had neither code nor nonce, and now has valid code. -/
theorem C21_any_codes (E : Env) (msg msg1 : Message) (w w' : World) (out : MessageCallOutput) (r : Word) (s1 : State)
    (ha : authorized E msg w = .ok (r, msg1, s1)) (h : processMessageCall E msg w = .ok (out, w'))
    (a : Address) (hne : (getAccount w'.state a).code ≠ (getAccount s1 a).code) :
    (getAccount s1 a).code = [] ∧ (getAccount s1 a).nonce = 0 ∧ ValidCode w.state.fork (getAccount w'.state a).code := by
  have hno : ¬ ((getAccount s1 a).nonce ≠ 0 ∨ (getAccount s1 a).code ≠ []) := fun ho => hne (keep_top ha h ⟨ho, rfl⟩).2
  have hrel := (authorized_rel ha).1
  have hcode : (getAccount w'.state a).code = (getAccount s1 a).code ∨ Deployable w.state.fork (getAccount w'.state a).code := by
    unfold processMessageCall at h
    rw [processMessageCallWith_eq, ha] at h
    simp only at h
    split at h
    · rename_i htar
      have hs1 : s1 = w.state := by unfold authorized at ha; rw [htar] at ha; cases ha; rfl
      subst hs1
      split at h
      · cases h; exact .inl rfl
      · split at h
        · cases h
        · rename_i hp
          split at h
          · cases h
          · cases h; exact (createMessage_rel codes_closed codes_increment hp).2 a
    · split at h
      · cases h
      · rename_i hp
        split at h
        · cases h
        · cases h
          have := (message_rel codes_closed hp).2 a
          rwa [hrel.fork] at this
  exact ⟨Classical.byContradiction fun h => hno (.inr h), Classical.byContradiction fun h => hno (.inl h),
    (deployable_iff _ _).mp (hcode.resolve_left hne)⟩

/-- **C22**, whole transactions in any fork: an address that a transaction schedules for deletion had neither code nor nonce before the
transaction, or, before cancun, was a contract. -/
theorem C22_any_transaction (E : Env) (msg : Message) (w w' : World) (out : MessageCallOutput) (hw : w.WF)
    (ht : TopMessage msg w) (h : processMessageCall E msg w = .ok (out, w')) (a : Address) (ha : a ∈ out.accountsToDelete) :
    ((getAccount w.state a).nonce = 0 ∧ (getAccount w.state a).code = []) ∨
    (w.state.fork.since .cancun = false ∧ (getAccount w.state a).code ≠ []) := by
  by_cases hf : w.state.fork.since .spuriousDragon = true
  · exact C22_transaction E msg w w' out hw hf ht h a ha
  · by_cases hc : (getAccount w.state a).code = []
    · refine .inl ⟨Classical.byContradiction fun hn => ?_, hc⟩
      exact (spares_top ht (by revert hf; cases w.state.fork <;> decide) h ⟨hc, hn⟩).2 ha
    · exact .inr ⟨by revert hf; cases w.state.fork <;> decide, hc⟩

/-! ### Concrete cases, in frontier

A creation transaction whose init code deploys the one byte 0xfe: PUSH1 0xfe, PUSH1 0, MSTORE8, PUSH1 1, PUSH1 0, RETURN. -/
section Examples
open Verif.Sample

def oldCreate : Message := { callTo oldWorld 0xab 100000 0 with
  target := none, code := [0x60, 0xfe, 0x60, 0, 0x53, 0x60, 1, 0x60, 0, 0xf3], codeAddress := none }

/-- The new account has its code, and in frontier no nonce; at the address of a contract nothing happens. -/
example : ¬ Taken oldWorld.state 0xab ∧ Taken oldWorld.state 0xbb ∧ (match processMessageCall env oldCreate oldWorld with
    | .ok (o, w) => some (o.error, (getAccount w.state 0xab).code, (getAccount w.state 0xab).nonce)
    | .error _ => none) = some (none, [0xfe], 0) ∧
    (match processMessageCall env { oldCreate with currentTarget := 0xbb } oldWorld with
    | .ok (o, w) => some (o.error, o.gasLeft, (getAccount w.state 0xbb).code)
    | .error _ => none) = some (some (.halt .addressCollision), 0, [0xfe]) := by
  refine ⟨?_, .inr (.inl (by decide +kernel)), by decide +kernel, by decide +kernel⟩
  rw [← taken_iff oldWorld_wf.state]
  decide +kernel
/-- The contract that deletes itself had code (see the frontier run of C11). -/
example : (getAccount oldWorld.state 0xaa).code ≠ [] := by decide +kernel
end Examples

end Verif.Props
