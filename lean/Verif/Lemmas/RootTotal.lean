import Verif.Lemmas.Body
import Verif.Lemmas.RlpSize
/-! The root hash of a state can always be computed. -/
namespace Verif
open Spec Verif.Props

theorem encode_ne (x : Rlp) : Rlp.encode x ≠ [] := fun h => by
  have := Rlp.encode_pos x
  rw [h] at this; simp at this

theorem trieRoot_total (C : Crypto) (secured : Bool) (l : List (Bytes × Bytes)) (h : ∀ e ∈ l, e.2 ≠ []) :
    ∃ r, trieRoot C secured l = .ok r := by
  unfold trieRoot prepareTrie
  rw [if_neg]
  · dsimp only
    generalize patricialize C _ 0 = node
    unfold encodeInternalNode
    dsimp only
    by_cases h1 : (Rlp.encode (unencodedNode node)).length < 32
    · rw [if_pos h1, if_pos h1]; exact ⟨_, rfl⟩
    · rw [if_neg h1, if_neg (by rw [encode_word]; decide)]
      dsimp only
      rw [if_pos (wordBytes_length _)]; exact ⟨_, rfl⟩
  · intro hc
    rw [List.any_eq_true] at hc
    obtain ⟨e, he, hx⟩ := hc
    exact h e he (List.isEmpty_iff.mp hx)

theorem storageRoot_total (C : Crypto) (s : State) (a : Address) : ∃ r, storageRoot C s a = .ok r := by
  unfold storageRoot
  split
  · exact ⟨_, rfl⟩
  · refine trieRoot_total C _ _ fun e he => ?_
    obtain ⟨p, _, rfl⟩ := List.mem_map.mp he
    exact encode_ne _

theorem accountEntries_total (C : Crypto) (s : State) : ∀ l : List (Address × Option Account), (∀ e ∈ l, e.2 ≠ none) →
    ∃ r, accountEntries C s l = .ok r ∧ ∀ e ∈ r, e.2 ≠ [] := by
  intro l
  induction l with
  | nil => intro _; exact ⟨[], rfl, fun _ h => by cases h⟩
  | cons e t ih =>
    intro h
    obtain ⟨a, v⟩ := e
    obtain ⟨r, h1, h2⟩ := ih fun e he => h e (List.mem_cons_of_mem _ he)
    match v with
    | none => exact absurd rfl (h (a, none) List.mem_cons_self)
    | some acc =>
      obtain ⟨x, hx⟩ := storageRoot_total C s a
      refine ⟨(addressBytes a, encodeAccount C acc x) :: r, by rw [accountEntries, hx, h1], fun e he => ?_⟩
      rcases List.mem_cons.mp he with rfl | he
      · exact encode_ne _
      · exact h2 e he

theorem stateRoot_total_wf (C : Crypto) (s : State) (hw : s.WF) (hs : s.snapshots = []) : ∃ r, stateRoot C s = .ok r := by
  unfold stateRoot
  rw [if_neg (by rw [hs]; simp)]
  obtain ⟨r, h1, h2⟩ := accountEntries_total C s s.mainTrie.data.entries fun e he => by
    have := hw.main.2 e.1 e.2 ((Dict.mem_iff _ _ _).mp he)
    rw [hw.main.1] at this; exact this
  rw [h1]
  exact trieRoot_total C _ _ h2

theorem stateRoot_total (C : Crypto) (s : State) (h : Idle s) : ∃ r, stateRoot C s = .ok r := stateRoot_total_wf C s h.wf h.snapshots

end Verif
