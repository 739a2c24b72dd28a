import Verif.Model.State
/-! Lemmas about the dictionary and trie-map models. -/
namespace Verif
section
variable {K V : Type} [DecidableEq K]

theorem aget_aset (l : List (K × V)) (k : K) (v : V) (x : K) :
    aget (aset l k v) x = if k = x then some v else aget l x := by
  induction l with
  | nil => simp [aset, aget]
  | cons e r ih =>
    obtain ⟨k', v'⟩ := e
    simp only [aset]
    split <;> simp only [aget, ih] <;> grind

theorem aget_adel (l : List (K × V)) (k x : K) :
    aget (adel l k) x = if k = x then none else aget l x := by
  induction l with
  | nil => simp [adel, aget]
  | cons e r ih =>
    obtain ⟨k', v'⟩ := e
    simp only [adel, List.filter_cons] at *
    split <;> simp only [aget, ih] <;> grind

theorem aget_mem {l : List (K × V)} {k : K} {v : V} (h : aget l k = some v) : (k, v) ∈ l := by
  induction l with
  | nil => simp [aget] at h
  | cons e r ih =>
    obtain ⟨k', v'⟩ := e
    simp only [aget] at h
    split at h <;> grind

theorem aget_of_mem {l : List (K × V)} (hn : (l.map Prod.fst).Nodup) {k : K} {v : V} (h : (k, v) ∈ l) :
    aget l k = some v := by
  induction l with
  | nil => simp at h
  | cons e r ih =>
    obtain ⟨k', v'⟩ := e
    simp only [List.map_cons, List.nodup_cons, List.mem_map, not_exists, not_and] at hn
    simp only [aget]
    rcases List.mem_cons.1 h with h | h
    · grind
    · have := hn.1 _ h
      have hne : k' ≠ k := fun e => this e.symm
      simp [hne, ih hn.2 h]

theorem aget_none_iff {l : List (K × V)} {k : K} : aget l k = none ↔ ∀ v, (k, v) ∉ l := by
  induction l with
  | nil => simp [aget]
  | cons e r ih =>
    obtain ⟨k', v'⟩ := e
    simp only [aget]
    split <;> grind

namespace Dict
variable (d : Dict K V)

@[simp] theorem get?_empty (k : K) : (Dict.empty : Dict K V).get? k = none := rfl
theorem get?_set (k : K) (v : V) (x : K) : (d.set k v).get? x = if k = x then some v else d.get? x :=
  aget_aset _ _ _ _
theorem get?_del (k x : K) : (d.del k).get? x = if k = x then none else d.get? x := aget_adel _ _ _
@[simp] theorem get?_set_self (k : K) (v : V) : (d.set k v).get? k = some v := by simp [get?_set]
@[simp] theorem get?_del_self (k : K) : (d.del k).get? k = none := by simp [get?_del]
theorem mem_iff (k : K) (v : V) : (k, v) ∈ d.entries ↔ d.get? k = some v :=
  ⟨aget_of_mem d.nodup, aget_mem⟩
theorem isEmpty_iff : d.entries.isEmpty = true ↔ ∀ k, d.get? k = none := by
  constructor
  · intro h k
    have : d.entries = [] := by simpa using h
    simp [get?, this, aget]
  · intro h
    match hd : d.entries with
    | [] => rfl
    | (k, v) :: r =>
      have := h k
      simp [get?, hd, aget] at this
end Dict

variable [DecidableEq V]

@[simp] theorem trieSet_default (t : Trie K V) (k : K) (v : V) : (trieSet t k v).default = t.default := by
  unfold trieSet; split <;> rfl

theorem trieGet_trieSet (t : Trie K V) (k : K) (v : V) (x : K) :
    trieGet (trieSet t k v) x = if k = x then v else trieGet t x := by
  unfold trieGet trieSet
  split
  · simp only [Dict.get?_del]; split <;> simp_all
  · simp only [Dict.get?_set]; split <;> simp

/-- No stored value equals the default: what `trie_set` maintains. -/
def Trie.WF (t : Trie K V) : Prop := ∀ k v, t.data.get? k = some v → v ≠ t.default

theorem trieSet_wf {t : Trie K V} (h : t.WF) (k : K) (v : V) : (trieSet t k v).WF := by
  intro x y hx
  rw [trieSet_default]
  unfold trieSet at hx
  split at hx
  · simp only [Dict.get?_del] at hx; grind [Trie.WF]
  · simp only [Dict.get?_set] at hx; grind [Trie.WF]
end

theorem mem_setAdd {α : Type} [DecidableEq α] (s : List α) (a x : α) : x ∈ setAdd s a ↔ x ∈ s ∨ x = a := by
  unfold setAdd; split <;> grind

theorem mem_setUpdate {α : Type} [DecidableEq α] (s t : List α) (x : α) : x ∈ setUpdate s t ↔ x ∈ s ∨ x ∈ t := by
  unfold setUpdate
  induction t generalizing s with
  | nil => simp
  | cons a r ih => rw [List.foldl_cons, ih, mem_setAdd]; grind

end Verif
