import Verif.Spec.Lint
/-! C101: the lint for imports reports the imports from forks other than the one before, and which it cannot see. -/
namespace Verif.Props
open Verif Lint Hex Spec

mutual
private theorem mem_visit (x : Str) : ∀ n : Node, x ∈ visit n ↔ (∃ r, Inside (.importNames (x :: r)) n) ∨
    ∃ m l ns, Inside (.importFrom m l ns) n ∧ x = m.getD "None".toList
  | .importNames names => by
    rw [visit]
    constructor
    · intro h
      cases names with
      | nil => cases h
      | cons a r => cases List.mem_singleton.mp h; exact .inl ⟨r, .self _⟩
    · rintro (⟨r, h⟩ | ⟨m, l, ns, h, -⟩)
      · cases h; exact List.mem_singleton.mpr rfl
      · cases h
  | .importFrom m l ns => by
    rw [visit]
    constructor
    · intro h; cases List.mem_singleton.mp h; exact .inr ⟨m, l, ns, .self _, rfl⟩
    · rintro (⟨r, h⟩ | ⟨m', l', ns', h, rfl⟩)
      · cases h
      · cases h; exact List.mem_singleton.mpr rfl
  | .other children => by
    rw [visit, mem_visitAll x children]
    constructor
    · rintro ⟨c, hc, ⟨r, h⟩ | ⟨m, l, ns, h, e⟩⟩
      · exact .inl ⟨r, .child hc h⟩
      · exact .inr ⟨m, l, ns, .child hc h, e⟩
    · rintro (⟨r, h⟩ | ⟨m, l, ns, h, e⟩)
      · cases h with | child hc h => exact ⟨_, hc, .inl ⟨r, h⟩⟩
      · cases h with | child hc h => exact ⟨_, hc, .inr ⟨m, l, ns, h, e⟩⟩
private theorem mem_visitAll (x : Str) : ∀ l : List Node, x ∈ visitAll l ↔ ∃ c ∈ l, (∃ r, Inside (.importNames (x :: r)) c) ∨
    ∃ m k ns, Inside (.importFrom m k ns) c ∧ x = m.getD "None".toList
  | [] => by rw [visitAll]; exact ⟨(fun h => by cases h), (fun ⟨_, h, _⟩ => by cases h)⟩
  | n :: r => by
    rw [visitAll, List.mem_append, mem_visit x n, mem_visitAll x r]
    simp only [List.mem_cons, exists_eq_or_imp]
end

/-- Two forks of which a module could be are the same. -/
private theorem fork_unique {forks : List Str} (ha : Apart forks) {i j : Nat} {x : Str} (hi : FromFork forks i x) (hj : FromFork forks j x) : i = j := by
  obtain ⟨f, h1, h2⟩ := hi
  obtain ⟨g, h3, h4⟩ := hj
  rcases Nat.le_total f.length g.length with h | h
  · exact ha i j f g h1 h3 (List.prefix_of_prefix_length_le h2 h4 h)
  · exact (ha j i g f h3 h1 (List.prefix_of_prefix_length_le h4 h2 h)).symm

private theorem any_drop {forks : List Str} {k : Nat} {x : Str} : ((forks.drop k).any fun f => f.isPrefixOf x) = true ↔ ∃ i, k ≤ i ∧ FromFork forks i x := by
  rw [List.any_eq_true]
  constructor
  · rintro ⟨f, h1, h2⟩
    obtain ⟨n, hn⟩ := List.mem_iff_getElem?.mp h1
    rw [List.getElem?_drop] at hn
    exact ⟨k + n, Nat.le_add_right _ _, f, hn, List.isPrefixOf_iff_prefix.mp h2⟩
  · rintro ⟨i, hi, f, h1, h2⟩
    refine ⟨f, List.mem_iff_getElem?.mpr ⟨i - k, ?_⟩, List.isPrefixOf_iff_prefix.mpr h2⟩
    rw [List.getElem?_drop, Nat.add_sub_cancel' hi]; exact h1

private theorem any_take {forks : List Str} {k : Nat} {x : Str} : ((forks.take k).any fun f => f.isPrefixOf x) = true ↔ ∃ i, i < k ∧ FromFork forks i x := by
  rw [List.any_eq_true]
  constructor
  · rintro ⟨f, h1, h2⟩
    obtain ⟨n, hn⟩ := List.mem_iff_getElem?.mp h1
    rw [List.getElem?_take] at hn
    split at hn
    · rename_i hlt; exact ⟨n, hlt, f, hn, List.isPrefixOf_iff_prefix.mp h2⟩
    · cases hn
  · rintro ⟨i, hi, f, h1, h2⟩
    refine ⟨f, List.mem_iff_getElem?.mpr ⟨i, ?_⟩, List.isPrefixOf_iff_prefix.mpr h2⟩
    rw [List.getElem?_take, if_pos hi]; exact h1

private theorem ancient_eq (forks : List Str) (position : Nat) : (if position > 1 then forks.take (position - 1) else []) = forks.take (position - 1) := by
  split
  · rfl
  · rw [show position - 1 = 0 by omega, List.take_zero]

private theorem checkItem_iff {forks : List Str} (ha : Apart forks) {position : Nat} {active : Str} (hp : forks[position]? = some active) (x : Str) (p : Problem) :
    checkItem active (forks.drop (position + 1)) (forks.take (position - 1)) x = some p ↔ ∃ i, FromFork forks i x ∧ problemOf position i = some p := by
  have hc : active.isPrefixOf x = true ↔ FromFork forks position x := by
    rw [List.isPrefixOf_iff_prefix]
    exact ⟨fun h => ⟨_, hp, h⟩, fun ⟨f, h1, h2⟩ => by rw [hp] at h1; cases h1; exact h2⟩
  have one : ∀ {i} (hi : FromFork forks i x), (∃ j, FromFork forks j x ∧ problemOf position j = some p) ↔ problemOf position i = some p := fun hi =>
    ⟨fun ⟨j, hj, h⟩ => by rw [fork_unique ha hi hj]; exact h, fun h => ⟨_, hi, h⟩⟩
  unfold checkItem
  by_cases h1 : active.isPrefixOf x = true
  · rw [if_pos h1, one (hc.mp h1)]
    unfold problemOf
    rw [if_pos rfl]
  · rw [if_neg h1]
    by_cases h2 : ((forks.drop (position + 1)).any fun f => f.isPrefixOf x) = true
    · obtain ⟨i, hi, hx⟩ := any_drop.mp h2
      rw [if_pos h2, one hx]
      unfold problemOf
      rw [if_neg (by omega), if_pos (by omega)]
    · rw [if_neg h2]
      by_cases h3 : ((forks.take (position - 1)).any fun f => f.isPrefixOf x) = true
      · obtain ⟨i, hi, hx⟩ := any_take.mp h3
        rw [if_pos h3, one hx]
        unfold problemOf
        rw [if_neg (by omega), if_neg (by omega), if_neg (by omega)]
      · rw [if_neg h3]
        refine ⟨(fun h => by cases h), fun ⟨i, hx, h⟩ => ?_⟩
        unfold problemOf at h
        split at h
        · rename_i e; subst e; exact absurd (hc.mpr hx) h1
        · split at h
          · rename_i e; exact absurd (any_drop.mpr ⟨i, by omega, hx⟩) h2
          · split at h
            · cases h
            · exact absurd (any_take.mpr ⟨i, by omega, hx⟩) h3

/-- **C101**, one file: the lint reports exactly the imports of modules of a fork that is not the one just before, each with what is wrong with it. An import
statement counts with the first of its names, wherever in the file it is. (`None` stands for `from . import`, and begins the name of no fork.) -/
theorem C101_reports {forks : List Str} (ha : Apart forks) (hN : ∀ i, ¬ FromFork forks i "None".toList) {position : Nat} {active : Str}
    (hp : forks[position]? = some active) (source : Node) (item : Str) (p : Problem) :
    (item, p) ∈ checkImport forks position active source ↔ ImportsName source item ∧ ∃ i, FromFork forks i item ∧ problemOf position i = some p := by
  unfold checkImport
  dsimp only
  rw [ancient_eq, List.mem_filterMap]
  constructor
  · rintro ⟨x, hx, h⟩
    obtain ⟨q, h1, h2⟩ := Option.map_eq_some_iff.mp h
    cases h2
    obtain ⟨i, h3, h4⟩ := (checkItem_iff ha hp item p).mp h1
    refine ⟨?_, i, h3, h4⟩
    rcases (mem_visit item source).mp hx with ⟨r, hi⟩ | ⟨m, l, ns, hi, e⟩
    · exact .inl ⟨r, hi⟩
    · cases m with
      | none => rw [e] at h3; exact absurd h3 (hN i)
      | some m => cases e; exact .inr ⟨l, ns, hi⟩
  · rintro ⟨hi, h⟩
    refine ⟨item, (mem_visit item source).mpr ?_, Option.map_eq_some_iff.mpr ⟨p, (checkItem_iff ha hp item p).mpr h, rfl⟩⟩
    rcases hi with ⟨r, h⟩ | ⟨l, ns, h⟩
    · exact .inl ⟨r, h⟩
    · exact .inr ⟨_, l, ns, h, rfl⟩

private theorem count_zero (forks : List ForkSources) : ∀ (l : List ForkSources) (k : Nat),
    countFrom forks k l = 0 ↔ ∀ i fork, l[i]? = some fork → lintFork forks (k + i) fork = []
  | [], k => by simp [countFrom]
  | a :: r, k => by
    rw [countFrom, Nat.add_eq_zero_iff, List.length_eq_zero_iff, count_zero forks r (k + 1)]
    constructor
    · rintro ⟨h1, h2⟩ i fork hi
      cases i with
      | zero => cases hi; exact h1
      | succ i => rw [show k + (i + 1) = k + 1 + i by omega]; exact h2 i fork hi
    · intro h
      refine ⟨h 0 a rfl, fun i fork hi => ?_⟩
      rw [show k + 1 + i = k + (i + 1) by omega]; exact h (i + 1) fork hi

/-- **C101**, all forks: the lint passes exactly if the imports it looks at are, as far as they are from forks, from the fork just before. -/
theorem C101_passes (forks : List ForkSources) (ha : Apart (forks.map ForkSources.name)) (hN : ∀ i, ¬ FromFork (forks.map ForkSources.name) i "None".toList) :
    runLint forks = 0 ↔ ∀ position fork, forks[position]? = some fork → ∀ file ∈ fork.files, ∀ item, ImportsName file.2 item →
      ∀ i, FromFork (forks.map ForkSources.name) i item → i + 1 = position := by
  have hr : runLint forks = 0 ↔ countFrom forks 0 forks = 0 := by unfold runLint; split <;> omega
  rw [hr, count_zero]
  simp only [Nat.zero_add]
  refine forall_congr' fun position => forall_congr' fun fork => forall_congr' fun hf => ?_
  have hp : (forks.map ForkSources.name)[position]? = some fork.name := by rw [List.getElem?_map, hf]; rfl
  unfold lintFork
  rw [List.flatMap_eq_nil_iff]
  refine forall_congr' fun file => forall_congr' fun _ => ?_
  rw [List.map_eq_nil_iff, List.eq_nil_iff_forall_not_mem]
  constructor
  · intro h item hi i hx
    apply Classical.byContradiction
    intro hne
    obtain ⟨p, hpr⟩ : ∃ p, problemOf position i = some p := by
      unfold problemOf
      split
      · exact ⟨_, rfl⟩
      · split
        · exact ⟨_, rfl⟩
        · exact ⟨_, rfl⟩
    exact h (item, p) ((C101_reports ha hN hp file.2 item p).mpr ⟨hi, i, hx, hpr⟩)
  · rintro h ⟨item, p⟩ hm
    obtain ⟨hi, i, hx, hpr⟩ := (C101_reports ha hN hp file.2 item p).mp hm
    have := h item hi i hx
    unfold problemOf at hpr
    rw [if_neg (by omega), if_neg (by omega), if_pos this] at hpr
    cases hpr

/-- **C101**, limits: the lint does not see further names of an `import`, nor what a `from` imports, nor how many dots it has. So in any file of any fork
`import os, m`, `from ethereum import f` and `from ...f import m`, with three dots, are not reported, whatever forks and modules they name. -/
theorem C101_unseen (forks : List Str) (h : ∀ f ∈ forks, "ethereum.".toList <+: f) (position : Nat) (active : Str) (ha : active ∈ forks) (names : List Str) (m : Str)
    (hm : ¬ "ethereum.".toList <+: m) (level : Nat) :
    checkImport forks position active (.importNames ("os".toList :: names)) = [] ∧
    checkImport forks position active (.importFrom (some "ethereum".toList) 0 names) = [] ∧
    checkImport forks position active (.importFrom (some m) level names) = [] := by
  have key : ∀ x : Str, ¬ "ethereum.".toList <+: x → checkItem active (forks.drop (position + 1)) (forks.take (position - 1)) x = none := by
    intro x hx
    have hno : ∀ f ∈ forks, ¬ f <+: x := fun f hf hp => hx ((h f hf).trans hp)
    unfold checkItem
    rw [if_neg (by rw [List.isPrefixOf_iff_prefix]; exact hno _ ha), if_neg, if_neg]
    · rw [List.any_eq_true]
      rintro ⟨f, h1, h2⟩
      exact hno f (List.mem_of_mem_take h1) (List.isPrefixOf_iff_prefix.mp h2)
    · rw [List.any_eq_true]
      rintro ⟨f, h1, h2⟩
      exact hno f (List.mem_of_mem_drop h1) (List.isPrefixOf_iff_prefix.mp h2)
  unfold checkImport
  dsimp only
  rw [ancient_eq]
  refine ⟨?_, ?_, ?_⟩
  · rw [visit, show ("os".toList :: names).take 1 = ["os".toList] from rfl, List.filterMap_cons, key "os".toList (by decide)]; rfl
  · rw [visit, show (some "ethereum".toList).getD "None".toList = "ethereum".toList from rfl, List.filterMap_cons, key "ethereum".toList (by decide)]; rfl
  · rw [visit, Option.getD_some, List.filterMap_cons, key m hm]; rfl

/-- The forks of the repository have names of which none begins another, and all are in the package. -/
theorem C101_forks : Apart forkModules ∧ (∀ i, ¬ FromFork forkModules i "None".toList) ∧ ∀ f ∈ forkModules, "ethereum.".toList <+: f := by
  have h1 : ∀ i < forkModules.length, ∀ j < forkModules.length, (forkModules[i]?.getD []).isPrefixOf (forkModules[j]?.getD []) = true → i = j := by decide +kernel
  refine ⟨fun i j f g hi hj hp => ?_, fun i hx => ?_, by decide +kernel⟩
  · refine h1 i (List.getElem?_eq_some_iff.mp hi).1 j (List.getElem?_eq_some_iff.mp hj).1 ?_
    rw [hi, hj]; exact List.isPrefixOf_iff_prefix.mpr hp
  · obtain ⟨f, hf, hp⟩ := hx
    have : ∀ f ∈ forkModules, ¬ f <+: "None".toList := by decide +kernel
    exact this f (List.mem_of_getElem? hf) hp

/-! ### Samples -/

/-- A file of london: a class with an import of berlin, which may be; one of istanbul, in a function; a relative one; and one of a package. -/
def sampleFile : Node :=
  .other [.importNames ["dataclasses".toList], .importFrom (some "ethereum.berlin.fork".toList) 0 ["apply_body".toList],
    .importFrom (some "trie".toList) 1 ["Trie".toList], .importFrom none 1 ["vm".toList],
    .other [.other [.importNames ["ethereum.istanbul.trie".toList, "os".toList]], .importNames ["os".toList, "ethereum.osaka.fork".toList]],
    .importFrom (some "ethereum.london.blocks".toList) 0 ["Block".toList], .importFrom (some "ethereum.osaka".toList) 0 ["vm".toList]]

/-- The three that are reported; the import of osaka after `os` is not. -/
example : checkImport forkModules 10 "ethereum.london".toList sampleFile =
    [("ethereum.istanbul.trie".toList, .older), ("ethereum.london.blocks".toList, .current), ("ethereum.osaka".toList, .future)] := by decide +kernel

/-- A set of forks that passes, and one that does not. -/
example : runLint [⟨"ethereum.berlin".toList, [("fork".toList, .other [])]⟩, ⟨"ethereum.london".toList, [("fork".toList, .importNames ["ethereum.berlin.fork".toList])]⟩] = 0 ∧
    runLint [⟨"ethereum.berlin".toList, [("fork".toList, .importNames ["ethereum.london.fork".toList])]⟩, ⟨"ethereum.london".toList, []⟩] = 1 := by
  refine ⟨?_, ?_⟩ <;> decide +kernel

example : ImportsName sampleFile "ethereum.istanbul.trie".toList ∧ FromFork forkModules 7 "ethereum.istanbul.trie".toList ∧ problemOf 10 7 = some .older ∧
    forkModules[10]? = some "ethereum.london".toList :=
  ⟨.inl ⟨["os".toList], .child (List.mem_of_getElem? (i := 4) rfl) (.child (List.mem_of_getElem? (i := 0) rfl) (.child (List.mem_of_getElem? (i := 0) rfl) (.self _)))⟩, ⟨"ethereum.istanbul".toList, by decide +kernel, by decide +kernel⟩, by decide, by decide +kernel⟩

end Verif.Props
