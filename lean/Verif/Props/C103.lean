import Verif.Spec.Patch
/-! C103: the lint for the order of definitions. -/
namespace Verif.Props
open Verif Hex Spec Patch

private theorem position_iff : ∀ (l : List Str), l.Nodup → ∀ (x : Str) (i : Nat), position l x = some i ↔ l[i]? = some x
  | [], _, x, i => by simp [position]
  | a :: r, hn, x, i => by
    rw [List.nodup_cons] at hn
    rw [position]
    by_cases h : a = x
    · cases h
      rw [if_pos (beq_self_eq_true _)]
      cases i with
      | zero => simp
      | succ i =>
        rw [List.getElem?_cons_succ]
        exact ⟨fun h => (by cases h), fun h => absurd (List.mem_of_getElem? h) hn.1⟩
    · rw [if_neg (fun e => h (eq_of_beq e)), Option.map_eq_some_iff]
      cases i with
      | zero =>
        rw [List.getElem?_cons_zero]
        exact ⟨fun ⟨_, _, e⟩ => (by cases e), fun e => absurd (Option.some.inj e) h⟩
      | succ i =>
        rw [List.getElem?_cons_succ, ← position_iff r hn.2 x i]
        exact ⟨fun ⟨j, hj, e⟩ => Nat.succ.inj e ▸ hj, fun hj => ⟨i, hj, rfl⟩⟩

private theorem unique {l : List Str} (hn : l.Nodup) {x : Str} {i j : Nat} (hi : l[i]? = some x) (hj : l[j]? = some x) : i = j := by
  have := (position_iff l hn x i).mpr hi
  rw [(position_iff l hn x j).mpr hj] at this
  exact (Option.some.inj this).symm

/-- Before the item after `done` there is what is done. -/
private theorem precedes_here {done r : List Str} {x y : Str} (hn : (done ++ x :: r).Nodup) : Precedes (done ++ x :: r) y x ↔ y ∈ done := by
  have hx : (done ++ x :: r)[done.length]? = some x := by simp
  constructor
  · rintro ⟨i, j, hij, hi, hj⟩
    cases unique hn hx hj
    rw [List.getElem?_append_left hij] at hi
    exact List.mem_of_getElem? hi
  · intro h
    obtain ⟨i, hi, e⟩ := List.getElem_of_mem h
    exact ⟨i, done.length, hi, by rw [List.getElem?_append_left hi, List.getElem?_eq_getElem hi, e], hx⟩

/-- `maximum` is the last position of what is done. -/
private def Top (previous done : List Str) : Option Nat → Prop
  | none => ∀ y ∈ done, y ∉ previous
  | some m => (∃ y ∈ done, previous[m]? = some y) ∧ ∀ y ∈ done, ∀ i, previous[i]? = some y → i ≤ m

private theorem loop_spec {previous : List Str} (hp : previous.Nodup) : ∀ (r done : List Str) (maximum : Option Nat), (done ++ r).Nodup → Top previous done maximum →
    ∀ x, x ∈ loop previous maximum r ↔ x ∈ r ∧ Overtaken previous (done ++ r) x
  | [], done, maximum, _, _, x => by simp [loop]
  | a :: r, done, maximum, hn, ht, x => by
    have e : done ++ a :: r = (done ++ [a]) ++ r := by simp
    have hn' : ((done ++ [a]) ++ r).Nodup := e ▸ hn
    have hne : x ∈ r → x ≠ a := by
      rintro hx rfl
      have := (List.nodup_append.mp hn).2.1
      exact (List.nodup_cons.mp this).1 hx
    -- the head is overtaken exactly if it lies before the top
    have head : ∀ p, previous[p]? = some a → (Overtaken previous (done ++ a :: r) a ↔ ∃ y ∈ done, ∃ j : Nat, p < j ∧ previous[j]? = some y) := by
      intro p hpa
      constructor
      · rintro ⟨y, ⟨i, j, hij, hi, hj⟩, hb⟩
        cases unique hp hpa hi
        exact ⟨y, (precedes_here hn).mp hb, j, hij, hj⟩
      · rintro ⟨y, hy, j, hij, hj⟩
        exact ⟨y, ⟨p, j, hij, hpa, hj⟩, (precedes_here hn).mpr hy⟩
    have skip : ∀ maximum', Top previous (done ++ [a]) maximum' → ¬ Overtaken previous (done ++ a :: r) a →
        (x ∈ loop previous maximum' r ↔ x ∈ a :: r ∧ Overtaken previous (done ++ a :: r) x) := by
      intro maximum' ht' ho
      rw [loop_spec hp r (done ++ [a]) maximum' hn' ht' x, ← e, List.mem_cons]
      constructor
      · rintro ⟨h1, h2⟩; exact ⟨.inr h1, h2⟩
      · rintro ⟨rfl | h1, h2⟩
        · exact absurd h2 ho
        · exact ⟨h1, h2⟩
    rw [loop]
    cases hpos : position previous a with
    | none =>
      have ha : ∀ i, previous[i]? ≠ some a := fun i hi => by rw [(position_iff previous hp a i).mpr hi] at hpos; cases hpos
      have hna : a ∉ previous := fun h => by
        obtain ⟨i, hi, e⟩ := List.getElem_of_mem h
        exact ha i (by rw [List.getElem?_eq_getElem hi, e])
      refine skip maximum ?_ (fun ⟨y, ⟨i, j, _, hi, _⟩, _⟩ => ha i hi)
      cases maximum with
      | none =>
        intro y hy
        rcases List.mem_append.mp hy with h | h
        · exact ht y h
        · cases List.mem_singleton.mp h; exact hna
      | some m =>
        refine ⟨ht.1.imp (fun y h => ⟨List.mem_append_left _ h.1, h.2⟩), fun y hy i hi => ?_⟩
        rcases List.mem_append.mp hy with h | h
        · exact ht.2 y h i hi
        · cases List.mem_singleton.mp h; exact absurd hi (ha i)
    | some p =>
      have hpa := (position_iff previous hp a p).mp hpos
      cases maximum with
      | none =>
        refine skip (some p) ⟨⟨a, List.mem_append_right _ (List.mem_singleton.mpr rfl), hpa⟩, fun y hy i hi => ?_⟩ ?_
        · rcases List.mem_append.mp hy with h | h
          · exact absurd (List.mem_of_getElem? hi) (ht y h)
          · cases List.mem_singleton.mp h; exact Nat.le_of_eq (unique hp hi hpa)
        · rw [head p hpa]
          rintro ⟨y, hy, j, _, hj⟩
          exact ht y hy (List.mem_of_getElem? hj)
      | some m =>
        show x ∈ (if p > m then loop previous (some p) r else a :: loop previous (some m) r) ↔ _
        by_cases hm : p > m
        · rw [if_pos hm]
          refine skip (some p) ⟨⟨a, List.mem_append_right _ (List.mem_singleton.mpr rfl), hpa⟩, fun y hy i hi => ?_⟩ ?_
          · rcases List.mem_append.mp hy with h | h
            · exact Nat.le_of_lt (Nat.lt_of_le_of_lt (ht.2 y h i hi) hm)
            · cases List.mem_singleton.mp h; exact Nat.le_of_eq (unique hp hi hpa)
          · rw [head p hpa]
            rintro ⟨y, hy, j, hj, hy'⟩
            exact absurd (ht.2 y hy j hy') (by omega)
        · rw [if_neg hm]
          obtain ⟨y, hy, hym⟩ := ht.1
          have hpm : p ≠ m := by
            rintro rfl
            rw [hpa] at hym
            cases hym
            exact (List.nodup_append.mp hn).2.2 a hy a List.mem_cons_self rfl
          have ho : Overtaken previous (done ++ a :: r) a := (head p hpa).mpr ⟨y, hy, m, by omega, hym⟩
          have ht' : Top previous (done ++ [a]) (some m) := by
            refine ⟨⟨y, List.mem_append_left _ hy, hym⟩, fun z hz i hi => ?_⟩
            rcases List.mem_append.mp hz with h | h
            · exact ht.2 z h i hi
            · cases List.mem_singleton.mp h
              cases unique hp hi hpa
              omega
          rw [List.mem_cons, loop_spec hp r (done ++ [a]) (some m) hn' ht' x, ← e, List.mem_cons]
          constructor
          · rintro (rfl | ⟨h1, h2⟩)
            · exact ⟨.inl rfl, ho⟩
            · exact ⟨.inr h1, h2⟩
          · rintro ⟨rfl | h1, h2⟩
            · exact .inl rfl
            · exact .inr ⟨h1, h2⟩

private theorem precedes_mem {l : List Str} {a b : Str} (h : Precedes l a b) : a ∈ l ∧ b ∈ l := by
  obtain ⟨i, j, _, hi, hj⟩ := h
  exact ⟨List.mem_of_getElem? hi, List.mem_of_getElem? hj⟩

/-- **C103 (the report).** Of the names of a file, exactly those are reported that are overtaken: a name that followed them in the fork before now comes before them. -/
theorem C103_reports (previous current : List Str) (hp : previous.Nodup) (hc : current.Nodup) (x : Str) :
    x ∈ comparePatch current (some previous) ↔ Overtaken previous current x := by
  show x ∈ loop previous none current ↔ _
  rw [loop_spec hp current [] none hc (fun y hy => by cases hy) x, List.nil_append]
  exact ⟨fun h => h.2, fun h => ⟨by obtain ⟨y, _, h⟩ := h; exact (precedes_mem h).2, h⟩⟩

private theorem loop_sublist (previous : List Str) : ∀ (l : List Str) (m : Option Nat), (loop previous m l).Sublist l
  | [], m => by rw [loop]; exact List.nil_sublist _
  | a :: r, m => by
    rw [loop]
    split
    · exact (loop_sublist previous r m).cons a
    · split
      · exact (loop_sublist previous r _).cons a
      · split
        · exact (loop_sublist previous r _).cons a
        · exact (loop_sublist previous r _).cons_cons a

/-- **C103 (once, in order).** The names are reported in the order of the file, none twice. -/
theorem C103_once (previous : Option (List Str)) (current : List Str) (hc : current.Nodup) :
    (comparePatch current previous).Sublist current ∧ (comparePatch current previous).Nodup := by
  cases previous with
  | none => exact ⟨List.nil_sublist _, List.nodup_nil⟩
  | some p => exact ⟨loop_sublist p current none, (loop_sublist p current none).nodup hc⟩

/-- **C103 (silence).** Nothing is reported for a file exactly if any two names that both forks have are in the same order in both. -/
theorem C103_silent (previous current : List Str) (hp : previous.Nodup) (hc : current.Nodup) :
    comparePatch current (some previous) = [] ↔ ∀ x y, x ∈ previous → y ∈ previous → Precedes current x y → Precedes previous x y := by
  rw [List.eq_nil_iff_forall_not_mem]
  constructor
  · intro h x y hx hy hxy
    obtain ⟨i, hi, ei⟩ := List.getElem_of_mem hx
    obtain ⟨j, hj, ej⟩ := List.getElem_of_mem hy
    rcases Nat.lt_trichotomy i j with hij | hij | hij
    · exact ⟨i, j, hij, by rw [List.getElem?_eq_getElem hi, ei], by rw [List.getElem?_eq_getElem hj, ej]⟩
    · cases hij
      cases ei.symm.trans ej
      obtain ⟨i, j, hij, h1, h2⟩ := hxy
      exact absurd (unique hc h1 h2) (by omega)
    · exact absurd ((C103_reports previous current hp hc y).mpr ⟨x, ⟨j, i, hij, by rw [List.getElem?_eq_getElem hj, ej], by rw [List.getElem?_eq_getElem hi, ei]⟩, hxy⟩) (h y)
  · intro h x hx
    obtain ⟨y, h1, h2⟩ := (C103_reports previous current hp hc x).mp hx
    obtain ⟨i, j, hij, hi, hj⟩ := h1
    obtain ⟨i', j', hij', hi', hj'⟩ := h y x (List.mem_of_getElem? hj) (List.mem_of_getElem? hi) h2
    have := unique hp hi hj'
    have := unique hp hj hi'
    omega

/-- **C103 (a fork).** The lint of a fork reports for each of its files, if the fork before has the file, what is overtaken in it, and for the first fork nothing. -/
theorem C103_fork (current : List (Str × List Str)) (previous : Option (Str → Option (List Str))) (hc : ∀ f ∈ current, f.2.Nodup)
    (hp : ∀ g, previous = some g → ∀ n l, g n = some l → l.Nodup) (name x : Str) :
    (name, x) ∈ lintPatch current previous ↔ ∃ g old new, previous = some g ∧ g name = some old ∧ (name, new) ∈ current ∧ Overtaken old new x := by
  cases previous with
  | none => exact ⟨fun h => (by cases h), fun ⟨_, _, _, h, _⟩ => (by cases h)⟩
  | some g =>
    show _ ∈ current.flatMap _ ↔ _
    rw [List.mem_flatMap]
    constructor
    · rintro ⟨f, hf, h⟩
      obtain ⟨y, hy, e⟩ := List.mem_map.mp h
      cases e
      cases ho : g f.1 with
      | none => rw [ho] at hy; cases hy
      | some old =>
        rw [ho] at hy
        exact ⟨g, old, f.2, rfl, ho, hf, (C103_reports old f.2 (hp g rfl _ _ ho) (hc f hf) _).mp hy⟩
    · rintro ⟨g', old, new, e, ho, hf, h⟩
      cases e
      exact ⟨(name, new), hf, List.mem_map.mpr ⟨x, by rw [ho]; exact (C103_reports old new (hp g rfl _ _ ho) (hc _ hf) x).mpr h, rfl⟩⟩

private theorem insert_some {path items out : List Str} {n : Str} (h : Patch.insert path n items = some out) :
    (items.Nodup → out.Nodup) ∧ ∀ x, x ∈ out ↔ x ∈ items ∨ x = (".".toList).intercalate (path ++ [n]) := by
  unfold Patch.insert at h
  simp only at h
  split at h
  · cases h
  · rename_i hc
    cases h
    refine ⟨fun hn => ?_, fun x => by rw [List.mem_append, List.mem_singleton]⟩
    rw [List.nodup_append]
    refine ⟨hn, List.nodup_cons.mpr ⟨List.not_mem_nil, List.nodup_nil⟩, fun a ha b hb e => hc ?_⟩
    cases List.mem_singleton.mp hb
    cases e
    exact List.contains_iff_mem.mpr ha

mutual
private theorem visit_some : ∀ (n : Node) (path : List Str) (k : Nat) (items out : List Str), visit path k n items = some out →
    (items.Nodup → out.Nodup) ∧ ∀ x, x ∈ out ↔ x ∈ items ∨ Defines path (decide (k > 0)) n x
  | .function n, path, k, items, out, h => by
    rw [visit] at h
    obtain ⟨h1, h2⟩ := insert_some h
    refine ⟨h1, fun x => (h2 x).trans (or_congr Iff.rfl ⟨fun e => e ▸ .function _ _ _, fun e => ?_⟩)⟩
    generalize decide (k > 0) = t at e
    cases e; rfl
  | .klass n l, path, k, items, out, h => by
    rw [visit] at h
    obtain ⟨mid, hm, h⟩ := Option.bind_eq_some_iff.mp h
    obtain ⟨h1, h2⟩ := insert_some hm
    obtain ⟨h3, h4⟩ := visitAll_some l _ k mid out h
    refine ⟨fun hn => h3 (h1 hn), fun x => ?_⟩
    rw [h4, h2]
    constructor
    · rintro ((h | rfl) | ⟨c, hc, h⟩)
      · exact .inl h
      · exact .inr (.klass _ _ _ _)
      · exact .inr (.member hc h)
    · rintro (h | h)
      · exact .inl (.inl h)
      · generalize decide (k > 0) = t at h ⊢
        cases h with
        | klass => exact .inl (.inr rfl)
        | member hc h => exact .inr ⟨_, hc, h⟩
  | .assign a r, path, k, items, out, h => by
    rw [visit] at h
    obtain ⟨mid, hm, h⟩ := Option.bind_eq_some_iff.mp h
    obtain ⟨h1, h2⟩ := visitAll_some a path (k + 1) items mid hm
    obtain ⟨h3, h4⟩ := visitAll_some r path k mid out h
    refine ⟨fun hn => h3 (h1 hn), fun x => ?_⟩
    rw [h4, h2, show decide (k + 1 > 0) = true from decide_eq_true (Nat.succ_pos k)]
    constructor
    · rintro ((h | ⟨c, hc, h⟩) | ⟨c, hc, h⟩)
      · exact .inl h
      · exact .inr (.target hc h)
      · exact .inr (.rest hc h)
    · rintro (h | h)
      · exact .inl (.inl h)
      · generalize decide (k > 0) = t at h ⊢
        cases h with
        | target hc h => exact .inl (.inr ⟨_, hc, h⟩)
        | rest hc h => exact .inr ⟨_, hc, h⟩
  | .name n, path, k, items, out, h => by
    rw [visit] at h
    by_cases hk : k > 0
    · rw [if_pos hk] at h
      obtain ⟨h1, h2⟩ := insert_some h
      rw [decide_eq_true hk]
      refine ⟨h1, fun x => (h2 x).trans (or_congr Iff.rfl ⟨fun e => e ▸ .name _ _, fun e => ?_⟩)⟩
      cases e; rfl
    · rw [if_neg hk] at h
      cases h
      rw [decide_eq_false hk]
      exact ⟨id, fun x => ⟨.inl, fun h => h.elim id (fun h => by cases h)⟩⟩
  | .other l, path, k, items, out, h => by
    rw [visit] at h
    obtain ⟨h1, h2⟩ := visitAll_some l path k items out h
    refine ⟨h1, fun x => (h2 x).trans (or_congr Iff.rfl ⟨fun ⟨c, hc, h⟩ => .child hc h, fun h => ?_⟩)⟩
    generalize decide (k > 0) = t at h ⊢
    cases h with | child hc h => exact ⟨_, hc, h⟩
private theorem visitAll_some : ∀ (l : List Node) (path : List Str) (k : Nat) (items out : List Str), visitAll path k l items = some out →
    (items.Nodup → out.Nodup) ∧ ∀ x, x ∈ out ↔ x ∈ items ∨ ∃ c ∈ l, Defines path (decide (k > 0)) c x
  | [], path, k, items, out, h => by
    rw [visitAll] at h
    cases h
    exact ⟨id, fun x => ⟨.inl, fun h => h.elim id (fun ⟨_, h, _⟩ => by cases h)⟩⟩
  | n :: r, path, k, items, out, h => by
    rw [visitAll] at h
    obtain ⟨mid, hm, h⟩ := Option.bind_eq_some_iff.mp h
    obtain ⟨h1, h2⟩ := visit_some n path k items mid hm
    obtain ⟨h3, h4⟩ := visitAll_some r path k mid out h
    refine ⟨fun hn => h3 (h1 hn), fun x => ?_⟩
    rw [h4, h2]
    constructor
    · rintro ((h | h) | ⟨c, hc, h⟩)
      · exact .inl h
      · exact .inr ⟨n, List.mem_cons_self, h⟩
      · exact .inr ⟨c, List.mem_cons_of_mem _ hc, h⟩
    · rintro (hd | ⟨c, hc, hd⟩)
      · exact .inl (.inl hd)
      · rcases List.mem_cons.mp hc with rfl | hc
        · exact .inl (.inr hd)
        · exact .inr ⟨c, hc, hd⟩
end

/-- **C103 (the names).** What the visitor finds in a source, if it does not end with an error, are the functions, classes and targets of assignments in it, each once. -/
theorem C103_names (source : Node) (l : List Str) (h : visit [] 0 source [] = some l) : NamesOf source l := by
  obtain ⟨h1, h2⟩ := visit_some source [] 0 [] l h
  exact ⟨h1 List.nodup_nil, fun x => (h2 x).trans ⟨fun h => h.elim (fun h => by cases h) id, .inr⟩⟩

private def addAll (items ds : List Str) : Option (List Str) := if (items ++ ds).Nodup then some (items ++ ds) else none

private theorem addAll_bind {items d e : List Str} {f : List Str → Option (List Str)} (hf : ∀ m, m.Nodup → f m = addAll m e) :
    (addAll items d).bind f = addAll items (d ++ e) := by
  unfold addAll
  by_cases h : (items ++ d).Nodup
  · rw [if_pos h, Option.bind_some, hf _ h, addAll, List.append_assoc]
  · rw [if_neg h, Option.bind_none, if_neg (fun h' => h ?_)]
    rw [← List.append_assoc] at h'
    exact (List.nodup_append.mp h').1

private theorem insert_eq (path : List Str) (n : Str) (items : List Str) (hn : items.Nodup) :
    Patch.insert path n items = addAll items [(".".toList).intercalate (path ++ [n])] := by
  unfold Patch.insert addAll
  simp only
  by_cases h : (".".toList).intercalate (path ++ [n]) ∈ items
  · rw [if_pos (List.contains_iff_mem.mpr h), if_neg (fun hd => (List.nodup_append.mp hd).2.2 _ h _ List.mem_cons_self rfl)]
  · rw [if_neg (fun hc => h (List.contains_iff_mem.mp hc)), if_pos ?_]
    rw [List.nodup_append]
    refine ⟨hn, List.nodup_cons.mpr ⟨List.not_mem_nil, List.nodup_nil⟩, fun a ha b hb e => h ?_⟩
    cases List.mem_singleton.mp hb
    exact e ▸ ha

mutual
private theorem visit_eq : ∀ (n : Node) (path : List Str) (k : Nat) (items : List Str), items.Nodup →
    visit path k n items = addAll items (definitions path (decide (k > 0)) n)
  | .function n, path, k, items, hn => by rw [visit, definitions, insert_eq path n items hn]
  | .klass n l, path, k, items, hn => by
    rw [visit, definitions, insert_eq path n items hn]
    exact addAll_bind (fun m hm => visitAll_eq l _ k m hm)
  | .assign a r, path, k, items, hn => by
    rw [visit, definitions, visitAll_eq a path (k + 1) items hn, show decide (k + 1 > 0) = true from decide_eq_true (Nat.succ_pos k)]
    exact addAll_bind (fun m hm => visitAll_eq r path k m hm)
  | .name n, path, k, items, hn => by
    rw [visit, definitions]
    by_cases hk : k > 0
    · rw [if_pos hk, if_pos (decide_eq_true hk), insert_eq path n items hn]
    · rw [if_neg hk, if_neg (fun h => hk (of_decide_eq_true h)), addAll, List.append_nil, if_pos hn]
  | .other l, path, k, items, hn => by rw [visit, definitions, visitAll_eq l path k items hn]
private theorem visitAll_eq : ∀ (l : List Node) (path : List Str) (k : Nat) (items : List Str), items.Nodup →
    visitAll path k l items = addAll items (definitionsAll path (decide (k > 0)) l)
  | [], path, k, items, hn => by rw [visitAll, definitionsAll, addAll, List.append_nil, if_pos hn]
  | n :: r, path, k, items, hn => by
    rw [visitAll, definitionsAll, visit_eq n path k items hn]
    exact addAll_bind (fun m hm => visitAll_eq r path k m hm)
end

/-- **C103 (the names in order).** The visitor finds the definitions of a source in their order, and ends with an error exactly if one comes twice. -/
theorem C103_order (source : Node) : visit [] 0 source [] = if (definitions [] false source).Nodup then some (definitions [] false source) else none := by
  rw [visit_eq source [] 0 [] List.nodup_nil]
  rfl

/-- **C103 (sources).** The comparison of two sources ends with a report exactly if neither defines a name twice, and the report is of exactly the names that are overtaken. -/
theorem C103_sources (current previous : Node) :
    ((compareSources current (some previous)).isSome = true ↔ (definitions [] false current).Nodup ∧ (definitions [] false previous).Nodup) ∧
    ∀ report, compareSources current (some previous) = some report →
      ∀ x, x ∈ report ↔ Overtaken (definitions [] false previous) (definitions [] false current) x := by
  have e : compareSources current (some previous) =
      (visit [] 0 current []).bind (fun new => (visit [] 0 previous []).bind (fun old => some (comparePatch new (some old)))) := rfl
  rw [e, C103_order, C103_order]
  by_cases h1 : (definitions [] false current).Nodup
  · by_cases h2 : (definitions [] false previous).Nodup
    · rw [if_pos h1, if_pos h2]
      refine ⟨⟨fun _ => ⟨h1, h2⟩, fun _ => rfl⟩, fun report h => ?_⟩
      cases h
      exact C103_reports _ _ h2 h1
    · rw [if_pos h1, if_neg h2]
      exact ⟨⟨fun h => (by cases h), fun h => absurd h.2 h2⟩, fun _ h => (by cases h)⟩
  · rw [if_neg h1]
    exact ⟨⟨fun h => (by cases h), fun h => absurd h.1 h1⟩, fun _ h => (by cases h)⟩

/-- Two sources that are compared: a class with a method, and an assignment; they have changed places. -/
example : compareSources (.other [.assign [.name "A".toList] [.name "int".toList], .klass "K".toList [.function "f".toList]])
    (some (.other [.klass "K".toList [.function "f".toList, .function "g".toList], .assign [.name "A".toList] [.name "int".toList]])) =
      some ["K".toList, "K.f".toList] := by decide +kernel
/-- A name that is assigned twice ends the lint with an error. -/
example : compareSources (.other [.assign [.name "A".toList] [], .assign [.name "A".toList] []]) (some (.other [])) = none := by decide +kernel

/-- Two names that have changed places: the one that came first before is reported. -/
example : comparePatch ["b".toList, "new".toList, "a".toList, "c".toList] (some ["a".toList, "b".toList, "old".toList, "c".toList]) = ["a".toList] := by decide +kernel
example : ["b".toList, "new".toList, "a".toList, "c".toList].Nodup ∧ ["a".toList, "b".toList, "old".toList, "c".toList].Nodup := by decide +kernel
example : Overtaken ["a".toList, "b".toList, "old".toList, "c".toList] ["b".toList, "new".toList, "a".toList, "c".toList] "a".toList :=
  ⟨"b".toList, ⟨0, 1, by decide, rfl, rfl⟩, ⟨0, 2, by decide, rfl, rfl⟩⟩
example : comparePatch ["a".toList, "new".toList, "c".toList] (some ["a".toList, "b".toList, "c".toList]) = [] := by decide +kernel

end Verif.Props
