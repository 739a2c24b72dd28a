import Verif.Props.C102
import Verif.Spec.Glacier
import Mathlib.Tactic.Choose
/-! C102: the lint for glacier forks as a whole. -/
namespace Verif.Props
open Verif AstCompare Hex Spec Glacier

private theorem insert_fresh {name : Str} {tree : Ast} {items : List (Str × Ast)} (h : name ∉ items.map Prod.fst) : Glacier.insert name tree items = some (items ++ [(name, tree)]) := by
  unfold Glacier.insert
  rw [if_neg (fun e => h (List.contains_iff_mem.mp e))]

mutual
private theorem visit_defined : ∀ (s : Stmt) (items : List (Str × Ast)), Visited s → ((items ++ defined s).map Prod.fst).Nodup → Glacier.visit s items = some (items ++ defined s)
  | .ignored, items, _, _ => by rw [Glacier.visit, defined, List.append_nil]; all_goals simp
  | .unknown, items, h, _ => by simp [Visited] at h
  | .defines name tree, items, _, hn => by
    rw [Glacier.visit, defined]
    refine insert_fresh (fun h => ?_)
    rw [defined, List.map_append, List.nodup_append] at hn
    exact hn.2.2 _ h _ (by simp) rfl
  | .cond body orelse, items, h, hn => by
    rw [Visited] at h
    rw [defined, ← List.append_assoc] at hn
    rw [Glacier.visit, defined, visitAll_defined body items h.1 (by rw [List.map_append] at hn; exact (List.nodup_append.mp hn).1), ← List.append_assoc]
    exact visitAll_defined orelse _ h.2 hn
private theorem visitAll_defined : ∀ (l : List Stmt) (items : List (Str × Ast)), VisitedAll l → ((items ++ definedAll l).map Prod.fst).Nodup →
    Glacier.visitAll l items = some (items ++ definedAll l)
  | [], items, _, _ => by rw [Glacier.visitAll, definedAll, List.append_nil]
  | s :: r, items, h, hn => by
    rw [VisitedAll] at h
    rw [definedAll, ← List.append_assoc] at hn
    rw [Glacier.visitAll, definedAll, visit_defined s items h.1 (by rw [List.map_append] at hn; exact (List.nodup_append.mp hn).1), ← List.append_assoc]
    exact visitAll_defined r _ h.2 hn
end

mutual
private theorem of_visit : ∀ (s : Stmt) (items out : List (Str × Ast)), (items.map Prod.fst).Nodup → Glacier.visit s items = some out →
    Visited s ∧ out = items ++ defined s ∧ (out.map Prod.fst).Nodup
  | .ignored, items, out, hn, h => by
    rw [Glacier.visit] at h
    cases h
    exact ⟨by simp [Visited], by simp [defined], hn⟩
  | .unknown, items, out, _, h => by rw [Glacier.visit] at h; cases h
  | .defines name tree, items, out, hn, h => by
    rw [Glacier.visit, Glacier.insert] at h
    split at h
    · cases h
    · rename_i hc
      cases h
      refine ⟨by simp [Visited], by rw [defined], ?_⟩
      rw [List.map_append, List.nodup_append]
      refine ⟨hn, by simp, fun a ha b hb e => hc ?_⟩
      cases List.mem_singleton.mp hb
      cases e
      exact List.contains_iff_mem.mpr ha
  | .cond body orelse, items, out, hn, h => by
    rw [Glacier.visit] at h
    obtain ⟨mid, hm, h⟩ := Option.bind_eq_some_iff.mp h
    obtain ⟨v1, rfl, n1⟩ := of_visitAll body items mid hn hm
    obtain ⟨v2, rfl, n2⟩ := of_visitAll orelse _ out n1 h
    exact ⟨by rw [Visited]; exact ⟨v1, v2⟩, by rw [defined, List.append_assoc], n2⟩
private theorem of_visitAll : ∀ (l : List Stmt) (items out : List (Str × Ast)), (items.map Prod.fst).Nodup → Glacier.visitAll l items = some out →
    VisitedAll l ∧ out = items ++ definedAll l ∧ (out.map Prod.fst).Nodup
  | [], items, out, hn, h => by
    rw [Glacier.visitAll] at h
    cases h
    exact ⟨by rw [VisitedAll]; trivial, by rw [definedAll, List.append_nil], hn⟩
  | s :: r, items, out, hn, h => by
    rw [Glacier.visitAll] at h
    obtain ⟨mid, hm, h⟩ := Option.bind_eq_some_iff.mp h
    obtain ⟨v1, rfl, n1⟩ := of_visit s items mid hn hm
    obtain ⟨v2, rfl, n2⟩ := of_visitAll r _ out n1 h
    exact ⟨by rw [VisitedAll]; exact ⟨v1, v2⟩, by rw [definedAll, List.append_assoc], n2⟩
end

/-- **C102 (the items).** The items of a source that can be read are what it defines; any other source, with a statement that the visitor does not know or a name that is
defined twice, ends the lint. -/
theorem C102_items (l : List Stmt) (items : List (Str × Ast)) : Glacier.visitAll l [] = some items ↔ Readable l ∧ items = definedAll l := by
  constructor
  · intro h
    obtain ⟨h1, h2, h3⟩ := of_visitAll l [] items List.nodup_nil h
    cases h2
    exact ⟨⟨h1, h3⟩, rfl⟩
  · rintro ⟨h, rfl⟩
    exact visitAll_defined l [] h.1 h.2

private theorem find_iff : ∀ (l : List (Str × Ast)), (l.map Prod.fst).Nodup → ∀ (n : Str) (t : Ast), find l n = some t ↔ (n, t) ∈ l
  | [], _, n, t => by simp [find]
  | (m, u) :: r, hn, n, t => by
    rw [List.map_cons, List.nodup_cons] at hn
    unfold find
    rw [List.find?_cons]
    by_cases h : m = n
    · cases h
      rw [show (((m, u) : Str × Ast).1 == m) = true from beq_self_eq_true _]
      simp only [Option.map_some, List.mem_cons, Prod.mk.injEq, true_and]
      exact ⟨fun e => .inl (Option.some.inj e).symm, fun e => e.elim (fun e => e ▸ rfl) (fun e => absurd (List.mem_map.mpr ⟨_, e, rfl⟩) hn.1)⟩
    · rw [show (((m, u) : Str × Ast).1 == n) = false from beq_false_of_ne h]
      rw [List.mem_cons]
      exact (find_iff r hn.2 n t).trans ⟨.inr, fun e => e.elim (fun e => absurd (congrArg Prod.fst e).symm h) id⟩

private theorem find_definedAs {l : List Stmt} (h : Readable l) (n : Str) (o : Option Ast) : DefinedAs l n o ↔ find (definedAll l) n = o := by
  cases o with
  | none =>
    show (∀ t, (n, t) ∉ definedAll l) ↔ _
    rw [Option.eq_none_iff_forall_ne_some]
    exact forall_congr' (fun t => not_congr (find_iff _ h.2 n t).symm)
  | some t => exact (find_iff _ h.2 n t).symm

private theorem delay_find {fork d : Str} (h : DelayOf fork d) : delayBlocks.find? (fun d => d.1 == fork) = some (fork, d) := by
  cases h <;> decide +kernel

private theorem delay_unique {fork d d' : Str} (h : DelayOf fork d) (h' : DelayOf fork d') : d = d' :=
  congrArg Prod.snd (Option.some.inj ((delay_find h).symm.trans (delay_find h')))

private theorem expected_unique {fork i : Str} {o e e' : Option Ast} (h : Expected fork i o e) (h' : Expected fork i o e') : e = e' := by
  cases h with
  | absent => cases h'; rfl
  | other hi =>
    cases h' with
    | other => rfl
    | delay hi' => exact absurd hi' hi
  | delay hi hd =>
    cases h' with
    | other hi' => exact absurd hi hi'
    | delay _ hd' => rw [delay_unique hd hd']

private theorem expected_formed {arity : Str → Nat} {fork i : Str} {a b : Ast} (h : Expected fork i (some a) (some b)) (f : Formed arity a) : Formed arity b := by
  cases h with
  | other => exact f
  | delay =>
    simp only [Formed, FormedAll, List.length_cons] at f ⊢
    exact ⟨f.1, f.2.1, ⟨f.2.2.1.1, trivial, f.2.2.1.2.2⟩, f.2.2.2⟩

private theorem mem_keys {l : List (Str × Ast)} (hn : (l.map Prod.fst).Nodup) {i : Str} : i ∈ l.map Prod.fst ↔ find l i ≠ Option.none := by
  constructor
  · intro h
    obtain ⟨⟨n, t⟩, ht, rfl⟩ := List.mem_map.mp h
    rw [(find_iff l hn n t).mpr ht]
    exact Option.some_ne_none _
  · intro h
    obtain ⟨t, ht⟩ := Option.ne_none_iff_exists'.mp h
    exact List.mem_map.mpr ⟨_, (find_iff l hn i t).mp ht, rfl⟩

private theorem exceptedFile_iff (fork file : Str) : exceptionalFiles.contains (fork, file) = true ↔ fork = "dao_fork".toList ∧ file = ".dao".toList := by
  unfold exceptionalFiles
  simp only [List.contains_cons, List.contains_nil, Bool.or_false, beq_iff_eq, Prod.mk.injEq]

/-- One file. -/
private theorem file_of {arity : Str → Nat} {fork file : Str} {previous current : Str → Option (List Stmt)} (hs : previous file ≠ Option.none ∨ current file ≠ Option.none)
    (hx : ¬ (fork = "dao_fork".toList ∧ file = ".dao".toList))
    (hc : ∀ p c, previous file = some p → current file = some c → Comparable arity fork p c) :
    ∃ ds, lintFile fork file previous current = some ds ∧ ∀ d, d ∈ ds ↔ ToReport fork file (previous file) (current file) d := by
  unfold lintFile
  rw [if_neg (fun e => hx ((exceptedFile_iff _ _).mp e))]
  cases hp : previous file with
  | none =>
    cases hq : current file with
    | none => rw [hp, hq] at hs; exact absurd hs (by simp)
    | some c =>
      refine ⟨_, rfl, fun d => ⟨fun h => ?_, fun h => ?_⟩⟩
      · cases List.mem_singleton.mp h; exact .added c
      · cases h; exact List.mem_singleton.mpr rfl
  | some p =>
    cases hq : current file with
    | none =>
      refine ⟨_, rfl, fun d => ⟨fun h => ?_, fun h => ?_⟩⟩
      · cases List.mem_singleton.mp h; exact .deleted p
      · cases h; exact List.mem_singleton.mpr rfl
    | some c =>
      obtain ⟨rp, rc, hf, hd⟩ := hc p c hp hq
      have hex : ∀ i, ∃ e, Expected fork i (find (definedAll p) i) e := by
        intro i
        cases ho : find (definedAll p) i with
        | none => exact ⟨_, .absent⟩
        | some t =>
          by_cases hi : i = "BOMB_DELAY_BLOCKS".toList
          · cases hi
            obtain ⟨e, he⟩ := hd t ((find_iff _ rp.2 _ t).mp ho)
            exact ⟨_, he⟩
          · exact ⟨_, .other hi⟩
      choose expected hexp using hex
      have fe : ∀ i a, expected i = some a → Formed arity a := by
        intro i a ha
        have := hexp i
        rw [ha] at this
        cases ho : find (definedAll p) i with
        | none => rw [ho] at this; cases this
        | some t =>
          rw [ho] at this
          exact expected_formed this (hf (i, t) (List.mem_append_left _ ((find_iff _ rp.2 _ t).mp ho)))
      obtain ⟨ds, h1, h2⟩ := C102_reports arity fork file (find (definedAll c)) (find (definedAll p)) expected
        ((definedAll p).map Prod.fst ++ ((definedAll c).map Prod.fst).filter (fun n => !((definedAll p).map Prod.fst).contains n))
        (fun i hi => by
          rcases List.mem_append.mp hi with h | h
          · exact .inl ((mem_keys rp.2).mp h)
          · exact .inr ((mem_keys rc.2).mp (List.mem_filter.mp h).1))
        (fun i _ _ => hexp i) fe
        (fun i a ha => hf (i, a) (List.mem_append_right _ ((find_iff _ rc.2 _ a).mp ha)))
      refine ⟨ds.map (fun d => .item d.1 d.2), ?_, fun d => ?_⟩
      · show (Glacier.visitAll c []).bind _ = _
        rw [(C102_items c _).mpr ⟨rc, rfl⟩, Option.bind_some]
        show (Glacier.visitAll p []).bind _ = _
        rw [(C102_items p _).mpr ⟨rp, rfl⟩, Option.bind_some]
        show (compareFile _ _ _ _ _).bind _ = _
        rw [h1]
        rfl
      · rw [List.mem_map]
        constructor
        · rintro ⟨⟨i, ch⟩, hi, rfl⟩
          obtain ⟨_, hx, hw⟩ := (h2 i ch).mp hi
          exact .item hx ((find_definedAs rp i _).mpr rfl) ((find_definedAs rc i _).mpr rfl) (hexp i) hw
        · intro h
          cases h with
          | @item _ _ i old e new ch hx ho hn he hw =>
            have ho' := (find_definedAs rp i _).mp ho
            have hn' := (find_definedAs rc i _).mp hn
            cases ho'
            cases hn'
            cases expected_unique he (hexp i)
            refine ⟨(i, ch), (h2 i ch).mpr ⟨?_, hx, hw⟩, rfl⟩
            rw [List.mem_append]
            by_cases hm : i ∈ (definedAll p).map Prod.fst
            · exact .inl hm
            · refine .inr (List.mem_filter.mpr ⟨(mem_keys rc.2).mpr (fun hnone => ?_), by simpa using hm⟩)
              have hpn : find (definedAll p) i = Option.none := Classical.byContradiction (fun h => hm ((mem_keys rp.2).mpr h))
              have := hexp i
              rw [hpn] at this
              generalize hee : expected i = ee at this hw
              cases this
              rw [hnone] at hw
              cases hw with
              | added _ h => exact h rfl
              | deleted h => exact h rfl
              | changed h => cases h

/-- **C102 (a fork).** For a glacier fork and for the DAO fork, the lint reports exactly the files that were added or deleted, other than the table of the DAO, and the items
that are wrong. -/
theorem C102_fork (arity : Str → Nat) (fork : Str) (previous current : Str → Option (List Stmt)) (files : List Str)
    (hg : fork = "dao_fork".toList ∨ "_glacier".toList <:+ fork) (hs : ∀ f ∈ files, previous f ≠ Option.none ∨ current f ≠ Option.none)
    (hc : ∀ f ∈ files, ∀ p c, previous f = some p → current f = some c → Comparable arity fork p c) :
    ∃ ds, lintGlacier fork (some previous) current files = some ds ∧
      ∀ f d, (f, d) ∈ ds ↔ f ∈ files ∧ ¬ (fork = "dao_fork".toList ∧ f = ".dao".toList) ∧ ToReport fork f (previous f) (current f) d := by
  have e : lintGlacier fork (some previous) current files = lintFiles fork previous current files := by
    show (if _ then _ else _) = _
    refine if_neg (fun h => ?_)
    rw [Bool.and_eq_true, Bool.not_eq_true'] at h
    rcases hg with h' | h'
    · exact absurd h' (by simpa using h.1)
    · rw [List.isSuffixOf_iff_suffix.mpr h'] at h; exact absurd h.2 (by simp)
  rw [e]
  clear e
  induction files with
  | nil => exact ⟨[], rfl, by simp⟩
  | cons x r ih =>
    obtain ⟨ds, h1, h2⟩ := ih (fun i hi => hs i (List.mem_cons_of_mem _ hi)) (fun i hi => hc i (List.mem_cons_of_mem _ hi))
    have hx : ∃ l, lintFile fork x previous current = some l ∧
        ∀ d, d ∈ l ↔ ¬ (fork = "dao_fork".toList ∧ x = ".dao".toList) ∧ ToReport fork x (previous x) (current x) d := by
      by_cases hx : fork = "dao_fork".toList ∧ x = ".dao".toList
      · refine ⟨[], ?_, fun d => ⟨fun h => (by cases h), fun h => absurd hx h.1⟩⟩
        unfold lintFile
        rw [if_pos ((exceptedFile_iff _ _).mpr hx)]
      · obtain ⟨l, h3, h4⟩ := file_of (arity := arity) (hs x List.mem_cons_self) hx (hc x List.mem_cons_self)
        exact ⟨l, h3, fun d => (h4 d).trans ⟨fun h => ⟨hx, h⟩, fun h => h.2⟩⟩
    obtain ⟨l, h3, h4⟩ := hx
    refine ⟨l.map (fun d => (x, d)) ++ ds, by rw [lintFiles, h3, h1]; rfl, fun f d => ?_⟩
    rw [List.mem_append, h2, List.mem_map, List.mem_cons]
    constructor
    · rintro (⟨d', h, e⟩ | h)
      · cases e; exact ⟨.inl rfl, (h4 _).mp h⟩
      · exact ⟨.inr h.1, h.2⟩
    · rintro ⟨rfl | h, h'⟩
      · exact .inl ⟨d, (h4 d).mpr h', rfl⟩
      · exact .inr ⟨h, h'⟩

/-- **C102 (other forks).** Nothing is reported for the first fork and for forks that are neither glacier forks nor the DAO fork. -/
theorem C102_others (fork : Str) (previous : Option (Str → Option (List Stmt))) (current : Str → Option (List Stmt)) (files : List Str)
    (h : previous = Option.none ∨ fork ≠ "dao_fork".toList ∧ ¬ "_glacier".toList <:+ fork) : lintGlacier fork previous current files = some [] := by
  cases previous with
  | none => rfl
  | some p =>
    obtain ⟨h1, h2⟩ := h.resolve_left (fun h => by cases h)
    show (if _ then _ else _) = _
    refine if_pos ?_
    rw [Bool.and_eq_true, Bool.not_eq_true']
    exact ⟨by simpa using h1, Bool.eq_false_iff.mpr (fun e => h2 (List.isSuffixOf_iff_suffix.mp e))⟩

private def delayStmt (d : String) : Stmt :=
  .defines "BOMB_DELAY_BLOCKS".toList (.node "Assign".toList [.list [], .node "Constant".toList [.value "int".toList d.toList, AstCompare.none]])
private def sampleArity (k : Str) : Nat := if k = "Return".toList then 1 else 2
private def oldFork : List Stmt := [.ignored, delayStmt "5000000", .cond [.defines "f".toList (.node "Return".toList [.value "int".toList "1".toList])] [.ignored]]
private def newFork : List Stmt := [delayStmt "9000000", .defines "f".toList (.node "Return".toList [.value "int".toList "2".toList])]

/-- The hypotheses can be met: two sources with a delay and a function; the function is reported, the new delay is not. -/
example : Comparable sampleArity "muir_glacier".toList oldFork newFork := by
  refine ⟨⟨by simp [oldFork, delayStmt, VisitedAll, Visited], ?_⟩, ⟨by simp [newFork, delayStmt, VisitedAll, Visited], ?_⟩, ?_, ?_⟩
  · simp only [oldFork, delayStmt, definedAll, defined]; decide +kernel
  · simp only [newFork, delayStmt, definedAll, defined]; decide +kernel
  · simp only [oldFork, newFork, delayStmt, definedAll, defined, List.nil_append, List.append_nil, List.cons_append, List.mem_cons, List.not_mem_nil, or_false]
    rintro d (rfl | rfl | rfl | rfl) <;> simp only [Formed, FormedAll, AstCompare.none] <;> decide +kernel
  · intro t h
    simp only [oldFork, delayStmt, definedAll, defined, List.nil_append, List.append_nil, List.cons_append, List.mem_cons, List.not_mem_nil, or_false, Prod.mk.injEq] at h
    rcases h with ⟨_, rfl⟩ | ⟨h, _⟩
    · exact ⟨_, .delay rfl .muir⟩
    · exact absurd h (by decide +kernel)
example : lintGlacier "muir_glacier".toList (some (fun f => if f = ".fork".toList then some oldFork else Option.none)) (fun f => if f = ".fork".toList then some newFork else Option.none)
    [".fork".toList] = some [(".fork".toList, .item "f".toList .changed)] := by decide +kernel

end Verif.Props
