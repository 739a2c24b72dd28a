import Verif.Spec.AstCompare
/-! C102: what the comparison of syntax trees by the lint for glacier forks finds equal. -/
namespace Verif.Props
open Verif AstCompare Hex Spec

private theorem isText_iff (k : Str) (fs : List Ast) : isText k fs = true ↔ TextStatement (.node k fs) := by
  unfold isText TextStatement
  constructor
  · intro h
    obtain ⟨h1, h2⟩ := Bool.and_eq_true_iff.mp h
    cases eq_of_beq h1
    split at h2
    · obtain ⟨h3, h4⟩ := Bool.and_eq_true_iff.mp h2
      cases eq_of_beq h3
      cases eq_of_beq h4
      exact ⟨_, _, _, rfl⟩
    · cases h2
  · rintro ⟨v, r, s, h⟩
    cases h
    rfl

private theorem isNone_iff (a : Ast) : isNone a = true ↔ a = AstCompare.none := by
  unfold isNone AstCompare.none
  constructor
  · intro h
    split at h
    · obtain ⟨h1, h2⟩ := Bool.and_eq_true_iff.mp h
      rw [eq_of_beq h1, eq_of_beq h2]
    · cases h
  · rintro rfl; decide +kernel

private theorem all_none : ∀ l : List Ast, l.all isNone = true ↔ SamePadded [] l
  | [] => ⟨fun _ => .nil, fun _ => rfl⟩
  | a :: r => by
    rw [List.all_cons, Bool.and_eq_true, isNone_iff, all_none r]
    constructor
    · rintro ⟨rfl, h⟩; exact .right h
    · intro h
      cases h with | right h => exact ⟨rfl, h⟩

mutual
/-- Trees that say the same are found equal. -/
private theorem compare_of_same : ∀ (a b : Ast), SameCode a b → compareAst a b = true
  | .node k l, b, h => by
    cases h with
    | text ha hb =>
      have ht := (isText_iff k l).mpr ha
      obtain ⟨v, r, s, rfl⟩ := hb
      obtain ⟨v', r', s', e⟩ := ha
      cases e
      rw [compareAst, ht, Bool.true_or, Bool.and_true]; exact beq_self_eq_true _
    | node _ h => rw [compareAst, compareFields_of_same l _ h, Bool.or_true, Bool.and_true]; exact beq_self_eq_true _
  | .list l, b, h => by
    cases h with
    | text ha hb => obtain ⟨v, r, s, e⟩ := ha; cases e
    | list h => rw [compareAst]; exact compareItems_of_same l _ h
  | .value t v, b, h => by
    cases h with
    | text ha hb => obtain ⟨v, r, s, e⟩ := ha; cases e
    | value => rw [compareAst, beq_self_eq_true, beq_self_eq_true]; rfl
private theorem compareFields_of_same : ∀ (l m : List Ast), SameAll l m → compareFields l m = true
  | [], _, _ => by rw [compareFields]
  | a :: l, m, h => by
    cases h with
    | cons h r => rw [compareFields, compare_of_same a _ h, compareFields_of_same l _ r]; rfl
private theorem compareItems_of_same : ∀ (l m : List Ast), SamePadded l m → compareItems l m = true
  | [], m, h => by rw [compareItems]; exact (all_none m).mpr h
  | a :: l, m, h => by
    cases h with
    | left r => rw [compareItems, compareItems_of_same l _ r]; rfl
    | cons h r => rw [compareItems, compare_of_same a _ h, compareItems_of_same l _ r]; rfl
end

/-- A text is only equal, as seen from the other side, to a text. -/
private theorem text_back {arity : Str → Nat} {a b : Ast} (fa : Formed arity a) (fb : Formed arity b) (ha : TextStatement a) (hb : compareAst b a = true) : TextStatement b := by
  obtain ⟨v, r, s, rfl⟩ := ha
  match b, fb, hb with
  | .list _, _, hb => simp [compareAst] at hb
  | .value _ _, _, hb => simp [compareAst] at hb
  | .node k fs, fb, hb =>
    rw [compareAst, Bool.and_eq_true] at hb
    obtain ⟨h1, h2⟩ := hb
    cases eq_of_beq h1
    rcases Bool.or_eq_true_iff.mp h2 with h | h
    · exact (isText_iff _ _).mp h
    · rw [Formed] at fa fb
      match fs, fb, h with
      | [], fb, _ => have := fa.1.trans fb.1.symm; cases this
      | x :: t, fb, h =>
        rw [compareFields, Bool.and_eq_true] at h
        have fx := fb.2
        have fc := fa.2
        rw [FormedAll] at fx fc
        match x, fx.1, h.1 with
        | .list _, _, h => simp [compareAst] at h
        | .value _ _, _, h => simp [compareAst] at h
        | .node k' ys, fy, h =>
          rw [compareAst, Bool.and_eq_true] at h
          obtain ⟨h3, h4⟩ := h
          cases eq_of_beq h3
          rw [show isText "Constant".toList ys = false by unfold isText; rw [show ("Constant".toList == "Expr".toList) = false by decide +kernel, Bool.false_and], Bool.false_or] at h4
          have fz := fc.1
          rw [Formed] at fy fz
          match ys, fy, h4 with
          | [], fy, _ => have := fz.1.trans fy.1.symm; cases this
          | y :: u, _, h4 =>
            rw [compareFields, Bool.and_eq_true] at h4
            match y, h4.1 with
            | .value t' w, h =>
              rw [compareAst, Bool.and_eq_true] at h
              cases eq_of_beq h.1
              exact ⟨w, u, t, rfl⟩

mutual
/-- Trees found equal both ways say the same. -/
private theorem same_of_compare {arity : Str → Nat} : ∀ (a b : Ast), Formed arity a → Formed arity b → compareAst a b = true → compareAst b a = true → SameCode a b
  | .node k l, .node k' m, fa, fb, h, h' => by
    by_cases ha : TextStatement (.node k l)
    · exact .text ha (text_back fa fb ha h')
    by_cases hb : TextStatement (.node k' m)
    · exact absurd (text_back fb fa hb h) ha
    rw [compareAst, Bool.and_eq_true] at h h'
    cases eq_of_beq h.1
    have e : isText k l = false := Bool.eq_false_iff.mpr (fun e => ha ((isText_iff k l).mp e))
    have e' : isText k m = false := Bool.eq_false_iff.mpr (fun e => hb ((isText_iff k m).mp e))
    rw [e, Bool.false_or] at h
    rw [e', Bool.false_or] at h'
    rw [Formed] at fa fb
    exact .node k (sameAll_of_compare l m fa.2 fb.2 h.2 h'.2)
  | .list l, .list m, fa, fb, h, h' => by
    rw [compareAst] at h h'
    rw [Formed] at fa fb
    exact .list (samePadded_of_compare l m fa fb h h')
  | .value t v, .value t' v', _, _, h, _ => by
    rw [compareAst, Bool.and_eq_true] at h
    cases eq_of_beq h.1
    cases eq_of_beq h.2
    exact .value _ _
  | .node _ _, .list _, _, _, h, _ => by simp [compareAst] at h
  | .node _ _, .value _ _, _, _, h, _ => by simp [compareAst] at h
  | .list _, .node _ _, _, _, h, _ => by simp [compareAst] at h
  | .list _, .value _ _, _, _, h, _ => by simp [compareAst] at h
  | .value _ _, .node _ _, _, _, h, _ => by simp [compareAst] at h
  | .value _ _, .list _, _, _, h, _ => by simp [compareAst] at h
private theorem sameAll_of_compare {arity : Str → Nat} : ∀ (l m : List Ast), FormedAll arity l → FormedAll arity m → compareFields l m = true → compareFields m l = true → SameAll l m
  | [], [], _, _, _, _ => .nil
  | [], _ :: _, _, _, _, h => by simp [compareFields] at h
  | _ :: _, [], _, _, h, _ => by simp [compareFields] at h
  | a :: l, b :: m, fa, fb, h, h' => by
    rw [compareFields, Bool.and_eq_true] at h h'
    rw [FormedAll] at fa fb
    exact .cons (same_of_compare a b fa.1 fb.1 h.1 h'.1) (sameAll_of_compare l m fa.2 fb.2 h.2 h'.2)
private theorem samePadded_of_compare {arity : Str → Nat} : ∀ (l m : List Ast), FormedAll arity l → FormedAll arity m → compareItems l m = true → compareItems m l = true → SamePadded l m
  | [], m, _, _, h, _ => by rw [compareItems] at h; exact (all_none m).mp h
  | a :: l, [], fa, fb, h, h' => by
    rw [compareItems, Bool.and_eq_true, isNone_iff] at h
    rw [compareItems, List.all_cons, Bool.and_eq_true] at h'
    rw [FormedAll] at fa
    cases h.1
    exact .left (samePadded_of_compare l [] fa.2 fb h.2 (by rw [compareItems]; exact h'.2))
  | a :: l, b :: m, fa, fb, h, h' => by
    rw [compareItems, Bool.and_eq_true] at h h'
    rw [FormedAll] at fa fb
    exact .cons (same_of_compare a b fa.1 fb.1 h.1 h'.1) (samePadded_of_compare l m fa.2 fb.2 h.2 h'.2)
end

mutual
private theorem same_symm : ∀ (a b : Ast), SameCode a b → SameCode b a
  | .node _ l, _, h => by
    cases h with
    | text ha hb => exact .text hb ha
    | node _ h => exact .node _ (sameAll_symm l _ h)
  | .list l, _, h => by
    cases h with
    | text ha hb => exact .text hb ha
    | list h => exact .list (samePadded_symm l _ h)
  | .value _ _, _, h => by
    cases h with
    | text ha hb => exact .text hb ha
    | value => exact .value _ _
private theorem sameAll_symm : ∀ (l m : List Ast), SameAll l m → SameAll m l
  | [], _, h => by cases h; exact .nil
  | a :: l, _, h => by cases h with | cons h r => exact .cons (same_symm a _ h) (sameAll_symm l _ r)
private theorem samePadded_symm : ∀ (l m : List Ast), SamePadded l m → SamePadded m l
  | [], [], _ => .nil
  | [], b :: m, h => by cases h with | right r => exact .left (samePadded_symm [] m r)
  | a :: l, _, h => by
    cases h with
    | left r => exact .right (samePadded_symm l _ r)
    | cons h r => exact .cons (same_symm a _ h) (samePadded_symm l _ r)
end

/-- **C102 (agreement).** Two trees are found equal, each compared with the other, exactly if they are the same up to the contents of text statements and to `None`s at the
end of lists. -/
theorem C102_same (arity : Str → Nat) (a b : Ast) (fa : Formed arity a) (fb : Formed arity b) :
    (compareAst a b = true ∧ compareAst b a = true) ↔ SameCode a b :=
  ⟨fun h => same_of_compare a b fa fb h.1 h.2, fun h => ⟨compare_of_same a b h, compare_of_same b a (same_symm a b h)⟩⟩

/-- **C102 (no false alarm).** Trees that say the same are never reported as different, and every tree is found equal to itself. -/
theorem C102_quiet (a b : Ast) (h : SameCode a b) : compareAst a b = true := compare_of_same a b h

mutual
private theorem same_refl : ∀ a : Ast, SameCode a a
  | .node k l => .node k (sameAll_refl l)
  | .list l => .list (samePadded_refl l)
  | .value t v => .value t v
private theorem sameAll_refl : ∀ l : List Ast, SameAll l l
  | [] => .nil
  | a :: l => .cons (same_refl a) (sameAll_refl l)
private theorem samePadded_refl : ∀ l : List Ast, SamePadded l l
  | [] => .nil
  | a :: l => .cons (same_refl a) (samePadded_refl l)
end

/-- **C102 (unchanged code).** Code that has not changed is found equal. -/
theorem C102_unchanged (a : Ast) : compareAst a a = true := compare_of_same a a (same_refl a)

mutual
private theorem exact_one {arity : Str → Nat} : ∀ (a b : Ast), Formed arity a → Formed arity b → (∀ t, PartOf t a → ¬ TextStatement t) → compareAst a b = true → SameCode a b
  | .node k l, .node k' m, fa, fb, hn, h => by
    rw [compareAst, Bool.and_eq_true] at h
    cases eq_of_beq h.1
    rw [Bool.eq_false_iff.mpr (fun e => hn _ (.self _) ((isText_iff k l).mp e)), Bool.false_or] at h
    rw [Formed] at fa fb
    exact .node k (exact_fields l m fa.2 fb.2 (fa.1.trans fb.1.symm) (fun x hx t ht => hn t (.field hx ht)) h.2)
  | .list l, .list m, fa, fb, hn, h => by
    rw [compareAst] at h
    rw [Formed] at fa fb
    exact .list (exact_items l m fa fb (fun x hx t ht => hn t (.item hx ht)) h)
  | .value t v, .value t' v', _, _, _, h => by
    rw [compareAst, Bool.and_eq_true] at h
    cases eq_of_beq h.1
    cases eq_of_beq h.2
    exact .value _ _
  | .node _ _, .list _, _, _, _, h => by simp [compareAst] at h
  | .node _ _, .value _ _, _, _, _, h => by simp [compareAst] at h
  | .list _, .node _ _, _, _, _, h => by simp [compareAst] at h
  | .list _, .value _ _, _, _, _, h => by simp [compareAst] at h
  | .value _ _, .node _ _, _, _, _, h => by simp [compareAst] at h
  | .value _ _, .list _, _, _, _, h => by simp [compareAst] at h
private theorem exact_fields {arity : Str → Nat} : ∀ (l m : List Ast), FormedAll arity l → FormedAll arity m → l.length = m.length →
    (∀ x ∈ l, ∀ t, PartOf t x → ¬ TextStatement t) → compareFields l m = true → SameAll l m
  | [], [], _, _, _, _, _ => .nil
  | [], _ :: _, _, _, e, _, _ => by cases e
  | _ :: _, [], _, _, e, _, _ => by cases e
  | a :: l, b :: m, fa, fb, e, hn, h => by
    rw [compareFields, Bool.and_eq_true] at h
    rw [FormedAll] at fa fb
    exact .cons (exact_one a b fa.1 fb.1 (hn a List.mem_cons_self) h.1) (exact_fields l m fa.2 fb.2 (Nat.succ.inj e) (fun x hx => hn x (List.mem_cons_of_mem _ hx)) h.2)
private theorem exact_items {arity : Str → Nat} : ∀ (l m : List Ast), FormedAll arity l → FormedAll arity m →
    (∀ x ∈ l, ∀ t, PartOf t x → ¬ TextStatement t) → compareItems l m = true → SamePadded l m
  | [], m, _, _, _, h => by rw [compareItems] at h; exact (all_none m).mp h
  | a :: l, [], fa, fb, hn, h => by
    rw [compareItems, Bool.and_eq_true, isNone_iff] at h
    rw [FormedAll] at fa
    cases h.1
    exact .left (exact_items l [] fa.2 fb (fun x hx => hn x (List.mem_cons_of_mem _ hx)) h.2)
  | a :: l, b :: m, fa, fb, hn, h => by
    rw [compareItems, Bool.and_eq_true] at h
    rw [FormedAll] at fa fb
    exact .cons (exact_one a b fa.1 fb.1 (hn a List.mem_cons_self) h.1) (exact_items l m fa.2 fb.2 (fun x hx => hn x (List.mem_cons_of_mem _ hx)) h.2)
end

/-- **C102 (code without texts).** If there is no text statement in the old tree, the one comparison that the lint makes is exact. -/
theorem C102_exact (arity : Str → Nat) (a b : Ast) (fa : Formed arity a) (fb : Formed arity b) (hn : ∀ t, PartOf t a → ¬ TextStatement t) :
    compareAst a b = true ↔ SameCode a b :=
  ⟨exact_one a b fa fb hn, compare_of_same a b⟩

private theorem all_none_pass : ∀ l : List Ast, l.all isNone = true ↔ UnnoticedPadded [] l
  | [] => ⟨fun _ => .nil, fun _ => rfl⟩
  | a :: r => by
    rw [List.all_cons, Bool.and_eq_true, isNone_iff, all_none_pass r]
    constructor
    · rintro ⟨rfl, h⟩; exact .right h
    · intro h
      cases h with | right h => exact ⟨rfl, h⟩

mutual
private theorem pass_one {arity : Str → Nat} : ∀ (a b : Ast), Formed arity a → Formed arity b → compareAst a b = true → Unnoticed a b
  | .node k l, .node k' m, fa, fb, h => by
    rw [compareAst, Bool.and_eq_true] at h
    cases eq_of_beq h.1
    rw [Formed] at fa fb
    rcases Bool.or_eq_true_iff.mp h.2 with e | e
    · have ht := (isText_iff k l).mp e
      obtain ⟨_, _, _, e⟩ := id ht
      cases e
      exact .text ht m
    · exact .node k (pass_fields l m fa.2 fb.2 (fa.1.trans fb.1.symm) e)
  | .list l, .list m, fa, fb, h => by
    rw [compareAst] at h
    rw [Formed] at fa fb
    exact .list (pass_items l m fa fb h)
  | .value t v, .value t' v', _, _, h => by
    rw [compareAst, Bool.and_eq_true] at h
    cases eq_of_beq h.1
    cases eq_of_beq h.2
    exact .value _ _
  | .node _ _, .list _, _, _, h => by simp [compareAst] at h
  | .node _ _, .value _ _, _, _, h => by simp [compareAst] at h
  | .list _, .node _ _, _, _, h => by simp [compareAst] at h
  | .list _, .value _ _, _, _, h => by simp [compareAst] at h
  | .value _ _, .node _ _, _, _, h => by simp [compareAst] at h
  | .value _ _, .list _, _, _, h => by simp [compareAst] at h
private theorem pass_fields {arity : Str → Nat} : ∀ (l m : List Ast), FormedAll arity l → FormedAll arity m → l.length = m.length → compareFields l m = true → UnnoticedAll l m
  | [], [], _, _, _, _ => .nil
  | [], _ :: _, _, _, e, _ => by cases e
  | _ :: _, [], _, _, e, _ => by cases e
  | a :: l, b :: m, fa, fb, e, h => by
    rw [compareFields, Bool.and_eq_true] at h
    rw [FormedAll] at fa fb
    exact .cons (pass_one a b fa.1 fb.1 h.1) (pass_fields l m fa.2 fb.2 (Nat.succ.inj e) h.2)
private theorem pass_items {arity : Str → Nat} : ∀ (l m : List Ast), FormedAll arity l → FormedAll arity m → compareItems l m = true → UnnoticedPadded l m
  | [], m, _, _, h => by rw [compareItems] at h; exact (all_none_pass m).mp h
  | a :: l, [], fa, fb, h => by
    rw [compareItems, Bool.and_eq_true, isNone_iff] at h
    rw [FormedAll] at fa
    cases h.1
    exact .left (pass_items l [] fa.2 fb h.2)
  | a :: l, b :: m, fa, fb, h => by
    rw [compareItems, Bool.and_eq_true] at h
    rw [FormedAll] at fa fb
    exact .cons (pass_one a b fa.1 fb.1 h.1) (pass_items l m fa.2 fb.2 h.2)
end

mutual
private theorem compare_of_pass : ∀ (a b : Ast), Unnoticed a b → compareAst a b = true
  | .node k l, b, h => by
    cases h with
    | text ha m =>
      have ht := (isText_iff k l).mpr ha
      obtain ⟨v', r', s', e⟩ := ha
      cases e
      rw [compareAst, ht, Bool.true_or, Bool.and_true]; exact beq_self_eq_true _
    | node _ h => rw [compareAst, compareFields_of_pass l _ h, Bool.or_true, Bool.and_true]; exact beq_self_eq_true _
  | .list l, b, h => by
    cases h with
    | text ha m => obtain ⟨v, r, s, e⟩ := ha; cases e
    | list h => rw [compareAst]; exact compareItems_of_pass l _ h
  | .value t v, b, h => by
    cases h with
    | text ha m => obtain ⟨v, r, s, e⟩ := ha; cases e
    | value => rw [compareAst, beq_self_eq_true, beq_self_eq_true]; rfl
private theorem compareFields_of_pass : ∀ (l m : List Ast), UnnoticedAll l m → compareFields l m = true
  | [], _, _ => by rw [compareFields]
  | a :: l, m, h => by
    cases h with
    | cons h r => rw [compareFields, compare_of_pass a _ h, compareFields_of_pass l _ r]; rfl
private theorem compareItems_of_pass : ∀ (l m : List Ast), UnnoticedPadded l m → compareItems l m = true
  | [], m, h => by rw [compareItems]; exact (all_none_pass m).mpr h
  | a :: l, m, h => by
    cases h with
    | left r => rw [compareItems, compareItems_of_pass l _ r]; rfl
    | cons h r => rw [compareItems, compare_of_pass a _ h, compareItems_of_pass l _ r]; rfl
end

/-- **C102 (what passes).** The one comparison that the lint makes lets pass exactly the changes of texts, of texts into other expression statements, and of `None`s at the end
of lists. -/
theorem C102_passes (arity : Str → Nat) (a b : Ast) (fa : Formed arity a) (fb : Formed arity b) : compareAst a b = true ↔ Unnoticed a b :=
  ⟨pass_one a b fa fb, compare_of_pass a b⟩

/-- **C102 (blind spot).** Whatever expression statement takes the place of a text statement, the change is not reported: only the old side is looked at. -/
theorem C102_blind (a : Ast) (ha : TextStatement a) (new : List Ast) : compareAst a (.node "Expr".toList new) = true := by
  obtain ⟨v, r, s, rfl⟩ := ha
  rw [compareAst, (isText_iff _ _).mpr ⟨v, r, s, rfl⟩]
  rfl

/-- **C102 (blind spot).** The comparison depends on the order, so it is not an equality: a text that is replaced by a call is not reported, a call that is replaced by a text
is. -/
theorem C102_asymmetric : ∃ (arity : Str → Nat) (a b : Ast), Formed arity a ∧ Formed arity b ∧ compareAst a b = true ∧ compareAst b a = false :=
  ⟨fun k => if k = "Expr".toList then 1 else if k = "Constant".toList then 2 else if k = "Call".toList then 3 else 1,
   .node "Expr".toList [.node "Constant".toList [.value "str".toList "doc".toList, AstCompare.none]],
   .node "Expr".toList [.node "Call".toList [.node "Name".toList [.value "str".toList "f".toList], .list [], .list []]],
   by simp only [Formed, FormedAll, AstCompare.none]; decide +kernel, by simp only [Formed, FormedAll]; decide +kernel, C102_blind _ ⟨_, _, _, rfl⟩ _, by
    simp only [compareAst, compareFields]; decide +kernel⟩

private theorem excepted_iff (fork file item : Str) : exceptional.contains (fork, file, item) = true ↔ Excepted fork file item := by
  unfold exceptional Excepted
  simp only [List.contains_cons, List.contains_nil, Bool.or_false, Bool.or_eq_true, beq_iff_eq, Prod.mk.injEq]
  constructor
  · rintro (⟨h1, h2, h3⟩ | ⟨h1, h2, h3⟩ | ⟨h1, h2, h3⟩ | ⟨h1, h2, h3⟩ | ⟨h1, h2, h3⟩)
    · exact ⟨h2, .inl ⟨h1, .inl h3⟩⟩
    · exact ⟨h2, .inl ⟨h1, .inr h3⟩⟩
    · exact ⟨h2, .inr ⟨h1, .inl h3⟩⟩
    · exact ⟨h2, .inr ⟨h1, .inr (.inl h3)⟩⟩
    · exact ⟨h2, .inr ⟨h1, .inr (.inr h3)⟩⟩
  · rintro ⟨h2, ⟨h1, h3 | h3⟩ | ⟨h1, h3 | h3 | h3⟩⟩
    · exact .inl ⟨h1, h2, h3⟩
    · exact .inr (.inl ⟨h1, h2, h3⟩)
    · exact .inr (.inr (.inl ⟨h1, h2, h3⟩))
    · exact .inr (.inr (.inr (.inl ⟨h1, h2, h3⟩)))
    · exact .inr (.inr (.inr (.inr ⟨h1, h2, h3⟩)))

private theorem withDelay_of {fork d : Str} (hd : DelayOf fork d) (targets old : Ast) (r s : List Ast) :
    withDelay fork (.node "Assign".toList (targets :: .node "Constant".toList (old :: r) :: s)) =
      some (.node "Assign".toList (targets :: .node "Constant".toList (.value "int".toList d :: r) :: s)) := by
  cases hd <;> rfl

/-- One item. -/
private theorem item_of {arity : Str → Nat} {fork file item : Str} {current previous : Str → Option Ast} {e : Option Ast} (hx : ¬ Excepted fork file item)
    (he : Expected fork item (previous item) e) (hs : previous item ≠ Option.none ∨ current item ≠ Option.none)
    (fe : ∀ a, e = some a → Formed arity a) (fc : ∀ a, current item = some a → Formed arity a) :
    ∃ d, compareItem fork file current previous item = some d ∧ ∀ c, d = some c ↔ Wrong e (current item) c := by
  unfold compareItem
  rw [if_neg (fun h => hx ((excepted_iff _ _ _).mp h))]
  have key : ∀ p : Ast, e = some p → (match current item with
      | Option.none => (some (some Change.deleted) : Option (Option Change))
      | some c => some (if compareAst p c then Option.none else some .changed)) = some (match current item with
      | Option.none => some Change.deleted
      | some c => if compareAst p c then Option.none else some .changed) ∧ ∀ c, (match current item with
      | Option.none => some Change.deleted
      | some c => if compareAst p c then Option.none else some .changed) = some c ↔ Wrong e (current item) c := by
    intro p hp
    cases hc : current item with
    | none =>
      refine ⟨rfl, fun c => ⟨fun h => ?_, fun h => ?_⟩⟩
      · cases h; exact .deleted (by rw [hp]; exact Option.some_ne_none _) rfl
      · cases h with
        | added h hc => exact absurd rfl hc
        | deleted => rfl
        | changed _ hc => cases hc
    | some q =>
      refine ⟨rfl, fun c => ⟨fun h => ?_, fun h => ?_⟩⟩
      · by_cases hq : compareAst p q = true
        · simp [hq] at h
        · simp only [if_neg hq] at h
          cases h
          exact .changed hp rfl (fun hs => hq ((C102_passes arity p q (fe _ hp) (fc _ hc)).mpr hs))
      · cases h with
        | added h _ => rw [hp] at h; cases h
        | deleted _ hc => cases hc
        | changed h hc' hd =>
          rw [hp] at h
          cases h
          cases hc'
          exact if_neg (fun hq => hd ((C102_passes arity _ _ (fe _ hp) (fc _ hc)).mp hq))
  generalize hp : previous item = p at he hs
  cases he with
  | absent =>
    refine ⟨_, rfl, fun c => ⟨fun h => ?_, fun h => ?_⟩⟩
    · cases h; exact .added rfl (hs.resolve_left (fun h => h rfl))
    · cases h with
      | added => rfl
      | deleted h => exact absurd rfl h
      | changed h => cases h
  | @other p hi =>
    refine ⟨_, ?_, (key p rfl).2⟩
    rw [← (key p rfl).1]
    cases hc : current item with
    | none => rfl
    | some q =>
      show Option.map _ (if (item == "BOMB_DELAY_BLOCKS".toList) = true then _ else _) = _
      rw [if_neg (fun h => hi (eq_of_beq h))]; rfl
  | @delay targets old r s d hi hd =>
    refine ⟨_, ?_, (key _ rfl).2⟩
    rw [← (key _ rfl).1]
    cases hc : current item with
    | none => rfl
    | some q =>
      show Option.map _ (if (item == "BOMB_DELAY_BLOCKS".toList) = true then _ else _) = _
      rw [if_pos (beq_iff_eq.mpr hi), withDelay_of hd]; rfl

/-- **C102 (the report).** For every file that the fork and the one before it have in common, the report lists exactly the items, other than the exceptions, that were added,
deleted or changed in a way that is noticed, where the delay of the difficulty bomb has to be the one of the fork. -/
theorem C102_reports (arity : Str → Nat) (fork file : Str) (current previous expected : Str → Option Ast) (items : List Str)
    (hs : ∀ i ∈ items, previous i ≠ Option.none ∨ current i ≠ Option.none) (he : ∀ i ∈ items, ¬ Excepted fork file i → Expected fork i (previous i) (expected i))
    (fe : ∀ i a, expected i = some a → Formed arity a) (fc : ∀ i a, current i = some a → Formed arity a) :
    ∃ ds, compareFile fork file current previous items = some ds ∧
      ∀ i c, (i, c) ∈ ds ↔ i ∈ items ∧ ¬ Excepted fork file i ∧ Wrong (expected i) (current i) c := by
  induction items with
  | nil => exact ⟨[], rfl, by simp⟩
  | cons x r ih =>
    obtain ⟨ds, h1, h2⟩ := ih (fun i hi => hs i (List.mem_cons_of_mem _ hi)) (fun i hi => he i (List.mem_cons_of_mem _ hi))
    have hx : ∃ d, compareItem fork file current previous x = some d ∧ ∀ c, d = some c ↔ ¬ Excepted fork file x ∧ Wrong (expected x) (current x) c := by
      by_cases hx : Excepted fork file x
      · refine ⟨Option.none, ?_, fun c => ⟨fun h => (by cases h), fun h => absurd hx h.1⟩⟩
        unfold compareItem
        rw [if_pos ((excepted_iff _ _ _).mpr hx)]
      · obtain ⟨d, h3, h4⟩ := item_of (arity := arity) hx (he x List.mem_cons_self hx) (hs x List.mem_cons_self) (fe x) (fc x)
        exact ⟨d, h3, fun c => (h4 c).trans ⟨fun h => ⟨hx, h⟩, fun h => h.2⟩⟩
    obtain ⟨d, h3, h4⟩ := hx
    refine ⟨(d.map (fun c => (x, c))).toList ++ ds, by rw [compareFile, h3, h1]; rfl, fun i c => ?_⟩
    rw [List.mem_append, h2, Option.mem_toList, Option.map_eq_some_iff, List.mem_cons]
    constructor
    · rintro (⟨c', h, e⟩ | h)
      · cases e; exact ⟨.inl rfl, (h4 c).mp h⟩
      · exact ⟨.inr h.1, h.2⟩
    · rintro ⟨rfl | h, h'⟩
      · exact .inl ⟨c, (h4 c).mpr h', rfl⟩
      · exact .inr ⟨h, h'⟩

/-- **C102 (DAO fork).** The table has no delay for the DAO fork, so that the lint would end with an error instead of a report if there were one before and after it. -/
theorem C102_dao (file : Str) (current previous : Str → Option Ast) (p c : Ast) (hp : previous "BOMB_DELAY_BLOCKS".toList = some p)
    (hc : current "BOMB_DELAY_BLOCKS".toList = some c) : compareItem "dao_fork".toList file current previous "BOMB_DELAY_BLOCKS".toList = Option.none := by
  unfold compareItem
  rw [if_neg (fun h => by
    have := (excepted_iff _ _ _).mp h
    unfold Excepted at this
    revert this
    rintro ⟨-, ⟨-, h⟩ | ⟨h, -⟩⟩
    · exact absurd h (by decide +kernel)
    · exact absurd h (by decide +kernel)), hp, hc]
  have : withDelay "dao_fork".toList p = Option.none := by
    unfold withDelay
    split
    · split
      · rfl
      · rfl
    · rfl
  show Option.map _ (if ("BOMB_DELAY_BLOCKS".toList == "BOMB_DELAY_BLOCKS".toList) = true then withDelay _ p else _) = _
  rw [if_pos (by decide +kernel), this]
  rfl

/-- A new delay, written as it should be, gives no report; the old one left in place does. -/
example : (compareFile "muir_glacier".toList ".fork".toList
    (fun i => if i = "BOMB_DELAY_BLOCKS".toList then some (.node "Assign".toList [.list [], .node "Constant".toList [.value "int".toList "9000000".toList, AstCompare.none]]) else Option.none)
    (fun i => if i = "BOMB_DELAY_BLOCKS".toList then some (.node "Assign".toList [.list [], .node "Constant".toList [.value "int".toList "5000000".toList, AstCompare.none]]) else Option.none)
    ["BOMB_DELAY_BLOCKS".toList]) = some [] := by decide +kernel
example : (compareFile "muir_glacier".toList ".fork".toList
    (fun i => if i = "BOMB_DELAY_BLOCKS".toList then some (.node "Assign".toList [.list [], .node "Constant".toList [.value "int".toList "5000000".toList, AstCompare.none]]) else Option.none)
    (fun i => if i = "BOMB_DELAY_BLOCKS".toList then some (.node "Assign".toList [.list [], .node "Constant".toList [.value "int".toList "5000000".toList, AstCompare.none]]) else Option.none)
    ["BOMB_DELAY_BLOCKS".toList]) = some [("BOMB_DELAY_BLOCKS".toList, .changed)] := by decide +kernel

/-- The hypotheses can be met: a docstring is rewritten, and the rest of the function is the same; with another name the trees are told apart. -/
example : SameCode
    (.list [.node "Expr".toList [.node "Constant".toList [.value "str".toList "old".toList, AstCompare.none]], .node "Return".toList [.node "Name".toList [.value "str".toList "x".toList]]])
    (.list [.node "Expr".toList [.node "Constant".toList [.value "str".toList "new".toList, AstCompare.none]], .node "Return".toList [.node "Name".toList [.value "str".toList "x".toList]]]) :=
  .list (.cons (.text ⟨_, _, _, rfl⟩ ⟨_, _, _, rfl⟩) (.cons (.node _ (.cons (.node _ (.cons (.value _ _) .nil)) .nil)) .nil))
example : compareAst (.node "Return".toList [.node "Name".toList [.value "str".toList "x".toList]]) (.node "Return".toList [.node "Name".toList [.value "str".toList "y".toList]]) = false := by
  simp only [compareAst, compareFields]; decide +kernel

end Verif.Props
