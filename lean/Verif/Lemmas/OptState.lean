import Verif.Lemmas.State
import Verif.Spec.Client
/-! The journal of the optimized state undoes exactly what was done (for C43). -/
namespace Verif.Opt

theorem upd_same {α β : Type} [DecidableEq α] (f : α → β) (a : α) (v : β) : upd f a v a = v := by simp [upd]
theorem upd_other {α β : Type} [DecidableEq α] (f : α → β) {a x : α} (v : β) (h : x ≠ a) : upd f a v x = f x := by
  simp [upd, h]

/-- The cached slots of an address, an absent dictionary being empty. -/
def Cache.content (c : Cache) (a : Address) : Slots := (c.slots a).getD noSlots

/-- Undo of one item that is only defined when the entry to undo is there. -/
def strict (c : Cache) : JItem → Option Cache
  | .slot a k old =>
    if c.content a k = none then none
    else some { c with slots := upd c.slots a (some (upd (c.content a) k old)) }
  | .destroyed a old =>
    if c.destroyed a = 0 then none
    else some { c with destroyed := upd c.destroyed a (c.destroyed a - 1)
                       slots := if c.destroyed a - 1 = 0 then upd c.slots a (some old) else c.slots }
  | .account a old =>
    if c.accounts a = none then none else some { c with accounts := upd c.accounts a old }

def stricts : List JItem → Cache → Option Cache
  | [], c => some c
  | it :: its, c => (strict c it).bind (stricts its)

theorem stricts_append (l m : List JItem) (c : Cache) :
    stricts (l ++ m) c = (stricts l c).bind (stricts m) := by
  induction l generalizing c with
  | nil => rfl
  | cons it l ih =>
    simp only [List.cons_append, stricts]
    cases strict c it with
    | none => rfl
    | some d => simp [ih]

theorem undoItem_of_strict {c u : Cache} {it : JItem} (h : strict c it = some u) : undoItem c it = .ok u := by
  cases it with
  | slot a k old =>
    simp only [strict, Cache.content] at h
    unfold undoItem
    match hs : c.slots a with
    | none => simp [hs, noSlots] at h
    | some d =>
      simp only [hs, Option.getD_some, Option.ite_none_left_eq_some] at h
      obtain ⟨h1, h2⟩ := h
      cases old with
      | none => simp only [hs]; rw [if_neg h1]; exact congrArg _ (Option.some.inj h2)
      | some v => simp only [hs]; exact congrArg _ (Option.some.inj h2)
  | destroyed a old =>
    simp only [strict, Option.ite_none_left_eq_some] at h
    unfold undoItem
    simp only
    rw [if_neg h.1]; exact congrArg _ (Option.some.inj h.2)
  | account a old =>
    simp only [strict, Option.ite_none_left_eq_some] at h
    unfold undoItem
    cases old with
    | none => simp only; rw [if_neg h.1]; exact congrArg _ (Option.some.inj h.2)
    | some acc => simp only; exact congrArg _ (Option.some.inj h.2)

theorem undoItems_of_stricts {l : List JItem} {c u : Cache} (h : stricts l c = some u) : undoItems l c = .ok u := by
  induction l generalizing c with
  | nil => cases h; rfl
  | cons it l ih =>
    obtain ⟨d, hd, h⟩ := Option.bind_eq_some_iff.mp h
    simp only [undoItems, undoItem_of_strict hd]
    exact ih h

/-- `c'` differs from `c` only in entries that change no answer. -/
structure Le (db : Db) (c c' : Cache) : Prop where
  destroyed : c'.destroyed = c.destroyed
  content : ∀ a, c'.content a = c.content a
  accounts : ∀ a, c'.accounts a = c.accounts a ∨ (c.accounts a = none ∧ c'.accounts a = some (db.account a))

theorem Le.refl (db : Db) (c : Cache) : Le db c c := ⟨rfl, fun _ => rfl, fun _ => .inl rfl⟩

theorem content_upd (c : Cache) (f : Address → Option Slots) (h : c.slots = f) (a x : Address) (d : Slots)
    (acc : Address → Option (Option Account)) (n : Address → Nat) :
    Cache.content ⟨acc, upd f a (some d), n⟩ x = if x = a then d else c.content x := by
  subst h
  unfold Cache.content upd
  by_cases hx : x = a <;> simp [hx]

theorem Le.strict {db : Db} {c c' u : Cache} {it : JItem} (h : Le db c c') (hu : Opt.strict c it = some u) :
    ∃ u', Opt.strict c' it = some u' ∧ Le db u u' := by
  cases it with
  | slot a k old =>
    simp only [Opt.strict, Option.ite_none_left_eq_some, Option.some.injEq] at hu ⊢
    obtain ⟨h1, rfl⟩ := hu
    refine ⟨_, ⟨by rw [h.content]; exact h1, rfl⟩, h.destroyed, ?_, h.accounts⟩
    intro x
    rw [content_upd c' _ rfl, content_upd c _ rfl, h.content, h.content]
  | destroyed a old =>
    simp only [Opt.strict, Option.ite_none_left_eq_some, Option.some.injEq] at hu ⊢
    obtain ⟨h1, rfl⟩ := hu
    refine ⟨_, ⟨by rw [h.destroyed]; exact h1, rfl⟩, by simp only [h.destroyed], ?_, h.accounts⟩
    intro x
    rw [h.destroyed]
    by_cases hz : c.destroyed a - 1 = 0
    · simp only [hz, if_true]
      rw [content_upd c' _ rfl, content_upd c _ rfl, h.content]
    · simp only [hz, if_false]
      exact h.content x
  | account a old =>
    simp only [Opt.strict, Option.ite_none_left_eq_some, Option.some.injEq] at hu ⊢
    obtain ⟨h1, rfl⟩ := hu
    refine ⟨_, ⟨?_, rfl⟩, h.destroyed, h.content, ?_⟩
    · rcases h.accounts a with e | e
      · rw [e]; exact h1
      · exact absurd e.1 h1
    · intro x
      by_cases hx : x = a
      · subst hx; left; simp only [upd_same]
      · simp only [upd_other _ _ hx]; exact h.accounts x

theorem Le.stricts {db : Db} {l : List JItem} {c c' u : Cache} (h : Le db c c') (hu : Opt.stricts l c = some u) :
    ∃ u', Opt.stricts l c' = some u' ∧ Le db u u' := by
  induction l generalizing c c' with
  | nil => cases hu; exact ⟨c', rfl, h⟩
  | cons it l ih =>
    obtain ⟨d, hd, hu⟩ := Option.bind_eq_some_iff.mp hu
    obtain ⟨d', hd', hl⟩ := h.strict hd
    obtain ⟨u', hu', hl'⟩ := ih hl hu
    exact ⟨u', by simp only [Opt.stricts, hd']; exact hu', hl'⟩

/-! ### what is read through the caches -/

def Cache.account (db : Db) (c : Cache) (a : Address) : Option Account := (c.accounts a).getD (db.account a)
def Cache.slot (db : Db) (c : Cache) (a : Address) (k : Word) : Word :=
  (c.content a k).getD (if c.destroyed a ≠ 0 then 0 else db.storage a k)

theorem getAccountOptional_eq (o : OptState) (a : Address) : getAccountOptional o a = o.cache.account o.db a := by
  unfold getAccountOptional Cache.account
  cases o.cache.accounts a <;> rfl

theorem slot_lookup (c : Cache) (a : Address) (k : Word) : (c.slots a).bind (fun d => d k) = c.content a k := by
  unfold Cache.content
  cases c.slots a <;> rfl

theorem getStorage_eq (o : OptState) (a : Address) (k : Word) : getStorage o a k = o.cache.slot o.db a k := by
  unfold getStorage Cache.slot
  rw [slot_lookup]
  cases o.cache.content a k <;> rfl

theorem flushDb_account (db : Db) (c : Cache) (a : Address) : (flushDb db c).account a = c.account db a := rfl
theorem flushDb_storage (db : Db) (c : Cache) (a : Address) (k : Word) : (flushDb db c).storage a k = c.slot db a k := by
  unfold flushDb Cache.slot
  simp only
  rw [slot_lookup]
  cases c.content a k <;> rfl

theorem empty_account (db : Db) (a : Address) : Cache.empty.account db a = db.account a := rfl
theorem empty_slot (db : Db) (a : Address) (k : Word) : Cache.empty.slot db a k = db.storage a k := rfl

theorem Le.account {db : Db} {c c' : Cache} (h : Le db c c') (a : Address) : c'.account db a = c.account db a := by
  unfold Cache.account
  rcases h.accounts a with e | e
  · rw [e]
  · rw [e.1, e.2]; rfl

theorem Le.slot {db : Db} {c c' : Cache} (h : Le db c c') (a : Address) (k : Word) :
    c'.slot db a k = c.slot db a k := by
  unfold Cache.slot
  rw [h.content, h.destroyed]

/-! ### the chain of snapshots -/

/-- The tries of a snapshot are what is read through the caches. -/
def Reads (db : Db) (c : Cache) (p : AccountTrie × StorageTries) : Prop :=
  (∀ a, c.account db a = trieGet p.1 a) ∧ (∀ a k, c.slot db a k = triesGet p.2 a k)

/-- Addresses with a counter were destroyed, and those that hold cached slots as well were written to since. -/
def Safe (h : List Touch) (c : Cache) : Prop :=
  ∀ a, c.destroyed a ≠ 0 → Touch.destroy a ∈ h ∧
    ((∃ k, c.content a k ≠ none) → [Touch.write a, .destroy a].Sublist h)

/-- Undoing the journal down to each restore point gives the snapshot taken there. -/
def Chain (db : Db) (h : List Touch) : Cache → List JItem → List (AccountTrie × StorageTries) → List Nat → Prop
  | _, _, [], [] => True
  | c, j, s :: ss, p :: ps =>
    p ≤ j.length ∧ ∃ u, stricts (j.take (j.length - p)) c = some u ∧ Reads db u s ∧ Safe h u ∧
      Chain db h u (j.drop (j.length - p)) ss ps
  | _, _, _, _ => False

theorem Safe.le {h : List Touch} {db : Db} {c c' : Cache} (hs : Safe h c) (hl : Le db c c') : Safe h c' := by
  intro a ha
  rw [hl.destroyed] at ha
  rw [hl.content]
  exact hs a ha

theorem Safe.mono {h : List Touch} {c : Cache} (hs : Safe h c) (t : Touch) : Safe (t :: h) c := by
  intro a ha
  exact ⟨List.mem_cons_of_mem _ (hs a ha).1, fun hk => ((hs a ha).2 hk).cons _⟩

theorem Reads.le {db : Db} {c c' : Cache} {p : AccountTrie × StorageTries} (hr : Reads db c p) (hl : Le db c c') :
    Reads db c' p :=
  ⟨fun a => by rw [hl.account]; exact hr.1 a, fun a k => by rw [hl.slot]; exact hr.2 a k⟩

theorem Chain.le {db : Db} {h : List Touch} {c c' : Cache} {j : List JItem}
    {ss : List (AccountTrie × StorageTries)} {ps : List Nat} (hc : Chain db h c j ss ps) (hl : Le db c c') :
    Chain db h c' j ss ps := by
  induction ss generalizing c c' j ps with
  | nil => cases ps with
    | nil => trivial
    | cons p ps => exact hc.elim
  | cons s ss ih => cases ps with
    | nil => exact hc.elim
    | cons p ps =>
      obtain ⟨hp, u, hu, hr, hsf, hn⟩ := hc
      obtain ⟨u', hu', hl'⟩ := hl.stricts hu
      exact ⟨hp, u', hu', hr.le hl', hsf.le hl', ih hn hl'⟩

theorem Chain.mono {db : Db} {h : List Touch} {c : Cache} {j : List JItem}
    {ss : List (AccountTrie × StorageTries)} {ps : List Nat} (hc : Chain db h c j ss ps) (t : Touch) :
    Chain db (t :: h) c j ss ps := by
  induction ss generalizing c j ps with
  | nil => cases ps with
    | nil => trivial
    | cons p ps => exact hc.elim
  | cons s ss ih => cases ps with
    | nil => exact hc.elim
    | cons p ps =>
      obtain ⟨hp, u, hu, hr, hsf, hn⟩ := hc
      exact ⟨hp, u, hu, hr, hsf.mono t, ih hn⟩

/-- A step that appended `items` and can be undone keeps the chain. -/
theorem Chain.push {db : Db} {h : List Touch} {c c1 u : Cache} {items j : List JItem}
    {ss : List (AccountTrie × StorageTries)} {ps : List Nat} (hc : Chain db h c j ss ps)
    (hu : stricts items c1 = some u) (hl : Le db c u) : Chain db h c1 (items ++ j) ss ps := by
  cases ss with
  | nil => cases ps with
    | nil => trivial
    | cons p ps => exact hc.elim
  | cons s ss => cases ps with
    | nil => exact hc.elim
    | cons p ps =>
      obtain ⟨hp, v, hv, hr, hsf, hn⟩ := hc
      obtain ⟨v', hv', hl'⟩ := hl.stricts hv
      have e : (items ++ j).length - p = items.length + (j.length - p) := by
        simp only [List.length_append]; omega
      refine ⟨by simp only [List.length_append]; omega, v', ?_, hr.le hl', hsf.le hl', ?_⟩
      · rw [e, List.take_length_add_append, stricts_append, hu]; exact hv'
      · rw [e, List.drop_length_add_append]; exact hn.le hl'

/-- Forgetting the newest restore point. -/
theorem Chain.join {db : Db} {h : List Touch} {c : Cache} {j : List JItem} {s : AccountTrie × StorageTries}
    {ss : List (AccountTrie × StorageTries)} {p : Nat} {ps : List Nat} (hc : Chain db h c j (s :: ss) (p :: ps)) :
    Chain db h c j ss ps := by
  obtain ⟨hp, u, hu, -, -, hn⟩ := hc
  cases ss with
  | nil => cases ps with
    | nil => trivial
    | cons p ps => exact hn.elim
  | cons s2 ss => cases ps with
    | nil => exact hn.elim
    | cons p2 ps =>
      obtain ⟨hp2, v, hv, hr, hsf, hn⟩ := hn
      rw [List.length_drop] at hp2 hv hn
      have e : j.length - p2 = (j.length - p) + (j.length - (j.length - p) - p2) := by omega
      refine ⟨by omega, v, ?_, hr, hsf, ?_⟩
      · rw [e, List.take_add, stricts_append, hu]; exact hv
      · rw [e, ← List.drop_drop]; exact hn

theorem Chain.length {db : Db} {h : List Touch} {c : Cache} {j : List JItem}
    {ss : List (AccountTrie × StorageTries)} {ps : List Nat} (hc : Chain db h c j ss ps) : ss.length = ps.length := by
  induction ss generalizing c j ps with
  | nil => cases ps with
    | nil => rfl
    | cons p ps => exact hc.elim
  | cons s ss ih => cases ps with
    | nil => exact hc.elim
    | cons p ps =>
      obtain ⟨-, u, -, -, -, hn⟩ := hc
      simp [ih hn]

theorem Chain.nil_iff {db : Db} {h : List Touch} {c : Cache} {j : List JItem}
    {ss : List (AccountTrie × StorageTries)} {ps : List Nat} (hc : Chain db h c j ss ps) : ps = [] ↔ ss = [] := by
  rw [← List.length_eq_zero_iff, ← List.length_eq_zero_iff, hc.length]

/-! ### the three writes can be undone -/

theorem setAccount_undo (db : Db) (c : Cache) (a : Address) (acc : Option Account) :
    ∃ u, stricts [.account a (c.accounts a)] { c with accounts := upd c.accounts a (some acc) } = some u ∧
      Le db c u := by
  refine ⟨{ c with accounts := upd (upd c.accounts a (some acc)) a (c.accounts a) }, ?_, rfl, fun _ => rfl, ?_⟩
  · simp [stricts, strict, upd_same]
  · intro x
    left
    by_cases hx : x = a
    · subst hx; simp only [upd_same]
    · simp only [upd_other _ _ hx]

theorem setStorage_undo (db : Db) (c : Cache) (a : Address) (k v : Word)
    (accs : Address → Option (Option Account))
    (ha : ∀ x, accs x = c.accounts x ∨ (c.accounts x = none ∧ accs x = some (db.account x))) :
    ∃ u, stricts [.slot a k (c.content a k)]
      ⟨accs, upd c.slots a (some (upd (c.content a) k (some v))), c.destroyed⟩ = some u ∧ Le db c u := by
  refine ⟨⟨accs, upd (upd c.slots a (some (upd (c.content a) k (some v)))) a
    (some (upd (upd (c.content a) k (some v)) k (c.content a k))), c.destroyed⟩, ?_, rfl, ?_, ha⟩
  · simp only [stricts, strict, content_upd c _ rfl]
    simp [upd_same]
  · intro x
    by_cases hx : x = a
    · subst hx
      funext y
      simp only [Cache.content, upd_same, Option.getD_some]
      by_cases hy : y = k
      · subst hy; simp only [upd_same]
      · simp only [upd_other _ _ hy]
    · simp only [Cache.content, upd_other _ _ hx]

theorem destroy_undo (db : Db) (c : Cache) (a : Address)
    (hok : c.destroyed a ≠ 0 → c.content a = noSlots) :
    ∃ u, stricts [.destroyed a (c.content a)]
      { c with slots := upd c.slots a none, destroyed := upd c.destroyed a (c.destroyed a + 1) } = some u ∧
      Le db c u := by
  refine ⟨{ c with
      slots := if c.destroyed a = 0 then upd (upd c.slots a none) a (some (c.content a)) else upd c.slots a none
      destroyed := upd (upd c.destroyed a (c.destroyed a + 1)) a (c.destroyed a) },
    by simp [stricts, strict, upd_same], ?_, ?_, fun _ => .inl rfl⟩
  · funext x
    by_cases hx : x = a
    · subst hx; simp [upd_same]
    · simp only [upd_other _ _ hx]
  · intro x
    by_cases hx : x = a
    · subst hx
      by_cases hz : c.destroyed x = 0
      · simp [Cache.content, hz, upd_same]
      · rw [hok hz]
        simp [Cache.content, hz, upd_same]
    · by_cases hz : c.destroyed a = 0
      · simp only [Cache.content, hz, if_true, upd_other _ _ hx]
      · simp only [Cache.content, hz, if_false, upd_other _ _ hx]

end Verif.Opt
