import Verif.Model.TrieRoot
import Verif.Lemmas.Dict
/-! Facts about `patricialize`: it depends on the contents of the dictionary only, and its fuel is enough. -/
namespace Verif

/-- The entries that `patricialize` gets at some level: different keys that agree on the first `level` nibbles. -/
structure Level (obj : List (Bytes × Bytes)) (level : Nat) : Prop where
  long : ∀ e ∈ obj, level ≤ e.1.length
  common : ∀ e ∈ obj, ∀ e' ∈ obj, e.1.take level = e'.1.take level
  nodup : (obj.map Prod.fst).Nodup

/-- All keys have the same `n` nibbles after `level`. -/
def Shared (obj : List (Bytes × Bytes)) (level n : Nat) : Prop :=
  ∀ e ∈ obj, ∀ e' ∈ obj, level + n ≤ e.1.length ∧ (e.1.drop level).take n = (e'.1.drop level).take n

theorem commonPrefix_iff (n : Nat) : ∀ a b : Bytes, n ≤ commonPrefixLength a b ↔ n ≤ a.length ∧ n ≤ b.length ∧ a.take n = b.take n := by
  induction n with
  | zero => intro a b; simp
  | succ n ih =>
    intro a b
    cases a with
    | nil => simp [commonPrefixLength]
    | cons x r =>
      cases b with
      | nil => simp [commonPrefixLength]
      | cons y t =>
        rw [commonPrefixLength]
        by_cases h : x = y
        · rw [if_pos h]
          have := ih r t
          simp only [List.length_cons, List.take_succ_cons, Nat.add_le_add_iff_right, h, List.cons.injEq, true_and]
          exact this
        · rw [if_neg h]
          simp [h]

theorem foldl_min_iff {α : Type} (n : Nat) (f : α → Nat) : ∀ (l : List α) (init : Nat),
    n ≤ l.foldl (fun p e => min p (f e)) init ↔ n ≤ init ∧ ∀ e ∈ l, n ≤ f e := by
  intro l
  induction l with
  | nil => intro init; simp
  | cons x r ih =>
    intro init
    rw [List.foldl_cons, ih]
    simp only [Nat.le_min, List.mem_cons, forall_eq_or_imp, and_assoc]

theorem prefix_iff {obj : List (Bytes × Bytes)} {level n : Nat} {e : Bytes × Bytes} (h : Level obj level) (he : e ∈ obj) :
    n ≤ prefixLength e.1 obj level ↔ Shared obj level n := by
  unfold prefixLength
  dsimp only
  rw [foldl_min_iff]
  have hl := h.long
  constructor
  · rintro ⟨h1, h2⟩ a ha b hb
    have ha' := (commonPrefix_iff _ _ _).mp (h2 a ha)
    have hb' := (commonPrefix_iff _ _ _).mp (h2 b hb)
    have := hl a ha
    have h3 := ha'.2.1
    rw [List.length_drop] at h3
    exact ⟨by omega, ha'.2.2.symm.trans hb'.2.2⟩
  · intro hs
    have := hl e he
    have h1 := (hs e he e he).1
    refine ⟨by rw [List.length_drop]; omega, fun a ha => (commonPrefix_iff _ _ _).mpr ⟨by rw [List.length_drop]; omega, ?_, (hs e he a ha).2⟩⟩
    have := (hs a ha a ha).1
    rw [List.length_drop]; omega

theorem Shared.of_mem {obj obj' : List (Bytes × Bytes)} {level n : Nat} (h : Shared obj level n) (hm : ∀ e ∈ obj', e ∈ obj) :
    Shared obj' level n := fun e he e' he' => h e (hm e he) e' (hm e' he')

theorem Level.perm {obj obj' : List (Bytes × Bytes)} {level : Nat} (h : Level obj level) (hp : obj.Perm obj') : Level obj' level :=
  ⟨fun e he => h.long e (hp.mem_iff.mpr he), fun e he e' he' => h.common e (hp.mem_iff.mpr he) e' (hp.mem_iff.mpr he'),
    (hp.map _).nodup_iff.mp h.nodup⟩

theorem prefix_perm {obj obj' : List (Bytes × Bytes)} {level : Nat} {e e' : Bytes × Bytes} (h : Level obj level) (hp : obj.Perm obj')
    (he : e ∈ obj) (he' : e' ∈ obj') : prefixLength e.1 obj level = prefixLength e'.1 obj' level := by
  have h1 := fun n => prefix_iff (n := n) h he
  have h2 := fun n => prefix_iff (n := n) (h.perm hp) he'
  have h3 : ∀ n, Shared obj level n ↔ Shared obj' level n := fun n =>
    ⟨fun hs => hs.of_mem fun e he => hp.mem_iff.mpr he, fun hs => hs.of_mem fun e he => hp.mem_iff.mp he⟩
  refine Nat.le_antisymm ?_ ?_
  · exact (h2 _).mpr ((h3 _).mp ((h1 _).mp (Nat.le_refl _)))
  · exact (h1 _).mpr ((h3 _).mpr ((h2 _).mp (Nat.le_refl _)))

theorem Level.shift {obj : List (Bytes × Bytes)} {level n : Nat} (h : Level obj level) (hs : Shared obj level n) : Level obj (level + n) :=
  ⟨fun e he => (hs e he e he).1, fun e he e' he' => by rw [List.take_add, List.take_add, h.common e he e' he', (hs e he e' he').2],
    h.nodup⟩

theorem mem_branch {obj : List (Bytes × Bytes)} {level : Nat} {k : UInt8} {e : Bytes × Bytes} :
    e ∈ branchEntries obj level k ↔ e ∈ obj ∧ e.1[level]? = some k := by
  unfold branchEntries; rw [List.mem_filter]; simp

theorem Level.branch {obj : List (Bytes × Bytes)} {level : Nat} (h : Level obj level) (k : UInt8) :
    Level (branchEntries obj level k) (level + 1) := by
  refine ⟨fun e he => ?_, fun e he e' he' => ?_, ?_⟩
  · obtain ⟨-, h2⟩ := mem_branch.mp he
    have := (List.getElem?_eq_some_iff.mp h2).1
    omega
  · obtain ⟨h1, h2⟩ := mem_branch.mp he
    obtain ⟨h1', h2'⟩ := mem_branch.mp he'
    rw [List.take_add_one, List.take_add_one, h2, h2', h.common e h1 e' h1']
  · exact List.Nodup.sublist (List.Sublist.map _ List.filter_sublist) h.nodup

/-! ### The value of a branch -/

theorem foldl_none {level : Nat} : ∀ (obj : List (Bytes × Bytes)) (v : Bytes), (∀ e ∈ obj, e.1.length ≠ level) →
    obj.foldl (fun v e => if e.1.length = level then e.2 else v) v = v := by
  intro obj
  induction obj with
  | nil => intro v _; rfl
  | cons e r ih =>
    intro v h
    rw [List.foldl_cons, if_neg (h e List.mem_cons_self)]
    exact ih v fun e he => h e (List.mem_cons_of_mem _ he)

theorem foldl_some {level : Nat} {x : Bytes} : ∀ (obj : List (Bytes × Bytes)) (v : Bytes), (∀ e ∈ obj, e.1.length = level → e.2 = x) →
    (v = x ∨ ∃ e ∈ obj, e.1.length = level) → obj.foldl (fun v e => if e.1.length = level then e.2 else v) v = x := by
  intro obj
  induction obj with
  | nil =>
    intro v _ h
    rcases h with h | ⟨e, he, -⟩
    · exact h
    · cases he
  | cons e r ih =>
    intro v h1 h2
    rw [List.foldl_cons]
    refine ih _ (fun e he => h1 e (List.mem_cons_of_mem _ he)) ?_
    by_cases he : e.1.length = level
    · rw [if_pos he]; exact .inl (h1 e List.mem_cons_self he)
    · rw [if_neg he]
      rcases h2 with h2 | ⟨e', he', hl⟩
      · exact .inl h2
      · rcases List.mem_cons.mp he' with rfl | he'
        · exact absurd hl he
        · exact .inr ⟨e', he', hl⟩

theorem Level.ends {obj : List (Bytes × Bytes)} {level : Nat} (h : Level obj level) {e e' : Bytes × Bytes} (he : e ∈ obj) (he' : e' ∈ obj)
    (h1 : e.1.length = level) (h2 : e'.1.length = level) : e = e' := by
  have hk : e.1 = e'.1 := by
    have := h.common e he e' he'
    rwa [List.take_of_length_le (by omega), List.take_of_length_le (by omega)] at this
  have hn := h.nodup
  obtain ⟨k, v⟩ := e
  obtain ⟨k', v'⟩ := e'
  dsimp only at hk
  subst hk
  have a1 := aget_of_mem hn he
  have a2 := aget_of_mem hn he'
  rw [a1] at a2
  rw [Option.some.inj a2]

theorem branchValue_of_mem {obj : List (Bytes × Bytes)} {level : Nat} (h : Level obj level) {e : Bytes × Bytes} (he : e ∈ obj)
    (hl : e.1.length = level) : branchValue obj level = e.2 :=
  foldl_some obj [] (fun _ he' hl' => congrArg Prod.snd (h.ends he' he hl' hl)) (.inr ⟨e, he, hl⟩)

theorem branchValue_none {obj : List (Bytes × Bytes)} {level : Nat} (h : ∀ e ∈ obj, e.1.length ≠ level) : branchValue obj level = [] :=
  foldl_none obj [] h

theorem branchValue_perm {obj obj' : List (Bytes × Bytes)} {level : Nat} (h : Level obj level) (hp : obj.Perm obj') :
    branchValue obj level = branchValue obj' level := by
  by_cases hx : ∃ e ∈ obj, e.1.length = level
  · obtain ⟨e, he, hl⟩ := hx
    rw [branchValue_of_mem h he hl, branchValue_of_mem (h.perm hp) (hp.mem_iff.mp he) hl]
  · rw [branchValue_none fun e he hl => hx ⟨e, he, hl⟩,
      branchValue_none fun e he hl => hx ⟨e, hp.mem_iff.mpr he, hl⟩]

/-! ### Order and fuel -/

theorem patricializeF_many {C : Crypto} (fuel : Nat) {e e2 : Bytes × Bytes} {r : List (Bytes × Bytes)} {level : Nat} :
    patricializeF C (fuel + 1) (e :: e2 :: r) level =
      if prefixLength e.1 (e :: e2 :: r) level > 0 then
        some (.ext (slice e.1 level (level + prefixLength e.1 (e :: e2 :: r) level))
          (encodeInternalNode C (patricializeF C fuel (e :: e2 :: r) (level + prefixLength e.1 (e :: e2 :: r) level))))
      else some (.branch ((List.range 16).map fun k =>
          encodeInternalNode C (patricializeF C fuel (branchEntries (e :: e2 :: r) level (UInt8.ofNat k)) (level + 1)))
          (branchValue (e :: e2 :: r) level)) := by
  rw [patricializeF]
  · intro h; simp at h

theorem patricializeF_nil (C : Crypto) (fuel level : Nat) : patricializeF C fuel [] level = none := by
  cases fuel <;> rfl

theorem patricializeF_perm {C : Crypto} (fuel : Nat) : ∀ {obj obj' : List (Bytes × Bytes)} {level : Nat}, Level obj level → obj.Perm obj' →
    patricializeF C fuel obj level = patricializeF C fuel obj' level := by
  induction fuel with
  | zero => intro obj obj' level _ _; rfl
  | succ fuel ih =>
    intro obj obj' level h hp
    match obj, obj', h, hp with
    | [], obj', h, hp => rw [List.nil_perm.mp hp]
    | [e], obj', h, hp => rw [← List.singleton_perm.mp hp]
    | e :: e2 :: r, [], h, hp => have := hp.length_eq; simp at this
    | e :: e2 :: r, [x], h, hp => have := hp.length_eq; simp at this
    | e :: e2 :: r, x :: x2 :: t, h, hp =>
      rw [patricializeF_many, patricializeF_many]
      have he : e ∈ e :: e2 :: r := List.mem_cons_self
      have hx : x ∈ x :: x2 :: t := List.mem_cons_self
      have hx' := hp.mem_iff.mpr hx
      generalize hobj : e :: e2 :: r = obj at *
      generalize hobj' : x :: x2 :: t = obj' at *
      have hpre := prefix_perm h hp he hx
      rw [hpre]
      have hsh : Shared obj level (prefixLength x.1 obj' level) := by rw [← hpre]; exact (prefix_iff h he).mp (Nat.le_refl _)
      by_cases hpos : prefixLength x.1 obj' level > 0
      · rw [if_pos hpos, if_pos hpos, ih (h.shift hsh) hp]
        congr 2
        unfold slice
        rw [Nat.add_sub_cancel_left]
        exact (hsh e he x hx').2
      · rw [if_neg hpos, if_neg hpos, branchValue_perm h hp]
        congr 2
        apply List.map_congr_left
        intro k _
        rw [ih (h.branch _) (show (branchEntries obj level (UInt8.ofNat k)).Perm (branchEntries obj' level (UInt8.ofNat k)) from hp.filter _)]

theorem patricializeF_fuel {C : Crypto} (f : Nat) : ∀ {g : Nat} {obj : List (Bytes × Bytes)} {level N : Nat}, Level obj level →
    (∀ e ∈ obj, e.1.length ≤ N) → N + 1 ≤ level + f → N + 1 ≤ level + g → patricializeF C f obj level = patricializeF C g obj level := by
  induction f with
  | zero =>
    intro g obj level N h hN hf hg
    cases obj with
    | nil => rw [patricializeF_nil, patricializeF_nil]
    | cons e r =>
      have := h.long e List.mem_cons_self
      have := hN e List.mem_cons_self
      omega
  | succ f ih =>
    intro g obj level N h hN hf hg
    match obj, h, hN with
    | [], h, hN => rw [patricializeF_nil, patricializeF_nil]
    | e :: r, h, hN =>
      have h1 := h.long e List.mem_cons_self
      have h2 := hN e List.mem_cons_self
      obtain ⟨g, rfl⟩ : ∃ g', g = g' + 1 := ⟨g - 1, by omega⟩
      match r, h, hN with
      | [], h, hN => rfl
      | e2 :: r, h, hN =>
        rw [patricializeF_many, patricializeF_many]
        have he : e ∈ e :: e2 :: r := List.mem_cons_self
        generalize hobj : e :: e2 :: r = obj at *
        have hsh := (prefix_iff h he).mp (Nat.le_refl (prefixLength e.1 obj level))
        by_cases hpos : prefixLength e.1 obj level > 0
        · rw [if_pos hpos, if_pos hpos, ih (g := g) (h.shift hsh) hN (by omega) (by omega)]
        · rw [if_neg hpos, if_neg hpos]
          congr 2
          apply List.map_congr_left
          intro k _
          rw [ih (g := g) (h.branch _) (fun e he => hN e (mem_branch.mp he).1) (by omega) (by omega)]

theorem le_maxKeyLength (obj : List (Bytes × Bytes)) : ∀ e ∈ obj, e.1.length ≤ maxKeyLength obj := by
  have h : ∀ (l : List (Bytes × Bytes)) (n : Nat), n ≤ l.foldl (fun n e => max n e.1.length) n ∧
      ∀ e ∈ l, e.1.length ≤ l.foldl (fun n e => max n e.1.length) n := by
    intro l
    induction l with
    | nil => intro n; simp
    | cons x r ih =>
      intro n
      rw [List.foldl_cons]
      obtain ⟨h1, h2⟩ := ih (max n x.1.length)
      refine ⟨by omega, fun e he => ?_⟩
      rcases List.mem_cons.mp he with rfl | he
      · omega
      · exact h2 e he
  exact (h obj 0).2

theorem level_zero {obj : List (Bytes × Bytes)} (h : (obj.map Prod.fst).Nodup) : Level obj 0 :=
  ⟨fun _ _ => Nat.zero_le _, fun _ _ _ _ => rfl, h⟩

theorem patricialize_perm {C : Crypto} {obj obj' : List (Bytes × Bytes)} (h : (obj.map Prod.fst).Nodup) (hp : obj.Perm obj') :
    patricialize C obj 0 = patricialize C obj' 0 := by
  unfold patricialize
  rw [patricializeF_fuel _ (g := maxKeyLength obj + maxKeyLength obj' + 2) (level_zero h) (le_maxKeyLength obj) (by omega) (by omega),
    patricializeF_perm _ (level_zero h) hp,
    patricializeF_fuel _ (g := maxKeyLength obj' + 2) (level_zero ((hp.map _).nodup_iff.mp h)) (le_maxKeyLength obj') (by omega) (by omega)]

/-! ### `_prepare_trie` and `root` -/

/-- The key under which an entry is kept. -/
def trieKey (C : Crypto) (secured : Bool) (k : Bytes) : Bytes :=
  bytesToNibbleList (if secured then wordBytes (C.keccak256 k) else k)

theorem aset_new {K V : Type} [DecidableEq K] (l : List (K × V)) (k : K) (v : V) (h : k ∉ l.map Prod.fst) : aset l k v = l ++ [(k, v)] := by
  induction l with
  | nil => rfl
  | cons e r ih =>
    obtain ⟨k', v'⟩ := e
    simp only [List.map_cons, List.mem_cons, not_or] at h
    rw [aset, if_neg (fun hk => h.1 hk.symm), ih h.2]; rfl

theorem fold_aset (key : Bytes → Bytes) : ∀ (l acc : List (Bytes × Bytes)), (l.map fun e => key e.1).Nodup →
    (∀ e ∈ l, key e.1 ∉ acc.map Prod.fst) →
    l.foldl (fun d e => aset d (key e.1) e.2) acc = acc ++ l.map fun e => (key e.1, e.2) := by
  intro l
  induction l with
  | nil => intro acc _ _; simp
  | cons e r ih =>
    intro acc h1 h2
    rw [List.map_cons, List.nodup_cons] at h1
    rw [List.foldl_cons, aset_new _ _ _ (h2 e List.mem_cons_self), ih _ h1.2, List.map_cons, List.append_assoc]
    · rfl
    · intro x hx hc
      rw [List.map_append, List.mem_append] at hc
      rcases hc with hc | hc
      · exact h2 x (List.mem_cons_of_mem _ hx) hc
      · simp only [List.map_cons, List.map_nil, List.mem_cons, List.not_mem_nil, or_false] at hc
        exact h1.1 (List.mem_map.mpr ⟨x, hx, hc⟩)

theorem prepareTrie_ok {C : Crypto} {secured : Bool} {l obj : List (Bytes × Bytes)} (hn : (l.map fun e => trieKey C secured e.1).Nodup) :
    prepareTrie C secured l = .ok obj ↔ (∀ e ∈ l, e.2 ≠ []) ∧ obj = l.map fun e => (trieKey C secured e.1, e.2) := by
  unfold prepareTrie
  have hf := fold_aset (trieKey C secured) l [] hn (fun _ _ h => by simp at h)
  have hall : (l.any fun e => e.2.isEmpty) = true ↔ ¬ ∀ e ∈ l, e.2 ≠ [] := by
    rw [List.any_eq_true]
    constructor
    · rintro ⟨e, he, hx⟩ h; exact h e he (List.isEmpty_iff.mp hx)
    · intro h
      refine Classical.byContradiction fun hc => h fun e he hx => hc ⟨e, he, List.isEmpty_iff.mpr hx⟩
  by_cases ha : ∀ e ∈ l, e.2 ≠ []
  · rw [if_neg (fun h => hall.mp h ha)]
    rw [List.nil_append] at hf
    constructor
    · intro h
      refine ⟨ha, ?_⟩
      rw [← hf]; exact (Except.ok.inj h).symm
    · rintro ⟨-, rfl⟩
      rw [← hf]; rfl
  · rw [if_pos (hall.mpr ha)]
    exact ⟨fun h => (by cases h), fun h => absurd h.1 ha⟩

theorem trieRoot_perm {C : Crypto} {secured : Bool} {l l' : List (Bytes × Bytes)} (hn : (l.map fun e => trieKey C secured e.1).Nodup)
    (hp : l.Perm l') : trieRoot C secured l = trieRoot C secured l' := by
  have hn' : (l'.map fun e => trieKey C secured e.1).Nodup := (hp.map _).nodup_iff.mp hn
  unfold trieRoot
  by_cases ha : ∀ e ∈ l, e.2 ≠ []
  · rw [(prepareTrie_ok hn).mpr ⟨ha, rfl⟩, (prepareTrie_ok hn').mpr ⟨fun e he => ha e (hp.mem_iff.mpr he), rfl⟩]
    dsimp only
    rw [patricialize_perm (by rw [List.map_map]; exact hn) (hp.map _)]
  · have key : ∀ {m : List (Bytes × Bytes)}, (m.map fun e => trieKey C secured e.1).Nodup → ¬ (∀ e ∈ m, e.2 ≠ []) →
        prepareTrie C secured m = .error .assertionError := by
      intro m hm hx
      match hq : prepareTrie C secured m with
      | .ok o => exact absurd ((prepareTrie_ok hm).mp hq).1 hx
      | .error c =>
        unfold prepareTrie at hq
        split at hq
        · cases hq; rfl
        · cases hq
    rw [key hn ha, key hn' fun h => ha fun e he => h e (hp.mem_iff.mp he)]

end Verif
