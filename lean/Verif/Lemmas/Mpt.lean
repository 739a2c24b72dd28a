import Verif.Spec.Mpt
import Verif.Lemmas.PatriciaInj
/-! The nodes that `patricialize` makes are those of the Yellow Paper, and these are determined by the pairs. -/
namespace Verif
open Spec Spec.Mpt

theorem pairNibbles_eq : ∀ x : Bytes,
    pairNibbles x = (List.range (x.length / 2)).map fun j => 16 * x.getD (2 * j) 0 + x.getD (2 * j + 1) 0
  | [] => rfl
  | [_] => by simp [pairNibbles]
  | a :: b :: r => by
    have h : (a :: b :: r).length / 2 = r.length / 2 + 1 := by simp only [List.length_cons]; omega
    rw [h, List.range_succ_eq_map, pairNibbles, pairNibbles_eq r, List.map_cons, List.map_map]
    rfl

theorem compact_eq (x : Bytes) (t : Bool) : nibbleListToCompact x t = hexPrefix x t := by
  unfold nibbleListToCompact hexPrefix
  dsimp only
  by_cases h : x.length % 2 = 0
  · rw [if_pos h, if_pos h, pairNibbles_eq]
  · rw [if_neg h, if_neg h]
    match x with
    | [] => exact absurd rfl h
    | a :: r =>
      have h2 : (a :: r).length / 2 = r.length / 2 := by simp only [List.length_cons] at h ⊢; omega
      dsimp only
      rw [pairNibbles_eq, h2]
      rfl

theorem ref_eq (C : Crypto) (n : Option InternalNode) : encodeInternalNode C n = ref C (unencodedNode n) := rfl

theorem several_of {obj : List (Bytes × Bytes)} {e e2 : Bytes × Bytes} {r : List (Bytes × Bytes)} (h : obj = e :: e2 :: r)
    (hn : (obj.map Prod.fst).Nodup) : Several fun k v => (k, v) ∈ obj := by
  subst h
  refine ⟨e.1, e.2, e2.1, e2.2, List.mem_cons_self, List.mem_cons_of_mem _ List.mem_cons_self, fun he => ?_⟩
  rw [List.map_cons, List.map_cons, List.nodup_cons] at hn
  exact hn.1 (by rw [he]; exact List.mem_cons_self)

theorem shared_of_all {obj : List (Bytes × Bytes)} {level : Nat} {l : Bytes} (h : AllContinue (fun k v => (k, v) ∈ obj) level l)
    (hl : ∀ e ∈ obj, level ≤ e.1.length) : Shared obj level l.length := by
  intro e he e' he'
  have h1 := h e.1 e.2 he
  have h2 := h e'.1 e'.2 he'
  have := h1.length_le
  rw [List.length_drop] at this
  have := hl e he
  exact ⟨by omega, (List.prefix_iff_eq_take.mp h1).symm.trans (List.prefix_iff_eq_take.mp h2)⟩

theorem node_of {C : Crypto} (fuel : Nat) : ∀ {obj : List (Bytes × Bytes)} {level N : Nat}, Level obj level →
    (∀ e ∈ obj, e.1.length ≤ N) → N + 1 ≤ level + fuel →
    Node C (fun k v => (k, v) ∈ obj) level (unencodedNode (patricializeF C fuel obj level)) := by
  induction fuel with
  | zero =>
    intro obj level N h hN hf
    match obj, h, hN with
    | [], h, hN => exact .empty fun k v hm => by cases hm
    | e :: r, h, hN =>
      have := h.long e List.mem_cons_self
      have := hN e List.mem_cons_self
      omega
  | succ f ih =>
    intro obj level N h hN hf
    match obj, h, hN with
    | [], h, hN => exact .empty fun k v hm => by cases hm
    | [e], h, hN =>
      show Node C _ level (.list [.bytes (nibbleListToCompact (e.1.drop level) true), .bytes e.2])
      rw [compact_eq]
      refine .leaf e.1 e.2 fun k v => ?_
      rw [List.mem_singleton]
      constructor
      · rintro rfl; exact ⟨rfl, rfl⟩
      · rintro ⟨rfl, rfl⟩; rfl
    | e :: e2 :: r, h, hN =>
      rw [patricializeF_many]
      have he : e ∈ e :: e2 :: r := List.mem_cons_self
      have hsev := several_of rfl h.nodup
      generalize hobj : e :: e2 :: r = obj at *
      have hp := fun n => prefix_iff (n := n) h he
      have hsh := (hp _).mp (Nat.le_refl (prefixLength e.1 obj level))
      generalize prefixLength e.1 obj level = p at *
      by_cases hpos : p > 0
      · rw [if_pos hpos]
        show Node C _ level (.list [.bytes (nibbleListToCompact (slice e.1 level (level + p)) false), encodeInternalNode C _])
        rw [compact_eq, ref_eq]
        have hlen : (slice e.1 level (level + p)).length = p := by
          unfold slice
          have := (hsh e he e he).1
          rw [List.length_take, List.length_drop]; omega
        refine .ext _ _ hsev ?_ ?_ ?_ ?_
        · intro hnil; rw [hnil] at hlen; simp only [List.length_nil] at hlen; omega
        · intro k v hm
          unfold slice
          rw [Nat.add_sub_cancel_left, (hsh e he (k, v) hm).2]
          exact List.take_prefix _ _
        · intro x hx
          have := (hp _).mpr (shared_of_all hx h.long)
          rw [List.length_append, hlen, List.length_singleton] at this
          omega
        · rw [hlen]
          exact ih (h.shift hsh) hN (by omega)
      · rw [if_neg hpos]
        refine .branch (fun j => unencodedNode (patricializeF C f (branchEntries obj level (UInt8.ofNat j)) (level + 1))) _ hsev ?_ ?_ ?_
        · intro x hx
          have := (hp _).mpr (shared_of_all hx h.long)
          rw [List.length_singleton] at this
          omega
        · intro j _
          have hJ : (fun k v => (k, v) ∈ obj ∧ k[level]? = some (UInt8.ofNat j)) =
              fun k v => (k, v) ∈ branchEntries obj level (UInt8.ofNat j) := by
            funext k v
            exact propext (mem_branch (e := (k, v))).symm
          rw [hJ]
          exact ih (h.branch _) (fun e he => hN e (mem_branch.mp he).1) (by omega)
        · by_cases hx : ∃ e ∈ obj, e.1.length = level
          · obtain ⟨e', he', hl⟩ := hx
            rw [branchValue_of_mem h he' hl]
            exact .inl ⟨e'.1, hl, he'⟩
          · exact .inr ⟨branchValue_none fun e he hl => hx ⟨e, he, hl⟩, fun k v hm hl => hx ⟨(k, v), hm, hl⟩⟩

theorem nibbles_eq (b : Bytes) : bytesToNibbleList b = nibbles b := bytesToNibbleList_eq b

theorem trieRoot_isRoot {C : Crypto} {secured : Bool} {l : List (Bytes × Bytes)} {r : Word}
    (hn : (l.map fun e => trieKey C secured e.1).Nodup) (h : trieRoot C secured l = .ok r) :
    IsRoot C (fun k v => ∃ e ∈ l, k = trieKey C secured e.1 ∧ v = e.2) r := by
  obtain ⟨obj, hp, hr⟩ := trieRoot_ok_iff h
  obtain ⟨-, rfl⟩ := (prepareTrie_ok hn).mp hp
  refine ⟨_, ?_, hr⟩
  have hJ : (fun k v => ∃ e ∈ l, k = trieKey C secured e.1 ∧ v = e.2) =
      fun k v => (k, v) ∈ l.map fun e => (trieKey C secured e.1, e.2) := by
    funext k v
    refine propext ⟨?_, fun hm => ?_⟩
    · rintro ⟨e, he, rfl, rfl⟩; exact List.mem_map.mpr ⟨e, he, rfl⟩
    · obtain ⟨e, he, heq⟩ := List.mem_map.mp hm
      cases heq
      exact ⟨e, he, rfl, rfl⟩
  rw [hJ]
  exact node_of _ (level_zero (by rw [List.map_map]; exact hn)) (le_maxKeyLength _) (by omega)

/-! ### Uniqueness -/

theorem prefix_longest {J : Bytes → Bytes → Prop} {i : Nat} {l l' k : Bytes} (h : l <+: k) (h' : l' <+: k)
    (hx : ∀ x, ¬ AllContinue J i (l ++ [x])) (ha : AllContinue J i l') : l'.length ≤ l.length := by
  refine Nat.le_of_not_lt fun hlt => ?_
  have hp : l <+: l' := List.prefix_of_prefix_length_le h h' (by omega)
  obtain ⟨t, rfl⟩ := hp
  match t with
  | [] => simp at hlt
  | x :: t =>
    refine hx x fun k v hk => ?_
    have := ha k v hk
    rw [List.append_cons] at this
    exact (List.prefix_append _ _).trans this

theorem all_take {J : Bytes → Bytes → Prop} {i : Nat} {l : Bytes} (hc : ∀ k v k' v', J k v → J k' v' → k.take i = k'.take i)
    (h : AllContinue J i l) : ∀ k v k' v', J k v → J k' v' → k.take (i + l.length) = k'.take (i + l.length) := by
  intro k v k' v' hk hk'
  rw [List.take_add, List.take_add, hc k v k' v' hk hk', ← List.prefix_iff_eq_take.mp (h k v hk), ← List.prefix_iff_eq_take.mp (h k' v' hk')]

theorem node_unique {C : Crypto} {J : Bytes → Bytes → Prop} {i : Nat} {n : Rlp} (h : Node C J i n) :
    ∀ {n' : Rlp}, Node C J i n' → (∀ k v v', J k v → J k v' → v = v') → (∀ k v k' v', J k v → J k' v' → k.take i = k'.take i) → n = n' := by
  induction h with
  | empty h =>
    intro n' h' _ _
    cases h' with
    | empty _ => rfl
    | leaf k v hk => exact absurd ((hk k v).mpr ⟨rfl, rfl⟩) (h k v)
    | ext l m hs => obtain ⟨k, v, _, _, hk, -⟩ := hs; exact absurd hk (h k v)
    | branch nodes value hs => obtain ⟨k, v, _, _, hk, -⟩ := hs; exact absurd hk (h k v)
  | @leaf J i k v h =>
    intro n' h' _ _
    have hno : ∀ {P : Prop}, Several J → P := fun hs => by
      obtain ⟨k1, v1, k2, v2, h1, h2, hne⟩ := hs
      exact absurd (((h _ _).mp h1).1.trans ((h _ _).mp h2).1.symm) hne
    cases h' with
    | empty hx => exact absurd ((h k v).mpr ⟨rfl, rfl⟩) (hx k v)
    | leaf k' v' hk =>
      obtain ⟨rfl, rfl⟩ := (hk k v).mp ((h k v).mpr ⟨rfl, rfl⟩)
      rfl
    | ext l m hs => exact hno hs
    | branch nodes value hs => exact hno hs
  | @ext J i l m hs hne ha hl hb ih =>
    intro n' h' hf hc
    obtain ⟨k0, v0, k1, v1, hk0, hk1, hne0⟩ := hs
    cases h' with
    | empty hx => exact absurd hk0 (hx _ _)
    | leaf k v hk => exact absurd (((hk _ _).mp hk0).1.trans ((hk _ _).mp hk1).1.symm) hne0
    | ext l' m' hs' hne' ha' hl' hb' =>
      have e1 := prefix_longest (ha _ _ hk0) (ha' _ _ hk0) hl ha'
      have e2 := prefix_longest (ha' _ _ hk0) (ha _ _ hk0) hl' ha
      have hle : l = l' := by
        rw [List.prefix_iff_eq_take.mp (ha _ _ hk0), List.prefix_iff_eq_take.mp (ha' _ _ hk0), Nat.le_antisymm e2 e1]
      subst hle
      rw [ih hb' hf (all_take hc ha)]
    | branch nodes value hs' hd =>
      match l, hne with
      | x :: t, _ => exact absurd (fun k v hk => (List.prefix_append [x] t).trans (ha k v hk)) (hd x)
  | @branch J i nodes value hs hd hb hh ih =>
    intro n' h' hf hc
    obtain ⟨k0, v0, k1, v1, hk0, hk1, hne0⟩ := hs
    cases h' with
    | empty hx => exact absurd hk0 (hx _ _)
    | leaf k v hk => exact absurd (((hk _ _).mp hk0).1.trans ((hk _ _).mp hk1).1.symm) hne0
    | ext l' m' hs' hne' ha' hl' hb' =>
      match l', hne' with
      | x :: t, _ => exact absurd (fun k v hk => (List.prefix_append [x] t).trans (ha' k v hk)) (hd x)
    | branch nodes' value' hs' hd' hb' hh' =>
      have hv : value = value' := by
        have key : ∀ {u w : Bytes} {k : Bytes}, k.length = i → J k u → ((∃ k, k.length = i ∧ J k w) ∨ (w = [] ∧ ∀ k v, J k v → k.length ≠ i)) →
            u = w := by
          intro u w k hk hj hw
          rcases hw with ⟨k', hk', hj'⟩ | ⟨-, hw⟩
          · have := hc _ _ _ _ hj hj'
            rw [List.take_of_length_le (by omega), List.take_of_length_le (by omega)] at this
            subst this
            exact hf _ _ _ hj hj'
          · exact absurd hk (hw _ _ hj)
        rcases hh with ⟨k, hk, hj⟩ | ⟨hv, hw⟩
        · exact key hk hj hh'
        · rcases hh' with ⟨k, hk, hj⟩ | ⟨hv', -⟩
          · exact absurd hk (hw _ _ hj)
          · rw [hv, hv']
      have hnodes : (List.range 16).map (fun j => ref C (nodes j)) = (List.range 16).map (fun j => ref C (nodes' j)) := by
        apply List.map_congr_left
        intro j hj
        have hj' := List.mem_range.mp hj
        rw [ih j hj' (hb' j hj') (fun k v v' h1 h2 => hf k v v' h1.1 h2.1) ?_]
        intro k v k' v' h1 h2
        rw [List.take_add_one, List.take_add_one, h1.2, h2.2, hc k v k' v' h1.1 h2.1]
      rw [hv, hnodes]

theorem isRoot_unique {C : Crypto} {J : Bytes → Bytes → Prop} {r r' : Word} (hf : ∀ k v v', J k v → J k v' → v = v') (h : IsRoot C J r)
    (h' : IsRoot C J r') : r = r' := by
  obtain ⟨n, hn, rfl⟩ := h
  obtain ⟨n', hn', rfl⟩ := h'
  rw [node_unique hn hn' hf fun _ _ _ _ _ _ => rfl]

end Verif
