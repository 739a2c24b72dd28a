import Verif.Lemmas.Patricia
import Verif.Lemmas.RlpSize
import Verif.Lemmas.HexPrefix
import Verif.Spec.TrieHash
/-! The root determines the contents, if the hash does not collide on the nodes. -/
namespace Verif
open Spec

theorem NoCollision.mono {C : Crypto} {l l' : List Bytes} (h : NoCollision C l) (hs : ∀ x ∈ l', x ∈ l) : NoCollision C l' :=
  fun x hx y hy => h x (hs x hx) y (hs y hy)

/-- Shape of the nodes that `patricialize` makes. -/
def NodeOK : Option InternalNode → Prop
  | none => True
  | some (.leaf k _) => Nibbles k
  | some (.ext k _) => Nibbles k
  | some (.branch subs _) => subs.length = 16

theorem compact_inj {a b : Bytes} {f g : Bool} (ha : Nibbles a) (hb : Nibbles b) (h : nibbleListToCompact a f = nibbleListToCompact b g) :
    a = b ∧ f = g := by
  have h1 := compact_decode a f ha
  rw [h, compact_decode b g hb] at h1
  cases h1; exact ⟨rfl, rfl⟩

theorem unencoded_inj : ∀ {n n' : Option InternalNode}, NodeOK n → NodeOK n' → unencodedNode n = unencodedNode n' → n = n'
  | none, none, _, _, _ => rfl
  | none, some (.leaf _ _), _, _, h => by simp [unencodedNode] at h
  | none, some (.ext _ _), _, _, h => by simp [unencodedNode] at h
  | none, some (.branch _ _), _, _, h => by simp [unencodedNode] at h
  | some (.leaf _ _), none, _, _, h => by simp [unencodedNode] at h
  | some (.ext _ _), none, _, _, h => by simp [unencodedNode] at h
  | some (.branch _ _), none, _, _, h => by simp [unencodedNode] at h
  | some (.leaf k v), some (.leaf k' v'), h1, h2, h => by
    simp only [unencodedNode, Rlp.list.injEq, List.cons.injEq, Rlp.bytes.injEq, and_true] at h
    rw [(compact_inj h1 h2 h.1).1, h.2]
  | some (.leaf k v), some (.ext k' v'), h1, h2, h => by
    simp only [unencodedNode, Rlp.list.injEq, List.cons.injEq, Rlp.bytes.injEq, and_true] at h
    exact absurd (compact_inj h1 h2 h.1).2 (by decide)
  | some (.ext k v), some (.leaf k' v'), h1, h2, h => by
    simp only [unencodedNode, Rlp.list.injEq, List.cons.injEq, Rlp.bytes.injEq, and_true] at h
    exact absurd (compact_inj h1 h2 h.1).2 (by decide)
  | some (.ext k v), some (.ext k' v'), h1, h2, h => by
    simp only [unencodedNode, Rlp.list.injEq, List.cons.injEq, Rlp.bytes.injEq, and_true] at h
    rw [(compact_inj h1 h2 h.1).1, h.2]
  | some (.branch s v), some (.leaf k' v'), h1, h2, h => by
    have := congrArg List.length (Rlp.list.inj h)
    simp only [List.length_append, List.length_cons, List.length_nil] at this
    simp only [NodeOK] at h1; omega
  | some (.branch s v), some (.ext k' v'), h1, h2, h => by
    have := congrArg List.length (Rlp.list.inj h)
    simp only [List.length_append, List.length_cons, List.length_nil] at this
    simp only [NodeOK] at h1; omega
  | some (.leaf k' v'), some (.branch s v), h1, h2, h => by
    have := congrArg List.length (Rlp.list.inj h)
    simp only [List.length_append, List.length_cons, List.length_nil] at this
    simp only [NodeOK] at h2; omega
  | some (.ext k' v'), some (.branch s v), h1, h2, h => by
    have := congrArg List.length (Rlp.list.inj h)
    simp only [List.length_append, List.length_cons, List.length_nil] at this
    simp only [NodeOK] at h2; omega
  | some (.branch s v), some (.branch s' v'), h1, h2, h => by
    have h3 := List.append_inj (Rlp.list.inj h) (by rw [show s.length = 16 from h1, show s'.length = 16 from h2])
    have h4 : v = v' := by simpa using h3.2
    rw [h3.1, h4]

/-! ### Sizes -/

theorem pairNibbles_le : ∀ x : Bytes, (pairNibbles x).length ≤ x.length
  | [] => Nat.le_refl _
  | [_] => by simp [pairNibbles]
  | a :: b :: r => by
    have := pairNibbles_le r
    simp only [pairNibbles, List.length_cons]; omega

theorem compact_le (x : Bytes) (f : Bool) : (nibbleListToCompact x f).length ≤ x.length + 1 := by
  unfold nibbleListToCompact
  dsimp only
  split
  · have := pairNibbles_le x; simp only [List.length_cons]; omega
  · split
    · simp
    · rename_i a r _; have := pairNibbles_le r; simp only [List.length_cons]; omega

theorem sub_le (C : Crypto) (n : Option InternalNode) : (Rlp.encode (encodeInternalNode C n)).length ≤ 33 := by
  unfold encodeInternalNode
  dsimp only
  split
  · omega
  · rw [encode_word]

/-- Nodes of bounded size. -/
def NodeFits : Option InternalNode → Prop
  | none => True
  | some (.leaf k v) => k.length < 2 ^ 62 ∧ v.length < 2 ^ 62
  | some (.ext k s) => k.length < 2 ^ 62 ∧ (Rlp.encode s).length ≤ 33
  | some (.branch subs v) => subs.length = 16 ∧ (∀ s ∈ subs, (Rlp.encode s).length ≤ 33) ∧ v.length < 2 ^ 62

theorem encodeSeq_le {k : Nat} : ∀ l : List Rlp, (∀ s ∈ l, (Rlp.encode s).length ≤ k) → (Rlp.encodeSeq l).length ≤ l.length * k
  | [], _ => by simp [Rlp.encodeSeq]
  | x :: r, h => by
    have h1 := encodeSeq_le r fun s hs => h s (List.mem_cons_of_mem _ hs)
    have h2 := h x List.mem_cons_self
    rw [Rlp.encodeSeq, List.length_append, List.length_cons, Nat.succ_mul]; omega

theorem encodeSeq_append (l l' : List Rlp) : Rlp.encodeSeq (l ++ l') = Rlp.encodeSeq l ++ Rlp.encodeSeq l' := by
  induction l with
  | nil => rfl
  | cons x r ih => rw [List.cons_append, Rlp.encodeSeq, Rlp.encodeSeq, ih, List.append_assoc]

theorem node_small {n : Option InternalNode} (h : NodeFits n) : (Rlp.encode (unencodedNode n)).length < 2 ^ 64 := by
  match n, h with
  | none, _ => decide
  | some (.leaf k v), ⟨h1, h2⟩ =>
    have a := encodeBytes_le (nibbleListToCompact k true) (by have := compact_le k true; omega)
    have b := encodeBytes_le v (by omega)
    have c := compact_le k true
    have d : (Rlp.encodeSeq [.bytes (nibbleListToCompact k true), .bytes v]).length ≤ 2 ^ 63 + 32 := by
      simp only [Rlp.encodeSeq, List.length_append, List.length_nil]; omega
    have := encodeList_le _ (Nat.lt_of_le_of_lt d (by decide))
    simp only [unencodedNode]; omega
  | some (.ext k s), ⟨h1, h2⟩ =>
    have a := encodeBytes_le (nibbleListToCompact k false) (by have := compact_le k false; omega)
    have c := compact_le k false
    have d : (Rlp.encodeSeq [.bytes (nibbleListToCompact k false), s]).length ≤ 2 ^ 63 + 32 := by
      simp only [Rlp.encodeSeq, List.length_append, List.length_nil]; omega
    have := encodeList_le _ (Nat.lt_of_le_of_lt d (by decide))
    simp only [unencodedNode]; omega
  | some (.branch subs v), ⟨h1, h2, h3⟩ =>
    have a := encodeSeq_le subs h2
    have b := encodeBytes_le v (by omega)
    have d : (Rlp.encodeSeq (subs ++ [.bytes v])).length ≤ 2 ^ 63 + 32 := by
      rw [encodeSeq_append]
      simp only [Rlp.encodeSeq, List.length_append, List.length_nil]; omega
    have := encodeList_le _ (Nat.lt_of_le_of_lt d (by decide))
    simp only [unencodedNode]; omega

/-- From equal references to equal nodes. -/
theorem encodeInternal_inj {C : Crypto} {n n' : Option InternalNode} (h : NodeFits n) (h' : NodeFits n')
    (hc : 32 ≤ (Rlp.encode (unencodedNode n)).length → 32 ≤ (Rlp.encode (unencodedNode n')).length →
      C.keccak256 (Rlp.encode (unencodedNode n)) = C.keccak256 (Rlp.encode (unencodedNode n')) →
      Rlp.encode (unencodedNode n) = Rlp.encode (unencodedNode n'))
    (he : encodeInternalNode C n = encodeInternalNode C n') : unencodedNode n = unencodedNode n' := by
  unfold encodeInternalNode at he
  dsimp only at he
  by_cases h1 : (Rlp.encode (unencodedNode n)).length < 32
  · by_cases h2 : (Rlp.encode (unencodedNode n')).length < 32
    · rwa [if_pos h1, if_pos h2] at he
    · rw [if_pos h1, if_neg h2] at he
      rw [he, encode_word] at h1; omega
  · by_cases h2 : (Rlp.encode (unencodedNode n')).length < 32
    · rw [if_neg h1, if_pos h2] at he
      rw [← he, encode_word] at h2; omega
    · rw [if_neg h1, if_neg h2] at he
      have hk := wordBytes_inj (Rlp.bytes.inj he)
      exact Rlp.encode_inj (Rlp.small_of_length _ (node_small h)) (Rlp.small_of_length _ (node_small h')) (hc (by omega) (by omega) hk)

/-! ### The recursion -/

/-- The entries at a level, with nibble keys and non-empty values of bounded size. -/
structure Clean (obj : List (Bytes × Bytes)) (level N : Nat) : Prop where
  level : Level obj level
  keys : ∀ e ∈ obj, e.1.length ≤ N
  bound : N < 2 ^ 62
  nibbles : ∀ e ∈ obj, Nibbles e.1
  values : ∀ e ∈ obj, e.2 ≠ [] ∧ e.2.length < 2 ^ 62

theorem Clean.shift {obj : List (Bytes × Bytes)} {level n N : Nat} (h : Clean obj level N) (hs : Shared obj level n) : Clean obj (level + n) N :=
  ⟨h.level.shift hs, h.keys, h.bound, h.nibbles, h.values⟩

theorem Clean.branch {obj : List (Bytes × Bytes)} {level N : Nat} (h : Clean obj level N) (k : UInt8) :
    Clean (branchEntries obj level k) (level + 1) N :=
  ⟨h.level.branch k, fun e he => h.keys e (mem_branch.mp he).1, h.bound, fun e he => h.nibbles e (mem_branch.mp he).1,
    fun e he => h.values e (mem_branch.mp he).1⟩

/-- What `patricialize` makes of a dictionary, and what it hashes on the way. -/
inductive Shape (C : Crypto) (fuel : Nat) (obj : List (Bytes × Bytes)) (level : Nat) : Option InternalNode → Prop where
  | empty : obj = [] → Shape C fuel obj level none
  | leaf (e : Bytes × Bytes) : obj = [e] → Shape C fuel obj level (some (.leaf (e.1.drop level) e.2))
  | ext (e : Bytes × Bytes) (p f : Nat) : e ∈ obj → 0 < p → Shared obj level p → fuel = f + 1 →
      (∀ x ∈ hashedNodes C f obj (level + p), x ∈ hashedNodes C fuel obj level) →
      Shape C fuel obj level (some (.ext ((e.1.drop level).take p) (encodeInternalNode C (patricializeF C f obj (level + p)))))
  | branch (f : Nat) : obj ≠ [] → fuel = f + 1 →
      (∀ k < 16, ∀ x ∈ hashedNodes C f (branchEntries obj level (UInt8.ofNat k)) (level + 1), x ∈ hashedNodes C fuel obj level) →
      Shape C fuel obj level (some (.branch ((List.range 16).map fun k =>
          encodeInternalNode C (patricializeF C f (branchEntries obj level (UInt8.ofNat k)) (level + 1))) (branchValue obj level)))

theorem shape {C : Crypto} {fuel : Nat} {obj : List (Bytes × Bytes)} {level N : Nat} (h : Clean obj level N) (hf : N + 1 ≤ level + fuel) :
    Shape C fuel obj level (patricializeF C fuel obj level) := by
  match obj, h with
  | [], h => rw [patricializeF_nil]; exact .empty rfl
  | e :: r, h =>
    have h1 := h.level.long e List.mem_cons_self
    have h2 := h.keys e List.mem_cons_self
    obtain ⟨fuel, rfl⟩ : ∃ g, fuel = g + 1 := ⟨fuel - 1, by omega⟩
    match r, h with
    | [], h => exact .leaf e rfl
    | e2 :: r, h =>
      have hsub : ∀ x, x ∈ (if prefixLength e.1 (e :: e2 :: r) level > 0 then hashedNodes C fuel (e :: e2 :: r) (level + prefixLength e.1 (e :: e2 :: r) level)
          else (List.range 16).flatMap fun k => hashedNodes C fuel (branchEntries (e :: e2 :: r) level (UInt8.ofNat k)) (level + 1)) →
          x ∈ hashedNodes C (fuel + 1) (e :: e2 :: r) level := by
        intro x hx
        rw [hashedNodes]
        dsimp only
        split
        · exact hx
        · exact List.mem_cons_of_mem _ hx
        · intro h; cases h
      rw [patricializeF_many]
      have he : e ∈ e :: e2 :: r := List.mem_cons_self
      have hne : e :: e2 :: r ≠ [] := List.cons_ne_nil _ _
      generalize hobj : e :: e2 :: r = obj at *
      have hsh := (prefix_iff h.level he).mp (Nat.le_refl (prefixLength e.1 obj level))
      by_cases hpos : prefixLength e.1 obj level > 0
      · rw [if_pos hpos]
        have := Shape.ext (C := C) (fuel := fuel + 1) (obj := obj) (level := level) e _ fuel he hpos hsh rfl
          fun x hx => hsub x (by rw [if_pos hpos]; exact hx)
        unfold slice
        rwa [Nat.add_sub_cancel_left]
      · rw [if_neg hpos]
        exact .branch fuel hne rfl fun k hk x hx => hsub x (by
          rw [if_neg hpos, List.mem_flatMap]; exact ⟨k, List.mem_range.mpr hk, hx⟩)

theorem Nibbles.sub {x y : Bytes} (h : Nibbles x) (hs : ∀ n ∈ y, n ∈ x) : Nibbles y := fun n hn => h n (hs n hn)

theorem Shape.ok {C : Crypto} {fuel : Nat} {obj : List (Bytes × Bytes)} {level N : Nat} {n : Option InternalNode} (hs : Shape C fuel obj level n)
    (h : Clean obj level N) : NodeOK n ∧ NodeFits n := by
  have hb := h.bound
  cases hs with
  | empty => exact ⟨trivial, trivial⟩
  | leaf e he =>
    have hm : e ∈ obj := by rw [he]; exact List.mem_cons_self
    have := h.keys e hm
    exact ⟨(h.nibbles e hm).sub fun n hn => List.mem_of_mem_drop hn, by rw [List.length_drop]; omega, (h.values e hm).2⟩
  | ext e p f hm hp hsh hf _ =>
    have := h.keys e hm
    exact ⟨(h.nibbles e hm).sub fun n hn => List.mem_of_mem_drop (List.mem_of_mem_take hn),
      by rw [List.length_take, List.length_drop]; omega, sub_le _ _⟩
  | branch f hne hf _ =>
    refine ⟨by simp [NodeOK], by simp, fun s hs => ?_, ?_⟩
    · obtain ⟨k, -, rfl⟩ := List.mem_map.mp hs
      exact sub_le _ _
    · by_cases hx : ∃ e ∈ obj, e.1.length = level
      · obtain ⟨e, he, hl⟩ := hx
        rw [branchValue_of_mem h.level he hl]; exact (h.values e he).2
      · rw [branchValue_none fun e he hl => hx ⟨e, he, hl⟩]; decide

theorem mem_hashed {C : Crypto} {fuel : Nat} {obj : List (Bytes × Bytes)} {level : Nat}
    (h : 32 ≤ (Rlp.encode (unencodedNode (patricializeF C fuel obj level))).length) :
    Rlp.encode (unencodedNode (patricializeF C fuel obj level)) ∈ hashedNodes C fuel obj level := by
  cases fuel with
  | zero =>
    rw [patricializeF] at h
    exact absurd h (by decide)
  | succ f =>
    rw [hashedNodes.eq_def]
    dsimp only
    rw [if_neg (by omega)]
    exact List.mem_cons_self

/-- Every entry of the first dictionary is in the second, below the level. -/
def Incl (obj obj' : List (Bytes × Bytes)) (level level' : Nat) : Prop :=
  ∀ e ∈ obj, ∃ e' ∈ obj', e'.1.drop level' = e.1.drop level ∧ e'.2 = e.2

theorem drop_split {x : Bytes} (a p : Nat) : x.drop a = (x.drop a).take p ++ x.drop (a + p) := by
  rw [← List.drop_drop, List.take_append_drop]

theorem node_inj {C : Crypto} (fuel : Nat) : ∀ {fuel' : Nat} {obj obj' : List (Bytes × Bytes)} {level level' N N' : Nat},
    Clean obj level N → Clean obj' level' N' → N + 1 ≤ level + fuel → N' + 1 ≤ level' + fuel' →
    NoCollision C (hashedNodes C fuel obj level ++ hashedNodes C fuel' obj' level') →
    unencodedNode (patricializeF C fuel obj level) = unencodedNode (patricializeF C fuel' obj' level') →
    Incl obj obj' level level' := by
  induction fuel with
  | zero =>
    intro fuel' obj obj' level level' N N' h h' hf hf' hc he e hm
    have := h.level.long e hm
    have := h.keys e hm
    omega
  | succ fuel ih =>
    intro fuel' obj obj' level level' N N' h h' hf hf' hc he
    have hs := shape (C := C) h hf
    have hs' := shape (C := C) h' hf'
    have hn := unencoded_inj (hs.ok h).1 (hs'.ok h').1 he
    have sub : ∀ {f f' : Nat} {o o' : List (Bytes × Bytes)} {l l' : Nat}, Clean o l N → Clean o' l' N' → N + 1 ≤ l + f → N' + 1 ≤ l' + f' →
        (∀ x ∈ hashedNodes C f o l, x ∈ hashedNodes C (fuel + 1) obj level) →
        (∀ x ∈ hashedNodes C f' o' l', x ∈ hashedNodes C fuel' obj' level') →
        encodeInternalNode C (patricializeF C f o l) = encodeInternalNode C (patricializeF C f' o' l') →
        unencodedNode (patricializeF C f o l) = unencodedNode (patricializeF C f' o' l') ∧
          NoCollision C (hashedNodes C f o l ++ hashedNodes C f' o' l') := by
      intro f f' o o' l l' ho ho' hl hl' hi hi' hx
      refine ⟨encodeInternal_inj ((shape ho hl).ok ho).2 ((shape ho' hl').ok ho').2 (fun h1 h2 => ?_) hx, NoCollision.mono hc fun x hx => ?_⟩
      · exact hc _ (List.mem_append_left _ (hi _ (mem_hashed h1))) _ (List.mem_append_right _ (hi' _ (mem_hashed h2)))
      · rcases List.mem_append.mp hx with hx | hx
        · exact List.mem_append_left _ (hi x hx)
        · exact List.mem_append_right _ (hi' x hx)
    generalize patricializeF C (fuel + 1) obj level = n at *
    generalize patricializeF C fuel' obj' level' = n' at *
    subst hn
    clear he
    cases hs with
    | empty ho => intro e hm; rw [ho] at hm; cases hm
    | leaf e ho =>
      generalize hq : some (InternalNode.leaf (e.1.drop level) e.2) = q at hs'
      cases hs' with
      | empty => cases hq
      | leaf e' ho' =>
        injection hq with hq; injection hq with hq1 hq2
        intro a ha
        rw [ho, List.mem_singleton] at ha
        subst ha
        exact ⟨e', by rw [ho']; exact List.mem_cons_self, hq1.symm, hq2.symm⟩
      | ext => cases hq
      | branch => cases hq
    | ext e p f hm hp hsh hfu hin =>
      generalize hq : some (InternalNode.ext ((e.1.drop level).take p) (encodeInternalNode C (patricializeF C f obj (level + p)))) = q at hs'
      cases hs' with
      | empty => cases hq
      | leaf => cases hq
      | branch => cases hq
      | ext e' p' f' hm' hp' hsh' hfu' hin' =>
        injection hq with hq; injection hq with hq1 hq2
        have hpp : p = p' := by
          have := congrArg List.length hq1
          have a := (hsh e hm e hm).1
          have b := (hsh' e' hm' e' hm').1
          rw [List.length_take, List.length_take, List.length_drop, List.length_drop] at this
          omega
        subst hpp
        have hfe : fuel = f := by omega
        subst hfe
        obtain ⟨hu, hnc⟩ := sub (h.shift hsh) (h'.shift hsh') (by omega) (by omega) hin hin' hq2
        have hi := ih (h.shift hsh) (h'.shift hsh') (by omega) (by omega) hnc hu
        intro a ha
        obtain ⟨a', ha', hd, hv⟩ := hi a ha
        refine ⟨a', ha', ?_, hv⟩
        rw [drop_split level' p, drop_split (x := a.1) level p, hd, (hsh a ha e hm).2, (hsh' a' ha' e' hm').2, hq1]
    | branch f hne hfu hin =>
      generalize hq : some (InternalNode.branch ((List.range 16).map fun k =>
          encodeInternalNode C (patricializeF C f (branchEntries obj level (UInt8.ofNat k)) (level + 1))) (branchValue obj level)) = q at hs'
      cases hs' with
      | empty => cases hq
      | leaf => cases hq
      | ext => cases hq
      | branch f' hne' hfu' hin' =>
        injection hq with hq; injection hq with hq1 hq2
        have hfe : fuel = f := by omega
        subst hfe
        have hks := List.map_inj_left.mp hq1
        intro a ha
        by_cases hl : a.1.length = level
        · rw [branchValue_of_mem h.level ha hl] at hq2
          by_cases hx : ∃ e ∈ obj', e.1.length = level'
          · obtain ⟨e', he', hl'⟩ := hx
            rw [branchValue_of_mem h'.level he' hl'] at hq2
            refine ⟨e', he', ?_, hq2.symm⟩
            rw [List.drop_of_length_le (by omega), List.drop_of_length_le (by omega)]
          · rw [branchValue_none fun e he hl => hx ⟨e, he, hl⟩] at hq2
            exact absurd hq2 (h.values a ha).1
        · have hlt : level < a.1.length := by have := h.level.long a ha; omega
          have hget : a.1[level]? = some a.1[level] := List.getElem?_eq_getElem hlt
          have hnib : a.1[level] < 16 := h.nibbles a ha _ (List.getElem_mem hlt)
          have hk : a.1[level].toNat < 16 := hnib
          have hku : UInt8.ofNat a.1[level].toNat = a.1[level] := UInt8.ofNat_toNat
          have hm1 : a ∈ branchEntries obj level (UInt8.ofNat a.1[level].toNat) := mem_branch.mpr ⟨ha, by rw [hku]; exact hget⟩
          obtain ⟨hu, hnc⟩ := sub (h.branch _) (h'.branch _) (by omega) (by omega) (hin _ hk) (hin' _ hk) (hks _ (List.mem_range.mpr hk))
          obtain ⟨a', ha', hd, hv⟩ := ih (h.branch _) (h'.branch _) (by omega) (by omega) hnc hu a hm1
          obtain ⟨ha1, ha2⟩ := mem_branch.mp ha'
          refine ⟨a', ha1, ?_, hv⟩
          rw [hku] at ha2
          obtain ⟨hlt', hg'⟩ := List.getElem?_eq_some_iff.mp ha2
          rw [List.drop_eq_getElem_cons hlt', List.drop_eq_getElem_cons hlt, hg', hd]

/-! ### Roots -/

/-- The root is the hash of the encoding of the top node. -/
theorem trieRoot_ok {C : Crypto} {secured : Bool} {l obj : List (Bytes × Bytes)} (h : prepareTrie C secured l = .ok obj) :
    trieRoot C secured l = .ok (C.keccak256 (Rlp.encode (unencodedNode (patricialize C obj 0)))) := by
  unfold trieRoot
  rw [h]
  dsimp only
  unfold encodeInternalNode
  dsimp only
  generalize patricialize C obj 0 = n
  by_cases h1 : (Rlp.encode (unencodedNode n)).length < 32
  · rw [if_pos h1, if_pos h1]
  · rw [if_neg h1, if_neg (by rw [encode_word]; decide)]
    dsimp only
    rw [if_pos (wordBytes_length _), fromBE_wordBytes, BitVec.ofNat_toNat, BitVec.setWidth_eq]

theorem trieRoot_ok_iff {C : Crypto} {secured : Bool} {l : List (Bytes × Bytes)} {r : Word} (h : trieRoot C secured l = .ok r) :
    ∃ obj, prepareTrie C secured l = .ok obj ∧ r = C.keccak256 (Rlp.encode (unencodedNode (patricialize C obj 0))) := by
  match hp : prepareTrie C secured l with
  | .error c => unfold trieRoot at h; rw [hp] at h; cases h
  | .ok obj => rw [trieRoot_ok hp] at h; exact ⟨obj, rfl, (Except.ok.inj h).symm⟩

theorem trieKeys_nodup {C : Crypto} {secured : Bool} {l : List (Bytes × Bytes)} (hn : (l.map Prod.fst).Nodup)
    (hc : NoCollision C (if secured then l.map Prod.fst else [])) : (l.map fun e => trieKey C secured e.1).Nodup := by
  have : (l.map fun e => trieKey C secured e.1) = (l.map Prod.fst).map (trieKey C secured) := by rw [List.map_map]; rfl
  rw [this]
  rw [List.nodup_iff_pairwise_ne, List.pairwise_map]
  refine List.Pairwise.imp_of_mem ?_ (List.nodup_iff_pairwise_ne.mp hn)
  intro a b ha hb hne hk
  apply hne
  have h1 := bytesToNibbleList_inj hk
  cases secured with
  | false => exact h1
  | true =>
    simp only [if_true] at h1 hc
    exact hc a ha b hb (wordBytes_inj h1)

theorem prepared_clean {C : Crypto} {secured : Bool} {l obj : List (Bytes × Bytes)} (hn : (l.map fun e => trieKey C secured e.1).Nodup)
    (hfit : EntriesFit l) (h : prepareTrie C secured l = .ok obj) : Clean obj 0 (maxKeyLength obj) := by
  obtain ⟨hv, rfl⟩ := (prepareTrie_ok hn).mp h
  have hmem : ∀ e ∈ l.map (fun e => (trieKey C secured e.1, e.2)), ∃ a ∈ l, e = (trieKey C secured a.1, a.2) := by
    intro e he; obtain ⟨a, ha, rfl⟩ := List.mem_map.mp he; exact ⟨a, ha, rfl⟩
  refine ⟨level_zero (by rw [List.map_map]; exact hn), le_maxKeyLength _, ?_, ?_, ?_⟩
  · have hfold : ∀ (m : List (Bytes × Bytes)) (k : Nat), k < 2 ^ 62 → (∀ e ∈ m, e.1.length < 2 ^ 62) →
        m.foldl (fun n e => max n e.1.length) k < 2 ^ 62 := by
      intro m
      induction m with
      | nil => intro k hk _; exact hk
      | cons x r ih =>
        intro k hk hm
        have := hm x List.mem_cons_self
        exact ih _ (Nat.max_lt.mpr ⟨hk, this⟩) fun e he => hm e (List.mem_cons_of_mem _ he)
    refine hfold _ 0 (by decide) fun e he => ?_
    obtain ⟨a, ha, rfl⟩ := hmem e he
    have := (hfit a ha).1
    unfold trieKey
    rw [bytesToNibbleList_length]
    cases secured with
    | false => simp only [Bool.false_eq_true, if_false]; omega
    | true => simp only [if_true, wordBytes_length]; decide
  · intro e he
    obtain ⟨a, ha, rfl⟩ := hmem e he
    exact bytesToNibbleList_nibbles _
  · intro e he
    obtain ⟨a, ha, rfl⟩ := hmem e he
    exact ⟨hv a ha, (hfit a ha).2⟩

theorem root_incl {C : Crypto} {secured : Bool} {l l' : List (Bytes × Bytes)} {r : Word} (hn : (l.map Prod.fst).Nodup)
    (hn' : (l'.map Prod.fst).Nodup) (hf : EntriesFit l) (hf' : EntriesFit l') (h : trieRoot C secured l = .ok r)
    (h' : trieRoot C secured l' = .ok r) (hc : NoCollision C (hashedByRoot C secured l ++ hashedByRoot C secured l')) :
    ∀ e ∈ l, e ∈ l' := by
  obtain ⟨obj, hp, hr⟩ := trieRoot_ok_iff h
  obtain ⟨obj', hp', hr'⟩ := trieRoot_ok_iff h'
  unfold hashedByRoot at hc
  rw [hp, hp'] at hc
  dsimp only at hc
  have hk := trieKeys_nodup hn (secured := secured) (NoCollision.mono hc fun x hx => List.mem_append_left _ (List.mem_append_left _ hx))
  have hk' := trieKeys_nodup hn' (secured := secured) (NoCollision.mono hc fun x hx => List.mem_append_right _ (List.mem_append_left _ hx))
  have c := prepared_clean hk hf hp
  have c' := prepared_clean hk' hf' hp'
  have s := shape (C := C) (fuel := maxKeyLength obj + 2) c (by omega)
  have s' := shape (C := C) (fuel := maxKeyLength obj' + 2) c' (by omega)
  have henc : Rlp.encode (unencodedNode (patricialize C obj 0)) = Rlp.encode (unencodedNode (patricialize C obj' 0)) :=
    hc _ (List.mem_append_left _ (List.mem_append_right _ List.mem_cons_self)) _
      (List.mem_append_right _ (List.mem_append_right _ List.mem_cons_self)) (hr.symm.trans hr')
  have hun := Rlp.encode_inj (Rlp.small_of_length _ (node_small (s.ok c).2)) (Rlp.small_of_length _ (node_small (s'.ok c').2)) henc
  have hi := node_inj _ c c' (by omega) (by omega) (NoCollision.mono hc fun x hx => by
    rcases List.mem_append.mp hx with hx | hx
    · exact List.mem_append_left _ (List.mem_append_right _ (List.mem_cons_of_mem _ hx))
    · exact List.mem_append_right _ (List.mem_append_right _ (List.mem_cons_of_mem _ hx))) hun
  intro e he
  obtain ⟨-, ho⟩ := (prepareTrie_ok hk).mp hp
  obtain ⟨-, ho'⟩ := (prepareTrie_ok hk').mp hp'
  have hm : (trieKey C secured e.1, e.2) ∈ obj := by rw [ho]; exact List.mem_map.mpr ⟨e, he, rfl⟩
  obtain ⟨b, hb, h1, h2⟩ := hi _ hm
  rw [ho'] at hb
  obtain ⟨e', he', rfl⟩ := List.mem_map.mp hb
  rw [List.drop_zero, List.drop_zero] at h1
  dsimp only at h1 h2
  have hkey : e'.1 = e.1 := by
    have h3 := bytesToNibbleList_inj h1
    cases secured with
    | false => exact h3
    | true =>
      simp only [if_true] at h3 hc
      exact hc _ (List.mem_append_right _ (List.mem_append_left _ (List.mem_map.mpr ⟨e', he', rfl⟩))) _
        (List.mem_append_left _ (List.mem_append_left _ (List.mem_map.mpr ⟨e, he, rfl⟩))) (wordBytes_inj h3)
  have : e' = e := Prod.ext hkey h2
  rw [← this]; exact he'

end Verif
