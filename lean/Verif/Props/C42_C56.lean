import Verif.Model.Forks
/-!
C42: the order of fork criteria. C56: which fork is in force.
-/
namespace Verif.Props
open Verif ForkCriteria

/-! ## C42 -/

/-- Equality of criteria is equality of kind and threshold. -/
theorem C42_eq (a b : ForkCriteria) : a.eq b = true ↔ a = b := by
  cases a <;> cases b <;> simp [ForkCriteria.eq, internal, BitVec.toNat_inj]

theorem lt_iff (a b : ForkCriteria) : a.lt b = true ↔ match a, b with
    | byBlockNumber m, byBlockNumber n => m < n
    | byTimestamp s, byTimestamp t => s.toNat < t.toNat
    | byBlockNumber _, _ => True
    | byTimestamp _, unscheduled => True
    | _, _ => False := by
  cases a <;> cases b <;> simp only [ForkCriteria.lt, internal, if_true] <;> first | exact decide_eq_true_iff | simp

/-- **C42.** `<` on fork criteria is a strict total order: exactly one of `a < b`, `a == b`, `b < a` holds, and it is
transitive. -/
theorem C42_total (a b : ForkCriteria) :
    (a.lt b = true ∧ a ≠ b ∧ b.lt a = false) ∨ (a.lt b = false ∧ a = b ∧ b.lt a = false) ∨ (a.lt b = false ∧ a ≠ b ∧ b.lt a = true) := by
  simp only [← Bool.not_eq_true, lt_iff]
  cases a <;> cases b <;> simp [← BitVec.toNat_inj] <;> omega

theorem C42_transitive (a b c : ForkCriteria) (h : a.lt b = true) (h' : b.lt c = true) : a.lt c = true := by
  rw [lt_iff] at *
  cases a <;> cases b <;> cases c <;> simp_all <;> omega

/-- **C42.** `<=` is `<` or `==`. -/
theorem C42_le (a b : ForkCriteria) : a.le b = true ↔ a.lt b = true ∨ a = b := by
  simp [ForkCriteria.le, C42_eq]

/-- **C42.** All forks by block number come before all forks by timestamp, and these before unscheduled forks; among forks
of one kind the thresholds decide. -/
theorem C42_kinds (m n : Nat) (s t : Word) :
    (byBlockNumber m).lt (byTimestamp t) = true ∧ (byBlockNumber m).lt unscheduled = true ∧ (byTimestamp s).lt unscheduled = true ∧
    ((byBlockNumber m).lt (byBlockNumber n) = true ↔ m < n) ∧ ((byTimestamp s).lt (byTimestamp t) = true ↔ s.toNat < t.toNat) := by
  simp only [lt_iff, and_self]

/-- **C42.** An active fork stays active for later blocks (with later timestamps). -/
theorem C42_active (c : ForkCriteria) (n n' : Nat) (t t' : Word) (hn : n ≤ n') (ht : t.toNat ≤ t'.toNat) (h : c.check n t = true) :
    c.check n' t' = true := by
  cases c with
  | byBlockNumber m => simp only [check, decide_eq_true_eq] at *; omega
  | byTimestamp s => simp only [check, decide_eq_true_eq, BitVec.le_def] at *; omega
  | unscheduled => cases h

/-- **C42.** The thresholds: a fork is active from its block or its timestamp on; an unscheduled fork never. -/
theorem C42_check (m n : Nat) (s t : Word) :
    ((byBlockNumber m).check n t = true ↔ m ≤ n) ∧ ((byTimestamp s).check n t = true ↔ s.toNat ≤ t.toNat) ∧ unscheduled.check n t = false := by
  simp [check, BitVec.le_def]

/-- **C42.** Of two forks of the same kind, when the later one is active the earlier one is. -/
theorem C42_earlier (a b : ForkCriteria) (hk : a.internal.1 = b.internal.1) (hlt : a.lt b = true) (n : Nat) (t : Word) (h : b.check n t = true) :
    a.check n t = true := by
  rw [lt_iff] at hlt
  cases a <;> cases b <;> simp_all [check, internal, BitVec.le_def] <;> omega

/-- Across kinds this is not so: a fork by timestamp can be active before an "earlier" fork by block number. -/
theorem C42_mixed : ∃ (a b : ForkCriteria) (n : Nat) (t : Word), a.lt b = true ∧ b.check n t = true ∧ a.check n t = false :=
  ⟨byBlockNumber 10, byTimestamp 5, 3, 7, by decide, by decide, by decide⟩

theorem insertFork_perm (f : String × ForkCriteria) (l : List (String × ForkCriteria)) : (insertFork f l).Perm (f :: l) := by
  induction l with
  | nil => exact .refl _
  | cons g r ih =>
    rw [insertFork]
    split
    · exact .refl _
    · exact (ih.cons g).trans (List.Perm.swap ..)

theorem insertFork_sorted (f : String × ForkCriteria) {l : List (String × ForkCriteria)}
    (h : l.Pairwise fun a b => a.2.lt b.2 = true ∨ a.2 = b.2) : (insertFork f l).Pairwise fun a b => a.2.lt b.2 = true ∨ a.2 = b.2 := by
  induction l with
  | nil => exact List.pairwise_singleton ..
  | cons g r ih =>
    obtain ⟨h1, h2⟩ := List.pairwise_cons.mp h
    rw [insertFork]
    split
    · rename_i hle
      rw [C42_le] at hle
      refine List.pairwise_cons.mpr ⟨fun x hx => ?_, h⟩
      rcases List.mem_cons.mp hx with rfl | hx
      · exact hle
      · rcases hle with hle | hle <;> rcases h1 x hx with hgx | hgx
        · exact .inl (C42_transitive _ _ _ hle hgx)
        · rw [← hgx]; exact .inl hle
        · rw [hle]; exact .inl hgx
        · rw [hle]; exact .inr hgx
    · rename_i hle
      rw [C42_le] at hle
      refine List.pairwise_cons.mpr ⟨fun x hx => ?_, ih h2⟩
      rcases List.mem_cons.mp ((insertFork_perm f r).mem_iff.mp hx) with rfl | hx
      · rcases C42_total x.2 g.2 with h | h | h
        · exact absurd (.inl h.1) hle
        · exact absurd (.inr h.2.1) hle
        · exact .inl h.2.2
      · exact h1 x hx

/-- **C42.** Sorting the forks keeps exactly the given forks, in the order of their criteria. -/
theorem C42_sorted (l : List (String × ForkCriteria)) :
    (sortForks l).Perm l ∧ (sortForks l).Pairwise fun a b => a.2.lt b.2 = true ∨ a.2 = b.2 := by
  induction l with
  | nil => exact ⟨.refl _, .nil⟩
  | cons f r ih =>
    rw [show sortForks (f :: r) = insertFork f (sortForks r) from rfl]
    exact ⟨(insertFork_perm f _).trans (ih.1.cons f), insertFork_sorted f ih.2⟩

/-! ## C56 -/

open ForkTracking

/-- The fork number `i` is in force at a block: the forks 1 to `i` are active, and the next one, if there is one, is not. -/
structure InForce (forks : List ForkCriteria) (n : Nat) (t : Word) (i : Nat) : Prop where
  active : ∀ j c, 0 < j → j ≤ i → forks[j]? = some c → c.check n t = true
  next : ∀ c, forks[i + 1]? = some c → c.check n t = false
  bound : i = 0 ∨ i < forks.length

theorem inForce_unique {forks : List ForkCriteria} {n : Nat} {t : Word} {i j : Nat} (hi : InForce forks n t i) (hj : InForce forks n t j) : i = j := by
  have key : ∀ {i j}, InForce forks n t i → InForce forks n t j → ¬ i < j := by
    intro i j hi hj hlt
    have hb : j < forks.length := by rcases hj.bound with h | h <;> omega
    have h1 := List.getElem?_eq_getElem (l := forks) (i := i + 1) (by omega)
    have := hi.next _ h1
    rw [hj.active (i + 1) _ (by omega) (by omega) h1] at this
    cases this
  have := key hi hj
  have := key hj hi
  omega

theorem climb_inForce {forks : List ForkCriteria} {n : Nat} {t : Word} : ∀ {steps i : Nat}, forks.length ≤ i + 1 + steps →
    (∀ j c, 0 < j → j ≤ i → forks[j]? = some c → c.check n t = true) → (i = 0 ∨ i < forks.length) →
    InForce forks n t (climb forks n t steps i).1 ∧ i ≤ (climb forks n t steps i).1 ∧
      ((climb forks n t steps i).2 = true ↔ i < (climb forks n t steps i).1) := by
  intro steps
  induction steps with
  | zero =>
    intro i hl ha hb
    refine ⟨⟨ha, fun c hc => ?_, hb⟩, Nat.le_refl _, by simp [climb]⟩
    have : i + 1 < forks.length := (List.getElem?_eq_some_iff.mp hc).1
    omega
  | succ s ih =>
    intro i hl ha hb
    rw [climb]
    match hc : forks[i + 1]? with
    | none => exact ⟨⟨ha, fun c h => (by rw [hc] at h; cases h), hb⟩, Nat.le_refl _, by simp⟩
    | some c =>
      dsimp only
      by_cases h : c.check n t = true
      · rw [if_pos h]
        have hlen := (List.getElem?_eq_some_iff.mp hc).1
        obtain ⟨h1, h2, -⟩ := ih (i := i + 1) (by omega) (fun j d hj hj' hd => by
          rcases Nat.lt_or_ge i j with hlt | hge
          · have : j = i + 1 := by omega
            subst this
            rw [hc] at hd
            cases hd
            exact h
          · exact ha j d hj hge hd) (.inr hlen)
        exact ⟨h1, by dsimp only; omega, ⟨fun _ => by dsimp only; omega, fun _ => rfl⟩⟩
      · rw [if_neg h]
        exact ⟨⟨ha, fun d hd => (by rw [hc] at hd; cases hd; simpa using h), hb⟩, Nat.le_refl _, by simp⟩

/-- **C56.** The loops need no more iterations than there are forks: allowing more changes nothing. -/
theorem C56_bound (forks : List ForkCriteria) (n : Nat) (t : Word) (extra i : Nat) (hi : i = 0 ∨ i < forks.length)
    (ha : ∀ j c, 0 < j → j ≤ i → forks[j]? = some c → c.check n t = true) :
    climb forks n t (forks.length + extra) i = climb forks n t forks.length i := by
  obtain ⟨h1, l1, b1⟩ := climb_inForce (forks := forks) (n := n) (t := t) (steps := forks.length + extra) (i := i) (by omega) ha hi
  obtain ⟨h2, l2, b2⟩ := climb_inForce (forks := forks) (n := n) (t := t) (steps := forks.length) (i := i) (by omega) ha hi
  have e := inForce_unique h1 h2
  refine Prod.ext e ?_
  rw [e] at b1
  rw [Bool.eq_iff_iff, b1, b2]

/-- **C56.** After `set_block`, the active fork is the one in force at that block. -/
theorem C56_set_block (t : ForkTracking) (n : Nat) (time : Word) : InForce t.forks n time (t.setBlock n time).activeForkIndex :=
  (climb_inForce (by omega) (fun j c h1 h2 _ => by omega) (.inl rfl)).1

/-- A tracker that has reached a block with a timestamp. -/
def At (t : ForkTracking) (time : Word) : Prop := InForce t.forks t.blockNumber time t.activeForkIndex

/-- **C56.** Advancing block by block (with timestamps that do not decrease) leads to the same fork as jumping to the block;
the fork number never decreases; and `advance_block` returns `True` exactly when it increased. -/
theorem C56_advance (t : ForkTracking) (time time' : Word) (h : At t time) (ht : time.toNat ≤ time'.toNat) :
    (t.advanceBlock time').1 = t.setBlock (t.blockNumber + 1) time' ∧ At (t.advanceBlock time').1 time' ∧
    t.activeForkIndex ≤ (t.advanceBlock time').1.activeForkIndex ∧
    ((t.advanceBlock time').2 = true ↔ t.activeForkIndex < (t.advanceBlock time').1.activeForkIndex) := by
  obtain ⟨h1, h2, h3⟩ := climb_inForce (forks := t.forks) (n := t.blockNumber + 1) (t := time') (steps := t.forks.length)
    (i := t.activeForkIndex) (by omega)
    (fun j c hj hj' hc => C42_active c _ _ _ _ (by omega) ht (h.active j c hj hj' hc)) h.bound
  refine ⟨?_, h1, h2, h3⟩
  unfold advanceBlock setBlock
  dsimp only
  rw [inForce_unique h1 (C56_set_block t (t.blockNumber + 1) time')]
  rfl

/-- Advancing through several blocks with the given timestamps. -/
def advanceAll (t : ForkTracking) : List Word → ForkTracking
  | [] => t
  | x :: r => advanceAll (t.advanceBlock x).1 r

/-- **C56.** Any number of steps: the fork after advancing through blocks with non-decreasing timestamps is the one that
`set_block` selects for the last of them, so it does not depend on the path. -/
theorem C56_path (times : List Word) : ∀ (t : ForkTracking) (time : Word), At t time →
    ((time :: times).Pairwise fun a b => a.toNat ≤ b.toNat) →
    advanceAll t times = t.setBlock (t.blockNumber + times.length) ((time :: times).getLast (by simp)) := by
  induction times with
  | nil =>
    intro t time h _
    have e := inForce_unique h (C56_set_block t t.blockNumber time)
    obtain ⟨f, n, i⟩ := t
    simp only [advanceAll, setBlock, List.length_nil, Nat.add_zero, List.getLast_singleton] at *
    rw [← e]
  | cons x r ih =>
    intro t time h hp
    have hx := (List.pairwise_cons.mp hp).1 x (by simp)
    obtain ⟨e, h', -⟩ := C56_advance t time x h hx
    rw [advanceAll, ih _ x h' (List.pairwise_cons.mp hp).2, e]
    have e2 : t.blockNumber + 1 + r.length = t.blockNumber + (r.length + 1) := by omega
    simp only [setBlock, List.length_cons]
    rw [List.getLast_cons (a := time) (l := x :: r) (by simp), e2]

/-- **C56.** If the forks are sorted and every fork by block number is active once one by timestamp is, the fork in force is
the last active one: all forks up to it are active and all after it are not. -/
theorem C56_last_active (forks : List ForkCriteria) (n : Nat) (t : Word) (i : Nat) (h : InForce forks n t i)
    (hs : forks.Pairwise fun a b => a.lt b = true ∨ a = b)
    (hk : ∀ a ∈ forks, ∀ b ∈ forks, a.internal.1 = 0 → b.internal.1 = 1 → b.check n t = true → a.check n t = true) :
    ∀ j c, 0 < j → forks[j]? = some c → (c.check n t = true ↔ j ≤ i) := by
  intro j c hj hc
  refine ⟨fun hact => ?_, fun hle => h.active j c hj hle hc⟩
  rcases Nat.lt_or_ge i j with hlt | hge
  · exfalso
    have hjl := (List.getElem?_eq_some_iff.mp hc).1
    have hi := List.getElem?_eq_getElem (l := forks) (i := i + 1) (by omega)
    have hno := h.next _ hi
    rcases Nat.lt_or_ge (i + 1) j with hlt' | hge'
    · have hcj : forks[j] = c := by rw [List.getElem?_eq_getElem hjl] at hc; exact Option.some.inj hc
      have hp := List.pairwise_iff_getElem.mp hs (i + 1) j (by omega) hjl hlt'
      rw [hcj] at hp
      generalize hd : forks[i + 1] = d at *
      have hdm : d ∈ forks := by rw [← hd]; exact List.getElem_mem _
      have hcm : c ∈ forks := by rw [← hcj]; exact List.getElem_mem _
      rcases hp with hp | rfl
      · by_cases hkind : d.internal.1 = c.internal.1
        · rw [C42_earlier d c hkind hp n t hact] at hno; cases hno
        · have := hk d hdm c hcm
          rw [lt_iff] at hp
          cases d with
          | byBlockNumber a =>
            cases c with
            | byBlockNumber b => exact hkind rfl
            | byTimestamp b => rw [this rfl rfl hact] at hno; cases hno
            | unscheduled => cases hact
          | byTimestamp a =>
            cases c with
            | byBlockNumber b => exact hp
            | byTimestamp b => exact hkind rfl
            | unscheduled => cases hact
          | unscheduled => cases c <;> exact hp
      · rw [hact] at hno; cases hno
    · have : j = i + 1 := by omega
      subst this
      rw [hi] at hc
      cases hc
      rw [hact] at hno; cases hno
  · exact hge

/-- The criteria of the forks in /repo/src/ethereum, from the `FORK_CRITERIA` of each package, in alphabetical order of the
packages as `discover` finds them. -/
def mainnetForks : List (String × ForkCriteria) :=
  [("arrow_glacier", byBlockNumber 13773000), ("berlin", byBlockNumber 12244000), ("byzantium", byBlockNumber 4370000),
   ("cancun", byTimestamp 1710338135), ("constantinople", byBlockNumber 7280000), ("dao_fork", byBlockNumber 1920000),
   ("frontier", byBlockNumber 0), ("gray_glacier", byBlockNumber 15050000), ("homestead", byBlockNumber 1150000),
   ("istanbul", byBlockNumber 9069000), ("london", byBlockNumber 12965000), ("muir_glacier", byBlockNumber 9200000),
   ("osaka", unscheduled), ("paris", byBlockNumber 15537394), ("prague", byTimestamp 1746612311), ("shanghai", byTimestamp 1681338455),
   ("spurious_dragon", byBlockNumber 2675000), ("tangerine_whistle", byBlockNumber 2463000)]

example : (sortForks mainnetForks).map Prod.fst = ["frontier", "homestead", "dao_fork", "tangerine_whistle", "spurious_dragon", "byzantium",
    "constantinople", "istanbul", "muir_glacier", "berlin", "london", "arrow_glacier", "gray_glacier", "paris", "shanghai", "cancun",
    "prague", "osaka"] := by decide +kernel

/-- Block 15537394 is the first of Paris; it is reached from the block before. -/
example : ((⟨(sortForks mainnetForks).map Prod.snd, 0, 0⟩ : ForkTracking).setBlock 15537393 1663224162).activeForkIndex = 12 ∧
    (((⟨(sortForks mainnetForks).map Prod.snd, 0, 0⟩ : ForkTracking).setBlock 15537393 1663224162).advanceBlock 1663224179).1.activeForkIndex = 13 ∧
    (((⟨(sortForks mainnetForks).map Prod.snd, 0, 0⟩ : ForkTracking).setBlock 15537393 1663224162).advanceBlock 1663224179).2 = true := by
  decide +kernel
example (t : ForkTracking) : At (t.setBlock 5 7) 7 := C56_set_block t 5 7

end Verif.Props
