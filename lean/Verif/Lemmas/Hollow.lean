import Verif.Spec.StateClearing
import Verif.Lemmas.StateRel
/-! Where hollow accounts (existing but empty) can come from. -/
namespace Verif
open Spec

theorem hollow_iff {s : State} {a : Address} : accountExistsAndIsEmpty s a = true ↔ Hollow s a := by
  unfold accountExistsAndIsEmpty Hollow
  cases getAccountOptional s a with
  | none => simp
  | some acc =>
    simp only [Bool.and_eq_true, decide_eq_true_eq, Option.some.injEq, exists_eq_left']
    constructor
    · rintro ⟨⟨h1, h2⟩, h3⟩; exact ⟨h1, h3, h2⟩
    · rintro ⟨h1, h3, h2⟩; exact ⟨⟨h1, h2⟩, h3⟩

theorem Spec.Hollow.congr {s s' : State} (h : s'.mainTrie = s.mainTrie) {x : Address} (hx : Hollow s' x) : Hollow s x := by
  obtain ⟨acc, h1, h2⟩ := hx
  exact ⟨acc, by unfold getAccountOptional at *; rw [← h]; exact h1, h2⟩

theorem Spec.Hollow.account {s : State} {x : Address} (h : Hollow s x) :
    (getAccount s x).nonce = 0 ∧ (getAccount s x).balance = 0 ∧ (getAccount s x).code = [] := by
  obtain ⟨acc, h1, h2⟩ := h
  unfold getAccount; rw [h1]; exact h2

theorem hollow_setAccount {s : State} {a x : Address} {v : Option Account} (h : Hollow (setAccount s a v) x) : x = a ∨ Hollow s x := by
  obtain ⟨acc, h1, h2⟩ := h
  rw [getAccountOptional_setAccount] at h1
  by_cases e : a = x
  · exact .inl e.symm
  · rw [if_neg e] at h1; exact .inr ⟨acc, h1, h2⟩

theorem hollow_destroyAccount {s : State} {a x : Address} (h : Hollow (destroyAccount s a) x) : x ≠ a ∧ Hollow s x := by
  obtain ⟨acc, h1, h2⟩ := h
  unfold destroyAccount at h1
  rw [getAccountOptional_setAccount] at h1
  by_cases e : a = x
  · rw [if_pos e] at h1; cases h1
  · rw [if_neg e] at h1; exact ⟨fun h => e h.symm, acc, h1, h2⟩

theorem hollow_dropEmpty {s : State} {a x : Address} (h : Hollow (dropEmpty s a) x) : Hollow s x ∧ (s.fork.since .paris = true → x ≠ a) := by
  unfold dropEmpty at h
  by_cases hc : (s.fork.since .paris && accountExistsAndIsEmpty s a) = true
  · rw [if_pos hc] at h
    exact ⟨(hollow_destroyAccount h).2, fun _ => (hollow_destroyAccount h).1⟩
  · rw [if_neg hc] at h
    refine ⟨h, fun hf e => hc ?_⟩
    subst e
    rw [hf, hollow_iff.mpr h]; rfl

/-- An update of an account makes no other account hollow, and since paris not this one either. -/
theorem hollow_modifyState' {s : State} {a x : Address} {f : Account → Account} (h : Hollow (modifyState' s a f) x) :
    (x = a ∧ s.fork.since .paris = false) ∨ Hollow s x := by
  obtain ⟨h1, h2⟩ := hollow_dropEmpty h
  rcases hollow_setAccount h1 with e | e
  · refine .inl ⟨e, ?_⟩
    cases hf : s.fork.since .paris with
    | false => rfl
    | true => exact absurd e (h2 hf)
  · exact .inr e

theorem hollow_modifyState {s s' : State} {a x : Address} {f : Account → Except Crash Account} (hm : modifyState s a f = .ok s') (h : Hollow s' x) :
    (x = a ∧ s.fork.since .paris = false) ∨ Hollow s x := by
  unfold modifyState at hm
  split at hm
  · cases hm
  · cases hm
    obtain ⟨h1, h2⟩ := hollow_dropEmpty h
    rcases hollow_setAccount h1 with e | e
    · refine .inl ⟨e, ?_⟩
      cases hf : s.fork.since .paris with
      | false => rfl
      | true => exact absurd e (h2 hf)
    · exact .inr e

theorem modifyState_keeps {s s' : State} {a : Address} {f : Account → Except Crash Account} (hm : modifyState s a f = .ok s') : s'.fork = s.fork := by
  unfold modifyState at hm
  split at hm
  · cases hm
  · cases hm
    unfold dropEmpty
    split <;> rfl

theorem hollow_moveEther {s s' : State} {a b x : Address} {v : Word} (hm : moveEther s a b v = .ok s') (h : Hollow s' x) :
    ((x = a ∨ x = b) ∧ s.fork.since .paris = false) ∨ Hollow s x := by
  unfold moveEther at hm
  split at hm
  · cases hm
  · rename_i s1 h1
    rcases hollow_modifyState hm h with ⟨e, hf⟩ | e
    · rw [modifyState_keeps h1] at hf; exact .inl ⟨.inr e, hf⟩
    · rcases hollow_modifyState h1 e with ⟨e, hf⟩ | e
      · exact .inl ⟨.inl e, hf⟩
      · exact .inr e

theorem hollow_selfdestruct {s s' : State} {a b x : Address} (hm : selfdestructState s a b = .ok s') (h : Hollow s' x) :
    ((x = a ∨ x = b) ∧ s.fork.since .paris = false) ∨ Hollow s x := by
  unfold selfdestructState at hm
  split at hm
  · split at hm
    · cases hm
    · rename_i s1 h1
      cases hm
      have : ((x = a) ∧ s1.fork.since .paris = false) ∨ Hollow s1 x := by
        split at h
        · exact hollow_modifyState' h
        · exact .inr h
      rcases this with ⟨e, hf⟩ | e
      · rw [moveEther_fork h1] at hf; exact .inl ⟨.inl e, hf⟩
      · exact hollow_moveEther h1 e
  · split at hm
    · cases hm
    · cases hm
      rcases hollow_modifyState' h with ⟨e, hf⟩ | e
      · exact .inl ⟨.inl e, by rw [← hf]; unfold setAccountBalance; rw [modifyState'_fork]⟩
      · rcases hollow_modifyState' e with ⟨e, hf⟩ | e
        · exact .inl ⟨.inr e, hf⟩
        · exact .inr e

theorem hollow_touchIn {s : State} {a x : Address} (h : Hollow (touchIn s a) x) : (x = a ∧ s.fork.since .paris = false) ∨ Hollow s x := by
  rcases touchIn_cases s a with e | ⟨hf, -, e⟩ <;> rw [e] at h
  · exact .inr h
  · rcases hollow_setAccount h with e | e
    · exact .inl ⟨e, hf⟩
    · exact .inr e

/-! ### frames -/

def HPost (m : Mach) : Res Unit → Prop
  | .ok _ m' => (∀ x, Hollow m'.world.state x → Hollow m.world.state x ∨ x ∈ m'.evm.touchedAccounts ∨ x = m.self) ∧
    (∀ x ∈ m.evm.touchedAccounts, x ∈ m'.evm.touchedAccounts) ∧ m'.evm.message = m.evm.message ∧
    (m.evm.stack.length ≤ 1024 → m'.evm.stack.length ≤ 1024)
  | .err _ _ => True

def SubH (pm : Sub) : Prop := ∀ msg w child w', pm msg w = .ok (child, w') →
  (child.error.isSome = true → ∀ x, Hollow w'.state x → Hollow w.state x) ∧
  (child.error.isSome = false → child.message = msg ∧ ∀ x, Hollow w'.state x →
    Hollow w.state x ∨ x ∈ child.touchedAccounts ∨ x = msg.currentTarget ∨ (x = msg.caller ∧ msg.shouldTransferValue = true))

theorem mem_touchedIfEmpty {s : State} {a x : Address} {l : List Address} :
    x ∈ touchedIfEmpty s a l ↔ x ∈ l ∨ (x = a ∧ Hollow s a) := by
  unfold touchedIfEmpty
  by_cases h : accountExistsAndIsEmpty s a = true
  · rw [if_pos h, mem_setAdd]
    have := hollow_iff.mp h
    simp [this]
  · rw [if_neg h]
    have : ¬ Hollow s a := fun hh => h (hollow_iff.mpr hh)
    simp [this]

theorem mem_touchedOnError {s : State} {child : Evm} {x : Address} {l : List Address} (h : x ∈ l) : x ∈ touchedOnError s child l := by
  unfold touchedOnError
  dsimp only
  have h1 : x ∈ (if RIPEMD160_ADDRESS ∈ child.touchedAccounts then setAdd l RIPEMD160_ADDRESS else l) := by
    split
    · rw [mem_setAdd]; exact .inl h
    · exact h
  split
  · rw [mem_touchedIfEmpty]; exact .inl h1
  · exact h1

theorem incorporated_h {m1 m2 : Mach} {msg : Message} {child : Evm} {w : World} {self : Address} (hinc : Incorporated m1 child w m2)
    (hs : (child.error.isSome = true → ∀ x, Hollow w.state x → Hollow m1.world.state x) ∧
      (child.error.isSome = false → child.message = msg ∧ ∀ x, Hollow w.state x →
        Hollow m1.world.state x ∨ x ∈ child.touchedAccounts ∨ x = msg.currentTarget ∨ (x = msg.caller ∧ msg.shouldTransferValue = true)))
    (hc : msg.shouldTransferValue = true → msg.caller = self) :
    (∀ x, Hollow m2.world.state x → Hollow m1.world.state x ∨ x ∈ m2.evm.touchedAccounts ∨ x = self) ∧
    (∀ x ∈ m1.evm.touchedAccounts, x ∈ m2.evm.touchedAccounts) := by
  rw [hinc.world]
  cases he : child.error.isSome with
  | true =>
    rw [hinc.touchedOnError he]
    exact ⟨fun x hx => .inl (hs.1 he x hx), fun x hx => mem_touchedOnError hx⟩
  | false =>
    obtain ⟨h1, h2⟩ := hs.2 he
    rw [hinc.touched he]
    refine ⟨fun x hx => ?_, fun x hx => ?_⟩
    · rcases h2 x hx with h | h | h | ⟨h, ht⟩
      · exact .inl h
      · refine .inr (.inl ?_); rw [mem_touchedIfEmpty, mem_setUpdate]; exact .inl (.inr h)
      · refine .inr (.inl ?_); rw [mem_touchedIfEmpty, h1, ← h]; exact .inr ⟨rfl, hx⟩
      · exact .inr (.inr (h.trans (hc ht)))
    · rw [mem_touchedIfEmpty, mem_setUpdate]; exact .inl (.inl hx)

theorem step_h {pm pcm : Sub} (hpm : SubH pm) (hpcm : SubH pcm) {m : Mach} {r : Res Unit} {k : Kind} (h : OpEffect k pm pcm m r) : HPost m r := by
  have same : ∀ m1 : Mach, Loc m m1 → ∀ m2 : Mach, m2.world.state.mainTrie = m.world.state.mainTrie → m2.evm.touchedAccounts = m1.evm.touchedAccounts →
      m2.evm.message = m1.evm.message → m2.evm.stack = m1.evm.stack → HPost m (.ok () m2) := by
    intro m1 hl m2 h1 h2 h3 h4
    refine ⟨fun x hx => .inl (hx.congr h1), fun x hx => ?_, h3.trans hl.message, fun hs => ?_⟩
    · rw [h2, hl.touched]; exact hx
    · rw [h4]; exact hl.stack hs
  cases h with
  | ok m' h hk strict => exact same m' h m' (by rw [h.world]) rfl rfl rfl
  | err e m' h he => trivial
  | sstore hk m1 key new orig s' h hg _ _ _ hset =>
    refine same m1 h _ ?_ rfl rfl rfl
    unfold setStorage at hset; split at hset <;> cases hset; rfl
  | tstore hk m1 key new h hg => exact same m1 h _ rfl rfl rfl rfl
  | log hk m1 topics data h hg => exact same m1 h _ (by show m1.world.state.mainTrie = _; rw [h.world]) rfl rfl rfl
  | selfdestruct hk m1 b s1 h hg _ _ hmove =>
    refine ⟨fun x hx => ?_, fun x hx => ?_, h.message, h.stack⟩
    · rcases hollow_selfdestruct hmove hx with ⟨e | e, -⟩ | e
      · exact .inr (.inr e)
      · refine .inr (.inl ?_)
        show x ∈ touchedIfEmpty s1 b m.evm.touchedAccounts
        rw [mem_touchedIfEmpty]; subst e; exact .inr ⟨rfl, hx⟩
      · exact .inl e
    · show x ∈ touchedIfEmpty s1 b m.evm.touchedAccounts
      rw [mem_touchedIfEmpty]; exact .inl hx
  | collision hk m1 a h hg =>
    refine ⟨fun x hx => ?_, fun x hx => ?_, h.message, h.stack⟩
    · rcases hollow_modifyState' hx with ⟨e, -⟩ | e
      · exact .inr (.inr e)
      · exact .inl e
    · show x ∈ m1.evm.touchedAccounts
      rw [h.touched]; exact hx
  | createErr hk m1 msg e w m' h hsub hw => trivial
  | create hk m1 msg child w m2 h hsub hinc =>
    obtain ⟨h1, h2⟩ := incorporated_h (self := m.self) hinc (hpcm _ _ _ _ hsub) (fun _ => h.caller)
    refine ⟨fun x hx => ?_, fun x hx => ?_, hinc.frame.message.trans h.frame.message, fun hs => hinc.frame.stack (h.frame.stack hs)⟩
    · rcases h1 x hx with e | e
      · rw [h.world] at e
        rcases hollow_modifyState' e with ⟨e, -⟩ | e
        · exact .inr (.inr e)
        · exact .inl e
      · exact .inr e
    · refine h2 x ?_; rw [h.touched]; exact hx
  | callErr hk m1 msg e w m' h hsub hw => trivial
  | call hk m1 msg child w m2 h hsub hinc =>
    obtain ⟨h1, h2⟩ := incorporated_h (self := m.self) hinc (hpm _ _ _ _ hsub) (fun ht => (h.funds ht).1)
    refine ⟨fun x hx => ?_, fun x hx => ?_, hinc.frame.message.trans h.locals.message, fun hs => hinc.frame.stack (h.locals.stack hs)⟩
    · rw [h.locals.world] at h1; exact h1 x hx
    · refine h2 x ?_; rw [h.locals.touched]; exact hx
  | callOverflow hk m1 msg child w m' h hsub hlen => trivial

theorem executeCode_h {E : Env} {loop : Loop} {msg : Message} {w : World} (hl : HPost ⟨initEvm msg, w⟩ (loop ⟨initEvm msg, w⟩))
    {evm : Evm} {w2 : World} (h : executeCode E loop msg w = .ok (evm, w2)) (he : evm.error.isSome = false) :
    evm.message = msg ∧ ∀ x, Hollow w2.state x → Hollow w.state x ∨ x ∈ evm.touchedAccounts ∨ x = msg.currentTarget := by
  unfold executeCode at h
  simp only at h
  have key : ∀ r : Res Unit, HPost ⟨initEvm msg, w⟩ r → catchFrame r = .ok (evm, w2) →
      evm.message = msg ∧ ∀ x, Hollow w2.state x → Hollow w.state x ∨ x ∈ evm.touchedAccounts ∨ x = msg.currentTarget := by
    intro r hr hc
    match r with
    | .ok _ m' => cases hc; exact ⟨hr.2.2.1, hr.1⟩
    | .err (.halt x) m' => cases hc; cases he
    | .err .revert m' => cases hc; cases he
    | .err (.crash c) m' => cases hc
    | .err .outOfFuel m' => cases hc
  match hpre : precompileOf E w.state.fork msg with
  | some p =>
    simp only [hpre] at h
    split at h
    · cases h; exact ⟨rfl, fun x hx => .inl hx⟩
    · have hp : Pres p := by
        unfold precompileOf at hpre
        split at hpre
        · cases hpre
        · exact pres_precompile _ _ _ _ hpre
      refine key _ ?_ h
      have := hp.run ⟨initEvm msg, w⟩
      revert this
      match p ⟨initEvm msg, w⟩ with
      | .ok _ m' =>
        intro h
        have hw : m'.world = w := h.world
        exact ⟨fun x hx => .inl (by rw [hw] at hx; exact hx), fun x hx => (by rw [show m'.evm.touchedAccounts = _ from h.touched]; exact hx), h.message, h.stack⟩
      | .err e m' => intro _; trivial
  | none => simp only [hpre] at h; exact key _ hl h

def HLoop (loop : Loop) : Prop := ∀ m, m.evm.stack.length ≤ 1024 → HPost m (loop m)

theorem processMessage_h {E : Env} {loop : Loop} (hs : SnapLoop loop) (hl : HLoop loop) : SubH (processMessage E loop) := by
  intro msg w child w' h
  have hsnap := processMessage_snap' hs h
  refine ⟨fun he x hx => hx.congr (hsnap.2 he).1, fun he => ?_⟩
  unfold processMessage at h
  split at h
  · cases h
  simp only at h
  split at h
  · cases h
  rename_i s hst
  have h1 : ∀ x, Hollow s x → Hollow w.state x ∨ x = msg.currentTarget ∨ (x = msg.caller ∧ msg.shouldTransferValue = true) := by
    intro x hx
    have ht : ∀ x, Hollow (touchIn (beginTransaction w).state msg.currentTarget) x → Hollow w.state x ∨ x = msg.currentTarget := by
      intro x hx
      rcases hollow_touchIn hx with ⟨e, -⟩ | e
      · exact .inr e
      · exact .inl (Hollow.congr rfl e)
    split at hst
    · rename_i hv
      rcases hollow_moveEther hst hx with ⟨e | e, -⟩ | e
      · exact .inr (.inr ⟨e, hv.1⟩)
      · exact .inr (.inl e)
      · rcases ht x e with e | e
        · exact .inl e
        · exact .inr (.inl e)
    · cases hst
      rcases ht x hx with e | e
      · exact .inl e
      · exact .inr (.inl e)
  have hsn : s.snapshots = (beginTransaction w).state.snapshots ∧ s.fork = (beginTransaction w).state.fork := by
    split at hst
    · exact ⟨(moveEther_snaps hst).1.trans (touchIn_snapshots _ _), (moveEther_fork hst).trans (touchIn_fork _ _)⟩
    · cases hst; exact ⟨touchIn_snapshots _ _, touchIn_fork _ _⟩
  split at h
  · cases h
  · rename_i evm w2 hx
    have hxs := executeCode_snap (hs _ (Nat.zero_le _)) hx
    have hss : SameSnaps w2 (beginTransaction w) := ⟨hxs.1.trans hsn.1, hxs.2.1, hxs.2.2.trans hsn.2⟩
    split at h
    · cases h
    · rename_i w3 hr
      cases h
      obtain ⟨e1, e2⟩ := executeCode_h (hl _ (Nat.zero_le _)) hx he
      rw [if_neg (by rw [he]; exact Bool.false_ne_true)] at hr
      obtain ⟨w4, e, hc, -, -⟩ := commit_ok hss
      rw [e] at hr; cases hr
      refine ⟨e1, fun x hx => ?_⟩
      rcases e2 x (hx.congr hc.1) with h | h | h
      · rcases h1 x h with h | h | h
        · exact .inl h
        · exact .inr (.inr (.inl h))
        · exact .inr (.inr (.inr h))
      · exact .inr (.inl h)
      · exact .inr (.inr (.inl h))

theorem createStart_h {w : World} {t x : Address} (h : Hollow (createStart w t).state x) : Hollow w.state x ∨ x = t := by
  unfold createStart startNonce at h
  dsimp only at h
  split at h
  · rcases hollow_modifyState' h with ⟨e, -⟩ | e
    · exact .inr e
    · exact .inl (Hollow.congr rfl e)
  · exact .inl (Hollow.congr rfl h)

theorem processCreateMessage_h {E : Env} {loop : Loop} (hs : SnapLoop loop) (hl : HLoop loop) : SubH (processCreateMessage E loop) := by
  intro msg w child w' h
  have hsnap := processCreateMessage_snap' hs h
  refine ⟨fun he x hx => hx.congr (hsnap.2 he).1, fun he => ?_⟩
  unfold processCreateMessage at h
  split at h
  · cases h
  · rename_i evm w2 hx
    have h1 := processMessage_h hs hl _ _ _ _ hx
    have hxs := (processMessage_snap' hs hx).1
    have hss := SameSnaps.trans hxs (createStart_snaps w msg.currentTarget)
    split at h
    · rename_i hh
      split at h <;> cases h
      rw [hh] at he; cases he
    · rename_i hh
      have hh : evm.error.isSome = false := by simpa using hh
      obtain ⟨e1, e2⟩ := h1.2 hh
      have e3 : ∀ x, Hollow w2.state x → Hollow w.state x ∨ x ∈ evm.touchedAccounts ∨ x = msg.currentTarget ∨ (x = msg.caller ∧ msg.shouldTransferValue = true) := by
        intro x hx
        rcases e2 x hx with h | h
        · rcases createStart_h h with h | h
          · exact .inl h
          · exact .inr (.inr (.inl h))
        · exact .inr h
      split at h
      · split at h
        · split at h <;> cases h
          simp at he
        · obtain ⟨w4, e, hc, hs4, _⟩ := commit_ok hss
          rw [e] at h; cases h
          exact ⟨e1, fun x hx => e3 x (hx.congr hc.1)⟩
      · simp only at h
        have hss3 : SameSnaps { w2 with state := setCode w2.state msg.currentTarget evm.output } (beginTransaction w) :=
          ⟨by simpa [setCode] using hss.1, hss.2.1, by simpa [setCode] using hss.2.2⟩
        obtain ⟨w4, e, hc, hs4, _⟩ := commit_ok hss3
        rw [e] at h; cases h
        refine ⟨e1, fun x hx => ?_⟩
        rcases hollow_modifyState' (hx.congr hc.1) with ⟨h, -⟩ | h
        · exact .inr (.inr (.inl h))
        · exact e3 x h

theorem run_h (E : Env) : ∀ n, HLoop (run E n) := by
  intro n
  induction n with
  | zero => intro m _; trivial
  | succ n ih =>
    intro m hs
    rw [run]; unfold loopBody
    have stay : HPost m (.ok () m) := ⟨fun x hx => .inl hx, fun x hx => hx, rfl, id⟩
    by_cases hr : m.evm.running = true
    · simp only [hr, if_true]
      match hb : m.evm.code[m.evm.pc]? with
      | none => exact stay
      | some b =>
        simp only
        match decodeOpIn m.world.state.fork b with
        | none => trivial
        | some op =>
          simp only
          have h := step_h (processMessage_h (E := E) (run_snap E n) ih) (processCreateMessage_h (E := E) (run_snap E n) ih) (opStep_effect E _ _ op m hs)
          revert h
          match opStep E (processMessage E (run E n)) (processCreateMessage E (run E n)) op m with
          | .err e m' => exact id
          | .ok _ m' =>
            intro h
            obtain ⟨a1, a2, a3, a4⟩ := h
            have h2 := ih m' (a4 hs)
            revert h2
            simp only
            match run E n m' with
            | .err e m2 => exact fun _ => trivial
            | .ok _ m2 =>
              rintro ⟨b1, b2, b3, b4⟩
              refine ⟨fun x hx => ?_, fun x hx => b2 x (a2 x hx), b3.trans a3, fun hs => b4 (a4 hs)⟩
              rcases b1 x hx with h | h | h
              · rcases a1 x h with h | h | h
                · exact .inl h
                · exact .inr (.inl (b2 x h))
                · exact .inr (.inr h)
              · exact .inr (.inl h)
              · refine .inr (.inr ?_); rw [h]; show m'.evm.message.currentTarget = _; rw [a3]
    · simp only [hr, if_false, Bool.false_eq_true]
      exact stay

theorem exec_h (E : Env) : HLoop (exec E) := fun m hs => run_h E _ m hs

end Verif
