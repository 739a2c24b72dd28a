import Verif.Lemmas.Snap
/-! Relations on states that every elementary change made by an execution satisfies hold for whole executions. -/
namespace Verif

/-- The code the protocol accepts for a new contract. -/
def Deployable (f : Fork) (code : Bytes) : Prop :=
  (f.since .london = true → code.head? ≠ some 0xEF) ∧ (f.since .spuriousDragon = true → code.length ≤ MAX_CODE_SIZE)

structure StateClosed (R : State → State → Prop) : Prop where
  contents : ∀ s s', s'.fork = s.fork → s'.mainTrie = s.mainTrie → s'.storageTries = s.storageTries → R s s'
  trans : ∀ a b c, R a b → R b c → R a c
  move : ∀ s s' a b v, moveEther s a b v = .ok s' → R s s'
  selfdestruct : ∀ s s' a b, selfdestructState s a b = .ok s' → R s s'
  nonce : ∀ s a, (getAccount s a).nonce ≠ 2 ^ 64 - 1 → R s (incrementNonce s a)
  storage : ∀ s s' a k v, setStorage s a k v = .ok s' → R s s'
  destroy : ∀ s a, R s (destroyStorage s a)
  code : ∀ s a c, Deployable s.fork c → R s (setCode s a c)
  touch : ∀ s a, R s (touchIn s a)

section
variable {R : State → State → Prop}

theorem StateClosed.refl (hR : StateClosed R) (s : State) : R s s := hR.contents s s rfl rfl rfl

theorem selfdestruct_of (move : ∀ s s' a b v, moveEther s a b v = .ok s' → R s s') (balance : ∀ s a v, R s (setAccountBalance s a v))
    (trans : ∀ a b c, R a b → R b c → R a c) : ∀ s s' a b, selfdestructState s a b = .ok s' → R s s' := by
  intro s s' a b h
  unfold selfdestructState at h
  split at h
  · split at h
    · cases h
    · rename_i s1 hm
      have := move _ _ _ _ _ hm
      cases h
      split
      · exact trans _ _ _ this (balance _ _ _)
      · exact this
  · split at h
    · cases h
    · cases h; exact trans _ _ _ (balance _ _ _) (balance _ _ _)

/-- The fork whose code runs never changes. -/
def KeepsFork (R : State → State → Prop) : Prop := ∀ s s', R s s' → s'.fork = s.fork

theorem StateClosed.withFork (hR : StateClosed R) : StateClosed fun s s' => R s s' ∧ s'.fork = s.fork where
  contents := fun s s' hf h1 h2 => ⟨hR.contents s s' hf h1 h2, hf⟩
  trans := fun _ _ _ h h' => ⟨hR.trans _ _ _ h.1 h'.1, h'.2.trans h.2⟩
  move := fun _ _ _ _ _ h => ⟨hR.move _ _ _ _ _ h, moveEther_fork h⟩
  selfdestruct := fun _ _ _ _ h => ⟨hR.selfdestruct _ _ _ _ h, (selfdestructState_rel h).fork⟩
  nonce := fun _ _ h => ⟨hR.nonce _ _ h, by simp [incrementNonce]⟩
  storage := fun s s' a k v h => ⟨hR.storage _ _ _ _ _ h, by unfold setStorage at h; split at h <;> cases h; rfl⟩
  destroy := fun _ _ => ⟨hR.destroy _ _, rfl⟩
  code := fun _ _ _ h => ⟨hR.code _ _ _ h, by simp [setCode]⟩
  touch := fun _ _ => ⟨hR.touch _ _, by simp⟩

def RPost (R : State → State → Prop) (m : Mach) : Res Unit → Prop
  | .ok _ m' => R m.world.state m'.world.state ∧ (m.evm.stack.length ≤ 1024 → m'.evm.stack.length ≤ 1024)
  | .err e m' => Caught e → R m.world.state m'.world.state

def SubRel (R : State → State → Prop) (pm : Sub) : Prop :=
  ∀ msg w child w', pm msg w = .ok (child, w') → R w.state w'.state

/-- The same for a processor that is only given messages whose target can get a nonce. -/
def SubRelFresh (R : State → State → Prop) (pcm : Sub) : Prop :=
  ∀ msg w child w', (getAccount w.state msg.currentTarget).nonce ≠ 2 ^ 64 - 1 → pcm msg w = .ok (child, w') → R w.state w'.state

theorem SubRel.fresh {pcm : Sub} (h : SubRel R pcm) : SubRelFresh R pcm := fun msg w child w' _ => h msg w child w'

theorem nonce_of_fresh {s : State} {a : Address} (h : accountHasCodeOrNonce s a = false) : (getAccount s a).nonce = 0 := by
  unfold accountHasCodeOrNonce at h
  simp only [Bool.or_eq_false_iff, decide_eq_false_iff_not, Decidable.not_not] at h
  exact h.1

theorem CreateMsg.targetNonce {m m1 : Mach} {msg : Message} (h : CreateMsg m m1 msg) :
    (getAccount m1.world.state msg.currentTarget).nonce ≠ 2 ^ 64 - 1 := by
  rw [h.world]
  have h0 := nonce_of_fresh h.fresh.1
  show (getAccount (incrementNonce m.world.state m.self) msg.currentTarget).nonce ≠ 2 ^ 64 - 1
  unfold incrementNonce
  rw [getAccount_modifyState']
  split
  · rename_i e; rw [← e] at h0; dsimp only; omega
  · omega

theorem step_rel (hR : StateClosed R) {pm pcm : Sub} (hpm : SubRel R pm) (hpcm : SubRelFresh R pcm) (hum : SubUncaught pm)
    (hucm : SubUncaught pcm) {m : Mach} {r : Res Unit} {k : Kind} (h : OpEffect k pm pcm m r) : RPost R m r := by
  cases h with
  | ok m' h hk strict => exact ⟨by rw [h.world]; exact hR.refl _, h.stack⟩
  | err e m' h he => exact fun _ => by rw [h.world]; exact hR.refl _
  | sstore hk m1 key new orig s' h hg _ _ _ hset => exact ⟨hR.storage _ _ _ _ _ hset, h.stack⟩
  | tstore hk m1 key new h hg => exact ⟨hR.refl _, h.stack⟩
  | log hk m1 topics data h hg => exact ⟨by simp only [h.world]; exact hR.refl _, h.stack⟩
  | selfdestruct hk m1 b s1 h hg _ _ hmove =>
    exact ⟨hR.selfdestruct _ _ _ _ hmove, h.stack⟩
  | collision hk m1 a h hg hgas hstatic hcol hnonce => exact ⟨hR.nonce _ _ hnonce, h.stack⟩
  | createErr hk m1 msg e w m' h hsub hw => exact fun hc => absurd hc (hucm _ _ _ _ h.depthLe hsub)
  | create hk m1 msg child w m2 h hsub hinc =>
    have h1 := hpcm _ _ _ _ h.targetNonce hsub
    refine ⟨?_, fun hs => hinc.frame.stack (h.frame.stack hs)⟩
    rw [hinc.world]
    rw [h.world] at h1
    exact hR.trans _ _ _ (hR.nonce _ _ h.nonce) h1
  | callErr hk m1 msg e w m' h hsub hw => exact fun hc => absurd hc (hum _ _ _ _ h.depthLe hsub)
  | call hk m1 msg child w m2 h hsub hinc =>
    have h1 := hpm _ _ _ _ hsub
    refine ⟨?_, fun hs => hinc.frame.stack (h.locals.stack hs)⟩
    rw [hinc.world]
    rw [h.locals.world] at h1; exact h1
  | callOverflow hk m1 msg child w m' h hsub hlen => exact fun hc => hc.elim

theorem executeCode_rel (hR : StateClosed R) {E : Env} {loop : Loop} {msg : Message} {w : World}
    (hl : RPost R ⟨initEvm msg, w⟩ (loop ⟨initEvm msg, w⟩)) {evm : Evm} {w2 : World}
    (h : executeCode E loop msg w = .ok (evm, w2)) : R w.state w2.state := by
  unfold executeCode at h
  simp only at h
  have key : ∀ r : Res Unit, RPost R ⟨initEvm msg, w⟩ r → catchFrame r = .ok (evm, w2) → R w.state w2.state := by
    intro r hr hc
    match r with
    | .ok _ m' => cases hc; exact hr.1
    | .err (.halt x) m' => cases hc; exact hr trivial
    | .err .revert m' => cases hc; exact hr trivial
    | .err (.crash c) m' => cases hc
    | .err .outOfFuel m' => cases hc
  match hpre : precompileOf E w.state.fork msg with
  | some p =>
    simp only [hpre] at h
    split at h
    · cases h; exact hR.refl _
    · have hp : Pres p := by
        unfold precompileOf at hpre
        split at hpre
        · cases hpre
        · exact pres_precompile _ _ _ _ hpre
      refine key _ ?_ h
      have := hp.run ⟨initEvm msg, w⟩
      revert this
      match p ⟨initEvm msg, w⟩ with
      | .ok _ m' => intro h; have hw : m'.world = w := h.world; exact ⟨by rw [hw]; exact hR.refl _, h.stack⟩
      | .err e m' => intro h _; have hw : m'.world = w := h.world; rw [hw]; exact hR.refl _
  | none => simp only [hpre] at h; exact key _ hl h

def RLoop (R : State → State → Prop) (loop : Loop) : Prop := ∀ m, m.evm.stack.length ≤ 1024 → RPost R m (loop m)

theorem contents_rel (hR : StateClosed R) {w w' : World} (hf : w'.state.fork = w.state.fork) (h : SameContents w' w) : R w.state w'.state :=
  hR.contents _ _ hf h.1 h.2.1

theorem processMessage_rel (hR : StateClosed R) (hF : KeepsFork R) {E : Env} {loop : Loop} (hs : SnapLoop loop) (hl : RLoop R loop) :
    SubRel R (processMessage E loop) := by
  intro msg w child w' h
  have hsnap := processMessage_snap' hs h
  by_cases he : child.error.isSome = true
  · refine contents_rel hR ?_ (hsnap.2 he)
    unfold processMessage at h
    split at h
    · cases h
    · simp only at h
      split at h
      · cases h
      · rename_i s hst
        have h1 : s.fork = w.state.fork := by
          split at hst
          · rw [moveEther_fork hst, touchIn_fork]; rfl
          · cases hst; rw [touchIn_fork]; rfl
        split at h
        · cases h
        · rename_i evm w2 hx
          have hxr := hF _ _ (executeCode_rel hR (hl _ (Nat.zero_le _)) hx)
          split at h
          · cases h
          · rename_i w3 hr
            cases h
            rw [if_pos he] at hr
            rw [rollback_fork hr, hxr]; exact h1
  · unfold processMessage at h
    split at h
    · cases h
    · simp only at h
      split at h
      · cases h
      · rename_i s hst
        have h0 : R w.state (touchIn (beginTransaction w).state msg.currentTarget) :=
          hR.trans _ (beginTransaction w).state _ (hR.contents _ _ rfl rfl rfl) (hR.touch _ _)
        have h1 : R w.state s := by
          split at hst
          · exact hR.trans _ _ _ h0 (hR.move _ _ _ _ _ hst)
          · cases hst; exact h0
        have hsn : s.snapshots = (beginTransaction w).state.snapshots ∧ s.fork = (beginTransaction w).state.fork := by
          split at hst
          · exact ⟨(moveEther_snaps hst).1.trans (touchIn_snapshots _ _), (moveEther_fork hst).trans (touchIn_fork _ _)⟩
          · cases hst; exact ⟨touchIn_snapshots _ _, touchIn_fork _ _⟩
        split at h
        · cases h
        · rename_i evm w2 hx
          have hxs := executeCode_snap (hs _ (Nat.zero_le _)) hx
          have hss : SameSnaps w2 (beginTransaction w) := ⟨hxs.1.trans hsn.1, hxs.2.1, hxs.2.2.trans hsn.2⟩
          have hxr := executeCode_rel hR (hl _ (Nat.zero_le _)) hx
          split at h
          · cases h
          · rename_i w3 hr
            cases h
            rw [if_neg he] at hr
            obtain ⟨w4, e, hc, -, -⟩ := commit_ok hss
            rw [e] at hr; cases hr
            exact hR.trans _ _ _ (hR.trans _ _ _ h1 hxr) (contents_rel hR (commit_fork e) hc)

theorem depositCode_ok {f : Fork} {g g' : Nat} {c : Bytes} (h : depositCode f g c = .ok g') :
    Deployable f c ∧ g = g' + 200 * c.length := by
  unfold depositCode at h
  simp only at h
  split at h
  · cases h
  · rename_i h1
    split at h
    · cases h
    · rename_i h2
      split at h
      · cases h
      · rename_i h3; cases h
        refine ⟨⟨fun hf hc => h1 ⟨hf, hc⟩, fun hf => by have : ¬ c.length > MAX_CODE_SIZE := fun hl => h3 ⟨hf, hl⟩; omega⟩, ?_⟩
        simp only [GAS_CODE_DEPOSIT] at *; omega

theorem startNonce_rel (hR : StateClosed R) (s : State) (t : Address) (ht : R s (incrementNonce s t)) : R s (startNonce s t) := by
  unfold startNonce
  split
  · exact ht
  · exact hR.refl _

theorem createStart_rel (hR : StateClosed R) (w : World) (t : Address) (ht : (getAccount w.state t).nonce ≠ 2 ^ 64 - 1) :
    R w.state (createStart w t).state :=
  hR.trans _ _ _ (hR.trans _ _ _ (hR.contents w.state (beginTransaction w).state rfl rfl rfl) (hR.destroy _ t))
    (hR.trans _ _ _ (hR.contents _ (markAccountCreated (destroyStorage (beginTransaction w).state t) t) rfl rfl rfl) (startNonce_rel hR _ t (hR.nonce _ _ ht)))

theorem createStart_free (hR : StateClosed R) (hN : ∀ s a, R s (incrementNonce s a)) (w : World) (t : Address) :
    R w.state (createStart w t).state :=
  hR.trans _ _ _ (hR.trans _ _ _ (hR.contents w.state (beginTransaction w).state rfl rfl rfl) (hR.destroy _ t))
    (hR.trans _ _ _ (hR.contents _ (markAccountCreated (destroyStorage (beginTransaction w).state t) t) rfl rfl rfl)
      (startNonce_rel hR _ t (hN _ _)))

theorem processCreateMessage_from (hR : StateClosed R) (hF : KeepsFork R) {E : Env} {loop : Loop} (hs : SnapLoop loop) (hl : RLoop R loop)
    {msg : Message} {w w' : World} {child : Evm} (hst : R w.state (createStart w msg.currentTarget).state)
    (h : processCreateMessage E loop msg w = .ok (child, w')) : R w.state w'.state := by
  have hsnap := processCreateMessage_snap' hs h
  by_cases he : child.error.isSome = true
  · refine contents_rel hR ?_ (hsnap.2 he)
    unfold processCreateMessage at h
    split at h
    · cases h
    · rename_i evm w2 hx
      have h1 := hF _ _ (processMessage_rel hR hF hs hl _ _ _ _ hx)
      have h2 := hF _ _ hst
      split at h
      · split at h
        · cases h
        · rename_i hr; cases h; rw [rollback_fork hr, h1, h2]
      · split at h
        · split at h
          · split at h
            · cases h
            · rename_i hr; cases h; rw [rollback_fork hr, h1, h2]
          · split at h
            · cases h
            · rename_i hr; cases h; rw [commit_fork hr, h1, h2]
        · simp only at h
          split at h
          · cases h
          · rename_i hr; cases h; rw [commit_fork hr]; simp [setCode, h1, h2]
  · unfold processCreateMessage at h
    split at h
    · cases h
    · rename_i evm w2 hx
      have h1 := processMessage_rel hR hF hs hl _ _ _ _ hx
      have hxs := (processMessage_snap' hs hx).1
      have hss := SameSnaps.trans hxs (createStart_snaps w msg.currentTarget)
      have h2 := hR.trans _ _ _ hst h1
      split at h
      · rename_i hh
        split at h <;> cases h
        exact absurd hh he
      · split at h
        · split at h
          · split at h <;> cases h
            simp at he
          · obtain ⟨w4, e, hc, hs4, _⟩ := commit_ok hss
            rw [e] at h; cases h
            exact hR.trans _ _ _ h2 (contents_rel hR (commit_fork e) hc)
        · rename_i g hd
          obtain ⟨hdep, -⟩ := depositCode_ok hd
          simp only at h
          have hss3 : SameSnaps { w2 with state := setCode w2.state msg.currentTarget evm.output } (beginTransaction w) :=
            ⟨by simpa [setCode] using hss.1, hss.2.1, by simpa [setCode] using hss.2.2⟩
          obtain ⟨w4, e, hc, hs4, _⟩ := commit_ok hss3
          rw [e] at h; cases h
          exact hR.trans _ _ _ (hR.trans _ _ _ h2 (hR.code _ _ _ hdep)) (contents_rel hR (commit_fork e) hc)

theorem processCreateMessage_rel (hR : StateClosed R) (hF : KeepsFork R) {E : Env} {loop : Loop} (hs : SnapLoop loop) (hl : RLoop R loop) :
    SubRelFresh R (processCreateMessage E loop) := fun _ w _ _ ht h => processCreateMessage_from hR hF hs hl (createStart_rel hR w _ ht) h

theorem processCreateMessage_free (hR : StateClosed R) (hN : ∀ s a, R s (incrementNonce s a)) (hF : KeepsFork R) {E : Env} {loop : Loop}
    (hs : SnapLoop loop) (hl : RLoop R loop) : SubRel R (processCreateMessage E loop) :=
  fun _ w _ _ h => processCreateMessage_from hR hF hs hl (createStart_free hR hN w _) h

theorem run_rel (hR : StateClosed R) (hF : KeepsFork R) (E : Env) : ∀ n, RLoop R (run E n) := by
  intro n
  induction n with
  | zero => intro m _; simp [run, RPost, Caught]
  | succ n ih =>
    intro m hs
    rw [run]; unfold loopBody
    by_cases hr : m.evm.running = true
    · simp only [hr, if_true]
      match hb : m.evm.code[m.evm.pc]? with
      | none => exact ⟨hR.refl _, id⟩
      | some b =>
        simp only
        match decodeOpIn m.world.state.fork b with
        | none => intro _; exact hR.refl _
        | some op =>
          simp only
          have h := step_rel hR (processMessage_rel hR hF (E := E) (run_snap E n) ih)
            (processCreateMessage_rel hR hF (E := E) (run_snap E n) ih)
            (processMessage_uncaught E _) (processCreateMessage_uncaught E _) (opStep_effect E _ _ op m hs)
          revert h
          match opStep E (processMessage E (run E n)) (processCreateMessage E (run E n)) op m with
          | .err e m' => exact id
          | .ok _ m' =>
            intro h
            have h2 := ih m' (h.2 hs)
            revert h2
            simp only
            match run E n m' with
            | .ok _ m2 => intro h2; exact ⟨hR.trans _ _ _ h.1 h2.1, fun hs => h2.2 (h.2 hs)⟩
            | .err e m2 => intro h2 hc; exact hR.trans _ _ _ h.1 (h2 hc)
    · simp only [hr, if_false, Bool.false_eq_true]
      exact ⟨hR.refl _, id⟩

theorem exec_rel (hR : StateClosed R) (hF : KeepsFork R) (E : Env) : RLoop R (exec E) := fun m hs => run_rel hR hF E _ m hs

theorem message_rel (hR : StateClosed R) {E : Env} {msg : Message} {w w' : World} {child : Evm}
    (h : processMessage E (exec E) msg w = .ok (child, w')) : R w.state w'.state :=
  (processMessage_rel hR.withFork (fun _ _ h => h.2) (exec_snap E) (exec_rel hR.withFork (fun _ _ h => h.2) E) _ _ _ _ h).1
theorem freshMessage_rel (hR : StateClosed R) {E : Env} {msg : Message} {w w' : World} {child : Evm}
    (ht : (getAccount w.state msg.currentTarget).nonce ≠ 2 ^ 64 - 1)
    (h : processCreateMessage E (exec E) msg w = .ok (child, w')) : R w.state w'.state :=
  (processCreateMessage_rel hR.withFork (fun _ _ h => h.2) (exec_snap E) (exec_rel hR.withFork (fun _ _ h => h.2) E) _ _ _ _ ht h).1
theorem createMessage_rel (hR : StateClosed R) (hN : ∀ s a, R s (incrementNonce s a)) {E : Env} {msg : Message} {w w' : World} {child : Evm}
    (h : processCreateMessage E (exec E) msg w = .ok (child, w')) : R w.state w'.state :=
  (processCreateMessage_free hR.withFork (fun s a => ⟨hN s a, by simp [incrementNonce]⟩) (fun _ _ h => h.2) (exec_snap E)
    (exec_rel hR.withFork (fun _ _ h => h.2) E) _ _ _ _ h).1

end

/-! ### instances -/

theorem fork_closed : StateClosed fun s s' => s'.fork = s.fork where
  contents := fun _ _ hf _ _ => hf
  trans := fun _ _ _ h h' => h'.trans h
  move := fun _ _ _ _ _ h => moveEther_fork h
  selfdestruct := fun _ _ _ _ h => (selfdestructState_rel h).fork
  nonce := fun _ _ _ => by simp [incrementNonce]
  storage := fun s s' a k v h => by unfold setStorage at h; split at h <;> cases h; rfl
  destroy := fun _ _ => rfl
  code := fun _ _ _ _ => by simp [setCode]
  touch := fun _ _ => by simp

theorem codes_increment (s : State) (a : Address) : (incrementNonce s a).fork = s.fork ∧ ∀ x, (getAccount (incrementNonce s a) x).code = (getAccount s x).code ∨
    Deployable s.fork (getAccount (incrementNonce s a) x).code := by
  refine ⟨by simp [incrementNonce], fun x => ?_⟩; left; unfold incrementNonce; rw [getAccount_modifyState']; split
  · rename_i h; subst h; rfl
  · rfl

/-- Every code was there before or is deployable. -/
theorem codes_closed : StateClosed fun s s' => s'.fork = s.fork ∧ ∀ a, (getAccount s' a).code = (getAccount s a).code ∨
    Deployable s.fork (getAccount s' a).code := by
  refine ⟨?_, ?_, ?_, ?_, ?_, ?_, ?_, ?_, ?_⟩
  · intro s s' hf h _; exact ⟨hf, fun a => by left; rw [getAccount_congr h]⟩
  · intro a b c h h'
    refine ⟨h'.1.trans h.1, fun x => ?_⟩
    rcases h'.2 x with e | e
    · rw [e]; exact h.2 x
    · rw [h.1] at e; exact .inr e
  · intro s s' a b v h; exact ⟨moveEther_fork h, fun x => .inl (moveEther_account h x).2⟩
  · intro s s' a b h; exact ⟨(selfdestructState_rel h).fork, fun x => .inl ((selfdestructState_rel h).account x).2⟩
  · intro s a _; exact codes_increment s a
  · intro s s' a k v h
    unfold setStorage at h; split at h <;> cases h; exact ⟨rfl, fun x => .inl rfl⟩
  · intro s a; exact ⟨rfl, fun x => .inl rfl⟩
  · intro s a c hc; refine ⟨by simp [setCode], fun x => ?_⟩; unfold setCode; rw [getAccount_modifyState']; split
    · exact .inr hc
    · exact .inl rfl
  · intro s a; exact ⟨by simp, fun x => by simp⟩

theorem nonces_increment (s : State) (a x : Address) : (getAccount s x).nonce ≤ (getAccount (incrementNonce s a) x).nonce := by
  unfold incrementNonce; rw [getAccount_modifyState']; split
  · rename_i h; subst h; exact Nat.le_succ _
  · exact Nat.le_refl _

/-- No nonce decreases. -/
theorem nonces_closed : StateClosed fun s s' => ∀ a, (getAccount s a).nonce ≤ (getAccount s' a).nonce := by
  refine ⟨?_, ?_, ?_, ?_, ?_, ?_, ?_, ?_, fun s a x => by simp⟩
  · intro s s' _ h _ a; rw [getAccount_congr h]; exact Nat.le_refl _
  · intro a b c h h' x; exact Nat.le_trans (h x) (h' x)
  · intro s s' a b v h x; exact Nat.le_of_eq (moveEther_account h x).1.symm
  · intro s s' a b h x; exact Nat.le_of_eq ((selfdestructState_rel h).account x).1.symm
  · intro s a _ x; exact nonces_increment s a x
  · intro s s' a k v h x
    unfold setStorage at h; split at h <;> cases h; exact Nat.le_refl _
  · intro s a x; exact Nat.le_refl _
  · intro s a c hc x; unfold setCode; rw [getAccount_modifyState']; split
    · rename_i h; subst h; exact Nat.le_refl _
    · exact Nat.le_refl _

end Verif
