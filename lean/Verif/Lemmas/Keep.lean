import Verif.Lemmas.StateRel
import Verif.Lemmas.RefundBound
/-! What every execution keeps, in every fork: the total ether does not grow, before paris no account vanishes, and before istanbul the
refund counter is never negative. -/
namespace Verif

/-- The total of all balances does not grow. -/
def NoMint (s s' : State) : Prop :=
  s.mainTrie.default = none → s'.mainTrie.default = none ∧ supply s' ≤ supply s

theorem noMint_modify (s : State) (a : Address) (f : Account → Account) (hf : ∀ x, (f x).balance = x.balance) : NoMint s (modifyState' s a f) := by
  intro hd
  refine ⟨(modifyState'_default _ _ _).trans hd, ?_⟩
  have := supply_modifyState' hd a f
  rw [hf] at this
  omega

theorem noMint_state : StateClosed NoMint where
  contents := fun s s' _ h _ hd => ⟨by rw [h]; exact hd, by unfold supply; rw [h]; exact Nat.le_refl _⟩
  trans := fun a b c h h' hd => ⟨(h' (h hd).1).1, Nat.le_trans (h' (h hd).1).2 (h hd).2⟩
  move := fun s s' a b v h hd => ⟨(moveEther_default h).trans hd, Nat.le_of_eq (supply_moveEther hd h)⟩
  selfdestruct := fun s s' a b h hd => ⟨by
      have hb : ∀ s a v, s.mainTrie.default = none → (setAccountBalance s a v).mainTrie.default = none :=
        fun s a v hd => (modifyState'_default _ _ _).trans hd
      exact selfdestruct_of (R := fun s s' => s.mainTrie.default = none → s'.mainTrie.default = none)
        (fun s s' a b v h hd => (moveEther_default h).trans hd) hb (fun a b c h h' hd => h' (h hd)) s s' a b h hd,
    (selfdestructState_rel h).supply hd⟩
  nonce := fun s a _ => noMint_modify s a _ fun _ => rfl
  storage := fun s s' a k v h hd => by
    unfold setStorage at h; split at h <;> cases h
    exact ⟨hd, Nat.le_refl _⟩
  destroy := fun s a hd => ⟨hd, Nat.le_refl _⟩
  code := fun s a c _ => noMint_modify s a _ fun _ => rfl
  touch := fun s a hd => ⟨by
    rcases touchIn_cases s a with e | ⟨-, -, e⟩ <;> rw [e]
    · exact hd
    · simpa [setAccount] using hd, Nat.le_of_eq (supply_touchIn hd a)⟩

/-- Before paris no account vanishes in the course of an execution. -/
def Stays (s s' : State) : Prop :=
  s'.fork = s.fork ∧ (s.fork.since .paris = false → ∀ a, getAccountOptional s a ≠ none → getAccountOptional s' a ≠ none)

theorem stays_modify (s : State) (a : Address) (f : Account → Account) : Stays s (modifyState' s a f) := by
  refine ⟨by simp, fun hp x hx => ?_⟩
  rw [getAccountOptional_modifyState']
  split
  · simp [normAccount, hp]
  · exact hx

theorem Stays.trans {a b c : State} (h : Stays a b) (h' : Stays b c) : Stays a c :=
  ⟨h'.1.trans h.1, fun hp x hx => h'.2 (by rw [h.1]; exact hp) x (h.2 hp x hx)⟩

theorem stays_move {s s' : State} {a b : Address} {v : Word} (h : moveEther s a b v = .ok s') : Stays s s' := by
  unfold moveEther at h
  split at h
  · cases h
  · rename_i s1 h1
    rw [modifyState_eq] at h h1
    split at h1 <;> cases h1
    split at h <;> cases h
    exact (stays_modify _ _ _).trans (stays_modify _ _ _)

theorem stays_closed : StateClosed Stays where
  contents := fun s s' hf h _ => ⟨hf, fun _ a ha => by unfold getAccountOptional at *; rw [h]; exact ha⟩
  trans := fun _ _ _ => Stays.trans
  move := fun _ _ _ _ _ => stays_move
  selfdestruct := selfdestruct_of (fun _ _ _ _ _ => stays_move) (fun _ _ _ => stays_modify _ _ _) fun _ _ _ => Stays.trans
  nonce := fun _ _ _ => stays_modify _ _ _
  storage := fun s s' a k v h => by unfold setStorage at h; split at h <;> cases h; exact ⟨rfl, fun _ _ h => h⟩
  destroy := fun _ _ => ⟨rfl, fun _ _ h => h⟩
  code := fun _ _ _ _ => stays_modify _ _ _
  touch := fun s a => ⟨by simp, fun _ x hx => by
    rcases touchIn_cases s a with e | ⟨-, -, e⟩ <;> rw [e]
    · exact hx
    · rw [getAccountOptional_setAccount]; split <;> simp [hx]⟩

/-- Before paris the target of a message exists. -/
theorem touchIn_exists {s : State} (hp : s.fork.since .paris = false) (a : Address) : getAccountOptional (touchIn s a) a ≠ none := by
  unfold touchIn touchAccount accountExists
  rw [hp]
  simp only [Bool.false_eq_true, if_false]
  split
  · rename_i h; exact Option.isSome_iff_ne_none.mp h
  · rw [getAccountOptional_setAccount]; simp

/-! ### the refund counter before istanbul -/

theorem sstoreRefund_nonneg {f : Fork} (hf : f.since .istanbul = false) (orig cur new : Word) : 0 ≤ sstoreRefund f orig cur new := by
  have h := sstoreRefund_ge f orig cur new
  have h0 : clearUnit f = 0 := by
    have : ∀ f : Fork, f.since .istanbul = false → clearUnit f = 0 := by intro f; cases f <;> decide
    exact this _ hf
  rw [h0] at h; omega

def SubPos (pm : Sub) : Prop := ∀ msg w child w', pm msg w = .ok (child, w') → w.state.fork.since .istanbul = false →
  child.error.isSome = false → 0 ≤ child.refundCounter

def PosPost (m : Mach) : Res Unit → Prop
  | .ok _ m' => (m.world.state.fork.since .istanbul = false → m.evm.refundCounter ≤ m'.evm.refundCounter) ∧
      (m.evm.stack.length ≤ 1024 → m'.evm.stack.length ≤ 1024)
  | .err _ _ => True

theorem step_pos {pm pcm : Sub} (hpm : SubPos pm) (hpcm : SubPos pcm)
    {m : Mach} {r : Res Unit} {k : Kind} (h : OpEffect k pm pcm m r) : PosPost m r := by
  cases h with
  | ok m' h hk strict => exact ⟨fun _ => by rw [h.refund]; exact Int.le_refl _, h.stack⟩
  | err e m' h he => trivial
  | sstore hk m1 key new orig s' h hg =>
    exact ⟨fun hf => by have := sstoreRefund_nonneg hf orig (getStorage m.world.state m.self key) new; simp only; omega, h.stack⟩
  | tstore hk m1 key new h hg => exact ⟨fun _ => by simp only [h.refund]; exact Int.le_refl _, h.stack⟩
  | log hk m1 topics data h hg => exact ⟨fun _ => by simp only [h.refund]; exact Int.le_refl _, h.stack⟩
  | selfdestruct hk m1 b s1 h hg hs hrun =>
    exact ⟨fun _ => by have := sdRefund_nonneg m; simp only; omega, h.stack⟩
  | collision hk m1 a h hg => exact ⟨fun _ => by simp only [h.refund]; exact Int.le_refl _, h.stack⟩
  | createErr hk m1 msg e w m' h hsub hw => trivial
  | create hk m1 msg child w m2 h hsub hinc =>
    refine ⟨fun hf => ?_, fun hs => hinc.frame.stack (h.frame.stack hs)⟩
    have h4 := h.refund
    cases he : child.error.isSome with
    | true => have := (hinc.onError he).2.1; omega
    | false =>
      have := (hinc.onSuccess he).2.1
      have := hpcm _ _ _ _ hsub (by rw [h.world]; simpa [incrementNonce] using hf) he
      omega
  | callErr hk m1 msg e w m' h hsub hw => trivial
  | call hk m1 msg child w m2 h hsub hinc =>
    refine ⟨fun hf => ?_, fun hs => hinc.frame.stack (h.locals.stack hs)⟩
    have h4 := h.locals.refund
    cases he : child.error.isSome with
    | true => have := (hinc.onError he).2.1; omega
    | false =>
      have := (hinc.onSuccess he).2.1
      have := hpm _ _ _ _ hsub (by rw [h.locals.world]; exact hf) he
      omega
  | callOverflow hk m1 msg child w m' h hsub hlen => trivial

def PosLoop (loop : Loop) : Prop := ∀ m, m.evm.stack.length ≤ 1024 → PosPost m (loop m)

theorem executeCode_pos {E : Env} {loop : Loop} (hl : PosLoop loop) {msg : Message} {w w2 : World} {evm : Evm}
    (h : executeCode E loop msg w = .ok (evm, w2)) (hf : w.state.fork.since .istanbul = false) (he : evm.error.isSome = false) :
    0 ≤ evm.refundCounter := by
  unfold executeCode at h
  simp only at h
  have key : ∀ r : Res Unit, PosPost ⟨initEvm msg, w⟩ r → catchFrame r = .ok (evm, w2) → 0 ≤ evm.refundCounter := by
    intro r hr hc
    match r with
    | .ok _ m' => cases hc; exact hr.1 hf
    | .err (.halt x) m' => cases hc; simp at he
    | .err .revert m' => cases hc; simp at he
    | .err (.crash c) m' => cases hc
    | .err .outOfFuel m' => cases hc
  match hpre : precompileOf E w.state.fork msg with
  | some p =>
    simp only [hpre] at h
    split at h
    · cases h; exact Int.le_refl _
    · have hp : Pres p := by
        unfold precompileOf at hpre
        split at hpre
        · cases hpre
        · exact pres_precompile _ _ _ _ hpre
      refine key _ ?_ h
      have := hp.run ⟨initEvm msg, w⟩
      match hr : p ⟨initEvm msg, w⟩ with
      | .ok _ m' =>
        rw [hr] at this
        have hq : m'.evm.refundCounter = (initEvm msg).refundCounter := this.refund
        exact ⟨fun _ => by rw [hq]; exact Int.le_refl _, this.stack⟩
      | .err e m' => trivial
  | none => simp only [hpre] at h; exact key _ (hl _ (Nat.zero_le _)) h

theorem processMessage_pos {E : Env} {loop : Loop} (hl : PosLoop loop) : SubPos (processMessage E loop) := by
  intro msg w child w' h hf he
  unfold processMessage at h
  split at h
  · cases h
  · simp only at h
    split at h
    · cases h
    · rename_i s hst
      have h1 : s.fork = w.state.fork := by
        split at hst
        · rw [moveEther_fork hst, touchIn_fork]; rfl
        · cases hst; rw [touchIn_fork]; rfl
      split at h
      · cases h
      · rename_i hx
        split at h
        · cases h
        · cases h; exact executeCode_pos hl hx (by show s.fork.since _ = _; rw [h1]; exact hf) he

theorem processCreateMessage_pos {E : Env} {loop : Loop} (hl : PosLoop loop) : SubPos (processCreateMessage E loop) := by
  intro msg w child w' h hf he
  unfold processCreateMessage at h
  split at h
  · cases h
  · rename_i hx
    have hx := processMessage_pos hl _ _ _ _ hx (by rw [show (createStart w msg.currentTarget).state.fork = w.state.fork from
      (createStart_snaps w msg.currentTarget).2.2]; exact hf)
    split at h
    · split at h
      · cases h
      · cases h; exact hx he
    · rename_i hne
      split at h
      · split at h
        · split at h
          · cases h
          · cases h; simp at he
        · split at h
          · cases h
          · cases h; exact hx he
      · simp only at h
        split at h
        · cases h
        · cases h
          exact hx (by simpa using hne)

theorem run_pos (E : Env) : ∀ n, PosLoop (run E n) := by
  intro n
  induction n with
  | zero => intro m _; trivial
  | succ n ih =>
    intro m hs
    rw [run]; unfold loopBody
    by_cases hr : m.evm.running = true
    · simp only [hr, if_true]
      match hb : m.evm.code[m.evm.pc]? with
      | none => exact ⟨fun _ => Int.le_refl _, id⟩
      | some b =>
        simp only
        match decodeOpIn m.world.state.fork b with
        | none => trivial
        | some op =>
          simp only
          have h := step_pos (processMessage_pos (E := E) ih) (processCreateMessage_pos (E := E) ih) (opStep_effect E _ _ op m hs)
          have hfk := step_rel fork_closed (processMessage_rel fork_closed (fun _ _ h => h) (E := E) (run_snap E n) (run_rel fork_closed (fun _ _ h => h) E n))
            (processCreateMessage_rel fork_closed (fun _ _ h => h) (E := E) (run_snap E n) (run_rel fork_closed (fun _ _ h => h) E n))
            (processMessage_uncaught E _) (processCreateMessage_uncaught E _) (opStep_effect E _ _ op m hs)
          match hs' : opStep E (processMessage E (run E n)) (processCreateMessage E (run E n)) op m with
          | .err e m' => trivial
          | .ok _ m' =>
            rw [hs'] at h hfk
            have h2 := ih m' (h.2 hs)
            match hr2 : run E n m' with
            | .err e m2 => simp only [hr2]; trivial
            | .ok _ m2 =>
              rw [hr2] at h2
              simp only [hr2]
              exact ⟨fun hf => Int.le_trans (h.1 hf) (h2.1 (by rw [hfk.1]; exact hf)), fun hs => h2.2 (h.2 hs)⟩
    · simp only [hr, if_false, Bool.false_eq_true]
      exact ⟨fun _ => Int.le_refl _, id⟩

theorem exec_pos (E : Env) : PosLoop (exec E) := fun m hs => run_pos E _ m hs

/-! ### codes and one instruction -/

/-- An instruction that starts no frame changes no code. -/
theorem step_codes {E : Env} {pm pcm : Sub} {op : Op} {m m' : Mach} (hk : kindOf op ≠ .call ∧ kindOf op ≠ .create)
    (hs : m.evm.stack.length ≤ 1024) (h : opStep E pm pcm op m = .ok () m') (a : Address) :
    (getAccount m'.world.state a).code = (getAccount m.world.state a).code := by
  have he := opStep_effect E pm pcm op m hs
  rw [h] at he
  cases he with
  | ok m' h hk strict => rw [h.world]
  | sstore hk m1 key new orig s' h hg _ _ _ hset => unfold setStorage at hset; split at hset <;> cases hset; rfl
  | tstore hk m1 key new h hg => rfl
  | log hk m1 topics data hl hg => simp only [hl.world]
  | selfdestruct hk m1 b s1 hl hg _ _ hmove => exact ((selfdestructState_rel hmove).account a).2
  | collision hk' => exact absurd hk' hk.2
  | create hk' => exact absurd hk' hk.2
  | call hk' => exact absurd hk' hk.1

end Verif
