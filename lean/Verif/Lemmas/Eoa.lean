import Verif.Lemmas.AllForks
import Verif.Lemmas.TxSeq
/-!
Accounts without code that have sent a transaction, in the forks before prague: no execution gives them code, lowers their nonce
or deletes them. Unlike the invariants of `Exec.lean` this does not need the nonce that contracts start with since spurious_dragon.
-/
namespace Verif
open Spec

/-- The account has no code and has sent a transaction. -/
def Eoa (s : State) (a : Address) : Prop := (getAccount s a).code = [] ∧ (getAccount s a).nonce ≠ 0

theorem Eoa.congr {s s' : State} {a : Address} (h : Eoa s a) (hc : (getAccount s' a).code = (getAccount s a).code)
    (hn : (getAccount s a).nonce ≤ (getAccount s' a).nonce) : Eoa s' a :=
  ⟨hc.trans h.1, fun e => h.2 (by omega)⟩

theorem Eoa.contents {s s' : State} {a : Address} (h : Eoa s a) (hm : s'.mainTrie = s.mainTrie) : Eoa s' a := by
  unfold Eoa; rw [getAccount_congr hm]; exact h

theorem Eoa.nonceUp {s : State} {a : Address} (h : Eoa s a) (x : Address) : Eoa (incrementNonce s x) a := by
  refine h.congr ?_ (nonces_increment s x a)
  unfold incrementNonce; rw [getAccount_modifyState']; split
  · rename_i h; subst h; rfl
  · rfl

theorem Eoa.code {s : State} {a : Address} (h : Eoa s a) {x : Address} (hx : x ≠ a) (c : Bytes) : Eoa (setCode s x c) a := by
  have : getAccount (setCode s x c) a = getAccount s a := by
    unfold setCode; rw [getAccount_modifyState', if_neg hx]
  exact ⟨by rw [this]; exact h.1, by rw [this]; exact h.2⟩

section
variable (a : Address)

/-- What a child frame must not do to the account. -/
def SparesSub (ok : Message → World → Prop) (pm : Sub) : Prop :=
  ∀ msg w child w', pm msg w = .ok (child, w') → ok msg w → Eoa w.state a → a ∉ msg.parentsToDelete →
    Eoa w'.state a ∧ (child.error.isSome = false → a ∉ child.accountsToDelete)

def OkCall (msg : Message) (_ : World) : Prop := msg.currentTarget ≠ a ∨ msg.code = []
def OkCreate (msg : Message) (_ : World) : Prop := msg.currentTarget ≠ a

def SparesPost (m : Mach) : Res Unit → Prop
  | .ok _ m' => Eoa m'.world.state a ∧ a ∉ m'.evm.accountsToDelete ∧ m'.evm.message = m.evm.message ∧ m'.evm.code = m.evm.code ∧
      (m.evm.stack.length ≤ 1024 → m'.evm.stack.length ≤ 1024)
  | .err _ _ => True

def SparesLoop (loop : Loop) : Prop := ∀ m, m.evm.stack.length ≤ 1024 → (m.self ≠ a ∨ m.evm.code = []) → Eoa m.world.state a →
  a ∉ m.evm.accountsToDelete → a ∉ m.evm.message.parentsToDelete → SparesPost a m (loop m)

variable {a}

theorem spares_step {pm pcm : Sub} (hpm : SparesSub a (OkCall a) pm) (hpcm : SparesSub a (OkCreate a) pcm) {m : Mach} {r : Res Unit} {k : Kind}
    (h : OpEffect k pm pcm m r) (hself : m.self ≠ a) (he : Eoa m.world.state a) (hd : a ∉ m.evm.accountsToDelete)
    (hp : a ∉ m.evm.message.parentsToDelete) : SparesPost a m r := by
  have hbase : a ∉ m.sdBase := by
    unfold Mach.sdBase; split
    · exact hd
    · rw [mem_setUpdate]; exact fun h => h.elim hd hp
  cases h with
  | ok m' h hk strict => exact ⟨by rw [h.world]; exact he, by rw [h.deleted]; exact hd, h.message, h.code, h.stack⟩
  | err e m' h he => trivial
  | sstore hk m1 key new orig s' h hg _ _ _ hset =>
    refine ⟨?_, by rw [show _ = m1.evm.accountsToDelete from rfl, h.deleted]; exact hd, h.message, h.code, h.stack⟩
    unfold setStorage at hset; split at hset <;> cases hset; exact he
  | tstore hk m1 key new h hg => exact ⟨he, by rw [show _ = m1.evm.accountsToDelete from rfl, h.deleted]; exact hd, h.message, h.code, h.stack⟩
  | log hk m1 topics data h hg =>
    exact ⟨by rw [show _ = m1.world.state from rfl, h.world]; exact he, by rw [show _ = m1.evm.accountsToDelete from rfl, h.deleted]; exact hd, h.message, h.code, h.stack⟩
  | selfdestruct hk m1 b s1 h hg _ _ hmove =>
    refine ⟨he.congr ((selfdestructState_rel hmove).account a).2 (Nat.le_of_eq ((selfdestructState_rel hmove).account a).1.symm), ?_, h.message, h.code, h.stack⟩
    show a ∉ if _ then _ else _
    split
    · rw [mem_setAdd]; exact fun h => h.elim hbase fun e => hself e.symm
    · exact hbase
  | collision hk m1 x h hg =>
    exact ⟨he.nonceUp _, by rw [show _ = m1.evm.accountsToDelete from rfl, h.deleted]; exact hd, h.message, h.code, h.stack⟩
  | createErr hk m1 msg e w m' h hsub hw => trivial
  | create hk m1 msg child w m2 h hsub hinc =>
    have hne : msg.currentTarget ≠ a := by
      intro e
      have := h.fresh.1
      rw [e] at this
      exact absurd (owned_iff.mpr (.inl he.2)) (by unfold Owned; rw [this]; simp)
    obtain ⟨h1, h2⟩ := hpcm msg m1.world child w hsub hne (by rw [h.world]; exact he.nonceUp _)
      (by rw [h.parents, mem_setUpdate, h.frame.message, h.deleted]; exact fun h => h.elim hp hd)
    refine ⟨by rw [hinc.world]; exact h1, ?_, hinc.frame.message.trans h.frame.message, hinc.frame.code.trans h.frame.code,
      fun hs => hinc.frame.stack (h.frame.stack hs)⟩
    by_cases hce : child.error.isSome = true
    · rw [(hinc.onError hce).2.2.1, h.deleted]; exact hd
    · have hce : child.error.isSome = false := by simpa using hce
      rw [(hinc.onSuccess hce).2.2.1, mem_setUpdate, h.deleted]; exact fun h => h.elim hd (h2 hce)
  | callErr hk m1 msg e w m' h hsub hw => trivial
  | call hk m1 msg child w m2 h hsub hinc =>
    have hok : OkCall a msg m1.world := by
      by_cases hc : msg.code = []
      · exact .inr hc
      · refine .inl fun e => ?_
        rcases h.codeOwner hc with h1 | h1
        · exact hself (h1.symm.trans e)
        · rw [e] at h1; exact h1 he.1
    obtain ⟨h1, h2⟩ := hpm msg m1.world child w hsub hok (by rw [h.locals.world]; exact he)
      (by rw [h.parents, mem_setUpdate, h.locals.message, h.locals.deleted]; exact fun h => h.elim hp hd)
    refine ⟨by rw [hinc.world]; exact h1, ?_, hinc.frame.message.trans h.locals.message, hinc.frame.code.trans h.locals.code,
      fun hs => hinc.frame.stack (h.locals.stack hs)⟩
    by_cases hce : child.error.isSome = true
    · rw [(hinc.onError hce).2.2.1, h.locals.deleted]; exact hd
    · have hce : child.error.isSome = false := by simpa using hce
      rw [(hinc.onSuccess hce).2.2.1, mem_setUpdate, h.locals.deleted]; exact fun h => h.elim hd (h2 hce)
  | callOverflow hk m1 msg child w m' h hsub hlen => trivial

theorem spares_executeCode {E : Env} {loop : Loop} {msg : Message} {w : World} (hl : SparesLoop a loop) {evm : Evm} {w2 : World}
    (h : executeCode E loop msg w = .ok (evm, w2)) (hok : msg.currentTarget ≠ a ∨ msg.code = []) (he : Eoa w.state a)
    (hp : a ∉ msg.parentsToDelete) (hne : evm.error.isSome = false) : Eoa w2.state a ∧ a ∉ evm.accountsToDelete := by
  unfold executeCode at h
  simp only at h
  have key : ∀ r : Res Unit, SparesPost a ⟨initEvm msg, w⟩ r → catchFrame r = .ok (evm, w2) → Eoa w2.state a ∧ a ∉ evm.accountsToDelete := by
    intro r hr hc
    match r with
    | .ok _ m' => cases hc; exact ⟨hr.1, hr.2.1⟩
    | .err (.halt x) m' => cases hc; simp at hne
    | .err .revert m' => cases hc; simp at hne
    | .err (.crash c) m' => cases hc
    | .err .outOfFuel m' => cases hc
  have h0 : a ∉ (initEvm msg).accountsToDelete := by simp [initEvm]
  match hpre : precompileOf E w.state.fork msg with
  | some p =>
    simp only [hpre] at h
    split at h
    · cases h; exact ⟨he, h0⟩
    · have hp : Pres p := by
        unfold precompileOf at hpre
        split at hpre
        · cases hpre
        · exact pres_precompile _ _ _ _ hpre
      refine key _ ?_ h
      have := hp.run ⟨initEvm msg, w⟩
      revert this
      match p ⟨initEvm msg, w⟩ with
      | .ok _ m' => intro h; have hw : m'.world = w := h.world; have hd : m'.evm.accountsToDelete = (initEvm msg).accountsToDelete := h.deleted; exact ⟨by rw [hw]; exact he, by rw [hd]; exact h0, h.message, h.code, h.stack⟩
      | .err e m' => intro h; trivial
  | none => simp only [hpre] at h; exact key _ (hl ⟨initEvm msg, w⟩ (Nat.zero_le _) hok he h0 hp) h

theorem spares_processMessage {E : Env} {loop : Loop} (hs : SnapLoop loop) (hl : SparesLoop a loop) :
    SparesSub a (OkCall a) (processMessage E loop) := by
  intro msg w child w' h hok he hp
  have hsnap := processMessage_snap' hs h
  by_cases herr : child.error.isSome = true
  · exact ⟨he.contents (hsnap.2 herr).1, fun h => by rw [herr] at h; cases h⟩
  · have herr' : child.error.isSome = false := by simpa using herr
    unfold processMessage at h
    split at h
    · cases h
    · simp only at h
      split at h
      · cases h
      · rename_i s hst
        have h0 : Eoa (touchIn (beginTransaction w).state msg.currentTarget) a := by
          unfold Eoa; rw [show getAccount (touchIn (beginTransaction w).state msg.currentTarget) a = getAccount w.state a by simp; rfl]
          exact he
        have h1 : Eoa s a := by
          split at hst
          · exact h0.congr (moveEther_account hst a).2 (Nat.le_of_eq (moveEther_account hst a).1.symm)
          · cases hst; exact h0
        have hsn : s.snapshots = (beginTransaction w).state.snapshots ∧ s.fork = (beginTransaction w).state.fork := by
          split at hst
          · exact ⟨(moveEther_snaps hst).1.trans (touchIn_snapshots _ _), (moveEther_fork hst).trans (touchIn_fork _ _)⟩
          · cases hst; exact ⟨touchIn_snapshots _ _, touchIn_fork _ _⟩
        split at h
        · cases h
        · rename_i evm w2 hx
          have hxs := executeCode_snap (hs _ (Nat.zero_le _)) hx
          have hss : SameSnaps w2 (beginTransaction w) := ⟨hxs.1.trans hsn.1, hxs.2.1, hxs.2.2.trans hsn.2⟩
          split at h
          · cases h
          · rename_i w3 hr
            cases h
            rw [if_neg herr] at hr
            obtain ⟨w4, e, hc, -, -⟩ := commit_ok hss
            rw [e] at hr; cases hr
            obtain ⟨g1, g2⟩ := spares_executeCode hl hx hok h1 hp herr'
            exact ⟨g1.contents hc.1, fun _ => g2⟩

theorem eoa_createStart {w : World} {t : Address} (he : Eoa w.state a) : Eoa (createStart w t).state a := by
  have h1 : Eoa (markAccountCreated (destroyStorage (beginTransaction w).state t) t) a := he.contents rfl
  show Eoa (startNonce _ t) a
  unfold startNonce
  split
  · exact h1.nonceUp _
  · exact h1

theorem spares_processCreateMessage {E : Env} {loop : Loop} (hs : SnapLoop loop) (hl : SparesLoop a loop) :
    SparesSub a (OkCreate a) (processCreateMessage E loop) := by
  intro msg w child w' h hok he hp
  have hsnap := processCreateMessage_snap' hs h
  by_cases herr : child.error.isSome = true
  · exact ⟨he.contents (hsnap.2 herr).1, fun h => by rw [herr] at h; cases h⟩
  · unfold processCreateMessage at h
    split at h
    · cases h
    · rename_i evm w2 hx
      obtain ⟨h1, h2⟩ := spares_processMessage hs hl _ _ _ _ hx (.inl hok) (eoa_createStart he) hp
      have hxs := (processMessage_snap' hs hx).1
      have hss := SameSnaps.trans hxs (createStart_snaps w msg.currentTarget)
      split at h
      · rename_i hh
        split at h <;> cases h
        exact absurd hh herr
      · rename_i hno
        have h2 := h2 (by simpa using hno)
        split at h
        · split at h
          · split at h <;> cases h
            simp at herr
          · obtain ⟨w4, e, hc, hs4, _⟩ := commit_ok hss
            rw [e] at h; cases h
            exact ⟨h1.contents hc.1, fun _ => h2⟩
        · rename_i g hd
          simp only at h
          have hss3 : SameSnaps { w2 with state := setCode w2.state msg.currentTarget evm.output } (beginTransaction w) :=
            ⟨by simpa [setCode] using hss.1, hss.2.1, by simpa [setCode] using hss.2.2⟩
          obtain ⟨w4, e, hc, hs4, _⟩ := commit_ok hss3
          rw [e] at h; cases h
          exact ⟨(h1.code hok _).contents hc.1, fun _ => h2⟩

theorem spares_run (E : Env) : ∀ n, SparesLoop a (run E n) := by
  intro n
  induction n with
  | zero => intro m _ _ _ _ _; simp [run, SparesPost]
  | succ n ih =>
    intro m hs hself he hd hp
    rw [run]; unfold loopBody
    by_cases hr : m.evm.running = true
    · simp only [hr, if_true]
      match hb : m.evm.code[m.evm.pc]? with
      | none => exact ⟨he, hd, rfl, rfl, id⟩
      | some b =>
        simp only
        have hself : m.self ≠ a := hself.resolve_right fun e => by rw [e] at hb; cases hb
        match decodeOpIn m.world.state.fork b with
        | none => trivial
        | some op =>
          simp only
          have h := spares_step (spares_processMessage (E := E) (run_snap E n) ih) (spares_processCreateMessage (E := E) (run_snap E n) ih)
            (opStep_effect E _ _ op m hs) hself he hd hp
          revert h
          match opStep E (processMessage E (run E n)) (processCreateMessage E (run E n)) op m with
          | .err e m' => intro _; trivial
          | .ok _ m' =>
            intro h
            obtain ⟨h1, h2, h3, h4, h5⟩ := h
            have h2 := ih m' (h5 hs) (.inl (by unfold Mach.self; rw [h3]; exact hself)) h1 h2 (by rw [h3]; exact hp)
            revert h2
            simp only
            match run E n m' with
            | .ok _ m2 => intro g; exact ⟨g.1, g.2.1, g.2.2.1.trans h3, g.2.2.2.1.trans h4, fun hs => g.2.2.2.2 (h5 hs)⟩
            | .err e m2 => intro _; trivial
    · simp only [hr, if_false, Bool.false_eq_true]
      exact ⟨he, hd, rfl, rfl, id⟩

theorem spares_exec (E : Env) : SparesLoop a (exec E) := fun m hs => spares_run E _ m hs

end

/-- **Top level.** Before prague, a top-level message neither deletes such an account nor gives it code. -/
theorem spares_top {E : Env} {msg : Message} {w w' : World} {out : MessageCallOutput} (ht : TopMessage msg w)
    (hf : w.state.fork.since .prague = false) (h : processMessageCall E msg w = .ok (out, w')) {a : Address} (he : Eoa w.state a) :
    Eoa w'.state a ∧ a ∉ out.accountsToDelete := by
  have hout : ∀ {r : Word} {c : Evm} {o : MessageCallOutput}, messageCallOutput r c = .ok o → (c.error.isSome = false → a ∉ c.accountsToDelete) →
      a ∉ o.accountsToDelete := by
    intro r c o h hc
    unfold messageCallOutput at h
    split at h
    · cases h; simp
    · rename_i hne
      split at h
      · cases h
      · split at h
        · cases h; exact hc (by simpa using hne)
        · cases h
  unfold processMessageCall at h
  rw [processMessageCallWith_eq] at h
  split at h
  · cases h
  · rename_i r msg1 s1 ha
    have hau : msg1 = msg ∧ s1 = w.state := by
      unfold authorized at ha
      rw [hf] at ha
      simp only [Bool.false_eq_true, false_and, if_false] at ha
      split at ha <;> cases ha <;> exact ⟨rfl, rfl⟩
    obtain ⟨rfl, rfl⟩ := hau
    split at h
    · split at h
      · cases h; exact ⟨he, by simp⟩
      · rename_i hcol
        split at h
        · cases h
        · rename_i evm w1 hx
          have hne : msg1.currentTarget ≠ a := by
            intro e
            have := owned_iff.mpr (.inl he.2)
            unfold Owned at this
            rw [e, this] at hcol
            simp at hcol
          obtain ⟨h1, h2⟩ := spares_processCreateMessage (exec_snap E) (spares_exec E) _ _ _ _ hx hne he (by rw [ht.parents]; simp)
          split at h
          · cases h
          · rename_i o ho; cases h
            exact ⟨h1, hout ho h2⟩
    · rename_i htar
      have hres : resolveDelegation msg1 w.state = msg1 := by unfold resolveDelegation; rw [hf]; rfl
      rw [hres] at h
      split at h
      · cases h
      · rename_i evm w1 hx
        obtain ⟨t, ht'⟩ := Option.ne_none_iff_exists'.mp htar
        obtain ⟨e1, -, e3⟩ := ht.call t ht'
        have hok : OkCall a msg1 w := by
          by_cases e : msg1.currentTarget = a
          · refine .inr ?_
            rw [e3, ← e1, e]; exact he.1
          · exact .inl e
        obtain ⟨h1, h2⟩ := spares_processMessage (exec_snap E) (spares_exec E) _ _ _ _ hx hok he (by rw [ht.parents]; simp)
        split at h
        · cases h
        · rename_i o ho; cases h
          exact ⟨h1, hout ho h2⟩

end Verif
