import Verif.Spec.Passive
import Verif.Lemmas.Eoa
/-! Accounts with passive code keep what they have, whatever others execute. All forks. -/
namespace Verif
open Spec

section
variable {a : Address}

theorem Spec.Kept.refl (s : State) : Kept a s s := ⟨Nat.le_refl _, rfl, rfl, fun _ => rfl⟩
theorem Spec.Kept.trans {s s1 s2 : State} (h : Kept a s s1) (h' : Kept a s1 s2) : Kept a s s2 :=
  ⟨Nat.le_trans h.balance h'.balance, h'.nonce.trans h.nonce, h'.code.trans h.code, fun k => (h'.storage k).trans (h.storage k)⟩

theorem Spec.Settled.owned {s : State} (h : Settled s a) : Owned s a := owned_iff.mpr h.used

theorem Spec.Settled.kept {s s' : State} (h : Settled s a) (hk : Kept a s s') : Settled s' a :=
  ⟨by rw [hk.code]; exact h.passive, by rw [hk.code, hk.nonce]; exact h.used⟩

theorem kept_same {s s' : State} (h1 : s'.mainTrie = s.mainTrie) (h2 : s'.storageTries = s.storageTries) : Kept a s s' := by
  refine ⟨?_, ?_, ?_, fun k => ?_⟩
  · exact Nat.le_of_eq (by rw [getAccount_congr h1])
  · rw [getAccount_congr h1]
  · rw [getAccount_congr h1]
  · unfold getStorage; rw [h2]

theorem kept_account {s s' : State} (h1 : getAccount s' a = getAccount s a) (h2 : ∀ k, getStorage s' a k = getStorage s a k) : Kept a s s' :=
  ⟨Nat.le_of_eq (by rw [h1]), by rw [h1], by rw [h1], h2⟩

theorem kept_other {s : State} {x : Address} (f : Account → Account) (hx : x ≠ a) : Kept a s (modifyState' s x f) :=
  kept_account (by rw [getAccount_modifyState', if_neg hx]) fun k => by rw [getStorage_modifyState', if_neg fun h => hx h.1]

theorem kept_up {s : State} (ho : Owned s a) (x : Address) (f : Account → Account)
    (hf : x = a → (f (getAccount s a)).nonce = (getAccount s a).nonce ∧ (f (getAccount s a)).code = (getAccount s a).code ∧
      (getAccount s a).balance.toNat ≤ (f (getAccount s a)).balance.toNat) : Kept a s (modifyState' s x f) := by
  by_cases hx : x = a
  · obtain ⟨h1, h2, h3⟩ := hf hx
    subst hx
    have hg : getAccount (modifyState' s x f) x = f (getAccount s x) := by rw [getAccount_modifyState', if_pos rfl]
    refine ⟨by rw [hg]; exact h3, by rw [hg]; exact h1, by rw [hg]; exact h2, fun k => ?_⟩
    rw [getStorage_modifyState']
    split
    · rename_i h
      rw [owned_iff, ← h1, ← h2, h.2.2] at ho
      simp [emptyAccount] at ho
    · rfl
  · exact kept_other f hx

theorem kept_setBalance {s : State} (x : Address) (v : Word) (hx : x ≠ a) : Kept a s (setAccountBalance s x v) := kept_other _ hx

theorem kept_move {s s' : State} (ho : Owned s a) {x y : Address} {v : Word} (hx : x ≠ a) (h : moveEther s x y v = .ok s') : Kept a s s' := by
  obtain ⟨-, s1, rfl, hlt, rfl⟩ := moveEther_ok h
  have h1 : Kept a s (modifyState' s x fun acc => { acc with balance := acc.balance - v }) := kept_other _ hx
  refine h1.trans (kept_up ?_ y _ fun e => ⟨rfl, rfl, ?_⟩)
  · rw [owned_iff, h1.nonce, h1.code]; exact owned_iff.mp ho
  · subst e
    show _ ≤ (_ + v).toNat
    rw [BitVec.toNat_add, Nat.mod_eq_of_lt hlt]
    omega

theorem kept_selfdestruct {s s' : State} (ho : Owned s a) {x y : Address} (hx : x ≠ a) (h : selfdestructState s x y = .ok s') : Kept a s s' := by
  unfold selfdestructState at h
  split at h
  · split at h
    · cases h
    · rename_i s1 hm
      cases h
      have h1 := kept_move ho hx hm
      split
      · exact h1.trans (kept_setBalance x 0 hx)
      · exact h1
  · split at h
    · cases h
    · rename_i b hb
      cases h
      refine Kept.trans (kept_up ho y _ fun e => ⟨rfl, rfl, ?_⟩) (kept_setBalance x 0 hx)
      subst e
      show _ ≤ b.toNat
      rw [checkedAdd_ok hb]; omega

theorem kept_increment {s : State} {x : Address} (hx : x ≠ a) : Kept a s (incrementNonce s x) := kept_other _ hx
theorem kept_setCode {s : State} {x : Address} (hx : x ≠ a) (c : Bytes) : Kept a s (setCode s x c) := kept_other _ hx

theorem kept_touch {s : State} (x : Address) : Kept a s (touchIn s x) := kept_account (touchIn_account ..) fun _ => touchIn_storage ..

theorem triesGet_other (d : StorageTries) {x : Address} (k v : Word) (hx : x ≠ a) (y : Word) : triesGet (triesSet d x k v) a y = triesGet d a y := by
  have key : ∀ t : Trie Word Word, triesGet (if t.data.entries.isEmpty then (d.set x t).del x else d.set x t) a y = triesGet d a y := by
    intro t
    split
    · rw [triesGet_del, if_neg hx]; unfold triesGet; rw [Dict.get?_set, if_neg hx]
    · unfold triesGet; rw [Dict.get?_set, if_neg hx]
  exact key _

theorem kept_setStorage {s s' : State} {x : Address} {k v : Word} (hx : x ≠ a) (h : setStorage s x k v = .ok s') : Kept a s s' := by
  refine kept_account ?_ fun k' => ?_
  · unfold setStorage at h; split at h <;> cases h; rfl
  · unfold setStorage at h; split at h <;> cases h; exact triesGet_other _ _ _ hx _

theorem kept_destroyStorage {s : State} {x : Address} (hx : x ≠ a) : Kept a s (destroyStorage s x) :=
  kept_account rfl fun k => (triesGet_del s.storageTries x a k).trans (if_neg hx)

theorem kept_destroy {s : State} {x : Address} (hx : x ≠ a) : Kept a s (destroyAccount s x) := by
  refine kept_account ?_ fun k => ?_
  · unfold getAccount; rw [getAccountOptional_destroyAccount, if_neg hx]
  · exact (triesGet_del s.storageTries x a k).trans (if_neg hx)

/-- Which instructions have which bytes. -/
theorem acting_bytes {f : Fork} {b : UInt8} {op : Op} (h : decodeOpIn f b = some op) (hb : b ∉ actingBytes) :
    kindOf op = .pure ∨ kindOf op = .tstore ∨ kindOf op = .log := by
  have key : ∀ n : Nat, n < 256 → UInt8.ofNat n ∉ actingBytes → ∀ op ∈ (decodeOp (UInt8.ofNat n)).toList,
      kindOf op = .pure ∨ kindOf op = .tstore ∨ kindOf op = .log := by decide +kernel
  have := key b.toNat b.toNat_lt
  rw [UInt8.ofNat_toNat] at this
  unfold decodeOpIn at h
  match hd : decodeOp b with
  | none => rw [hd] at h; cases h
  | some o =>
    rw [hd] at h this
    dsimp only at h
    split at h
    · cases h; exact this hb _ (by simp)
    · cases h

end

section
variable (a : Address) (s0 : State)

/-- What holds of all states below: the account is as it was, or richer. -/
def KeepsSub (ok : Message → Prop) (pm : Sub) : Prop :=
  ∀ msg w child w', pm msg w = .ok (child, w') → ok msg → Kept a s0 w.state → a ∉ msg.parentsToDelete →
    Kept a s0 w'.state ∧ (child.error.isSome = false → a ∉ child.accountsToDelete)

def Inert (code : Bytes) : Prop := ∀ b ∈ code, b ∉ actingBytes

def FairCall (msg : Message) : Prop := (msg.currentTarget ≠ a ∨ Inert msg.code) ∧ (msg.shouldTransferValue = true → msg.caller ≠ a)
def FairCreate (msg : Message) : Prop := msg.currentTarget ≠ a ∧ (msg.shouldTransferValue = true → msg.caller ≠ a)

def KeepsPost (m : Mach) : Res Unit → Prop
  | .ok _ m' => Kept a s0 m'.world.state ∧ a ∉ m'.evm.accountsToDelete ∧ m'.evm.message = m.evm.message ∧ m'.evm.code = m.evm.code ∧
      (m.evm.stack.length ≤ 1024 → m'.evm.stack.length ≤ 1024)
  | .err _ _ => True

def KeepsLoop (loop : Loop) : Prop := ∀ m, m.evm.stack.length ≤ 1024 → (m.self ≠ a ∨ Inert m.evm.code) → Kept a s0 m.world.state →
  a ∉ m.evm.accountsToDelete → a ∉ m.evm.message.parentsToDelete → KeepsPost a s0 m (loop m)

variable {a s0}

theorem keeps_step (hset : Settled s0 a) {pm pcm : Sub} (hpm : KeepsSub a s0 (FairCall a) pm) (hpcm : KeepsSub a s0 (FairCreate a) pcm)
    {m : Mach} {r : Res Unit} {k : Kind} (h : OpEffect k pm pcm m r) (hact : m.self ≠ a ∨ k = .pure ∨ k = .tstore ∨ k = .log)
    (he : Kept a s0 m.world.state) (hd : a ∉ m.evm.accountsToDelete) (hp : a ∉ m.evm.message.parentsToDelete) : KeepsPost a s0 m r := by
  have hown : Owned m.world.state a := (hset.kept he).owned
  cases h with
  | ok m' h hk strict => exact ⟨by rw [h.world]; exact he, by rw [h.deleted]; exact hd, h.message, h.code, h.stack⟩
  | err e m' h he => trivial
  | sstore hk m1 key new orig s' h hg _ _ _ hst =>
    have hself : m.self ≠ a := hact.resolve_right (by rw [hk]; decide)
    exact ⟨he.trans (kept_setStorage hself hst), by rw [show _ = m1.evm.accountsToDelete from rfl, h.deleted]; exact hd, h.message, h.code, h.stack⟩
  | tstore hk m1 key new h hg => exact ⟨he, by rw [show _ = m1.evm.accountsToDelete from rfl, h.deleted]; exact hd, h.message, h.code, h.stack⟩
  | log hk m1 topics data h hg =>
    exact ⟨by rw [show _ = m1.world.state from rfl, h.world]; exact he, by rw [show _ = m1.evm.accountsToDelete from rfl, h.deleted]; exact hd, h.message, h.code, h.stack⟩
  | selfdestruct hk m1 b s1 h hg _ _ hmove =>
    have hself : m.self ≠ a := hact.resolve_right (by rw [hk]; decide)
    have hbase : a ∉ m.sdBase := by
      unfold Mach.sdBase; split
      · exact hd
      · rw [mem_setUpdate]; exact fun h => h.elim hd hp
    refine ⟨he.trans (kept_selfdestruct hown hself hmove), ?_, h.message, h.code, h.stack⟩
    show a ∉ if _ then _ else _
    split
    · rw [mem_setAdd]; exact fun h => h.elim hbase fun e => hself e.symm
    · exact hbase
  | collision hk m1 x h hg =>
    have hself : m.self ≠ a := hact.resolve_right (by rw [hk]; decide)
    exact ⟨he.trans (kept_increment hself), by rw [show _ = m1.evm.accountsToDelete from rfl, h.deleted]; exact hd, h.message, h.code, h.stack⟩
  | createErr hk m1 msg e w m' h hsub hw => trivial
  | create hk m1 msg child w m2 h hsub hinc =>
    have hself : m.self ≠ a := hact.resolve_right (by rw [hk]; decide)
    have hne : msg.currentTarget ≠ a := by
      intro e
      have := h.fresh.1
      rw [e] at this
      exact absurd hown (by unfold Owned; rw [this]; simp)
    obtain ⟨h1, h2⟩ := hpcm msg m1.world child w hsub ⟨hne, fun _ => by rw [h.caller]; exact hself⟩
      (by rw [h.world]; exact he.trans (kept_increment hself))
      (by rw [h.parents, mem_setUpdate, h.frame.message, h.deleted]; exact fun h => h.elim hp hd)
    refine ⟨by rw [hinc.world]; exact h1, ?_, hinc.frame.message.trans h.frame.message, hinc.frame.code.trans h.frame.code,
      fun hs => hinc.frame.stack (h.frame.stack hs)⟩
    by_cases hce : child.error.isSome = true
    · rw [(hinc.onError hce).2.2.1, h.deleted]; exact hd
    · have hce : child.error.isSome = false := by simpa using hce
      rw [(hinc.onSuccess hce).2.2.1, mem_setUpdate, h.deleted]; exact fun h => h.elim hd (h2 hce)
  | callErr hk m1 msg e w m' h hsub hw => trivial
  | call hk m1 msg child w m2 h hsub hinc =>
    have hself : m.self ≠ a := hact.resolve_right (by rw [hk]; decide)
    have hpas := (hset.kept he).passive
    have hok : FairCall a msg := by
      refine ⟨?_, fun ht => by rw [(h.funds ht).1]; exact hself⟩
      by_cases e : msg.currentTarget = a
      · refine .inr ?_
        rcases h.codeFrom with h1 | h1 | h1
        · exact absurd (h1.symm.trans e) hself
        · rw [h1, e]; exact hpas.inert
        · rw [e] at h1
          unfold isValidDelegation at h1
          rw [Bool.and_eq_true, decide_eq_true_eq, decide_eq_true_eq] at h1
          exact absurd h1.2 hpas.plain
      · exact .inl e
    obtain ⟨h1, h2⟩ := hpm msg m1.world child w hsub hok (by rw [h.locals.world]; exact he)
      (by rw [h.parents, mem_setUpdate, h.locals.message, h.locals.deleted]; exact fun h => h.elim hp hd)
    refine ⟨by rw [hinc.world]; exact h1, ?_, hinc.frame.message.trans h.locals.message, hinc.frame.code.trans h.locals.code,
      fun hs => hinc.frame.stack (h.locals.stack hs)⟩
    by_cases hce : child.error.isSome = true
    · rw [(hinc.onError hce).2.2.1, h.locals.deleted]; exact hd
    · have hce : child.error.isSome = false := by simpa using hce
      rw [(hinc.onSuccess hce).2.2.1, mem_setUpdate, h.locals.deleted]; exact fun h => h.elim hd (h2 hce)
  | callOverflow hk m1 msg child w m' h hsub hlen => trivial

theorem keeps_executeCode {E : Env} {loop : Loop} {msg : Message} {w : World} (hl : KeepsLoop a s0 loop) {evm : Evm} {w2 : World}
    (h : executeCode E loop msg w = .ok (evm, w2)) (hok : msg.currentTarget ≠ a ∨ Inert msg.code) (he : Kept a s0 w.state)
    (hp : a ∉ msg.parentsToDelete) (hne : evm.error.isSome = false) : Kept a s0 w2.state ∧ a ∉ evm.accountsToDelete := by
  unfold executeCode at h
  simp only at h
  have key : ∀ r : Res Unit, KeepsPost a s0 ⟨initEvm msg, w⟩ r → catchFrame r = .ok (evm, w2) → Kept a s0 w2.state ∧ a ∉ evm.accountsToDelete := by
    intro r hr hc
    match r with
    | .ok _ m' => cases hc; exact ⟨hr.1, hr.2.1⟩
    | .err (.halt x) m' => cases hc; simp at hne
    | .err .revert m' => cases hc; simp at hne
    | .err (.crash c) m' => cases hc
    | .err .outOfFuel m' => cases hc
  have h0 : a ∉ (initEvm msg).accountsToDelete := by simp [initEvm]
  match hpre : precompileOf E w.state.fork msg with
  | some p =>
    simp only [hpre] at h
    split at h
    · cases h; exact ⟨he, h0⟩
    · have hp : Pres p := by
        unfold precompileOf at hpre
        split at hpre
        · cases hpre
        · exact pres_precompile _ _ _ _ hpre
      refine key _ ?_ h
      have := hp.run ⟨initEvm msg, w⟩
      revert this
      match p ⟨initEvm msg, w⟩ with
      | .ok _ m' => intro h; have hw : m'.world = w := h.world; have hd : m'.evm.accountsToDelete = (initEvm msg).accountsToDelete := h.deleted; exact ⟨by rw [hw]; exact he, by rw [hd]; exact h0, h.message, h.code, h.stack⟩
      | .err e m' => intro h; trivial
  | none => simp only [hpre] at h; exact key _ (hl ⟨initEvm msg, w⟩ (Nat.zero_le _) hok he h0 hp) h

theorem keeps_processMessage (hset : Settled s0 a) {E : Env} {loop : Loop} (hs : SnapLoop loop) (hl : KeepsLoop a s0 loop) :
    KeepsSub a s0 (FairCall a) (processMessage E loop) := by
  intro msg w child w' h hok he hp
  have hsnap := processMessage_snap' hs h
  by_cases herr : child.error.isSome = true
  · have hc := hsnap.2 herr
    exact ⟨he.trans (kept_same hc.1 hc.2.1), fun h => by rw [herr] at h; cases h⟩
  · have herr' : child.error.isSome = false := by simpa using herr
    unfold processMessage at h
    split at h
    · cases h
    · simp only at h
      split at h
      · cases h
      · rename_i s hst
        have h0 : Kept a s0 (touchIn (beginTransaction w).state msg.currentTarget) :=
          (he.trans (kept_same (s' := (beginTransaction w).state) rfl rfl)).trans (kept_touch _)
        have h1 : Kept a s0 s := by
          split at hst
          · rename_i htr
            exact h0.trans (kept_move (hset.kept h0).owned (hok.2 htr.1) hst)
          · cases hst; exact h0
        have hsn : s.snapshots = (beginTransaction w).state.snapshots ∧ s.fork = (beginTransaction w).state.fork := by
          split at hst
          · exact ⟨(moveEther_snaps hst).1.trans (touchIn_snapshots _ _), (moveEther_fork hst).trans (touchIn_fork _ _)⟩
          · cases hst; exact ⟨touchIn_snapshots _ _, touchIn_fork _ _⟩
        split at h
        · cases h
        · rename_i evm w2 hx
          have hxs := executeCode_snap (hs _ (Nat.zero_le _)) hx
          have hss : SameSnaps w2 (beginTransaction w) := ⟨hxs.1.trans hsn.1, hxs.2.1, hxs.2.2.trans hsn.2⟩
          split at h
          · cases h
          · rename_i w3 hr
            cases h
            rw [if_neg herr] at hr
            obtain ⟨w4, e, hc, -, -⟩ := commit_ok hss
            rw [e] at hr; cases hr
            obtain ⟨g1, g2⟩ := keeps_executeCode hl hx hok.1 h1 hp herr'
            exact ⟨g1.trans (kept_same hc.1 hc.2.1), fun _ => g2⟩

theorem kept_createStart {w : World} {t : Address} (ht : t ≠ a) (he : Kept a s0 w.state) : Kept a s0 (createStart w t).state := by
  have h1 : Kept a s0 (markAccountCreated (destroyStorage (beginTransaction w).state t) t) :=
    ((he.trans (kept_same (s' := (beginTransaction w).state) rfl rfl)).trans (kept_destroyStorage ht)).trans (kept_same rfl rfl)
  show Kept a s0 (startNonce _ t)
  unfold startNonce
  split
  · exact h1.trans (kept_increment ht)
  · exact h1

theorem keeps_processCreateMessage (hset : Settled s0 a) {E : Env} {loop : Loop} (hs : SnapLoop loop) (hl : KeepsLoop a s0 loop) :
    KeepsSub a s0 (FairCreate a) (processCreateMessage E loop) := by
  intro msg w child w' h hok he hp
  have hsnap := processCreateMessage_snap' hs h
  by_cases herr : child.error.isSome = true
  · have hc := hsnap.2 herr
    exact ⟨he.trans (kept_same hc.1 hc.2.1), fun h => by rw [herr] at h; cases h⟩
  · unfold processCreateMessage at h
    split at h
    · cases h
    · rename_i evm w2 hx
      obtain ⟨h1, h2⟩ := keeps_processMessage hset hs hl _ _ _ _ hx ⟨.inl hok.1, hok.2⟩ (kept_createStart hok.1 he) hp
      have hxs := (processMessage_snap' hs hx).1
      have hss := SameSnaps.trans hxs (createStart_snaps w msg.currentTarget)
      split at h
      · rename_i hh
        split at h <;> cases h
        exact absurd hh herr
      · rename_i hno
        have h2 := h2 (by simpa using hno)
        split at h
        · split at h
          · split at h <;> cases h
            simp at herr
          · obtain ⟨w4, e, hc, hs4, _⟩ := commit_ok hss
            rw [e] at h; cases h
            exact ⟨h1.trans (kept_same hc.1 hc.2.1), fun _ => h2⟩
        · rename_i g hd
          simp only at h
          have hss3 : SameSnaps { w2 with state := setCode w2.state msg.currentTarget evm.output } (beginTransaction w) :=
            ⟨by simpa [setCode] using hss.1, hss.2.1, by simpa [setCode] using hss.2.2⟩
          obtain ⟨w4, e, hc, hs4, _⟩ := commit_ok hss3
          rw [e] at h; cases h
          exact ⟨(h1.trans (kept_setCode hok.1 _)).trans (kept_same hc.1 hc.2.1), fun _ => h2⟩

theorem keeps_run (hset : Settled s0 a) (E : Env) : ∀ n, KeepsLoop a s0 (run E n) := by
  intro n
  induction n with
  | zero => intro m _ _ _ _ _; simp [run, KeepsPost]
  | succ n ih =>
    intro m hs hself he hd hp
    rw [run]; unfold loopBody
    by_cases hr : m.evm.running = true
    · simp only [hr, if_true]
      match hb : m.evm.code[m.evm.pc]? with
      | none => exact ⟨he, hd, rfl, rfl, id⟩
      | some b =>
        simp only
        match hop : decodeOpIn m.world.state.fork b with
        | none => trivial
        | some op =>
          simp only
          have hact : m.self ≠ a ∨ kindOf op = .pure ∨ kindOf op = .tstore ∨ kindOf op = .log :=
            hself.imp id fun h => acting_bytes hop (h b (List.mem_of_getElem? hb))
          have h := keeps_step hset (keeps_processMessage hset (E := E) (run_snap E n) ih) (keeps_processCreateMessage hset (E := E) (run_snap E n) ih)
            (opStep_effect E _ _ op m hs) hact he hd hp
          revert h
          match opStep E (processMessage E (run E n)) (processCreateMessage E (run E n)) op m with
          | .err e m' => intro _; trivial
          | .ok _ m' =>
            intro h
            obtain ⟨h1, h2, h3, h4, h5⟩ := h
            have h2 := ih m' (h5 hs) (hself.imp (fun h => by unfold Mach.self; rw [h3]; exact h) (fun h => by rw [h4]; exact h)) h1 h2 (by rw [h3]; exact hp)
            revert h2
            simp only
            match run E n m' with
            | .ok _ m2 => intro g; exact ⟨g.1, g.2.1, g.2.2.1.trans h3, g.2.2.2.1.trans h4, fun hs => g.2.2.2.2 (h5 hs)⟩
            | .err e m2 => intro _; trivial
    · simp only [hr, if_false, Bool.false_eq_true]
      exact ⟨he, hd, rfl, rfl, id⟩

theorem keeps_exec (hset : Settled s0 a) (E : Env) : KeepsLoop a s0 (exec E) := fun m hs => keeps_run hset E _ m hs

/-- Authorizations of other accounts. -/
theorem kept_delegations (E : Env) (l : List Authorization) (hl : ∀ auth ∈ l, recoverAuthority E.crypto auth ≠ some a) :
    ∀ acc : DelegationAcc, Kept a acc.state (l.foldl (delegationStep E) acc).state := by
  induction l with
  | nil => intro acc; exact .refl _
  | cons auth r ih =>
    intro acc
    rw [List.foldl_cons]
    refine Kept.trans (s1 := (delegationStep E acc auth).state) ?_ (ih (fun x hx => hl x (List.mem_cons_of_mem _ hx)) _)
    have hne := hl auth List.mem_cons_self
    unfold delegationStep
    split
    · exact .refl _
    · split
      · exact .refl _
      · split
        · exact .refl _
        · rename_i authority hau
          have hx : authority ≠ a := fun e => hne (e ▸ hau)
          dsimp only
          split
          · exact .refl _
          · split
            · exact .refl _
            · exact (kept_setCode hx _).trans (kept_increment hx)

end

/-- **Top level.** A message that the account did not send, in a transaction without its authorization. -/
theorem keeps_top {E : Env} {msg : Message} {w w' : World} {out : MessageCallOutput}
    (hcall : ∀ t, msg.target = some t → msg.currentTarget = t ∧ msg.codeAddress = some t ∧ msg.code = (getAccount w.state t).code)
    (hpar : msg.parentsToDelete = []) (h : processMessageCall E msg w = .ok (out, w')) {a : Address} (hset : Settled w.state a)
    (hcaller : msg.shouldTransferValue = true → msg.caller ≠ a)
    (hauth : ∀ auth ∈ E.tx.authorizations, recoverAuthority E.crypto auth ≠ some a) :
    Kept a w.state w'.state ∧ a ∉ out.accountsToDelete := by
  have hout : ∀ {r : Word} {c : Evm} {o : MessageCallOutput}, messageCallOutput r c = .ok o → (c.error.isSome = false → a ∉ c.accountsToDelete) →
      a ∉ o.accountsToDelete := by
    intro r c o h hc
    unfold messageCallOutput at h
    split at h
    · cases h; simp
    · rename_i hne
      split at h
      · cases h
      · split at h
        · cases h; exact hc (by simpa using hne)
        · cases h
  unfold processMessageCall at h
  rw [processMessageCallWith_eq] at h
  split at h
  · cases h
  · rename_i r msg1 s1 ha
    split at h
    · split at h
      · cases h; exact ⟨.refl _, by simp⟩
      · rename_i hcol
        split at h
        · cases h
        · rename_i evm w1 hx
          have hne : msg.currentTarget ≠ a := by
            intro e
            have := hset.owned
            unfold Owned at this
            rw [e, this] at hcol
            simp at hcol
          obtain ⟨h1, h2⟩ := keeps_processCreateMessage hset (exec_snap E) (keeps_exec hset E) _ _ _ _ hx ⟨hne, hcaller⟩ (.refl _) (by rw [hpar]; simp)
          split at h
          · cases h
          · rename_i o ho; cases h
            exact ⟨h1, hout ho h2⟩
    · rename_i htar
      obtain ⟨t, ht'⟩ := Option.ne_none_iff_exists'.mp htar
      have hk1 : Kept a w.state s1 := by
        unfold authorized at ha
        rw [ht'] at ha
        simp only at ha
        split at ha
        · unfold setDelegation at ha
          dsimp only at ha
          split at ha
          · cases ha
          · split at ha
            · cases ha
            · cases ha; exact kept_delegations E _ hauth ⟨w.state, msg.accessedAddresses, 0⟩
        · cases ha; exact .refl _
      have hset1 := hset.kept hk1
      obtain ⟨-, hm1⟩ := authorized_rel ha
      have hm2 := resolveDelegation_msg msg1 s1
      split at h
      · cases h
      · rename_i evm w1 hx
        have hcode := authorized_code' hcall ht' ha
        have hok : FairCall a (resolveDelegation msg1 s1) := by
          refine ⟨?_, fun h => ?_⟩
          · by_cases e : (resolveDelegation msg1 s1).currentTarget = a
            · refine .inr ?_
              have e1 : msg1.currentTarget = a := hm2.currentTarget ▸ e
              rw [hm1.currentTarget, (hcall t ht').1] at e1
              rw [e1] at hcode
              have hnd : getDelegatedCodeAddress msg1.code = none := by
                unfold getDelegatedCodeAddress
                rw [if_neg]
                intro hv
                unfold isValidDelegation at hv
                rw [Bool.and_eq_true, decide_eq_true_eq, decide_eq_true_eq, hcode] at hv
                exact hset1.passive.plain hv.2
              have : resolveDelegation msg1 s1 = msg1 := by unfold resolveDelegation; rw [hnd]; simp
              rw [this, hcode]; exact hset1.passive.inert
            · exact .inl e
          · have e1 : (resolveDelegation msg1 s1).caller = msg.caller := hm2.caller.trans hm1.caller
            have e2 : (resolveDelegation msg1 s1).shouldTransferValue = msg.shouldTransferValue := hm2.transfer.trans hm1.transfer
            rw [e1]; exact hcaller (e2 ▸ h)
        have e3 : (resolveDelegation msg1 s1).parentsToDelete = msg.parentsToDelete := hm2.parents.trans hm1.parents
        obtain ⟨h1, h2⟩ := keeps_processMessage hset (exec_snap E) (keeps_exec hset E) _ _ _ _ hx hok hk1 (by rw [e3, hpar]; simp)
        split at h
        · cases h
        · rename_i o ho; cases h
          exact ⟨h1, hout ho h2⟩

end Verif
