import Verif.Lemmas.OptState
/-! The optimized state simulates the reference state (for C43). -/
namespace Verif.Opt

/-- The optimized state holds what the reference state holds, and so does every point it can go back to. -/
structure Sim (w : World) (o : OptWorld) (h : List Touch) : Prop where
  wf : w.WF
  cur : Reads o.state.db o.state.cache (w.state.mainTrie, w.state.storageTries)
  chain : Chain o.state.db h o.state.cache o.state.journal w.state.snapshots o.state.restorePoints
  safe : w.state.snapshots ≠ [] → Safe h o.state.cache
  orig : ∀ p, w.state.snapshots.getLast? = some p → ∀ a k, o.state.db.storage a k = triesGet p.2 a k
  created : o.state.created = w.state.createdAccounts
  transient : o.transient = w.transient

section
variable {w : World} {o : OptWorld} {h : List Touch}

theorem Sim.account (S : Sim w o h) (a : Address) :
    Opt.getAccountOptional o.state a = Verif.getAccountOptional w.state a := by
  rw [getAccountOptional_eq]; exact S.cur.1 a

theorem Sim.storage (S : Sim w o h) (a : Address) (k : Word) :
    Opt.getStorage o.state a k = Verif.getStorage w.state a k := by
  rw [getStorage_eq]; exact S.cur.2 a k

theorem Sim.original (S : Sim w o h) {a : Address} {k v : Word} (hv : Verif.getStorageOriginal w.state a k = .ok v) :
    Opt.getStorageOriginal o.state a k = v := by
  unfold Verif.getStorageOriginal at hv
  unfold Opt.getStorageOriginal
  rw [S.created]
  split at hv
  · rename_i hm; rw [if_pos hm]; exact Except.ok.inj hv
  · rename_i hm
    rw [if_neg hm]
    split at hv
    · cases hv
    · rename_i m orig hl
      rw [S.orig _ hl]
      exact Except.ok.inj hv

theorem Sim.same (S : Sim w o h) : SameAnswers w o :=
  ⟨S.account, S.storage, fun _ _ _ hv => S.original hv, S.transient⟩

/-! ### single steps -/

theorem Sim.setAccount (S : Sim w o h) (a : Address) (acc : Option Account) :
    Sim { w with state := Verif.setAccount w.state a acc } { o with state := Opt.setAccount o.state a acc } h := by
  obtain ⟨u, hu, hl⟩ := setAccount_undo o.state.db o.state.cache a acc
  refine ⟨⟨S.wf.state.setAccount a acc, S.wf.transient⟩, ⟨?_, S.cur.2⟩, S.chain.push hu hl, S.safe, S.orig,
    S.created, S.transient⟩
  intro x
  show _ = trieGet (trieSet w.state.mainTrie a acc) x
  rw [trieGet_trieSet, ← S.cur.1 x]
  simp only [Opt.setAccount, Cache.account, upd]
  by_cases hx : x = a
  · subst hx; simp
  · rw [if_neg hx, if_neg (fun e => hx e.symm)]

theorem Sim.setStorage (S : Sim w o h) {a : Address} {k v : Word} {s : State}
    (hs : Verif.setStorage w.state a k v = .ok s) :
    Sim { w with state := s } { o with state := Opt.setStorage o.state a k v } (.write a :: h) := by
  have hwf := S.wf.state.setStorage hs
  have hs' : s = { w.state with storageTries := triesSet w.state.storageTries a k v } := by
    unfold Verif.setStorage at hs
    split at hs
    · cases hs
    · exact (Except.ok.inj hs).symm
  subst hs'
  generalize hac : (match o.state.cache.accounts a with
    | some _ => o.state.cache.accounts
    | none => upd o.state.cache.accounts a (some (Opt.getAccountOptional o.state a))) = accs
  have hst : Opt.setStorage o.state a k v = { o.state with
      journal := .slot a k (o.state.cache.content a k) :: o.state.journal
      cache := ⟨accs, upd o.state.cache.slots a (some (upd (o.state.cache.content a) k (some v))),
        o.state.cache.destroyed⟩ } := by
    rw [← hac]; rfl
  have ha : ∀ x, accs x = o.state.cache.accounts x ∨
      (o.state.cache.accounts x = none ∧ accs x = some (o.state.db.account x)) := by
    intro x
    rw [← hac]
    match hm : o.state.cache.accounts a with
    | some _ => left; rfl
    | none =>
      by_cases hx : x = a
      · subst hx
        right
        refine ⟨hm, ?_⟩
        simp [upd_same, Opt.getAccountOptional, hm]
      · left; simp only [upd_other _ _ hx]
  obtain ⟨u, hu, hl⟩ := setStorage_undo o.state.db o.state.cache a k v accs ha
  rw [hst]
  refine ⟨⟨hwf, S.wf.transient⟩, ⟨?_, ?_⟩, (S.chain.push hu hl).mono _, ?_, S.orig, S.created, S.transient⟩
  · intro x
    show (accs x).getD (o.state.db.account x) = _
    have h1 := S.cur.1 x
    rcases ha x with e | e
    · rw [e]; exact h1
    · rw [e.2, ← h1]; simp [Cache.account, e.1]
  · intro x y
    show _ = triesGet (triesSet w.state.storageTries a k v) x y
    rw [triesGet_triesSet S.wf.state.storage, ← S.cur.2 x y]
    simp only [Cache.slot, content_upd o.state.cache _ rfl]
    by_cases hx : x = a
    · subst hx
      by_cases hy : y = k
      · subst hy; simp [upd_same]
      · have e : ¬ k = y := fun e => hy e.symm
        simp only [e, and_false, if_false, if_true, upd_other _ _ hy]
    · have e : ¬ (a = x ∧ k = y) := fun e => hx e.1.symm
      simp only [if_neg e, if_neg hx]
  · intro hne x hx
    have hS := S.safe hne x hx
    refine ⟨List.mem_cons_of_mem _ hS.1, ?_⟩
    simp only [content_upd o.state.cache _ rfl]
    by_cases hxa : x = a
    · subst hxa
      intro _
      exact (List.singleton_sublist.mpr hS.1).cons_cons _
    · rw [if_neg hxa]
      intro hk
      exact (hS.2 hk).cons _

theorem Sim.destroyStorage (S : Sim w o h) (a : Address)
    (hok : w.state.snapshots ≠ [] → ¬ [Touch.write a, .destroy a].Sublist h) :
    Sim { w with state := Verif.destroyStorage w.state a } { o with state := Opt.destroyStorage o.state a }
      (.destroy a :: h) := by
  -- without the account entry that `destroy_storage` adds at the end
  have S1 : Sim { w with state := Verif.destroyStorage w.state a }
      { o with state := { o.state with
          journal := .destroyed a (o.state.cache.content a) :: o.state.journal
          cache := { o.state.cache with
            slots := upd o.state.cache.slots a none
            destroyed := upd o.state.cache.destroyed a (o.state.cache.destroyed a + 1) } } } (.destroy a :: h) := by
    refine ⟨⟨S.wf.state.destroyStorage a, S.wf.transient⟩, ⟨S.cur.1, ?_⟩, ?_, ?_, S.orig, S.created, S.transient⟩
    · intro x y
      show _ = triesGet (w.state.storageTries.del a) x y
      rw [triesGet_del, ← S.cur.2 x y]
      by_cases hx : x = a
      · subst hx; simp [Cache.slot, Cache.content, upd_same, noSlots]
      · have e : ¬ a = x := fun e => hx e.symm
        simp only [Cache.slot, Cache.content, upd_other _ _ hx, if_neg e]
    · by_cases hne : w.state.snapshots = []
      · have hch := S.chain
        show Chain _ _ _ _ w.state.snapshots o.state.restorePoints
        rw [hne] at hch ⊢
        rw [hch.nil_iff.mpr rfl]
        trivial
      · have hz : o.state.cache.destroyed a ≠ 0 → o.state.cache.content a = noSlots := by
          intro hd
          funext k
          match hk : o.state.cache.content a k with
          | none => rfl
          | some v =>
            exact absurd ((S.safe hne a hd).2 ⟨k, by rw [hk]; exact Option.some_ne_none v⟩) (hok hne)
        obtain ⟨u, hu, hl⟩ := destroy_undo o.state.db o.state.cache a hz
        exact (S.chain.push hu hl).mono _
    · intro hne x hx
      by_cases hxa : x = a
      · subst hxa
        refine ⟨List.mem_cons_self, ?_⟩
        intro ⟨k, hk⟩
        simp [Cache.content, upd_same, noSlots] at hk
      · simp only [upd_other _ _ hxa] at hx
        have := (S.safe hne).mono (.destroy a) x hx
        simpa only [Cache.content, upd_other _ _ hxa] using this
  have e : Opt.getAccountOptional _ a = trieGet w.state.mainTrie a := S1.account a
  have S2 := S1.setAccount a (trieGet w.state.mainTrie a)
  have S3 : Sim { w with state := Verif.setAccount (Verif.destroyStorage w.state a) a (trieGet w.state.mainTrie a) }
      { o with state := Opt.destroyStorage o.state a } (.destroy a :: h) := by
    unfold Opt.destroyStorage
    rw [← e] at S2
    rw [← e]
    exact S2
  refine ⟨⟨S.wf.state.destroyStorage a, S.wf.transient⟩, ⟨?_, S3.cur.2⟩, S3.chain, S3.safe, S3.orig, S3.created,
    S3.transient⟩
  intro x
  rw [S3.cur.1 x]
  show trieGet (trieSet w.state.mainTrie a (trieGet w.state.mainTrie a)) x = trieGet w.state.mainTrie x
  rw [trieGet_trieSet]
  by_cases hx : a = x
  · subst hx; simp
  · rw [if_neg hx]

theorem Sim.markCreated (S : Sim w o h) (a : Address) :
    Sim { w with state := Verif.markAccountCreated w.state a }
      { o with state := Opt.markAccountCreated o.state a } h :=
  ⟨⟨S.wf.state.markAccountCreated a, S.wf.transient⟩, S.cur, S.chain, S.safe, S.orig,
    by simp only [Opt.markAccountCreated, Verif.markAccountCreated, S.created], S.transient⟩

theorem Sim.setTransient (S : Sim w o h) (a : Address) (k v : Word) :
    Sim { w with transient := setTransientStorage w.transient a k v }
      { o with transient := setTransientStorage o.transient a k v } h :=
  ⟨⟨S.wf.state, S.wf.transient.set a k v⟩, S.cur, S.chain, S.safe, S.orig, S.created, by simp only [S.transient]⟩

theorem Reads.flush {db : Db} {c : Cache} {p : AccountTrie × StorageTries} (hr : Reads db c p) :
    Reads (flushDb db c) Cache.empty p :=
  ⟨fun a => by rw [empty_account, flushDb_account]; exact hr.1 a,
   fun a k => by rw [empty_slot, flushDb_storage]; exact hr.2 a k⟩

theorem Safe.empty (h : List Touch) : Safe h Cache.empty := fun _ hd => absurd rfl hd

theorem Sim.begin_ (S : Sim w o h) :
    ∃ o', Opt.beginTransaction o = .ok o' ∧
      Sim (Verif.beginTransaction w) o' (if w.state.snapshots = [] then [] else h) := by
  unfold Opt.beginTransaction Opt.begin_
  by_cases hne : w.state.snapshots = []
  · have hp := S.chain.nil_iff.mpr hne
    simp only [hp, if_true, Opt.flush]
    simp only [ne_eq, not_true_eq_false, if_false, hne, if_true]
    refine ⟨_, rfl, S.wf.begin, S.cur.flush, ?_, fun _ => Safe.empty _, ?_, S.created, ?_⟩
    · simp only [Verif.beginTransaction, hne]
      refine ⟨Nat.le_refl _, Cache.empty, ?_, S.cur.flush, Safe.empty _, ?_⟩
      · simp [stricts]
      · trivial
    · intro p hp a k
      simp only [Verif.beginTransaction, hne, List.getLast?_singleton, Option.some.injEq] at hp
      subst hp
      exact S.cur.flush.2 a k
    · simp only [Verif.beginTransaction, S.transient]
  · have hp : ¬ o.state.restorePoints = [] := fun e => hne (S.chain.nil_iff.mp e)
    simp only [hp, if_false, hne]
    refine ⟨_, rfl, S.wf.begin, S.cur, ?_, fun _ => S.safe hne, ?_, S.created, ?_⟩
    · refine ⟨Nat.le_refl _, o.state.cache, ?_, S.cur, S.safe hne, ?_⟩
      · simp [stricts]
      · simpa using S.chain
    · intro p hp
      apply S.orig p
      simp only [Verif.beginTransaction] at hp
      rw [List.getLast?_cons_of_ne_nil hne] at hp
      exact hp
    · simp only [Verif.beginTransaction, S.transient]

theorem Sim.commit (S : Sim w o h) {w' : World} (hc : Verif.commitTransaction w = .ok w') :
    ∃ o', Opt.commitTransaction o = .ok o' ∧ Sim w' o' h := by
  have hwf := World.WF.commit S.wf hc
  have hch := S.chain
  unfold Verif.commitTransaction at hc
  split at hc
  · rename_i s ss t ts h1 h2
    cases hc
    have htail : o.transient.snapshots.tail = ts := by rw [S.transient, h2]; rfl
    match hps : o.state.restorePoints with
    | [] => rw [hps, h1] at hch; exact hch.elim
    | p :: ps =>
      rw [hps, h1] at hch
      have hj := hch.join
      unfold Opt.commitTransaction Opt.commit
      simp only [hps]
      by_cases hz : ss = []
      · have hz' : ps = [] := hj.nil_iff.mpr hz
        subst hz hz'
        simp only [if_true, Opt.flush, ne_eq, not_true_eq_false, if_false]
        refine ⟨_, rfl, hwf, S.cur.flush, trivial, fun h => absurd rfl h, by simp, by simp, ?_⟩
        rw [htail, S.transient]
      · have hz' : ps ≠ [] := fun e => hz (hj.nil_iff.mp e)
        simp only [hz', if_false]
        refine ⟨_, rfl, hwf, S.cur, hj, fun _ => S.safe (by rw [h1]; simp), ?_, ?_, ?_⟩
        · intro q hq
          apply S.orig q
          rw [h1, List.getLast?_cons_of_ne_nil hz]
          exact hq
        · simp only [S.created]
          cases ss with
          | nil => exact absurd rfl hz
          | cons _ _ => rfl
        · rw [htail, S.transient]
  · cases hc

theorem Sim.rollback (S : Sim w o h) {w' : World} (hc : Verif.rollbackTransaction w = .ok w') :
    ∃ o', Opt.rollbackTransaction o = .ok o' ∧ Sim w' o' h := by
  have hwf := World.WF.rollback S.wf hc
  have hch := S.chain
  unfold Verif.rollbackTransaction at hc
  split at hc
  · rename_i m st ss t ts h1 h2
    cases hc
    match hps : o.state.restorePoints with
    | [] => rw [hps, h1] at hch; exact hch.elim
    | p :: ps =>
      rw [hps, h1] at hch
      obtain ⟨hp, u, hu, hr, hsf, hn⟩ := hch
      unfold Opt.rollbackTransaction Opt.rollback
      simp only [hps, undoItems_of_stricts hu]
      refine ⟨_, rfl, hwf, hr, hn, fun _ => hsf, ?_, ?_, ?_⟩
      · intro q hq
        apply S.orig q
        simp only at hq
        rw [h1, List.getLast?_cons_of_ne_nil (by intro e; rw [e] at hq; simp at hq)]
        exact hq
      · simp only [S.created]
        have := hn.nil_iff
        cases ss with
        | nil => simp [this.mpr rfl]
        | cons _ _ =>
          have : ps ≠ [] := fun e => by simpa using this.mp e
          simp [this]
      · simp only [S.transient, h2]
  · cases hc

end

/-- A careful client gets the same answers from both states. -/
theorem Sim.run {α : Type} (p : Client α) {w w' : World} {o : OptWorld} {h : List Touch} {r : α} (S : Sim w o h)
    (hcare : p.Careful w h) (hrun : p.onReference w = .ok (r, w')) :
    ∃ o' h', p.onOptimized o = .ok (r, o') ∧ Sim w' o' h' := by
  induction p generalizing w o h with
  | done r' => cases hrun; exact ⟨o, h, rfl, S⟩
  | readAccount a next ih =>
    simp only [Client.onOptimized]
    rw [S.account]
    exact ih _ S hcare hrun
  | readStorage a k next ih =>
    simp only [Client.onOptimized]
    rw [S.storage]
    exact ih _ S hcare hrun
  | readOriginal a k next ih =>
    simp only [Client.onReference] at hrun
    split at hrun
    · cases hrun
    · rename_i v hv
      simp only [Client.onOptimized]
      rw [S.original hv]
      exact ih _ S (hcare v hv) hrun
  | readTransient a k next ih =>
    simp only [Client.onOptimized]
    rw [S.transient]
    exact ih _ S hcare hrun
  | setAccount a acc next ih => exact ih (S.setAccount a acc) hcare hrun
  | setStorage a k v next ih =>
    simp only [Client.onReference] at hrun
    split at hrun
    · cases hrun
    · rename_i s hs
      exact ih (S.setStorage hs) (hcare s hs) hrun
  | destroyStorage a next ih => exact ih (S.destroyStorage a hcare.1) hcare.2 hrun
  | markCreated a next ih => exact ih (S.markCreated a) hcare hrun
  | setTransient a k v next ih => exact ih (S.setTransient a k v) hcare hrun
  | begin_ next ih =>
    obtain ⟨o', ho, S'⟩ := S.begin_
    simp only [Client.onOptimized, ho]
    exact ih S' hcare hrun
  | commit next ih =>
    simp only [Client.onReference] at hrun
    split at hrun
    · cases hrun
    · rename_i w1 hw
      obtain ⟨o', ho, S'⟩ := S.commit hw
      simp only [Client.onOptimized, ho]
      exact ih S' (hcare w1 hw) hrun
  | rollback next ih =>
    simp only [Client.onReference] at hrun
    split at hrun
    · cases hrun
    · rename_i w1 hw
      obtain ⟨o', ho, S'⟩ := S.rollback hw
      simp only [Client.onOptimized, ho]
      exact ih S' (hcare w1 hw) hrun

/-- A database with the contents of a reference state outside any transaction. -/
theorem Sim.init {w : World} {db : Db} (hw : w.WF) (h0 : w.state.snapshots = []) (h1 : w.state.createdAccounts = [])
    (hdb : DbHolds db w.state) : Sim w ⟨OptState.init db, w.transient⟩ [] :=
  ⟨hw, ⟨fun a => hdb.1 a, fun a k => hdb.2 a k⟩, by
    show Chain _ _ _ _ w.state.snapshots []
    rw [h0]; trivial, fun h => absurd h0 h, fun p hp => by rw [h0] at hp; simp at hp, h1.symm, rfl⟩

/-- Running a client leaves the saved copy of the database alone. -/
theorem saved_kept {α : Type} (p : Client α) {o o' : OptWorld} {r : α} (h : p.onOptimized o = .ok (r, o')) :
    o'.state.saved = o.state.saved := by
  induction p generalizing o with
  | done r' => cases h; rfl
  | readAccount a next ih => exact ih _ h
  | readStorage a k next ih => exact ih _ h
  | readOriginal a k next ih => exact ih _ h
  | readTransient a k next ih => exact ih _ h
  | setAccount a acc next ih => simp only [Client.onOptimized] at h; rw [ih h, setAccount]
  | setStorage a k v next ih => simp only [Client.onOptimized] at h; rw [ih h]; rfl
  | destroyStorage a next ih => simp only [Client.onOptimized] at h; rw [ih h]; rfl
  | markCreated a next ih => simp only [Client.onOptimized] at h; rw [ih h]; rfl
  | setTransient a k v next ih => simp only [Client.onOptimized] at h; rw [ih h]
  | begin_ next ih =>
    simp only [Client.onOptimized] at h
    split at h
    · cases h
    · rename_i o1 h1
      rw [ih h]
      simp only [Opt.beginTransaction, Opt.begin_, Opt.flush] at h1
      grind
  | commit next ih =>
    simp only [Client.onOptimized] at h
    split at h
    · cases h
    · rename_i o1 h1
      rw [ih h]
      simp only [Opt.commitTransaction, Opt.commit, Opt.flush] at h1
      grind
  | rollback next ih =>
    simp only [Client.onOptimized] at h
    split at h
    · cases h
    · rename_i o1 h1
      rw [ih h]
      simp only [Opt.rollbackTransaction, Opt.rollback] at h1
      grind

end Verif.Opt
