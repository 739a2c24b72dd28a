import Verif.Lemmas.OptSim
/-! C43: the optimized journaling state agrees with the reference state. -/
namespace Verif

/-- C43. Start both states from the same contents, outside any transaction. Whatever a client does - reads whose
answers steer it, writes, destructions, nested transactions committed or rolled back in any order - if it is careful
and the reference state serves it without an error, then the optimized state serves it without an error, it returns
the same result, and afterwards both states still answer every read alike. -/
theorem C43_refines {α : Type} (p : Client α) {w w' : World} {db : Opt.Db} {r : α} (hw : w.WF)
    (hs : w.state.snapshots = []) (hc : w.state.createdAccounts = []) (hdb : DbHolds db w.state)
    (hcare : p.Careful w []) (hrun : p.onReference w = .ok (r, w')) :
    ∃ o', p.onOptimized ⟨Opt.OptState.init db, w.transient⟩ = .ok (r, o') ∧ SameAnswers w' o' ∧
      o'.state.restorePoints.length = w'.state.snapshots.length ∧
      o'.state.created = w'.state.createdAccounts := by
  obtain ⟨o', h', ho, S⟩ := (Opt.Sim.init hw hs hc hdb).run p hcare hrun
  exact ⟨o', ho, S.same, S.chain.length.symm, S.created⟩

/-- C43. When such a client has closed its transactions, flushing the caches (which `state_root` does first) leaves
exactly the contents of the reference state in the database. -/
theorem C43_flush {α : Type} (p : Client α) {w w' : World} {db : Opt.Db} {r : α} (hw : w.WF)
    (hs : w.state.snapshots = []) (hc : w.state.createdAccounts = []) (hdb : DbHolds db w.state)
    (hcare : p.Careful w []) (hrun : p.onReference w = .ok (r, w')) (hend : w'.state.snapshots = []) :
    ∃ o' o'', p.onOptimized ⟨Opt.OptState.init db, w.transient⟩ = .ok (r, o') ∧ Opt.flush o'.state = .ok o'' ∧
      DbHolds o''.db w'.state := by
  obtain ⟨o', h', ho, S⟩ := (Opt.Sim.init hw hs hc hdb).run p hcare hrun
  refine ⟨o', { o'.state with db := Opt.flushDb o'.state.db o'.state.cache, cache := Opt.Cache.empty }, ho, ?_,
    fun a => S.cur.flush.1 a, fun a k => S.cur.flush.2 a k⟩
  unfold Opt.flush
  rw [if_neg (not_not_intro (S.chain.nil_iff.mpr hend))]

/-- C43. `account_has_storage`: the optimized answer is yes whenever the reference answer is yes. It is yes wrongly
only if the database still holds a slot that reads 0 now. -/
theorem C43_hasStorage {α : Type} (p : Client α) {w w' : World} {db : Opt.Db} {r : α} (hw : w.WF)
    (hs : w.state.snapshots = []) (hc : w.state.createdAccounts = []) (hdb : DbHolds db w.state)
    (hcare : p.Careful w []) (hrun : p.onReference w = .ok (r, w')) :
    ∃ o', p.onOptimized ⟨Opt.OptState.init db, w.transient⟩ = .ok (r, o') ∧ ∀ a,
      (accountHasStorage w'.state a = true → Opt.accountHasStorage o'.state a) ∧
      (Opt.accountHasStorage o'.state a → accountHasStorage w'.state a = true ∨
        ∃ k, o'.state.db.storage a k ≠ 0 ∧ getStorage w'.state a k = 0) := by
  obtain ⟨o', h', ho, S⟩ := (Opt.Sim.init hw hs hc hdb).run p hcare hrun
  refine ⟨o', ho, fun a => ⟨fun hr => ?_, fun hr => ?_⟩⟩
  · obtain ⟨k, hk⟩ := (contains_iff S.wf.state.storage a).mp hr
    have hk' : Opt.getStorage o'.state a k ≠ 0 := by rw [S.storage]; exact hk
    unfold Opt.getStorage at hk'
    unfold Opt.accountHasStorage
    split at hk'
    · rename_i v hv
      obtain ⟨d, hd, hdk⟩ := Option.bind_eq_some_iff.mp hv
      exact .inl ⟨d, k, v, hd, hdk, hk'⟩
    · split at hk'
      · exact absurd rfl hk'
      · rename_i hz
        exact .inr ⟨Decidable.not_not.mp hz, k, hk'⟩
  · rcases hr with ⟨d, k, v, hd, hdk, hv⟩ | ⟨hz, k, hk⟩
    · left
      refine (contains_iff S.wf.state.storage a).mpr ⟨k, ?_⟩
      have e := S.storage a k
      unfold Opt.getStorage at e
      simp only [hd, Option.bind_some, hdk] at e
      intro h0
      exact hv (e.trans h0)
    · by_cases hg : getStorage w'.state a k = 0
      · exact .inr ⟨k, hk, hg⟩
      · exact .inl ((contains_iff S.wf.state.storage a).mpr ⟨k, hg⟩)

/-- C43. Database transactions: commit, let any client run until its transactions are closed, roll back. Every account
and slot reads as at the commit. -/
theorem C43_db {α : Type} (p : Client α) {o o1 o3 : Opt.OptState} {o2 : Opt.OptWorld} {t : TransientStorage} {r : α}
    (hcommit : Opt.commitDb o = .ok o1) (hrun : p.onOptimized ⟨o1, t⟩ = .ok (r, o2))
    (hroll : Opt.rollbackDb o2.state = .ok o3) :
    (∀ a, Opt.getAccountOptional o3 a = Opt.getAccountOptional o a) ∧
    (∀ a k, Opt.getStorage o3 a k = Opt.getStorage o a k) := by
  have hsv : o2.state.saved = o1.saved := Opt.saved_kept p hrun
  unfold Opt.rollbackDb at hroll
  split at hroll
  · cases hroll
  · cases hroll
    unfold Opt.commitDb Opt.flush at hcommit
    split at hcommit
    · cases hcommit
    · rename_i h
      cases hcommit
      split at h
      · cases h
      · cases h
        simp only at hsv
        simp only [Opt.getAccountOptional_eq, Opt.getStorage_eq, Opt.empty_account, Opt.empty_slot, hsv,
          Opt.flushDb_account, Opt.flushDb_storage, implies_true, and_self]

/-! ### `modify_state` and what is built on it are clients -/

/-- osaka/state.py:475-483 `modify_state`, 209-225 `destroy_account` and 428-452 `account_exists_and_is_empty`, as
the sequence of calls they make; a callback that raises stops the client with `err`. Before paris, `modify_state` keeps
empty accounts. -/
def Client.modify {α : Type} (g : Fork) (a : Address) (f : Account → Except Crash Account) (err : Crash → Client α)
    (next : Client α) : Client α :=
  .readAccount a fun old =>
    match f (old.getD emptyAccount) with
    | .error c => err c
    | .ok acc =>
      .setAccount a (some acc) (.readAccount a fun now =>
        if g.since .paris = true ∧ now = some emptyAccount then .destroyStorage a (.setAccount a none next) else next)

/-- C43. The calls made by `modify_state` amount to `modify_state` on the reference state, so `C43_refines` speaks
about clients that use it, and `move_ether`, `increment_nonce` and `set_code` with it. -/
theorem C43_modify {α : Type} (a : Address) (f : Account → Except Crash Account) (err : Crash → Client α)
    (next : Client α) (w : World) :
    (Client.modify w.state.fork a f err next).onReference w =
      match modifyState w.state a f with
      | .error c => (err c).onReference w
      | .ok s => next.onReference { w with state := s } := by
  have hg : (getAccountOptional w.state a).getD emptyAccount = getAccount w.state a := by
    unfold getAccount; cases getAccountOptional w.state a <;> rfl
  unfold Client.modify modifyState
  simp only [Client.onReference, hg]
  match f (getAccount w.state a) with
  | .error c => rfl
  | .ok acc =>
    simp only [Client.onReference, getAccountOptional_setAccount, if_true, dropEmpty_setAccount, Option.some.injEq]
    split <;> rfl

/-! ### where the two states differ -/

private def A : Address := 0xA1
private def acct : Account := ⟨1, 5, [0x60]⟩
private def w0 : World := ⟨setAccount State.empty A (some acct), TransientStorage.empty⟩
private theorem w0_wf : w0.WF := ⟨State.empty_wf.setAccount _ _, TransientStorage.empty_wf⟩
private def db0 : Opt.Db := ⟨fun a => if a = A then some acct else none, fun _ _ => 0⟩
private theorem db0_same : DbHolds db0 w0.state := by
  refine ⟨fun a => ?_, fun a k => rfl⟩
  show _ = getAccountOptional (setAccount State.empty A (some acct)) a
  rw [getAccountOptional_setAccount]
  by_cases h : a = A
  · subst h; rfl
  · rw [if_neg (fun e => h e.symm)]
    simp only [db0, if_neg h]
    rfl

/-- C43, the limit of `Careful`: a client that destroys a storage, writes to it and destroys it again in one
transaction, and rolls back the second destruction, finds its write gone on the optimized state. -/
theorem C43_twice_lost : ∃ (p : Client Word) (w : World) (db : Opt.Db), w.WF ∧ w.state.snapshots = [] ∧
    DbHolds db w.state ∧ (p.onReference w).toOption.map Prod.fst = some 7 ∧
    (p.onOptimized ⟨Opt.OptState.init db, w.transient⟩).toOption.map Prod.fst = some 0 :=
  ⟨.begin_ (.destroyStorage A (.setStorage A 1 7 (.begin_ (.destroyStorage A (.rollback
      (.readStorage A 1 .done)))))), w0, db0, w0_wf, rfl, db0_same, by decide +kernel, by decide +kernel⟩

/-- C43, the limit of `Careful`: when the write between the two destructions is rolled back too, the optimized state
raises `KeyError`. -/
theorem C43_twice_error : ∃ (p : Client Word) (w : World) (db : Opt.Db), w.WF ∧ w.state.snapshots = [] ∧
    DbHolds db w.state ∧ (p.onReference w).toOption.map Prod.fst = some 0 ∧
    (p.onOptimized ⟨Opt.OptState.init db, w.transient⟩).toOption.map Prod.fst = none :=
  ⟨.begin_ (.begin_ (.destroyStorage A (.setStorage A 1 7 (.destroyStorage A (.rollback
      (.readStorage A 1 .done)))))), w0, db0, w0_wf, rfl, db0_same, by decide +kernel, by decide +kernel⟩

/-- C43: `set_storage` on an account that does not exist raises on the reference state only, and
`get_storage_original` outside a transaction as well. -/
theorem C43_lenient : ∃ (p q : Client Word) (w : World) (db : Opt.Db), w.WF ∧ w.state.snapshots = [] ∧
    DbHolds db w.state ∧ p.onReference w = .error .assertionError ∧ q.onReference w = .error .indexError ∧
    (p.onOptimized ⟨Opt.OptState.init db, w.transient⟩).toOption.map Prod.fst = some 7 ∧
    (q.onOptimized ⟨Opt.OptState.init db, w.transient⟩).toOption.map Prod.fst = some 0 :=
  ⟨.setStorage 0xB2 1 7 (.readStorage 0xB2 1 .done), .readOriginal A 1 .done, w0, db0, w0_wf, rfl, db0_same,
    rfl, rfl, by decide +kernel, by decide +kernel⟩

/-- C43: after a client has set every stored slot to 0, `account_has_storage` still says yes on the optimized state. -/
theorem C43_zeroed : ∃ (p : Client Unit) (w w' : World) (db : Opt.Db) (o' : Opt.OptWorld), w.WF ∧
    w.state.snapshots = [] ∧ DbHolds db w.state ∧ p.Careful w [] ∧ p.onReference w = .ok ((), w') ∧
    p.onOptimized ⟨Opt.OptState.init db, w.transient⟩ = .ok ((), o') ∧
    accountHasStorage w'.state A = false ∧ Opt.accountHasStorage o'.state A := by
  have hs : setStorage w0.state A 1 9 = .ok { w0.state with storageTries := triesSet w0.state.storageTries A 1 9 } :=
    rfl
  have hwf := w0_wf.state.setStorage hs
  refine ⟨.begin_ (.setStorage A 1 0 (.done ())),
    ⟨{ w0.state with storageTries := triesSet w0.state.storageTries A 1 9 }, TransientStorage.empty⟩, _,
    ⟨db0.account, fun a k => if a = A ∧ k = 1 then 9 else 0⟩, _, ⟨hwf, TransientStorage.empty_wf⟩, rfl,
    ⟨db0_same.1, fun a k => ?_⟩, ?_, rfl, rfl, by decide +kernel, .inr ⟨rfl, 1, by decide⟩⟩
  · show (if a = A ∧ k = 1 then (9 : Word) else 0) = triesGet (triesSet w0.state.storageTries A 1 9) a k
    rw [triesGet_triesSet w0_wf.state.storage]
    by_cases h : A = a ∧ 1 = k
    · rw [if_pos h, if_pos ⟨h.1.symm, h.2.symm⟩]
    · rw [if_neg h, if_neg (fun e => h ⟨e.1.symm, e.2.symm⟩)]; rfl
  · intro s _; trivial

/-! ### the hypotheses are met -/

/-- A client that writes, destroys, writes again and rolls some of it back, and whose writes depend on what it read. -/
private def busy : Client (List Word) :=
  .begin_ <| .setStorage A 1 3 <| .setStorage A 2 4 <| .begin_ <| .destroyStorage A <| .setStorage A 1 8 <|
  .readStorage A 1 fun x => .setStorage A x 6 <| .setAccount A none <| .readStorage A 2 fun y => .rollback <|
  .readStorage A 1 fun z => .readOriginal A 1 fun u => .commit <| .readStorage A 2 fun v => .done [x, y, z, u, v]

private theorem busy_careful : busy.Careful w0 [] := by
  refine fun s1 _ s2 _ => ⟨fun _ h => ?_, fun s3 _ s4 _ w1 _ v _ w2 _ => trivial⟩
  simp [w0] at h
  split at h <;> grind

example : (busy.onReference w0).toOption.map Prod.fst = some [8, 0, 3, 0, 4] ∧
    (busy.onOptimized ⟨Opt.OptState.init db0, w0.transient⟩).toOption.map Prod.fst = some [8, 0, 3, 0, 4] := by
  decide +kernel

example : ∃ w', busy.onReference w0 = .ok ([8, 0, 3, 0, 4], w') ∧ w'.state.snapshots = [] ∧
    ∃ o', busy.onOptimized ⟨Opt.OptState.init db0, w0.transient⟩ = .ok ([8, 0, 3, 0, 4], o') ∧ SameAnswers w' o' := by
  obtain ⟨w', h, hz⟩ : ∃ w', busy.onReference w0 = .ok ([8, 0, 3, 0, 4], w') ∧ w'.state.snapshots = [] :=
    ⟨_, rfl, rfl⟩
  obtain ⟨o', h1, h2, -⟩ := C43_refines busy w0_wf rfl rfl db0_same busy_careful h
  exact ⟨w', h, hz, o', h1, h2⟩

/-- Commit the database, run the client, roll the database back. -/
example : ∃ o1 o2 o3, Opt.commitDb (Opt.OptState.init db0) = .ok o1 ∧
    (busy.onOptimized ⟨o1, w0.transient⟩) = .ok ([8, 0, 3, 0, 4], o2) ∧ Opt.rollbackDb o2.state = .ok o3 :=
  ⟨_, _, _, rfl, rfl, rfl⟩

end Verif
