import Verif.Lemmas.TxRun
import Verif.Lemmas.TxCodec
import Verif.Props.C21_C23
/-! Lemmas: sequences of transactions. -/
namespace Verif
open Spec Verif.Props

theorem indexKey_inj {i j : Nat} (hi : i < 2 ^ 64) (hj : j < 2 ^ 64) (h : indexKey i = indexKey j) : i = j := by
  have small : ∀ n, n < 2 ^ 64 → Rlp.Small (.ofNat n) := by
    intro n hn
    show (natBytes n).length < 2 ^ 64
    rw [natBytes_length]
    by_cases hz : n = 0
    · subst hz; decide
    have h2 := (byteLength_spec n).2 hz
    have h3 : byteLength n - 1 < 256 ^ (byteLength n - 1) := Nat.lt_pow_self (by omega)
    omega
  exact Rlp.ofNat_inj (Rlp.encode_inj (small i hi) (small j hj) h)

/-- An account whose nonce cannot fall: since cancun every account; before, those without code that have sent a transaction. -/
def NonceSafe (s : State) (a : Address) : Prop :=
  s.fork.since .cancun = true ∨ ((getAccount s a).code = [] ∧ (getAccount s a).nonce ≠ 0)

/-- Before prague, an execution does not give code to an account that has a nonce. -/
theorem top_keep {E : Env} {msg : Message} {w w' : World} {out : MessageCallOutput} (hw : w.WF)
    (hsd : w.state.fork.since .spuriousDragon = true) (ht : TopMessage msg w)
    (h : processMessageCall E msg w = .ok (out, w')) (hf : w.state.fork.since .prague = false) {a : Address} (ha : Owned w.state a) :
    (getAccount w'.state a).code = (getAccount w.state a).code := by
  rcases top_cases hw hsd ht h with ⟨-, rfl, rfl⟩ | ⟨r, msg1, s1, msg2, child, -, hau, hrel, -, hok, hout, -, -⟩
  · rfl
  · have := authorized_old hau hf
    subst this
    exact (hok.rel.keep a ha).1

theorem prague_of_cancun {f : Fork} (h : ¬ f.since .cancun = true) : f.since .prague = false := by
  revert h; cases f <;> decide

/-- One included transaction does not lower the nonce of any such account, and raises that of its sender above the one in the
transaction. -/
theorem nonces_of_ran {C : Crypto} {B : BlockEnv} {b b' : BlockState} {tx : Transaction} {i : Nat} {sender : Address}
    {msg : Message} {o : MessageCallOutput} {w : World} {s1 s2 : State} (hs : Idle b.state)
    (h : Ran C B b tx i b' sender msg o w s1 s2) :
    (∀ a, NonceSafe b.state a → (getAccount b.state a).nonce ≤ (getAccount b'.state a).nonce ∧ NonceSafe b'.state a) ∧
    tx.nonce.toNat < (getAccount b'.state sender).nonce ∧ NonceSafe b'.state sender := by
  have htop := prepared_top h.message (prepaid_idle hs)
  have hwf : World.WF ⟨prepaid B b.state tx sender, TransientStorage.empty⟩ := ⟨prepaid_wf hs.wf, TransientStorage.empty_wf⟩
  have hm := C23_execution _ _ _ _ _ h.run
  have hsd : (prepaid B b.state tx sender).fork.since .spuriousDragon = true := by rw [prepaid_fork]; exact hs.fork
  have hdel := C22_transaction _ _ _ _ _ hwf hsd htop h.run
  have r1 := (refundSender_ok h.refund).2
  have r2 := (payCoinbase_ok h.pay).2
  have hd := finalDeletions_ok s2 o
  have hres : b'.state = finalDeletions s2 o := by rw [h.result]
  have hfork : b'.state.fork = (prepaid B b.state tx sender).fork := by
    rw [hres, hd.fork, r2.fork, r1.fork]; exact processMessageCall_fork h.run
  have key : ∀ a, NonceSafe (prepaid B b.state tx sender) a →
      (getAccount (prepaid B b.state tx sender) a).nonce ≤ (getAccount b'.state a).nonce ∧ NonceSafe b'.state a := by
    intro a hsafe
    have hle : (getAccount (prepaid B b.state tx sender) a).nonce ≤ (getAccount b'.state a).nonce := by
      by_cases ha : a ∈ o.accountsToDelete
      · rcases hdel a ha with ⟨h0, -⟩ | ⟨hf, hc⟩
        · simp only at h0; omega
        · rcases hsafe with hs | hs
          · rw [show (prepaid B b.state tx sender).fork.since .cancun = false from hf] at hs; cases hs
          · exact absurd hs.1 hc
      · have : getAccount b'.state a = getAccount s2 a := by
          rw [hres]; exact hd.keep a ha
        rw [this, (r2.rest a).1, (r1.rest a).1]
        exact hm a
    refine ⟨hle, ?_⟩
    by_cases hf : (prepaid B b.state tx sender).fork.since .cancun = true
    · exact .inl (by rw [hfork]; exact hf)
    · have hs := hsafe.resolve_left hf
      refine .inr ⟨?_, by omega⟩
      have ha : a ∉ o.accountsToDelete := by
        intro ha
        rcases hdel a ha with ⟨h0, -⟩ | ⟨-, hc⟩
        · exact hs.2 h0
        · exact hc hs.1
      have : getAccount b'.state a = getAccount s2 a := by
        rw [hres]; exact hd.keep a ha
      rw [this, (r2.rest a).2, (r1.rest a).2]
      exact (top_keep hwf hsd htop h.run (prague_of_cancun hf) (owned_iff.mpr (.inl hs.2))).trans hs.1
  refine ⟨fun a hsafe => ?_, ?_⟩
  · have hn : (getAccount b.state a).nonce ≤ (getAccount (prepaid B b.state tx sender) a).nonce := by
      rw [getAccount_prepaid]
      split
      · exact Nat.le_succ _
      · exact Nat.le_refl _
    have hc : (getAccount (prepaid B b.state tx sender) a).code = (getAccount b.state a).code := by
      rw [getAccount_prepaid]
      split <;> rfl
    obtain ⟨h1, h2⟩ := key a (by
      rcases hsafe with hs | ⟨h1, h2⟩
      · exact .inl (by rw [prepaid_fork]; exact hs)
      · exact .inr ⟨hc.trans h1, by omega⟩)
    exact ⟨Nat.le_trans hn h1, h2⟩
  · have hn : (getAccount (prepaid B b.state tx sender) sender).nonce = (getAccount b.state sender).nonce + 1 := by
      rw [getAccount_prepaid, if_pos rfl]
    have hc : (getAccount (prepaid B b.state tx sender) sender).code = (getAccount b.state sender).code := by
      rw [getAccount_prepaid, if_pos rfl]
    obtain ⟨h1, h2⟩ := key sender (by
      by_cases hf : b.state.fork.since .cancun = true
      · exact .inl (by rw [prepaid_fork]; exact hf)
      · refine .inr ⟨?_, by omega⟩
        rw [hc]
        rcases h.includable.code with h1 | h1
        · exact h1
        · unfold delegateOf at h1
          rw [prague_of_cancun hf] at h1
          simp at h1)
    have := h.includable.nonce
    exact ⟨by omega, h2⟩

theorem idle_of_ran {C : Crypto} {B : BlockEnv} {b b' : BlockState} {tx : Transaction} {i : Nat} {sender : Address}
    {msg : Message} {o : MessageCallOutput} {w : World} {s1 s2 : State} (hs : Idle b.state)
    (h : Ran C B b tx i b' sender msg o w s1 s2) : Idle b'.state := by
  have htop := prepared_top h.message (prepaid_idle hs)
  have hwf : World.WF ⟨prepaid B b.state tx sender, TransientStorage.empty⟩ := ⟨prepaid_wf hs.wf, TransientStorage.empty_wf⟩
  have hidle := top_idle hwf (show (prepaid B b.state tx sender).fork.since .spuriousDragon = true by rw [prepaid_fork]; exact hs.fork) htop h.run
  have r1 := (refundSender_ok h.refund).2
  have r2 := (payCoinbase_ok h.pay).2
  have hd := finalDeletions_ok s2 o
  have hres : b'.state = finalDeletions s2 o := by rw [h.result]
  rw [hres]
  exact ⟨by rw [hd.fork, r2.fork, r1.fork]; exact hidle.fork, hd.wf (r2.wf (r1.wf hidle.wf)),
    hd.snapshots.trans (r2.snapshots.trans (r1.snapshots.trans hidle.snapshots)),
    hd.created.trans (r2.created.trans (r1.created.trans hidle.created))⟩

theorem processTransactions_cons {C : Crypto} {B : BlockEnv} {b b' : BlockState} {i : Nat} {t : LegacyTx ⊕ Bytes}
    {r : List (LegacyTx ⊕ Bytes)} (h : processTransactions C B b i (t :: r) = .ok b') :
    ∃ tx b1, decodeTransaction b.state.fork t = .ok tx ∧ processTransaction C B b tx i = .ok b1 ∧ processTransactions C B b1 (i + 1) r = .ok b' := by
  rw [processTransactions] at h
  split at h
  · cases h
  · rename_i tx htx
    split at h
    · cases h
    · rename_i b1 hb1
      exact ⟨tx, b1, htx, hb1, h⟩

/-! ### System calls -/

theorem systemMessage_top {s : State} (target : Address) (data : Bytes) (hs : Idle s) :
    TopMessage (systemMessage target (getAccount s target).code data) ⟨s, TransientStorage.empty⟩ :=
  ⟨rfl, rfl, ⟨hs.snapshots, rfl⟩, hs.created, fun t ht => by
    have : target = t := Option.some.inj ht
    subst this
    exact ⟨rfl, rfl, rfl⟩, rfl⟩

/-- What a system call does to the state. -/
structure SystemCall (s s' : State) : Prop where
  idle : Idle s'
  nonces : ∀ a, (getAccount s a).nonce ≤ (getAccount s' a).nonce
  supply : supply s' ≤ supply s
  fork : s'.fork = s.fork

theorem processSystem_ok {C : Crypto} {B : BlockEnv} {s s' : State} {target : Address} {data : Bytes} {o : MessageCallOutput} (hs : Idle s)
    (h : processSystemTransaction C B s target (getAccount s target).code data = .ok (o, s')) :
    SystemCall s s' ∧ (o.accountsToDelete = [] → supply s' = supply s) := by
  unfold processSystemTransaction at h
  split at h
  · cases h
  · rename_i out w hrun
    cases h
    have hwf : World.WF ⟨s, TransientStorage.empty⟩ := ⟨hs.wf, TransientStorage.empty_wf⟩
    have htop := systemMessage_top target data hs
    obtain ⟨h1, h2⟩ := C11_transaction _ _ _ _ _ hwf hs.fork htop hrun
    exact ⟨⟨top_idle hwf hs.fork htop hrun, C23_execution _ _ _ _ _ hrun, h1, processMessageCall_fork hrun⟩, h2⟩

theorem processUnchecked_ok {C : Crypto} {B : BlockEnv} {s s' : State} {target : Address} {data : Bytes} {o : MessageCallOutput} (hs : Idle s)
    (h : processUncheckedSystemTransaction C B s target data = .ok (o, s')) : SystemCall s s' := (processSystem_ok hs h).1

theorem processUnchecked_fork {C : Crypto} {B : BlockEnv} {s s' : State} {target : Address} {data : Bytes} {o : MessageCallOutput}
    (h : processUncheckedSystemTransaction C B s target data = .ok (o, s')) : s'.fork = s.fork := by
  unfold processUncheckedSystemTransaction processSystemTransaction at h
  split at h
  · cases h
  · rename_i out w hrun
    cases h
    exact processMessageCall_fork hrun

theorem transactions_fork {C : Crypto} {B : BlockEnv} (txs : List (LegacyTx ⊕ Bytes)) : ∀ {b b' : BlockState} {i : Nat},
    processTransactions C B b i txs = .ok b' → b'.state.fork = b.state.fork := by
  induction txs with
  | nil => intro b b' i h; cases h; rfl
  | cons t r ih =>
    intro b b' i h
    obtain ⟨tx, b1, -, hp, hr⟩ := processTransactions_cons h
    obtain ⟨sender, msg, o, w, s1, s2, hran⟩ := processTransaction_ok.mp hp
    rw [ih hr, ran_fork hran]

theorem processChecked_ok {C : Crypto} {B : BlockEnv} {s s' : State} {target : Address} {data : Bytes} {o : MessageCallOutput} (hs : Idle s)
    (h : processCheckedSystemTransaction C B s target data = .ok (o, s')) :
    SystemCall s s' ∧ (getAccount s target).code ≠ [] ∧ o.error = none := by
  unfold processCheckedSystemTransaction at h
  dsimp only at h
  split at h
  · cases h
  · rename_i hc
    split at h
    · cases h
    · rename_i out s1 hrun
      split at h
      · cases h
      · rename_i he
        cases h
        exact ⟨(processSystem_ok hs hrun).1, fun e => hc (by rw [e]; rfl), by simpa using he⟩

theorem requests_ok {C : Crypto} {B : BlockEnv} {b b' : BlockState} (hs : Idle b.state)
    (h : processGeneralPurposeRequests C B b = .ok b') : SystemCall b.state b'.state ∧
      { b'.out with requests := b.out.requests } = b.out := by
  have happ : ∀ (out : BlockOutput) t d, { appendRequest out t d with requests := out.requests } = out ∧
      ∀ rs, { appendRequest out t d with requests := rs } = { out with requests := rs } := by
    intro out t d; unfold appendRequest; split <;> exact ⟨rfl, fun _ => rfl⟩
  unfold processGeneralPurposeRequests at h
  split at h
  · cases h
  · dsimp only at h
    split at h
    · cases h
    · rename_i o1 s1 h1
      split at h
      · cases h
      · rename_i o2 s2 h2
        cases h
        have q1 := (processChecked_ok hs h1).1
        have q2 := (processChecked_ok q1.idle h2).1
        refine ⟨⟨q2.idle, fun a => Nat.le_trans (q1.nonces a) (q2.nonces a), Nat.le_trans q2.supply q1.supply, q2.fork.trans q1.fork⟩, ?_⟩
        dsimp only
        rw [(happ _ _ _).2, (happ _ _ _).2, (happ _ _ _).2]

end Verif
