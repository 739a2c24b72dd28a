import Verif.Lemmas.TxSeq
import Verif.Props.C24_C25
import Verif.Props.C40
/-! Lemmas: the parts of `apply_body`. -/
namespace Verif
open Spec Verif.Props

/-- The states in the course of a block. -/
structure BodyRun (C : Crypto) (B : BlockEnv) (s : State) (txs : List (LegacyTx ⊕ Bytes)) (ws : List Withdrawal) (b' : BlockState)
    (s1 s2 : State) (b3 b4 : BlockState) : Prop where
  roots : storeBeaconRoot C B s = .ok s1
  history : storeParentHash C B s1 = .ok s2
  transactions : processTransactions C B ⟨s2, BlockOutput.empty⟩ 0 txs = .ok b3
  withdrawals : (if s.fork.since .shanghai then processWithdrawals b3 ws else .ok b3) = .ok b4
  requests : (if s.fork.since .prague then processGeneralPurposeRequests C B b4 else .ok b4) = .ok b'

theorem storeBeaconRoot_ok {C : Crypto} {B : BlockEnv} {s s' : State} (h : storeBeaconRoot C B s = .ok s') :
    (s.fork.since .cancun = true ∧ ∃ o, processUncheckedSystemTransaction C B s BEACON_ROOTS_ADDRESS (wordBytes B.parentBeaconBlockRoot) = .ok (o, s')) ∨
    (s.fork.since .cancun = false ∧ s' = s) := by
  unfold storeBeaconRoot at h
  split at h
  · rename_i hf
    split at h
    · cases h
    · rename_i o s1 h1; cases h; exact .inl ⟨hf, o, h1⟩
  · rename_i hf; cases h; exact .inr ⟨by simpa using hf, rfl⟩

theorem storeParentHash_ok {C : Crypto} {B : BlockEnv} {s s' : State} (h : storeParentHash C B s = .ok s') :
    (s.fork.since .prague = true ∧ ∃ o ph, B.blockHashes.getLast? = some ph ∧
      processUncheckedSystemTransaction C B s HISTORY_STORAGE_ADDRESS (wordBytes ph) = .ok (o, s')) ∨
    (s.fork.since .prague = false ∧ s' = s) := by
  unfold storeParentHash at h
  split at h
  · rename_i hf
    split at h
    · cases h
    · rename_i ph hph
      split at h
      · cases h
      · rename_i o s1 h1; cases h; exact .inl ⟨hf, o, ph, hph, h1⟩
  · rename_i hf; cases h; exact .inr ⟨by simpa using hf, rfl⟩

theorem ite_ok {ε α : Type} {c : Prop} [Decidable c] {x : Except ε α} {a b : α} (h : (if c then x else .ok a) = .ok b) :
    (c ∧ x = .ok b) ∨ (¬ c ∧ b = a) := by
  split at h
  · exact .inl ⟨by assumption, h⟩
  · cases h; exact .inr ⟨by assumption, rfl⟩

theorem applyBody_ok {C : Crypto} {B : BlockEnv} {s : State} {txs : List (LegacyTx ⊕ Bytes)} {ws : List Withdrawal} {b' : BlockState}
    (h : applyBody C B s txs ws = .ok b') : ∃ s1 s2 b3 b4, BodyRun C B s txs ws b' s1 s2 b3 b4 := by
  unfold applyBody at h
  dsimp only at h
  split at h
  · cases h
  · rename_i s1 h1
    split at h
    · cases h
    · rename_i s2 h2
      split at h
      · cases h
      · rename_i b3 h3
        split at h
        · cases h
        · rename_i b4 h4
          exact ⟨s1, s2, b3, b4, h1, h2, h3, h4, h⟩

/-! ### Withdrawals -/

theorem withdrawals_wf (ws : List Withdrawal) : ∀ {b b' : BlockState} {i : Nat}, b.state.fork.since .paris = true →
    processWithdrawalsFrom b i ws = .ok b' → b.state.WF →
    b'.state.WF ∧ supply b'.state = supply b.state + (ws.map wei).sum := by
  induction ws with
  | nil => intro b b' i hp h hw; cases h; exact ⟨hw, rfl⟩
  | cons w r ih =>
    intro b b' i hp h hw
    rw [processWithdrawalsFrom_cons _ hp] at h
    split at h
    · rename_i hlt
      have hw1 : (credit b.state w).WF := hw.modifyState' _ _
      obtain ⟨h1, h2⟩ := ih (by rw [credit_fork]; exact hp) h hw1
      refine ⟨h1, ?_⟩
      rw [h2]
      have := supply_modifyState' hw.main.1 w.address
        (fun acc => { acc with balance := BitVec.ofNat 256 (acc.balance.toNat + wei w) })
      simp only at this
      rw [BitVec.toNat_ofNat, Nat.mod_eq_of_lt hlt] at this
      change supply (credit b.state w) + _ = _ at this
      simp only [List.map_cons, List.sum_cons]
      omega
    · cases h

theorem withdrawals_fork (ws : List Withdrawal) : ∀ {b b' : BlockState} {i : Nat}, b.state.fork.since .paris = true →
    processWithdrawalsFrom b i ws = .ok b' → b'.state.fork = b.state.fork := by
  induction ws with
  | nil => intro b b' i hp h; cases h; rfl
  | cons w r ih =>
    intro b b' i hp h
    rw [processWithdrawalsFrom_cons _ hp] at h
    split at h
    · rw [ih (by rw [credit_fork]; exact hp) h]; simp [credit]
    · cases h

theorem withdrawals_idle {b b' : BlockState} {ws : List Withdrawal} (hf : b.state.fork.since .shanghai = true)
    (h : processWithdrawals b ws = .ok b') (hs : Idle b.state) : Idle b'.state := by
  have h1 := (C40_credit hf h).1.transient
  exact ⟨by rw [withdrawals_fork ws (shanghai_paris hf) h]; exact hs.fork, (withdrawals_wf ws (shanghai_paris hf) h hs.wf).1, h1.1.trans hs.snapshots, h1.2.trans hs.created⟩

theorem BodyRun.forks {C : Crypto} {B : BlockEnv} {s : State} {txs : List (LegacyTx ⊕ Bytes)} {ws : List Withdrawal} {b' : BlockState}
    {s1 s2 : State} {b3 b4 : BlockState} (hr : BodyRun C B s txs ws b' s1 s2 b3 b4) :
    s1.fork = s.fork ∧ s2.fork = s.fork ∧ b3.state.fork = s.fork ∧ b4.state.fork = s.fork := by
  have h1 : s1.fork = s.fork := by
    rcases storeBeaconRoot_ok hr.roots with ⟨-, o1, h1⟩ | ⟨-, h1⟩
    · exact processUnchecked_fork h1
    · rw [h1]
  have h2 : s2.fork = s.fork := by
    rcases storeParentHash_ok hr.history with ⟨-, o2, hh, -, h2⟩ | ⟨-, h2⟩
    · exact (processUnchecked_fork h2).trans h1
    · rw [h2]; exact h1
  have h3 : b3.state.fork = s.fork := (transactions_fork txs hr.transactions).trans h2
  have h4 : b4.state.fork = s.fork := by
    rcases ite_ok hr.withdrawals with ⟨hf, hw⟩ | ⟨-, hw⟩
    · exact (withdrawals_fork ws (by rw [h3]; exact shanghai_paris hf) hw).trans h3
    · rw [hw]; exact h3
  exact ⟨h1, h2, h3, h4⟩

theorem applyFork_idle {f : Fork} {chain : BlockChain} (hf : f.since .spuriousDragon = true) (h : Idle chain.state) :
    Idle (applyFork f chain).state :=
  ⟨hf, ⟨h.wf.main, h.wf.storage, h.wf.snaps⟩, h.snapshots, h.created⟩

/-! ### The order of the nonces -/

/-- What one fork decodes, the latest decodes to the same. -/
theorem decode_later {f : Fork} {t : LegacyTx ⊕ Bytes} {tx : Transaction} (h : decodeTransaction f t = .ok tx) :
    decodeTransaction .osaka t = .ok tx := by
  unfold decodeTransaction at h ⊢
  split at h
  · exact h
  · cases h
  · rename_i b rest
    have hb : ¬ ¬ Fork.since .osaka (txTypeFirstFork b) = true := by
      unfold txTypeFirstFork; (repeat' split) <;> decide
    simp only at h ⊢
    rw [if_neg hb]
    by_cases hf : f.since (txTypeFirstFork b) = true
    · rw [if_neg (not_not_intro hf)] at h; exact h
    · rw [if_pos hf] at h; cases h

/-- The senders are recovered in the same way since spurious_dragon. -/
theorem recover_later {C : Crypto} {f : Fork} {cid : U64} {tx : Transaction} (hf : f.since .spuriousDragon = true) :
    recoverSender C f cid tx = recoverSender C .osaka cid tx := by
  have hh : f.since .homestead = true := by revert hf; cases f <;> decide
  have ho : Fork.since .osaka .homestead = true ∧ Fork.since .osaka .spuriousDragon = true := by decide
  unfold recoverSender
  simp only [hf, hh, ho.1, ho.2]

/-- The transactions `l` were included between the states `s` and `s'`. -/
structure History (C : Crypto) (chainId : U64) (s s' : State) (l : List (LegacyTx ⊕ Bytes)) : Prop where
  idle : Idle s → Idle s'
  mono : Idle s → ∀ a, NonceSafe s a → (getAccount s a).nonce ≤ (getAccount s' a).nonce ∧ NonceSafe s' a
  each : Idle s → ∀ t ∈ l, ∃ tx a, decodeTransaction .osaka t = .ok tx ∧ recoverSender C .osaka chainId tx = .ok a ∧
    (NonceSafe s a → (getAccount s a).nonce ≤ tx.nonce.toNat) ∧ tx.nonce.toNat < (getAccount s' a).nonce ∧ NonceSafe s' a
  order : Idle s → l.Pairwise fun t t' => ∀ tx tx' a, decodeTransaction .osaka t = .ok tx → decodeTransaction .osaka t' = .ok tx' →
    recoverSender C .osaka chainId tx = .ok a → recoverSender C .osaka chainId tx' = .ok a → tx.nonce.toNat < tx'.nonce.toNat

theorem History.append {C : Crypto} {cid : U64} {s s1 s2 : State} {l l' : List (LegacyTx ⊕ Bytes)} (h : History C cid s s1 l)
    (h' : History C cid s1 s2 l') : History C cid s s2 (l ++ l') := by
  refine ⟨fun hi => h'.idle (h.idle hi), fun hi a hs => ?_, fun hi t ht => ?_, fun hi => ?_⟩
  · obtain ⟨h1, h2⟩ := h.mono hi a hs
    obtain ⟨h3, h4⟩ := h'.mono (h.idle hi) a h2
    exact ⟨Nat.le_trans h1 h3, h4⟩
  · rcases List.mem_append.mp ht with ht | ht
    · obtain ⟨tx, a, h1, h2, h3, h4, h5⟩ := h.each hi t ht
      obtain ⟨h6, h7⟩ := h'.mono (h.idle hi) a h5
      exact ⟨tx, a, h1, h2, h3, Nat.lt_of_lt_of_le h4 h6, h7⟩
    · obtain ⟨tx, a, h1, h2, h3, h4⟩ := h'.each (h.idle hi) t ht
      refine ⟨tx, a, h1, h2, fun hs => ?_, h4⟩
      obtain ⟨h6, h7⟩ := h.mono hi a hs
      exact Nat.le_trans h6 (h3 h7)
  · rw [List.pairwise_append]
    refine ⟨h.order hi, h'.order (h.idle hi), fun t ht t' ht' tx tx' a e1 e2 e3 e4 => ?_⟩
    obtain ⟨u, x, h1, h2, -, h4, h5⟩ := h.each hi t ht
    obtain ⟨u', x', h1', h2', h3', -⟩ := h'.each (h.idle hi) t' ht'
    rw [e1] at h1; cases h1
    rw [e2] at h1'; cases h1'
    rw [e3] at h2; cases h2
    rw [e4] at h2'; cases h2'
    exact Nat.lt_of_lt_of_le h4 (h3' h5)

theorem history_nil {C : Crypto} {cid : U64} {s s' : State} (h1 : Idle s → Idle s')
    (h2 : Idle s → ∀ a, NonceSafe s a → (getAccount s a).nonce ≤ (getAccount s' a).nonce ∧ NonceSafe s' a) : History C cid s s' [] :=
  ⟨h1, h2, fun _ t ht => by simp at ht, fun _ => List.Pairwise.nil⟩

/-- System calls, which there are since cancun. -/
theorem system_history {C : Crypto} {cid : U64} {s s' : State} (hf : s.fork.since .cancun = true) (h : Idle s → Verif.SystemCall s s') :
    History C cid s s' [] :=
  history_nil (fun hi => (h hi).idle) fun hi a _ => ⟨(h hi).nonces a, .inl (by rw [(h hi).fork]; exact hf)⟩

theorem transactions_history {C : Crypto} {B : BlockEnv} (txs : List (LegacyTx ⊕ Bytes)) : ∀ {b b' : BlockState} {i : Nat},
    processTransactions C B b i txs = .ok b' → History C B.chainId b.state b'.state txs := by
  induction txs with
  | nil => intro b b' i h; cases h; exact history_nil id fun _ _ h => ⟨Nat.le_refl _, h⟩
  | cons t r ih =>
    intro b b' i h
    obtain ⟨tx, b1, hdec, hp, hr⟩ := processTransactions_cons h
    obtain ⟨sender, msg, o, w, s1, s2, hran⟩ := processTransaction_ok.mp hp
    have h1 : History C B.chainId b.state b1.state [t] := by
      refine ⟨fun hi => idle_of_ran hi hran, fun hi => (nonces_of_ran hi hran).1, fun hi t' ht' => ?_, fun _ => by simp⟩
      simp only [List.mem_cons, List.not_mem_nil, or_false] at ht'
      subst ht'
      exact ⟨tx, sender, decode_later hdec, (recover_later hi.fork).symm.trans hran.includable.signed, fun _ => Nat.le_of_eq hran.includable.nonce, (nonces_of_ran hi hran).2⟩
    exact h1.append (ih hr)

theorem body_history {C : Crypto} {B : BlockEnv} {s : State} {txs : List (LegacyTx ⊕ Bytes)} {ws : List Withdrawal} {b' : BlockState}
    (h : applyBody C B s txs ws = .ok b') : History C B.chainId s b'.state txs := by
  obtain ⟨s1, s2, b3, b4, hr⟩ := applyBody_ok h
  have refl : ∀ s, History C B.chainId s s [] := fun _ => history_nil id fun _ _ h => ⟨Nat.le_refl _, h⟩
  have q1 : History C B.chainId s s1 [] := by
    rcases storeBeaconRoot_ok hr.roots with ⟨hf, o1, h1⟩ | ⟨-, h1⟩
    · exact system_history hf fun hi => processUnchecked_ok hi h1
    · rw [h1]; exact refl _
  have q2 : History C B.chainId s1 s2 [] := by
    rcases storeParentHash_ok hr.history with ⟨hf, o2, hh, -, h2⟩ | ⟨-, h2⟩
    · exact system_history ((since_down _).2.1 hf) fun hi => processUnchecked_ok hi h2
    · rw [h2]; exact refl _
  have q3 := transactions_history txs hr.transactions
  have q4 : History C B.chainId b3.state b4.state [] := by
    rcases ite_ok hr.withdrawals with ⟨hf, hw⟩ | ⟨-, hw⟩
    · have hf3 : b3.state.fork.since .shanghai = true := by rw [hr.forks.2.2.1]; exact hf
      refine history_nil (fun hi => withdrawals_idle hf3 hw hi) fun _ a hs => ⟨Nat.le_of_eq ((C40_credit hf3 hw).1.nonces a).symm, ?_⟩
      unfold NonceSafe at *
      rw [withdrawals_fork ws (shanghai_paris hf3) hw, (C40_credit hf3 hw).1.nonces, (C40_credit hf3 hw).1.codes]; exact hs
    · rw [hw]; exact refl _
  have q5 : History C B.chainId b4.state b'.state [] := by
    rcases ite_ok hr.requests with ⟨hf, hq⟩ | ⟨-, hq⟩
    · exact system_history ((since_down _).2.1 (by rw [hr.forks.2.2.2]; exact hf)) fun hi => (requests_ok hi hq).1
    · rw [hq]; exact refl _
  have := ((q1.append q2).append q3).append (q4.append q5)
  simpa using this

end Verif
