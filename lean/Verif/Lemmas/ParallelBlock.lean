import Verif.Lemmas.ParallelOps
import Verif.Lemmas.TxRun
import Verif.Lemmas.HollowTx
import Verif.Lemmas.BlockRel
/-! Transactions and blocks cannot tell alike states apart (for C85). -/
namespace Verif

/-- The same error at related states, or related values. -/
def XSim {ε σ α : Type} (Q : σ → σ → Prop) (R : α → α → Prop) : Except (ε × σ) α → Except (ε × σ) α → Prop
  | .ok a, .ok b => R a b
  | .error (e, x), .error (e', y) => e = e' ∧ Q x y
  | _, _ => False

theorem xbind {ε σ α β : Type} {Q : σ → σ → Prop} {R : α → α → Prop} {S : β → β → Prop} {x x' : Except (ε × σ) α} {k k' : α → Except (ε × σ) β}
    (h : XSim Q R x x') (hk : ∀ a a', R a a' → XSim Q S (k a) (k' a')) : XSim Q S (x >>= k) (x' >>= k') := by
  cases x with
  | error e =>
    cases x' with
    | error e' => exact h
    | ok a' => cases h
  | ok a =>
    cases x' with
    | error e' => cases h
    | ok a' => exact hk _ _ h

/-- The same output so far, on alike states. -/
structure BSim (b b' : BlockState) : Prop where
  state : SSim b.state b'.state
  out : b.out = b'.out

theorem crashAt_sim {α : Type} {R : α → α → Prop} {b b' : BlockState} {x x' : Except Crash α} (hb : BSim b b') (hx : ESim R x x') :
    XSim BSim R (crashAt b x) (crashAt b' x') := by
  cases x with
  | error e =>
    cases x' with
    | error e' => cases hx; exact ⟨rfl, hb⟩
    | ok a' => cases hx
  | ok a =>
    cases x' with
    | error e' => cases hx
    | ok a' => exact hx

theorem esim_refl {ε α : Type} (x : Except ε α) : ESim Eq x x := by cases x <;> exact rfl

/-- Two different addresses, or two different words, never have the same hash. -/
structure CollisionFree (C : Crypto) : Prop where
  addresses : ∀ a b : Address, C.keccak256 (addressBytes a) = C.keccak256 (addressBytes b) → a = b
  words : ∀ k l : Word, C.keccak256 (wordBytes k) = C.keccak256 (wordBytes l) → k = l

theorem CollisionFree.keys {C : Crypto} (h : CollisionFree C) (s : State) : KeysDiffer C s :=
  ⟨fun a b _ _ => h.addresses a b, fun _ k l _ _ => h.words k l⟩

theorem checkTransaction_sim (C : Crypto) (B : BlockEnv) {s s' : State} (h : SSim s s') (out : BlockOutput) (tx : Transaction) :
    checkTransaction C B s out tx = checkTransaction C B s' out tx := by
  unfold checkTransaction
  rw [h.fork, h.account]

theorem prepareMessage_sim (C : Crypto) (e : TxEnv) {s s' : State} (h : SSim s s') (tx : Transaction) :
    prepareMessage C e s tx = prepareMessage C e s' tx := by
  unfold prepareMessage
  rw [h.fork, h.account]

theorem beginTx_sim (C : Crypto) (B : BlockEnv) {b b' : BlockState} (h : BSim b b') (tx : Transaction) (i : Nat) :
    XSim BSim (fun x y => x.1 = y.1 ∧ BSim x.2 y.2) (beginTx C B b tx i) (beginTx C B b' tx i) := by
  obtain ⟨s, out⟩ := b
  obtain ⟨s', out'⟩ := b'
  obtain ⟨h1, h2⟩ := h
  cases h2
  unfold beginTx
  dsimp only at h1 ⊢
  rw [h1.fork, checkTransaction_sim C B h1, h1.account]
  split
  · exact ⟨rfl, ⟨h1, rfl⟩⟩
  · split
    · exact ⟨rfl, ⟨h1, rfl⟩⟩
    · rename_i c hc
      split
      · exact ⟨rfl, ⟨h1, rfl⟩⟩
      · have h3 := h1.incrementNonce c.sender
        split
        · exact ⟨rfl, ⟨h3, rfl⟩⟩
        · split
          · exact ⟨rfl, ⟨h3, rfl⟩⟩
          · split
            · exact ⟨rfl, ⟨h3, rfl⟩⟩
            · rename_i balance _
              have h4 := h3.setBalance c.sender balance
              rw [prepareMessage_sim C _ h4]
              split
              · exact ⟨rfl, ⟨h4, rfl⟩⟩
              · exact ⟨rfl, ⟨h4, rfl⟩⟩

theorem refundSender_sim {s s' : State} (h : SSim s s') (a : Address) (n : Nat) : ESim SSim (refundSender s a n) (refundSender s' a n) := by
  unfold refundSender
  rw [h.account]
  split
  · exact rfl
  · split
    · exact rfl
    · exact h.setBalance _ _

theorem payCoinbase_sim {s s' : State} (h : SSim s s') (a : Address) (n : Nat) : ESim SSim (payCoinbase s a n) (payCoinbase s' a n) := by
  unfold payCoinbase
  rw [h.account, h.fork, h.isEmpty]
  split
  · exact rfl
  · split
    · exact rfl
    · split
      · exact h.setBalance _ _
      · split
        · exact h.destroyAccount _
        · exact h

theorem destroyAll_sim (l : List Address) : ∀ {s s' : State}, SSim s s' → SSim (l.foldl destroyAccount s) (l.foldl destroyAccount s') := by
  induction l with
  | nil => exact fun h => h
  | cons a r ih => exact fun h => ih (h.destroyAccount a)

theorem finalDeletions_sim {s s' : State} (h : SSim s s') (o : MessageCallOutput) : SSim (finalDeletions s o) (finalDeletions s' o) := by
  unfold finalDeletions
  have h1 := destroyAll_sim o.accountsToDelete h
  rw [h.fork]
  dsimp only
  split
  · exact h1.destroyTouched _
  · exact h1

theorem receiptStatus_sim {C : Crypto} {s s' : State} (h : SSim s s') (hk : s.fork.since .byzantium = true ∨ CollisionFree C) (e : Option Exn) :
    receiptStatus C s e = receiptStatus C s' e := by
  unfold receiptStatus
  rcases hk with hk | hk
  · rw [← h.fork, if_pos hk, if_pos hk]
  · rw [h.fork, h.root fun _ => hk.keys s]

theorem endTx_sim {C : Crypto} (B : BlockEnv) {b b' : BlockState} (h : BSim b b') (hk : b.state.fork.since .byzantium = true ∨ CollisionFree C)
    (tx : Transaction) (i : Nat) (p : PreparedTx) (o : MessageCallOutput) :
    XSim BSim (fun x y => BSim x y ∧ x.state.fork = b.state.fork) (endTx C B b tx i p o) (endTx C B b' tx i p o) := by
  unfold endTx
  rw [← h.state.fork]
  refine xbind (R := Eq) (crashAt_sim h (esim_refl _)) ?_
  rintro gasUsed _ rfl
  refine xbind (R := Eq) (crashAt_sim h (esim_refl _)) ?_
  rintro gasLeft _ rfl
  refine xbind (R := Eq) (crashAt_sim h (esim_refl _)) ?_
  rintro fee _ rfl
  have hr := refundSender_sim h.state p.checked.sender (gasLeft * p.checked.effectiveGasPrice)
  have hrf : ∀ t, refundSender b.state p.checked.sender (gasLeft * p.checked.effectiveGasPrice) = .ok t → t.fork = b.state.fork := fun t => refundSender_fork
  revert hr hrf
  generalize refundSender b.state p.checked.sender (gasLeft * p.checked.effectiveGasPrice) = x,
    refundSender b'.state p.checked.sender (gasLeft * p.checked.effectiveGasPrice) = x'
  intro hr hrf
  refine xbind (R := fun t t' => SSim t t' ∧ t.fork = b.state.fork) (crashAt_sim h ?_) ?_
  · cases x <;> cases x'
    · exact hr
    · exact hr
    · exact hr
    · exact ⟨hr, hrf _ rfl⟩
  rintro s1 s1' ⟨h1, f1⟩
  have hp := payCoinbase_sim h1 B.coinbase (gasUsed * fee)
  have hpf : ∀ t, payCoinbase s1 B.coinbase (gasUsed * fee) = .ok t → t.fork = s1.fork := fun t => payCoinbase_fork
  revert hp hpf
  generalize payCoinbase s1 B.coinbase (gasUsed * fee) = y, payCoinbase s1' B.coinbase (gasUsed * fee) = y'
  intro hp hpf
  have hb1 : BSim { b with state := s1 } { b' with state := s1' } := ⟨h1, h.out⟩
  refine xbind (R := fun t t' => SSim t t' ∧ t.fork = s1.fork) (crashAt_sim hb1 ?_) ?_
  · cases y <;> cases y'
    · exact hp
    · exact hp
    · exact hp
    · exact ⟨hp, hpf _ rfl⟩
  rintro s2 s2' ⟨h2, f2⟩
  have h3 := finalDeletions_sim h2 o
  have f3 : (finalDeletions s2 o).fork = b.state.fork := by rw [(finalDeletions_ok s2 o).fork, f2, f1]
  have hb3 : BSim { b with state := finalDeletions s2 o, out := { b.out with blockGasUsed := b.out.blockGasUsed + gasUsed } }
      { b' with state := finalDeletions s2' o, out := { b'.out with blockGasUsed := b'.out.blockGasUsed + gasUsed } } := ⟨h3, by rw [h.out]⟩
  have hst := receiptStatus_sim (C := C) h3 (by rw [f3]; exact hk) o.error
  dsimp only
  rw [hst]
  refine xbind (R := Eq) (crashAt_sim hb3 (by rw [h.out]; exact esim_refl _)) ?_
  rintro blob _ rfl
  refine xbind (R := Eq) (crashAt_sim hb3 (esim_refl _)) ?_
  rintro st _ rfl
  exact ⟨⟨h3, by rw [h.out]⟩, f3⟩

theorem tsim_empty : TSim TransientStorage.empty TransientStorage.empty := ⟨TriesAlike.empty, .nil⟩

/-- **Transactions.** -/
theorem processTransaction_sim {C : Crypto} (B : BlockEnv) {b b' : BlockState} (h : BSim b b')
    (hk : b.state.fork.since .byzantium = true ∨ CollisionFree C) (tx : Transaction) (i : Nat) :
    XSim BSim (fun x y => BSim x y ∧ x.state.fork = b.state.fork) (processTransaction C B b tx i) (processTransaction C B b' tx i) := by
  have hb := beginTx_sim C B h tx i
  have hbf : ∀ p b1, beginTx C B b tx i = .ok (p, b1) → b1.state.fork = b.state.fork := by
    intro p b1 he
    obtain ⟨sender, -, -, -, -, -, rfl⟩ := beginTx_iff he
    exact prepaid_fork ..
  unfold processTransaction
  revert hb hbf
  rcases beginTx C B b tx i with ⟨e, v⟩ | ⟨p, b1⟩ <;> rcases beginTx C B b' tx i with ⟨e', v'⟩ | ⟨p', b1'⟩ <;> intro hb hbf
  · exact hb
  · cases hb
  · cases hb
  · obtain ⟨rfl, hs⟩ := hb
    have f1 := hbf p b1 rfl
    dsimp only at hs ⊢
    have hm := processMessageCall_ext ⟨C, B, p.txEnv⟩ p.message (w := ⟨b1.state, TransientStorage.empty⟩)
      (w' := ⟨b1'.state, TransientStorage.empty⟩) ⟨hs.state, tsim_empty⟩
    have hmf : ∀ o w, processMessageCall ⟨C, B, p.txEnv⟩ p.message ⟨b1.state, TransientStorage.empty⟩ = .ok (o, w) →
      w.state.fork = b1.state.fork := fun o w he => processMessageCall_fork he
    revert hm hmf
    rcases processMessageCall ⟨C, B, p.txEnv⟩ p.message ⟨b1.state, TransientStorage.empty⟩ with ⟨e, w⟩ | ⟨o, w⟩ <;>
      rcases processMessageCall ⟨C, B, p.txEnv⟩ p.message ⟨b1'.state, TransientStorage.empty⟩ with ⟨e', w'⟩ | ⟨o', w'⟩ <;> intro hm hmf
    · obtain ⟨rfl, hw⟩ := hm
      exact ⟨rfl, ⟨hw.state, hs.out⟩⟩
    · cases hm
    · cases hm
    · obtain ⟨rfl, hw⟩ := hm
      have f2 : w.state.fork = b.state.fork := (hmf o w rfl).trans f1
      have := endTx_sim (C := C) B (b := { b1 with state := w.state }) (b' := { b1' with state := w'.state }) ⟨hw.state, hs.out⟩
        (by show w.state.fork.since _ = true ∨ _; rw [f2]; exact hk) tx i p o
      dsimp only at this ⊢
      rw [f2] at this
      exact this

theorem processTransactions_sim {C : Crypto} (B : BlockEnv) (txs : List (LegacyTx ⊕ Bytes)) : ∀ {b b' : BlockState} (i : Nat), BSim b b' →
    (b.state.fork.since .byzantium = true ∨ CollisionFree C) →
    XSim BSim (fun x y => BSim x y ∧ x.state.fork = b.state.fork) (processTransactions C B b i txs) (processTransactions C B b' i txs) := by
  induction txs with
  | nil => intro b b' i h _; exact ⟨h, rfl⟩
  | cons t r ih =>
    intro b b' i h hk
    unfold processTransactions
    rw [h.state.fork]
    split
    · exact ⟨rfl, h⟩
    · rename_i tx _
      have hp := processTransaction_sim B h hk tx i
      revert hp
      rcases processTransaction C B b tx i with ⟨e, v⟩ | b1 <;> rcases processTransaction C B b' tx i with ⟨e', v'⟩ | b1' <;> intro hp
      · exact hp
      · cases hp
      · cases hp
      · have := ih (i + 1) hp.1 (by rw [hp.2]; exact hk)
        rw [hp.2] at this
        dsimp only
        rw [h.state.fork] at this
        exact this

/-! ### system calls, withdrawals, requests -/

theorem system_sim (C : Crypto) (B : BlockEnv) {s s' : State} (h : SSim s s') (a : Address) (code data : Bytes) :
    XSim SSim (fun x y => x.1 = y.1 ∧ SSim x.2 y.2) (processSystemTransaction C B s a code data) (processSystemTransaction C B s' a code data) := by
  unfold processSystemTransaction
  have hm := processMessageCall_ext ⟨C, B, systemTxEnv B⟩ (systemMessage a code data) (w := ⟨s, TransientStorage.empty⟩)
    (w' := ⟨s', TransientStorage.empty⟩) ⟨h, tsim_empty⟩
  revert hm
  rcases processMessageCall ⟨C, B, systemTxEnv B⟩ (systemMessage a code data) ⟨s, TransientStorage.empty⟩ with ⟨e, w⟩ | ⟨o, w⟩ <;>
    rcases processMessageCall ⟨C, B, systemTxEnv B⟩ (systemMessage a code data) ⟨s', TransientStorage.empty⟩ with ⟨e', w'⟩ | ⟨o', w'⟩ <;> intro hm
  · exact ⟨by rw [hm.1], hm.2.state⟩
  · cases hm
  · cases hm
  · exact ⟨hm.1, hm.2.state⟩

theorem unchecked_sim (C : Crypto) (B : BlockEnv) {s s' : State} (h : SSim s s') (a : Address) (data : Bytes) :
    XSim SSim (fun x y => x.1 = y.1 ∧ SSim x.2 y.2) (processUncheckedSystemTransaction C B s a data)
      (processUncheckedSystemTransaction C B s' a data) := by
  unfold processUncheckedSystemTransaction
  rw [h.account]
  exact system_sim C B h _ _ _

theorem checked_sim (C : Crypto) (B : BlockEnv) {s s' : State} (h : SSim s s') (a : Address) (data : Bytes) :
    XSim SSim (fun x y => x.1 = y.1 ∧ SSim x.2 y.2) (processCheckedSystemTransaction C B s a data)
      (processCheckedSystemTransaction C B s' a data) := by
  unfold processCheckedSystemTransaction
  rw [h.account]
  dsimp only
  split
  · exact ⟨rfl, h⟩
  · have hm := system_sim C B h a (getAccount s' a).code data
    revert hm
    rcases processSystemTransaction C B s a (getAccount s' a).code data with ⟨e, w⟩ | ⟨o, w⟩ <;>
      rcases processSystemTransaction C B s' a (getAccount s' a).code data with ⟨e', w'⟩ | ⟨o', w'⟩ <;> intro hm
    · exact hm
    · cases hm
    · cases hm
    · obtain ⟨e, hw⟩ := hm
      dsimp only at e hw ⊢
      subst e
      split
      · exact ⟨rfl, hw⟩
      · exact ⟨rfl, hw⟩

theorem beacon_sim (C : Crypto) (B : BlockEnv) {s s' : State} (h : SSim s s') :
    XSim SSim SSim (storeBeaconRoot C B s) (storeBeaconRoot C B s') := by
  unfold storeBeaconRoot
  rw [h.fork]
  split
  · have hm := unchecked_sim C B h BEACON_ROOTS_ADDRESS (wordBytes B.parentBeaconBlockRoot)
    revert hm
    rcases processUncheckedSystemTransaction C B s BEACON_ROOTS_ADDRESS (wordBytes B.parentBeaconBlockRoot) with ⟨e, w⟩ | ⟨o, w⟩ <;>
      rcases processUncheckedSystemTransaction C B s' BEACON_ROOTS_ADDRESS (wordBytes B.parentBeaconBlockRoot) with ⟨e', w'⟩ | ⟨o', w'⟩ <;> intro hm
    · exact hm
    · cases hm
    · cases hm
    · exact hm.2
  · exact h

theorem parent_sim (C : Crypto) (B : BlockEnv) {s s' : State} (h : SSim s s') :
    XSim SSim SSim (storeParentHash C B s) (storeParentHash C B s') := by
  unfold storeParentHash
  rw [h.fork]
  split
  · split
    · exact ⟨rfl, h⟩
    · rename_i x _
      have hm := unchecked_sim C B h HISTORY_STORAGE_ADDRESS (wordBytes x)
      revert hm
      rcases processUncheckedSystemTransaction C B s HISTORY_STORAGE_ADDRESS (wordBytes x) with ⟨e, w⟩ | ⟨o, w⟩ <;>
        rcases processUncheckedSystemTransaction C B s' HISTORY_STORAGE_ADDRESS (wordBytes x) with ⟨e', w'⟩ | ⟨o', w'⟩ <;> intro hm
      · exact hm
      · cases hm
      · cases hm
      · exact hm.2
  · exact h

theorem withdrawals_sim (ws : List Withdrawal) : ∀ {b b' : BlockState} (i : Nat), BSim b b' →
    XSim (ε := BlockExn) BSim BSim (processWithdrawalsFrom b i ws) (processWithdrawalsFrom b' i ws) := by
  induction ws with
  | nil => intro b b' i h; exact h
  | cons wd r ih =>
    intro b b' i h
    obtain ⟨s, out⟩ := b
    obtain ⟨s', out'⟩ := b'
    obtain ⟨h1, h2⟩ := h
    cases h2
    unfold processWithdrawalsFrom
    dsimp only at h1 ⊢
    have hm := h1.modify wd.address (withdrawalCredit wd.amount)
    revert hm
    cases modifyState s wd.address (withdrawalCredit wd.amount) <;> cases modifyState s' wd.address (withdrawalCredit wd.amount) <;> intro hm
    · cases hm; exact ⟨rfl, ⟨h1, rfl⟩⟩
    · cases hm
    · cases hm
    · rename_i t t'
      have ht : SSim t t' := hm
      refine ih (i + 1) ⟨?_, rfl⟩
      dsimp only
      rw [ht.isEmpty]
      split
      · exact ht.destroyAccount _
      · exact ht

theorem requests_sim (C : Crypto) (B : BlockEnv) {b b' : BlockState} (h : BSim b b') :
    XSim BSim BSim (processGeneralPurposeRequests C B b) (processGeneralPurposeRequests C B b') := by
  obtain ⟨s, out⟩ := b
  obtain ⟨s', out'⟩ := b'
  obtain ⟨h1, h2⟩ := h
  cases h2
  unfold processGeneralPurposeRequests
  dsimp only at h1 ⊢
  split
  · exact ⟨rfl, ⟨h1, rfl⟩⟩
  · have hm := checked_sim C B h1 WITHDRAWAL_REQUEST_PREDEPLOY_ADDRESS []
    revert hm
    rcases processCheckedSystemTransaction C B s WITHDRAWAL_REQUEST_PREDEPLOY_ADDRESS [] with ⟨e, w⟩ | ⟨o, w⟩ <;>
      rcases processCheckedSystemTransaction C B s' WITHDRAWAL_REQUEST_PREDEPLOY_ADDRESS [] with ⟨e', w'⟩ | ⟨o', w'⟩ <;> intro hm
    · obtain ⟨rfl, hw⟩ := hm; exact ⟨rfl, ⟨hw, rfl⟩⟩
    · cases hm
    · cases hm
    · obtain ⟨e, hw⟩ := hm
      dsimp only at e hw ⊢
      subst e
      have hm := checked_sim C B hw CONSOLIDATION_REQUEST_PREDEPLOY_ADDRESS []
      revert hm
      rcases processCheckedSystemTransaction C B w CONSOLIDATION_REQUEST_PREDEPLOY_ADDRESS [] with ⟨e, v⟩ | ⟨o1, v⟩ <;>
        rcases processCheckedSystemTransaction C B w' CONSOLIDATION_REQUEST_PREDEPLOY_ADDRESS [] with ⟨e', v'⟩ | ⟨o1', v'⟩ <;> intro hm
      · obtain ⟨rfl, hv⟩ := hm; exact ⟨rfl, ⟨hv, rfl⟩⟩
      · cases hm
      · cases hm
      · obtain ⟨e, hv⟩ := hm
        dsimp only at e hv ⊢
        subst e
        exact ⟨hv, rfl⟩

end Verif
