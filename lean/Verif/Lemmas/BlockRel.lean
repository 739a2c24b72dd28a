import Verif.Lemmas.StateRel
import Verif.Lemmas.Header
import Verif.Lemmas.Body
/-! Relations on states that every elementary change satisfies hold for whole blocks. -/
namespace Verif
open Spec Verif.Props

/-- The code that `set_delegation` writes. -/
def Designator (code : Bytes) : Prop := code = [] ∨ ∃ a : Address, code = [0xEF, 0x01, 0x00] ++ addressBytes a

structure MsgClosed (R : State → State → Prop) : Prop extends StateClosed R where
  delegate : ∀ s a c, Designator c → R s (setCode s a c)

structure BlockClosed (R : State → State → Prop) : Prop extends MsgClosed R where
  balance : ∀ s a v, R s (setAccountBalance s a v)
  remove : ∀ s a, R s (destroyAccount s a)
  modify : ∀ s s' a n, modifyState s a (withdrawalCredit n) = .ok s' → R s s'

section
variable {R : State → State → Prop}

theorem delegation_rel (hR : MsgClosed R) (E : Env) (l : List Authorization) : ∀ acc : DelegationAcc,
    R acc.state (l.foldl (delegationStep E) acc).state := by
  induction l with
  | nil => intro acc; exact hR.refl _
  | cons auth r ih =>
    intro acc
    rw [List.foldl_cons]
    refine hR.trans _ (delegationStep E acc auth).state _ ?_ (ih _)
    have hd : ∀ x : Address, Designator (if x = NULL_ADDRESS then [] else EOA_DELEGATION_MARKER ++ addressBytes x) := by
      intro x
      split
      · exact .inl rfl
      · exact .inr ⟨x, rfl⟩
    unfold delegationStep
    split
    · exact hR.refl _
    · split
      · exact hR.refl _
      · rename_i hmax
        split
        · exact hR.refl _
        · dsimp only
          split
          · exact hR.refl _
          · split
            · exact hR.refl _
            · rename_i hne
              refine hR.trans _ _ _ (hR.delegate _ _ _ (hd _)) (hR.nonce _ _ ?_)
              unfold setCode
              rw [getAccount_modifyState', if_pos rfl]
              dsimp only
              omega

theorem top_rel (hR : MsgClosed R) {E : Env} {msg : Message} {w w' : World} {out : MessageCallOutput}
    (h : processMessageCall E msg w = .ok (out, w')) : R w.state w'.state := by
  unfold processMessageCall processMessageCallWith at h
  match ht : msg.target with
  | none =>
    simp only [ht] at h
    split at h
    · cases h; exact hR.refl _
    · rename_i hfr
      split at h
      · cases h
      · rename_i evm w1 hx
        split at h
        · cases h
        · cases h
          refine freshMessage_rel hR.toStateClosed ?_ hx
          rw [nonce_of_fresh (s := w.state) (a := msg.currentTarget) (by
            rw [Bool.not_eq_true, Bool.or_eq_false_iff] at hfr; exact hfr.1)]
          decide
  | some t =>
    simp only [ht] at h
    split at h
    · cases h
    · rename_i refund msg1 s1 hd
      split at h
      · cases h
      · rename_i evm w1 hx
        split at h
        · cases h
        · cases h
          refine hR.trans _ s1 _ ?_ (message_rel hR.toStateClosed hx)
          split at hd
          · unfold setDelegation at hd
            dsimp only at hd
            split at hd
            · cases hd
            · split at hd
              · cases hd
              · cases hd; exact delegation_rel hR E _ ⟨w.state, msg.accessedAddresses, 0⟩
          · cases hd; exact hR.refl _

theorem destroyAll_rel (hR : BlockClosed R) (l : List Address) : ∀ s, R s (l.foldl destroyAccount s) := by
  induction l with
  | nil => intro s; exact hR.refl _
  | cons a r ih => intro s; exact hR.trans _ _ _ (hR.remove s a) (ih _)

theorem sweep_rel (hR : BlockClosed R) (l : List Address) : ∀ s, R s (destroyTouchedEmptyAccounts s l) := by
  unfold destroyTouchedEmptyAccounts
  induction l with
  | nil => intro s; exact hR.refl _
  | cons a r ih =>
    intro s
    rw [List.foldl_cons]
    refine hR.trans _ _ _ ?_ (ih _)
    split
    · exact hR.remove s a
    · exact hR.refl _

theorem final_rel (hR : BlockClosed R) (s : State) (o : MessageCallOutput) : R s (finalDeletions s o) := by
  unfold finalDeletions
  dsimp only
  split
  · exact hR.trans _ _ _ (destroyAll_rel hR _ _) (sweep_rel hR _ _)
  · exact destroyAll_rel hR _ _

theorem ran_rel (hR : BlockClosed R) {C : Crypto} {B : BlockEnv} {b b' : BlockState} {tx : Transaction} {i : Nat} {sender : Address}
    {msg : Message} {o : MessageCallOutput} {w : World} {s1 s2 : State} (h : Ran C B b tx i b' sender msg o w s1 s2) :
    R b.state b'.state := by
  have h0 : R b.state (prepaid B b.state tx sender) := hR.trans _ _ _ (hR.nonce _ _ (by
    have h1 := h.includable.nonce
    have h2 := h.includable.valid.nonce
    omega)) (hR.balance _ _ _)
  have h1 := top_rel hR.toMsgClosed h.run
  have h2 : R w.state s1 := by
    have := h.refund
    unfold refundSender at this
    split at this
    · cases this
    · split at this
      · cases this
      · cases this; exact hR.balance _ _ _
  have h3 : R s1 s2 := by
    have := h.pay
    unfold payCoinbase at this
    split at this
    · cases this
    · split at this
      · cases this
      · split at this
        · cases this; exact hR.balance _ _ _
        · split at this
          · cases this; exact hR.remove _ _
          · cases this; exact hR.refl _
  rw [h.result]
  exact hR.trans _ _ _ h0 (hR.trans _ _ _ h1 (hR.trans _ _ _ h2 (hR.trans _ _ _ h3 (final_rel hR _ _))))

theorem system_rel (hR : BlockClosed R) {C : Crypto} {B : BlockEnv} {s s' : State} {t : Address} {code data : Bytes} {o : MessageCallOutput}
    (h : processSystemTransaction C B s t code data = .ok (o, s')) : R s s' := by
  unfold processSystemTransaction at h
  split at h
  · cases h
  · rename_i out w hx; cases h; exact top_rel hR.toMsgClosed hx

theorem checked_rel (hR : BlockClosed R) {C : Crypto} {B : BlockEnv} {s s' : State} {t : Address} {data : Bytes} {o : MessageCallOutput}
    (h : processCheckedSystemTransaction C B s t data = .ok (o, s')) : R s s' := by
  unfold processCheckedSystemTransaction at h
  dsimp only at h
  split at h
  · cases h
  · split at h
    · cases h
    · rename_i out s1 hx
      split at h
      · cases h
      · cases h; exact system_rel hR hx

theorem withdrawals_rel (hR : BlockClosed R) (ws : List Withdrawal) : ∀ {b b' : BlockState} {i : Nat}, processWithdrawalsFrom b i ws = .ok b' →
    R b.state b'.state := by
  induction ws with
  | nil => intro b b' i h; cases h; exact hR.refl _
  | cons w r ih =>
    intro b b' i h
    rw [processWithdrawalsFrom] at h
    dsimp only at h
    split at h
    · cases h
    · rename_i s hs
      have h1 := hR.modify _ _ _ _ hs
      have h2 := ih h
      dsimp only at h2
      refine hR.trans _ _ _ h1 (hR.trans _ _ _ ?_ h2)
      split
      · exact hR.remove _ _
      · exact hR.refl _

theorem transactions_rel (hR : BlockClosed R) {C : Crypto} {B : BlockEnv} (txs : List (LegacyTx ⊕ Bytes)) : ∀ {b b' : BlockState} {i : Nat},
    processTransactions C B b i txs = .ok b' → R b.state b'.state := by
  induction txs with
  | nil => intro b b' i h; cases h; exact hR.refl _
  | cons t r ih =>
    intro b b' i h
    obtain ⟨tx, b1, hdec, hp, hr⟩ := processTransactions_cons h
    obtain ⟨sender, msg, o, w, s1, s2, hran⟩ := processTransaction_ok.mp hp
    exact hR.trans _ _ _ (ran_rel hR hran) (ih hr)

theorem requests_rel (hR : BlockClosed R) {C : Crypto} {B : BlockEnv} {b b' : BlockState} (h : processGeneralPurposeRequests C B b = .ok b') :
    R b.state b'.state := by
  unfold processGeneralPurposeRequests at h
  split at h
  · cases h
  · dsimp only at h
    split at h
    · cases h
    · rename_i o1 s1 h1
      split at h
      · cases h
      · rename_i o2 s2 h2
        cases h
        exact hR.trans _ _ _ (checked_rel hR h1) (checked_rel hR h2)

theorem body_rel (hR : BlockClosed R) {C : Crypto} {B : BlockEnv} {s : State} {txs : List (LegacyTx ⊕ Bytes)} {ws : List Withdrawal}
    {b' : BlockState} (h : applyBody C B s txs ws = .ok b') : R s b'.state := by
  obtain ⟨s1, s2, b3, b4, hr⟩ := applyBody_ok h
  have q1 : R s s1 := by
    rcases storeBeaconRoot_ok hr.roots with ⟨-, o1, h1⟩ | ⟨-, h1⟩
    · exact system_rel hR h1
    · rw [h1]; exact hR.refl _
  have q2 : R s1 s2 := by
    rcases storeParentHash_ok hr.history with ⟨-, o2, hh, -, h2⟩ | ⟨-, h2⟩
    · exact system_rel hR h2
    · rw [h2]; exact hR.refl _
  have q4 : R b3.state b4.state := by
    rcases ite_ok hr.withdrawals with ⟨-, hw⟩ | ⟨-, hw⟩
    · exact withdrawals_rel hR ws hw
    · rw [hw]; exact hR.refl _
  have q5 : R b4.state b'.state := by
    rcases ite_ok hr.requests with ⟨-, hq⟩ | ⟨-, hq⟩
    · exact requests_rel hR hq
    · rw [hq]; exact hR.refl _
  exact hR.trans _ _ _ q1 (hR.trans _ _ _ q2 (hR.trans _ _ _ (transactions_rel hR txs hr.transactions) (hR.trans _ _ _ q4 q5)))

theorem import_rel (hR : BlockClosed R) {C : Crypto} {chain chain' : BlockChain} {b : Block} (h : stateTransition C chain b = .ok chain') :
    R chain.state chain'.state := by
  obtain ⟨-, -, -, -, bs, k, hb, hs, -⟩ := stateTransition_ok h
  rw [hs]; exact body_rel hR hb

end

end Verif
