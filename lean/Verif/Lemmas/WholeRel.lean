import Verif.Lemmas.PowEvm
import Verif.Lemmas.RootContents
/-! Relations between the states of a chain that hold along whole histories, from frontier on. -/
namespace Verif
open Spec Verif.Props Verif.Pow Ethash

/-- A relation kept by everything a block does, by rewards and the DAO change, and by the change to a later fork. -/
structure HistoryClosed (R : State → State → Prop) : Prop extends BlockClosed R where
  pay : ∀ s a acc, acc.nonce = (getAccount s a).nonce → acc.code = (getAccount s a).code → R s (setAccount s a (some acc))
  fork : ∀ (s : State) (f : Fork), f.since s.fork = true → R s { s with fork := f }

section
variable {R : State → State → Prop}

theorem daoModify_rel (hR : HistoryClosed R) {s s' : State} {a : Address} {f : Account → Except Crash Account}
    (hf : ∀ x y, f x = .ok y → y.nonce = x.nonce ∧ y.code = x.code) (h : Dao.modifyState s a f = .ok s') : R s s' := by
  unfold Dao.modifyState at h
  split at h
  · cases h
  · rename_i acc hacc
    cases h
    exact hR.pay s a acc (hf _ _ hacc).1 (hf _ _ hacc).2

theorem payOmmers_rel (hR : HistoryClosed R) {F : PowFork} {n : Nat} (l : List PowHeader) : ∀ {s s' : State}, payOmmers F n s l = .ok s' → R s s' := by
  induction l with
  | nil => intro s s' h; cases h; exact hR.refl _
  | cons o r ih =>
    intro s s' h
    rw [payOmmers] at h
    split at h
    · cases h
    · split at h
      · cases h
      · split at h
        · cases h
        · split at h
          · cases h
          · rename_i s1 h1
            exact hR.trans _ _ _ (daoModify_rel hR increase_keeps h1) (ih h)

theorem payRewards_rel (hR : HistoryClosed R) {F : PowFork} {s s' : State} {n : Nat} {coinbase : Address} {l : List PowHeader}
    (h : payRewards F s n coinbase l = .ok s') : R s s' := by
  unfold payRewards at h
  split at h
  · cases h
  · split at h
    · cases h
    · rename_i s1 h1
      exact hR.trans _ _ _ (daoModify_rel hR increase_keeps h1) (payOmmers_rel hR l h)

theorem moveAll_rel (hR : HistoryClosed R) (l : List Address) : ∀ {s s' : State}, Dao.moveAll s l = .ok s' → R s s' := by
  induction l with
  | nil => intro s s' h; cases h; exact hR.refl _
  | cons a r ih =>
    intro s s' h
    rw [Dao.moveAll] at h
    split at h
    · cases h
    · rename_i s1 h1
      refine hR.trans _ _ _ ?_ (ih h)
      unfold Dao.moveEther at h1
      split at h1
      · cases h1
      · rename_i s2 h2
        exact hR.trans _ _ _ (daoModify_rel hR reduce_keeps h2) (daoModify_rel hR increase_keeps h1)

theorem powFork_rel (hR : HistoryClosed R) {F : PowFork} {c c' : PowChain Txs} (hf : F.fork.since c.state.fork = true)
    (h : applyPowFork F c = .ok c') : R c.state c'.state := by
  unfold applyPowFork at h
  split at h
  · split at h
    · cases h
    · rename_i s hs
      cases h
      refine hR.trans _ _ _ (moveAll_rel hR _ hs) (hR.fork _ _ ?_)
      have hfk : s.fork = c.state.fork := by
        have key : ∀ (l : List Address) {s s' : State}, Dao.moveAll s l = .ok s' → s'.fork = s.fork := by
          intro l
          induction l with
          | nil => intro s s' h; cases h; rfl
          | cons a r ih =>
            intro s s' h
            rw [Dao.moveAll] at h
            split at h
            · cases h
            · rename_i s1 h1
              rw [ih h]
              unfold Dao.moveEther at h1
              split at h1
              · cases h1
              · rename_i s2 h2
                rw [(modify_moved increase_keeps h1).fork, (modify_moved reduce_keeps h2).fork]
        exact key _ hs
      rw [hfk]; exact hf
  · cases h; exact hR.fork _ _ hf

theorem powImport_rel (hR : HistoryClosed R) {C : Crypto} {K : Hashes} {F : PowFork} {c c' : PowChain Txs} {b : PowBlock Txs}
    (hf : c.state.fork = F.fork) (h : Pow.stateTransition K (evmExec C K) F c b = .ok c') : R c.state c'.state := by
  obtain ⟨-, -, s, r, hrun, hpay, -⟩ := powTransition_ok h
  obtain ⟨b1, hb, rfl, -⟩ := evmExec_ok hrun
  have h1 := transactions_rel hR.toBlockClosed _ hb
  have e : { c.state with fork := F.fork } = c.state := by rw [← hf]
  dsimp only at h1
  rw [e] at h1
  exact hR.trans _ _ _ h1 (payRewards_rel hR hpay)

/-- Along a proof-of-work history. -/
theorem mined_rel (hR : HistoryClosed R) {C : Crypto} {K : Hashes} {c c' : PowChain Txs} {bs : List (PowFork × PowBlock Txs)}
    (h : Mined C K c bs c') : R c.state c'.state := by
  induction h with
  | nil c => exact hR.refl _
  | block hf h t ih => exact hR.trans _ _ _ (powImport_rel hR hf h) ih
  | fork F hf h t ih => exact hR.trans _ _ _ (powFork_rel hR hf h) ih

/-- Through the change to proof of stake and on. -/
theorem whole_rel (hR : HistoryClosed R) {C : Crypto} {K : Hashes} {c c' : PowChain Txs} {bs : List (PowFork × PowBlock Txs)}
    {chain : BlockChain} {bs' : List ChainBlock} (h : Mined C K c bs c') (hf : Fork.since .paris c'.state.fork = true)
    (h' : Imports C (merge c') bs' chain) : R c.state chain.state :=
  hR.trans _ _ _ (mined_rel hR h) (hR.trans _ _ _ (hR.fork c'.state .paris hf) (imports_rel hR.toBlockClosed hR.fork h'))

end

/-! ### instances -/

theorem secured_history : HistoryClosed fun s s' => Secured s → Secured s' :=
  { secured_closed with
    pay := fun _ _ _ _ _ h => h.setAccount _ _
    fork := fun _ _ _ h => h.of_eq rfl rfl }

theorem tidy_history : HistoryClosed fun s s' => Tidy s → Tidy s' :=
  { tidy_closed with
    pay := fun s a acc _ _ h => ⟨h.main.set _ _, h.storage, fun x k hx => by
      refine h.owned x k ?_
      rw [getAccountOptional_setAccount] at hx
      split at hx
      · cases hx
      · exact hx⟩
    fork := fun _ _ _ h => ⟨h.main, h.storage, h.owned.of_eq rfl rfl⟩ }

theorem codes_history : HistoryClosed fun s s' => CodesOK s → CodesOK s' :=
  { codes_all_closed with
    pay := fun s a acc _ hc ⟨h0, h⟩ => ⟨h0, fun x => by
      rw [Dao.getAccount_setAccount]
      split
      · rename_i e
        show CodeOK acc.code
        rw [hc]; exact h _
      · exact h x⟩
    fork := fun _ _ hu h => ⟨since_later hu h.1, h.2⟩ }

/-- All nonces fit into 64 bits. -/
def NonceBound (s : State) : Prop := ∀ a, (getAccount s a).nonce < 2 ^ 64

theorem nonceBound_history : HistoryClosed fun s s' => NonceBound s → NonceBound s' := by
  have hm : ∀ (s : State) a f, (∀ x : Account, (f x).nonce = x.nonce) → NonceBound s → NonceBound (modifyState' s a f) := by
    intro s a f hf h x
    rw [getAccount_modifyState']
    split
    · rw [hf]; exact h _
    · exact h x
  have hmove : ∀ s s' a b v, moveEther s a b v = .ok s' → NonceBound s → NonceBound s' := by
    intro s s' a b v h hs x
    rw [(moveEther_account h x).1]; exact hs x
  refine
    { contents := fun s s' _ h1 _ h a => by rw [getAccount_congr h1]; exact h a
      trans := fun a b c h h' ha => h' (h ha)
      move := hmove
      selfdestruct := fun s s' a b h hs x => by rw [((selfdestructState_rel h).account x).1]; exact hs x
      nonce := fun s a hne hs x => ?_
      storage := fun s s' a k v h hs => by unfold setStorage at h; split at h <;> cases h; exact hs
      destroy := fun s a hs => hs
      code := fun s a c _ => hm s a _ fun _ => rfl
      touch := fun s a hs x => by rw [touchIn_account]; exact hs x
      delegate := fun s a c _ => hm s a _ fun _ => rfl
      balance := fun s a v => hm s a _ fun _ => rfl
      remove := fun s a hs x => ?_
      modify := fun s s' a n h hs x => ?_
      pay := fun s a acc hn _ hs x => ?_
      fork := fun s f _ hs => hs }
  · unfold incrementNonce
    rw [getAccount_modifyState']
    split
    · have := hs a; dsimp only; omega
    · exact hs x
  · have := getAccountOptional_destroyAccount s a x
    unfold getAccount
    rw [this]
    by_cases e : a = x
    · rw [if_pos e]; decide
    · rw [if_neg e]; exact hs x
  · rw [modifyState_eq] at h
    split at h
    · cases h
    · rename_i acc hacc
      cases h
      rw [getAccount_modifyState']
      split
      · have : acc.nonce = (getAccount s a).nonce := by
          unfold withdrawalCredit at hacc
          split at hacc
          · cases hacc
          · unfold increaseRecipientBalance at hacc; split at hacc <;> cases hacc; rfl
        rw [this]; exact hs a
      · exact hs x
  · rw [Dao.getAccount_setAccount]
    split
    · show acc.nonce < 2 ^ 64
      rw [hn]; exact hs a
    · exact hs x

theorem NonceBound.fit {s : State} (h : NonceBound s) : NoncesFit s := by
  intro a acc ha
  have := h a
  unfold getAccount at this
  rw [ha] at this
  exact this

end Verif
