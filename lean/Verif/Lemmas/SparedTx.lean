import Verif.Lemmas.Spared
import Verif.Lemmas.WholeRel
/-! Accounts with passive code keep what they have: transactions, blocks and histories. -/
namespace Verif
open Spec Verif.Props Verif.Pow Ethash

section
variable {a : Address}

theorem kept_paid {s s' : State} {x : Address} {n : Nat} (h : Paid s s' x n) (hst : ∀ k, getStorage s' a k = getStorage s a k) : Kept a s s' :=
  ⟨by rw [h.balance]; exact Nat.le_add_right _ _, (h.rest a).1, (h.rest a).2, hst⟩

theorem not_empty {s : State} (ho : Owned s a) : accountExistsAndIsEmpty s a = false := by
  match h : accountExistsAndIsEmpty s a with
  | false => rfl
  | true => exact absurd (account_of_isEmpty h) ho.nonempty

theorem kept_setBalance_storage {s : State} (ho : Owned s a) (x : Address) (v : Word) (k : Word) :
    getStorage (setAccountBalance s x v) a k = getStorage s a k := setBalance_storage s x v ho k

theorem kept_payCoinbase {s s' : State} (ho : Owned s a) {x : Address} {n : Nat} (h : payCoinbase s x n = .ok s') : Kept a s s' := by
  refine kept_paid (payCoinbase_ok h).2 fun k => ?_
  unfold payCoinbase at h
  split at h
  · cases h
  · split at h
    · cases h
    · split at h
      · cases h; exact kept_setBalance_storage ho ..
      · split at h
        · rename_i he
          cases h
          have hx : x ≠ a := fun e => by subst e; rw [not_empty ho] at he; cases he
          exact (kept_destroy hx).storage k
        · cases h; rfl

theorem kept_refund {s s' : State} (ho : Owned s a) {x : Address} {n : Nat} (h : refundSender s x n = .ok s') : Kept a s s' := by
  refine kept_paid (refundSender_ok h).2 fun k => ?_
  unfold refundSender at h
  split at h
  · cases h
  · split at h
    · cases h
    · cases h; exact kept_setBalance_storage ho ..

theorem kept_destroyAll (l : List Address) : ∀ {s : State}, a ∉ l → Kept a s (l.foldl destroyAccount s) := by
  induction l with
  | nil => intro s _; exact .refl _
  | cons x r ih =>
    intro s h
    rw [List.mem_cons, not_or] at h
    rw [List.foldl_cons]
    exact (kept_destroy (Ne.symm h.1)).trans (ih h.2)

theorem kept_sweep (l : List Address) : ∀ {s : State}, Owned s a → Kept a s (destroyTouchedEmptyAccounts s l) := by
  unfold destroyTouchedEmptyAccounts
  induction l with
  | nil => intro s _; exact .refl _
  | cons x r ih =>
    intro s ho
    rw [List.foldl_cons]
    split
    · rename_i he
      have hx : x ≠ a := fun e => by subst e; rw [not_empty ho] at he; cases he
      have h1 : Kept a s (destroyAccount s x) := kept_destroy hx
      refine h1.trans (ih ?_)
      rw [owned_iff, h1.nonce, h1.code]; exact owned_iff.mp ho
    · exact ih ho

theorem kept_final {s : State} (hs : Settled s a) {o : MessageCallOutput} (ho : a ∉ o.accountsToDelete) : Kept a s (finalDeletions s o) := by
  unfold finalDeletions
  dsimp only
  have h1 : Kept a s (o.accountsToDelete.foldl destroyAccount s) := kept_destroyAll _ ho
  split
  · exact h1.trans (kept_sweep _ (hs.kept h1).owned)
  · exact h1

theorem kept_ran {C : Crypto} {B : BlockEnv} {b b' : BlockState} {tx : Transaction} {i : Nat} {sender : Address}
    {msg : Message} {o : MessageCallOutput} {w : World} {s1 s2 : State} (h : Ran C B b tx i b' sender msg o w s1 s2)
    (hs : Settled b.state a) (hf : Foreign C B.chainId a tx) : Kept a b.state b'.state := by
  have hne : sender ≠ a := fun e => hf.sender _ (e ▸ h.includable.signed)
  have h0 : Kept a b.state (prepaid B b.state tx sender) := (kept_increment hne).trans (kept_setBalance _ _ hne)
  obtain ⟨m1, m2, -, -, -, -, -, m8, m9⟩ := prepareMessage_ok h.message
  obtain ⟨h1, hd⟩ := keeps_top (fun t ht => m9 t (m2 ▸ ht)) m8 h.run (hs.kept h0) (fun _ => by rw [m1]; exact hne) hf.authority
  have k1 := h0.trans h1
  have k2 := k1.trans (kept_refund (hs.kept k1).owned h.refund)
  have k3 := k2.trans (kept_payCoinbase (hs.kept k2).owned h.pay)
  rw [h.result]
  exact k3.trans (kept_final (hs.kept k3) hd)

theorem kept_system {C : Crypto} {B : BlockEnv} {s s' : State} {t : Address} {data : Bytes} {o : MessageCallOutput} (hs : Settled s a)
    (h : processSystemTransaction C B s t (getAccount s t).code data = .ok (o, s')) : Kept a s s' := by
  unfold processSystemTransaction at h
  split at h
  · cases h
  · rename_i out w hx
    cases h
    refine (keeps_top (fun u hu => ?_) rfl hx hs (fun h => by cases h) (fun _ h => by cases h)).1
    cases hu
    exact ⟨rfl, rfl, rfl⟩

theorem kept_checked {C : Crypto} {B : BlockEnv} {s s' : State} {t : Address} {data : Bytes} {o : MessageCallOutput} (hs : Settled s a)
    (h : processCheckedSystemTransaction C B s t data = .ok (o, s')) : Kept a s s' := by
  unfold processCheckedSystemTransaction at h
  dsimp only at h
  split at h
  · cases h
  · split at h
    · cases h
    · rename_i out s1 hx
      split at h
      · cases h
      · cases h; exact kept_system hs hx

theorem kept_withdrawals (ws : List Withdrawal) : ∀ {b b' : BlockState} {i : Nat}, Settled b.state a → processWithdrawalsFrom b i ws = .ok b' →
    Kept a b.state b'.state := by
  induction ws with
  | nil => intro b b' i _ h; cases h; exact .refl _
  | cons w r ih =>
    intro b b' i hs h
    rw [processWithdrawalsFrom] at h
    dsimp only at h
    split at h
    · cases h
    · rename_i s hm
      have h1 : Kept a b.state s := by
        rw [modifyState_eq] at hm
        split at hm
        · cases hm
        · rename_i acc hacc
          cases hm
          refine kept_up hs.owned _ _ fun e => ?_
          subst e
          unfold withdrawalCredit at hacc
          split at hacc
          · cases hacc
          · unfold increaseRecipientBalance at hacc
            split at hacc
            · cases hacc
            · rename_i v hv
              cases hacc
              refine ⟨rfl, rfl, ?_⟩
              show _ ≤ v.toNat
              rw [checkedAdd_ok hv]; omega
      have h2 : Kept a s (if accountExistsAndIsEmpty s w.address then destroyAccount s w.address else s) := by
        split
        · rename_i he
          refine kept_destroy fun e => ?_
          rw [e, not_empty (hs.kept h1).owned] at he; cases he
        · exact .refl _
      exact (h1.trans h2).trans (ih (hs.kept (h1.trans h2)) h)

theorem kept_transactions {C : Crypto} {B : BlockEnv} (txs : Txs) : ∀ {b b' : BlockState} {i : Nat}, ForeignAll C B.chainId a txs →
    Settled b.state a → processTransactions C B b i txs = .ok b' → Kept a b.state b'.state := by
  induction txs with
  | nil => intro b b' i _ _ h; cases h; exact .refl _
  | cons t r ih =>
    intro b b' i hf hs h
    obtain ⟨tx, b1, hdec, hp, hr⟩ := processTransactions_cons h
    obtain ⟨sender, msg, o, w, s1, s2, hran⟩ := processTransaction_ok.mp hp
    have h1 := kept_ran hran hs (hf t List.mem_cons_self tx (decode_later hdec))
    exact h1.trans (ih (fun t ht => hf t (List.mem_cons_of_mem _ ht)) (hs.kept h1) hr)

theorem kept_body {C : Crypto} {B : BlockEnv} {s : State} {txs : Txs} {ws : List Withdrawal} {b' : BlockState} (hf : ForeignAll C B.chainId a txs)
    (hs : Settled s a) (h : applyBody C B s txs ws = .ok b') : Kept a s b'.state := by
  obtain ⟨s1, s2, b3, b4, hr⟩ := applyBody_ok h
  have q1 : Kept a s s1 := by
    rcases storeBeaconRoot_ok hr.roots with ⟨-, o1, h1⟩ | ⟨-, h1⟩
    · exact kept_system hs h1
    · rw [h1]; exact .refl _
  have q2 : Kept a s s2 := by
    refine q1.trans ?_
    rcases storeParentHash_ok hr.history with ⟨-, o2, hh, -, h2⟩ | ⟨-, h2⟩
    · exact kept_system (hs.kept q1) h2
    · rw [h2]; exact .refl _
  have q3 : Kept a s b3.state := q2.trans (kept_transactions txs hf (hs.kept q2) hr.transactions)
  have q4 : Kept a s b4.state := by
    refine q3.trans ?_
    rcases ite_ok hr.withdrawals with ⟨-, hw⟩ | ⟨-, hw⟩
    · exact kept_withdrawals ws (hs.kept q3) hw
    · rw [hw]; exact .refl _
  refine q4.trans ?_
  rcases ite_ok hr.requests with ⟨-, h⟩ | ⟨-, hq⟩
  · unfold processGeneralPurposeRequests at h
    split at h
    · cases h
    · dsimp only at h
      split at h
      · cases h
      · rename_i o1 s1 h1
        split at h
        · cases h
        · rename_i o2 s2 h2
          cases h
          have k1 := kept_checked (hs.kept q4) h1
          exact k1.trans (kept_checked ((hs.kept q4).kept k1) h2)
  · rw [hq]; exact .refl _

/-! ### proof of work -/

theorem kept_daoModify {s s' : State} {x : Address} {f : Account → Except Crash Account}
    (hf : x = a → ∀ acc acc', f acc = .ok acc' → acc'.nonce = acc.nonce ∧ acc'.code = acc.code ∧ acc.balance.toNat ≤ acc'.balance.toNat)
    (h : Dao.modifyState s x f = .ok s') : Kept a s s' := by
  unfold Dao.modifyState at h
  split at h
  · cases h
  · rename_i acc hacc
    cases h
    have hg := Dao.getAccount_setAccount s x acc a
    by_cases e : x = a
    · obtain ⟨h1, h2, h3⟩ := hf e _ _ hacc
      subst e
      rw [if_pos rfl] at hg
      exact ⟨by rw [hg]; exact h3, by rw [hg]; exact h1, by rw [hg]; exact h2, fun _ => rfl⟩
    · exact kept_account (by rw [hg, if_neg fun h => e h.symm]) fun _ => rfl

theorem increase_up {v : Word} (acc acc' : Account) (h : increaseRecipientBalance v acc = .ok acc') :
    acc'.nonce = acc.nonce ∧ acc'.code = acc.code ∧ acc.balance.toNat ≤ acc'.balance.toNat := by
  unfold increaseRecipientBalance at h
  split at h
  · cases h
  · rename_i b hb
    cases h
    exact ⟨rfl, rfl, by show _ ≤ b.toNat; rw [checkedAdd_ok hb]; omega⟩

theorem kept_ommers {F : PowFork} {n : Nat} (l : List PowHeader) : ∀ {s s' : State}, payOmmers F n s l = .ok s' → Kept a s s' := by
  induction l with
  | nil => intro s s' h; cases h; exact .refl _
  | cons o r ih =>
    intro s s' h
    rw [payOmmers] at h
    split at h
    · cases h
    · split at h
      · cases h
      · split at h
        · cases h
        · split at h
          · cases h
          · rename_i s1 h1
            exact (kept_daoModify (fun _ => increase_up) h1).trans (ih h)

theorem kept_rewards {F : PowFork} {s s' : State} {n : Nat} {coinbase : Address} {l : List PowHeader}
    (h : payRewards F s n coinbase l = .ok s') : Kept a s s' := by
  unfold payRewards at h
  split at h
  · cases h
  · split at h
    · cases h
    · rename_i s1 h1
      exact (kept_daoModify (fun _ => increase_up) h1).trans (kept_ommers l h)

theorem kept_moveAll (l : List Address) : ∀ {s s' : State}, a ∉ l → Dao.moveAll s l = .ok s' → Kept a s s' := by
  induction l with
  | nil => intro s s' _ h; cases h; exact .refl _
  | cons x r ih =>
    intro s s' hx h
    rw [List.mem_cons, not_or] at hx
    rw [Dao.moveAll] at h
    split at h
    · cases h
    · rename_i s1 h1
      refine Kept.trans ?_ (ih hx.2 h)
      unfold Dao.moveEther at h1
      split at h1
      · cases h1
      · rename_i s2 h2
        exact (kept_daoModify (fun e => absurd e.symm hx.1) h2).trans (kept_daoModify (fun _ => increase_up) h1)

theorem kept_powFork {F : PowFork} {c c' : PowChain Txs} (ha : a ∉ Dao.DAO_ACCOUNTS) (h : applyPowFork F c = .ok c') : Kept a c.state c'.state := by
  unfold applyPowFork at h
  split at h
  · split at h
    · cases h
    · rename_i s hs
      cases h
      exact (kept_moveAll _ ha hs).trans (kept_same rfl rfl)
  · cases h; exact kept_same rfl rfl

theorem kept_powImport {C : Crypto} {K : Hashes} {F : PowFork} {c c' : PowChain Txs} {b : PowBlock Txs}
    (hf : c.state.fork = F.fork) (h : Pow.stateTransition K (evmExec C K) F c b = .ok c') (ht : ForeignAll C c.chainId a b.transactions)
    (hs : Settled c.state a) : Kept a c.state c'.state := by
  obtain ⟨-, -, s, r, hrun, hpay, -⟩ := powTransition_ok h
  obtain ⟨b1, hb, rfl, -⟩ := evmExec_ok hrun
  have e : { c.state with fork := F.fork } = c.state := by rw [← hf]
  have h1 := kept_transactions (a := a) _ ht (by dsimp only; rw [e]; exact hs) hb
  dsimp only at h1
  rw [e] at h1
  exact h1.trans (kept_rewards hpay)

end

end Verif
