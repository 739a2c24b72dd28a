import Verif.Lemmas.Hollow
import Verif.Lemmas.BlockRel
import Verif.Lemmas.PowEvm
/-! No transaction and no block since spurious dragon leaves a new hollow account. -/
namespace Verif
open Spec Verif.Props

/-- Since paris no change of the state makes an account hollow. -/
theorem hollow_closed : BlockClosed fun s s' => s.fork.since .paris = true → s'.fork = s.fork ∧ ∀ x, Hollow s' x → Hollow s x where
  contents := fun s s' hf hm _ _ => ⟨hf, fun x hx => hx.congr hm⟩
  trans := fun a b c h h' hf => by
    obtain ⟨f1, e1⟩ := h hf
    obtain ⟨f2, e2⟩ := h' (by rw [f1]; exact hf)
    exact ⟨f2.trans f1, fun x hx => e1 x (e2 x hx)⟩
  move := fun s s' a b v h hf => ⟨moveEther_fork h, fun x hx => by
    rcases hollow_moveEther h hx with ⟨-, e⟩ | e
    · rw [hf] at e; cases e
    · exact e⟩
  selfdestruct := fun s s' a b h hf => ⟨(selfdestructState_rel h).fork, fun x hx => by
    rcases hollow_selfdestruct h hx with ⟨-, e⟩ | e
    · rw [hf] at e; cases e
    · exact e⟩
  nonce := fun s a _ hf => ⟨by simp [incrementNonce], fun x hx => by
    rcases hollow_modifyState' hx with ⟨-, e⟩ | e
    · rw [hf] at e; cases e
    · exact e⟩
  storage := fun s s' a k v h _ => by
    unfold setStorage at h; split at h <;> cases h; exact ⟨rfl, fun x hx => hx.congr rfl⟩
  destroy := fun s a _ => ⟨rfl, fun x hx => hx.congr rfl⟩
  code := fun s a c _ hf => ⟨by simp [setCode], fun x hx => by
    rcases hollow_modifyState' hx with ⟨-, e⟩ | e
    · rw [hf] at e; cases e
    · exact e⟩
  touch := fun s a hf => ⟨touchIn_fork _ _, fun x hx => by
    rcases hollow_touchIn hx with ⟨-, e⟩ | e
    · rw [hf] at e; cases e
    · exact e⟩
  delegate := fun s a c _ hf => ⟨by simp [setCode], fun x hx => by
    rcases hollow_modifyState' hx with ⟨-, e⟩ | e
    · rw [hf] at e; cases e
    · exact e⟩
  balance := fun s a v hf => ⟨by simp [setAccountBalance], fun x hx => by
    rcases hollow_modifyState' hx with ⟨-, e⟩ | e
    · rw [hf] at e; cases e
    · exact e⟩
  remove := fun s a _ => ⟨rfl, fun x hx => (hollow_destroyAccount hx).2⟩
  modify := fun s s' a n h hf => ⟨modifyState_keeps h, fun x hx => by
    rcases hollow_modifyState h hx with ⟨-, e⟩ | e
    · rw [hf] at e; cases e
    · exact e⟩

theorem hollow_destroyAll (l : List Address) : ∀ {s : State} {x : Address}, Hollow (l.foldl destroyAccount s) x → x ∉ l ∧ Hollow s x := by
  induction l with
  | nil => intro s x h; exact ⟨by simp, h⟩
  | cons a r ih =>
    intro s x h
    obtain ⟨h1, h2⟩ := ih h
    obtain ⟨h3, h4⟩ := hollow_destroyAccount h2
    exact ⟨by simp [h1, h3], h4⟩

theorem hollow_sweep (l : List Address) : ∀ {s : State} {x : Address}, Hollow (destroyTouchedEmptyAccounts s l) x → x ∉ l ∧ Hollow s x := by
  unfold destroyTouchedEmptyAccounts
  induction l with
  | nil => intro s x h; exact ⟨by simp, h⟩
  | cons a r ih =>
    intro s x h
    obtain ⟨h1, h2⟩ := ih h
    dsimp only at h2
    by_cases hc : accountExistsAndIsEmpty s a = true
    · rw [if_pos hc] at h2
      obtain ⟨h3, h4⟩ := hollow_destroyAccount h2
      exact ⟨by simp [h1, h3], h4⟩
    · rw [if_neg hc] at h2
      refine ⟨?_, h2⟩
      intro hm
      rcases List.mem_cons.mp hm with rfl | hm
      · exact hc (hollow_iff.mpr h2)
      · exact h1 hm

theorem hollow_final {s : State} {o : MessageCallOutput} {x : Address} (h : Hollow (finalDeletions s o) x) :
    Hollow s x ∧ (s.fork.since .spuriousDragon = true → s.fork.since .paris = false → x ∉ o.touchedAccounts) := by
  unfold finalDeletions at h
  dsimp only at h
  by_cases hc : s.fork.since .spuriousDragon ∧ ¬ s.fork.since .paris
  · rw [if_pos hc] at h
    obtain ⟨h1, h2⟩ := hollow_sweep _ h
    exact ⟨(hollow_destroyAll _ h2).2, fun _ _ => h1⟩
  · rw [if_neg hc] at h
    exact ⟨(hollow_destroyAll _ h).2, fun h1 h2 => absurd ⟨h1, by rw [h2]; simp⟩ hc⟩

/-- After an account was given a balance other than 0 it is not hollow. -/
theorem hollow_setBalance {s : State} {a x : Address} {v : Word} (h : Hollow (setAccountBalance s a v) x) : Hollow s x ∨ (x = a ∧ v = 0 ∧ (getAccount s a).nonce = 0) := by
  by_cases e : x = a
  · subst e
    have := h.account
    unfold setAccountBalance at this
    rw [getAccount_modifyState', if_pos rfl] at this
    exact .inr ⟨rfl, this.2.1, this.1⟩
  · rcases hollow_modifyState' h with ⟨e', -⟩ | h
    · exact absurd e' e
    · exact .inl h

theorem hollow_refund {s s' : State} {a x : Address} {n : Nat} (hr : refundSender s a n = .ok s') (hn : (getAccount s a).nonce ≠ 0) (h : Hollow s' x) : Hollow s x := by
  unfold refundSender at hr
  split at hr
  · cases hr
  · split at hr
    · cases hr
    · cases hr
      rcases hollow_setBalance h with h | ⟨-, -, h⟩
      · exact h
      · exact absurd h hn

theorem hollow_pay {s s' : State} {a x : Address} {n : Nat} (hf : s.fork.since .spuriousDragon = true) (hr : payCoinbase s a n = .ok s') (h : Hollow s' x) : Hollow s x ∧ x ≠ a := by
  unfold payCoinbase at hr
  split at hr
  · cases hr
  · split at hr
    · cases hr
    · rename_i bal hb
      by_cases hc : bal ≠ 0 ∨ ¬ s.fork.since .spuriousDragon
      · rw [if_pos hc] at hr
        cases hr
        have hz : bal ≠ 0 := by
          rcases hc with h | h
          · exact h
          · exact absurd hf h
        refine ⟨?_, ?_⟩
        · rcases hollow_setBalance h with h | ⟨-, h, -⟩
          · exact h
          · exact absurd h hz
        · rintro rfl
          have := h.account.2.1
          unfold setAccountBalance at this
          rw [getAccount_modifyState', if_pos rfl] at this
          exact hz this
      · rw [if_neg hc] at hr
        by_cases he : accountExistsAndIsEmpty s a = true
        · rw [if_pos he] at hr; cases hr
          exact ⟨(hollow_destroyAccount h).2, (hollow_destroyAccount h).1⟩
        · rw [if_neg he] at hr; cases hr
          refine ⟨h, ?_⟩
          rintro rfl
          exact he (hollow_iff.mpr h)

/-- The contract made by a successful creation has a nonce since spurious dragon. -/
theorem created_nonce {E : Env} {msg : Message} {w w' : World} {child : Evm} (hf : w.state.fork.since .spuriousDragon = true)
    (h : processCreateMessage E (exec E) msg w = .ok (child, w')) (he : child.error.isSome = false) :
    (getAccount w'.state msg.currentTarget).nonce ≠ 0 := by
  unfold processCreateMessage at h
  split at h
  · cases h
  · rename_i evm w2 hx
    have hn := message_rel nonces_closed hx msg.currentTarget
    have h0 : (getAccount (createStart w msg.currentTarget).state msg.currentTarget).nonce ≠ 0 := by
      unfold createStart startNonce incrementNonce
      dsimp only
      rw [if_pos (by exact hf), getAccount_modifyState', if_pos rfl]
      simp
    have h2 : (getAccount w2.state msg.currentTarget).nonce ≠ 0 := by omega
    have hxs := (processMessage_snap' (exec_snap E) hx).1
    have hss := SameSnaps.trans hxs (createStart_snaps w msg.currentTarget)
    split at h
    · rename_i hh
      split at h <;> cases h
      rw [hh] at he; cases he
    · split at h
      · split at h
        · split at h <;> cases h
          simp at he
        · obtain ⟨w4, e, hc, -, _⟩ := commit_ok hss
          rw [e] at h; cases h
          rw [getAccount_congr hc.1]; exact h2
      · simp only at h
        have hss3 : SameSnaps { w2 with state := setCode w2.state msg.currentTarget evm.output } (beginTransaction w) :=
          ⟨by simpa [setCode] using hss.1, hss.2.1, by simpa [setCode] using hss.2.2⟩
        obtain ⟨w4, e, hc, -, _⟩ := commit_ok hss3
        rw [e] at h; cases h
        rw [getAccount_congr hc.1]
        show (getAccount (setCode w2.state msg.currentTarget evm.output) msg.currentTarget).nonce ≠ 0
        unfold setCode
        rw [getAccount_modifyState', if_pos rfl]
        exact h2

/-- Hollow accounts after a top-level message before paris: those before it, touched accounts, and the sender if it has no nonce. -/
theorem hollow_top {E : Env} {msg : Message} {w w' : World} {out : MessageCallOutput} (hf : w.state.fork.since .spuriousDragon = true)
    (hp : w.state.fork.since .paris = false) (ht : TopMessage msg w) (h : processMessageCall E msg w = .ok (out, w')) :
    (∀ x, Hollow w'.state x → Hollow w.state x ∨ x ∈ out.touchedAccounts ∨ x = msg.caller) ∧
    (∀ t, msg.target = some t → out.error = none → Hollow w'.state t → t ∈ out.touchedAccounts) := by
  have touched : ∀ {r : Word} {evm : Evm} {o : MessageCallOutput}, messageCallOutput r evm = .ok o → evm.error.isSome = o.error.isSome ∧ (evm.error.isSome = false → o.touchedAccounts = evm.touchedAccounts) := by
    intro r evm o h
    unfold messageCallOutput at h
    split at h
    · rename_i he; cases h; exact ⟨rfl, fun h => (by rw [he] at h; cases h)⟩
    · rename_i he
      split at h
      · cases h
      · split at h <;> cases h
        exact ⟨by simpa using he, fun _ => rfl⟩
  rw [processMessageCall, processMessageCallWith_eq] at h
  match htar : msg.target with
  | none =>
    refine ⟨fun x hx => ?_, fun t ht' => by cases ht'⟩
    unfold authorized at h
    simp only [htar, if_true] at h
    split at h
    · cases h; exact .inl hx
    · split at h
      · cases h
      · rename_i evm w1 hrun
        split at h
        · cases h
        · rename_i o ho
          cases h
          obtain ⟨t1, t2⟩ := touched ho
          have hh := processCreateMessage_h (exec_snap E) (exec_h E) _ _ _ _ hrun
          cases he : evm.error.isSome with
          | true => exact .inl (hh.1 he x hx)
          | false =>
            rcases (hh.2 he).2 x hx with h | h | h | h
            · exact .inl h
            · exact .inr (.inl (by rw [t2 he]; exact h))
            · subst h; exact absurd hx.account.1 (created_nonce hf hrun he)
            · exact .inr (.inr h.1)
  | some t =>
    have hnp : w.state.fork.since .prague = false := by
      revert hp; cases w.state.fork <;> decide
    unfold authorized at h
    rw [htar] at h
    simp only [hnp, Bool.false_eq_true, false_and, if_false, reduceCtorEq] at h
    split at h
    · cases h
    · rename_i evm w1 hrun
      split at h
      · cases h
      · rename_i o ho
        cases h
        obtain ⟨t1, t2⟩ := touched ho
        have hrd := resolveDelegation_msg msg w.state
        have hct : (resolveDelegation msg w.state).currentTarget = t := hrd.currentTarget.trans (ht.call t htar).1
        have hca : (resolveDelegation msg w.state).caller = msg.caller := hrd.caller
        have hh := processMessage_h (exec_snap E) (exec_h E) _ _ _ _ hrun
        refine ⟨fun x hx => ?_, fun t' ht' he hx => ?_⟩
        · cases he : evm.error.isSome with
          | true => exact .inl (hh.1 he x hx)
          | false =>
            have t3 := t2 he
            dsimp only at t3
            unfold topTouched at t3
            rw [htar] at t3
            rcases (hh.2 he).2 x hx with h | h | h | h
            · exact .inl h
            · refine .inr (.inl ?_); rw [t3]; dsimp only; rw [mem_touchedIfEmpty]; exact .inl h
            · refine .inr (.inl ?_); rw [t3]; dsimp only; rw [mem_touchedIfEmpty]
              rw [hct] at h; subst h; exact .inr ⟨rfl, hx⟩
            · exact .inr (.inr (h.1.trans hca))
        · cases ht'
          have he' : evm.error.isSome = false := by
            have : evm.error.isSome = out.error.isSome := t1
            rw [this, he]; rfl
          have t3 := t2 he'
          dsimp only at t3
          unfold topTouched at t3
          rw [htar] at t3
          rw [t3]; dsimp only; rw [mem_touchedIfEmpty]; exact .inr ⟨rfl, hx⟩

theorem refundSender_fork {s s' : State} {a : Address} {n : Nat} (hr : refundSender s a n = .ok s') : s'.fork = s.fork := by
  unfold refundSender at hr
  split at hr
  · cases hr
  · split at hr
    · cases hr
    · cases hr; simp [setAccountBalance]

theorem payCoinbase_fork {s s' : State} {a : Address} {n : Nat} (hr : payCoinbase s a n = .ok s') : s'.fork = s.fork := by
  unfold payCoinbase at hr
  split at hr
  · cases hr
  · split at hr
    · cases hr
    · split at hr
      · cases hr; simp [setAccountBalance]
      · split at hr
        · cases hr; rfl
        · cases hr; rfl

theorem top_nonces {E : Env} {msg : Message} {w w' : World} {out : MessageCallOutput} (h : processMessageCall E msg w = .ok (out, w')) (a : Address) :
    (getAccount w.state a).nonce ≤ (getAccount w'.state a).nonce := by
  have hR : MsgClosed fun s s' => ∀ a, (getAccount s a).nonce ≤ (getAccount s' a).nonce := ⟨nonces_closed, fun s a c _ x => by
    unfold setCode; rw [getAccount_modifyState']; split
    · rename_i h; subst h; exact Nat.le_refl _
    · exact Nat.le_refl _⟩
  exact top_rel hR h a

theorem hollow_bumped {s : State} {a x : Address} {v : Word} (h : Hollow (setAccountBalance (incrementNonce s a) a v) x) : x = a ∨ Hollow s x := by
  rcases hollow_modifyState' h with ⟨e, -⟩ | e
  · exact .inl e
  · rcases hollow_modifyState' e with ⟨e, -⟩ | e
    · exact .inl e
    · exact .inr e

/-- What a transaction does to hollow accounts. -/
theorem ran_hollow {C : Crypto} {B : BlockEnv} {b b' : BlockState} {tx : Transaction} {i : Nat} {sender : Address}
    {msg : Message} {o : MessageCallOutput} {w : World} {s1 s2 : State} (hq : Quiet b.state) (hf : b.state.fork.since .spuriousDragon = true)
    (h : Ran C B b tx i b' sender msg o w s1 s2) :
    (∀ x, Hollow b'.state x → Hollow b.state x) ∧ ¬ Hollow b'.state B.coinbase ∧ ¬ Hollow b'.state sender ∧
    (b.state.fork.since .paris = false → o.error = none → ∀ t, tx.to = some t → ¬ Hollow b'.state t) := by
  have hst : b'.state = finalDeletions s2 o := by rw [h.result]
  have f0 : (prepaid B b.state tx sender).fork = b.state.fork := prepaid_fork ..
  have f1 : w.state.fork = b.state.fork := (processMessageCall_fork h.run).trans f0
  have f2 : s1.fork = b.state.fork := (refundSender_fork h.refund).trans f1
  have f3 : s2.fork = b.state.fork := (payCoinbase_fork h.pay).trans f2
  have n0 : (getAccount (prepaid B b.state tx sender) sender).nonce ≠ 0 := by
    unfold prepaid setAccountBalance incrementNonce
    rw [getAccount_modifyState', if_pos rfl, getAccount_modifyState', if_pos rfl]
    simp
  have n1 : (getAccount w.state sender).nonce ≠ 0 := by
    have := top_nonces h.run sender
    dsimp only at this
    omega
  have back : ∀ x, Hollow b'.state x → Hollow w.state x ∧ x ≠ B.coinbase ∧ x ≠ sender ∧
      (b.state.fork.since .paris = false → x ∉ o.touchedAccounts) := by
    intro x hx
    rw [hst] at hx
    obtain ⟨h1, h2⟩ := hollow_final hx
    obtain ⟨h3, h4⟩ := hollow_pay (by rw [f2]; exact hf) h.pay h1
    have h5 := hollow_refund h.refund n1 h3
    refine ⟨h5, h4, ?_, fun hp => h2 (by rw [f3]; exact hf) (by rw [f3]; exact hp)⟩
    rintro rfl
    exact n1 h5.account.1
  obtain ⟨p1, p2, -⟩ := prepareMessage_ok h.message
  have htop := prepared_quiet h.message (prepaid_quiet hq)
  refine ⟨fun x hx => ?_, fun hx => (back _ hx).2.1 rfl, fun hx => (back _ hx).2.2.1 rfl, fun hp he t ht hx => ?_⟩
  · cases hp : b.state.fork.since .paris with
    | true => exact (ran_rel hollow_closed h hp).2 x hx
    | false =>
      obtain ⟨b1, b2, b3, b4⟩ := back x hx
      rcases (hollow_top (by rw [f0]; exact hf) (by rw [f0]; exact hp) htop h.run).1 x b1 with e | e | e
      · rcases hollow_bumped e with e | e
        · exact absurd e b3
        · exact e
      · exact absurd e (b4 hp)
      · exact absurd (e.trans p1) b3
  · obtain ⟨b1, b2, b3, b4⟩ := back t hx
    exact b4 hp ((hollow_top (by rw [f0]; exact hf) (by rw [f0]; exact hp) htop h.run).2 t (p2.trans ht) he b1)

theorem txs_hollow {C : Crypto} {B : BlockEnv} (txs : List (LegacyTx ⊕ Bytes)) : ∀ {b b' : BlockState} {i : Nat}, Quiet b.state →
    b.state.fork.since .spuriousDragon = true → processTransactions C B b i txs = .ok b' → ∀ x, Hollow b'.state x → Hollow b.state x := by
  induction txs with
  | nil => intro b b' i hq hf h x hx; cases h; exact hx
  | cons t r ih =>
    intro b b' i hq hf h x hx
    obtain ⟨tx, b1, -, hp, hr⟩ := processTransactions_cons h
    obtain ⟨sender, msg, o, w, s1, s2, hran⟩ := processTransaction_ok.mp hp
    exact (ran_hollow hq hf hran).1 x (ih (supply_all hq hran).1 (by rw [ran_fork hran]; exact hf) hr x hx)

section
open Verif.Pow Dao Ethash

theorem hollow_createEther {s s' : State} {a x : Address} {v : Word} (hv : v ≠ 0) (h : createEther s a v = .ok s') (hx : Hollow s' x) : Hollow s x ∧ x ≠ a := by
  unfold createEther Dao.modifyState increaseRecipientBalance at h
  cases hc : checkedAdd (getAccount s a).balance v with
  | error c => rw [hc] at h; cases h
  | ok y =>
    rw [hc] at h
    cases h
    have : x ≠ a := by
      rintro rfl
      have := hx.account.2.1
      rw [getAccount_setAccount, if_pos rfl] at this
      have h2 := checkedAdd_ok hc
      simp only at this
      have : y.toNat = 0 := by rw [this]; rfl
      exact hv (BitVec.eq_of_toNat_eq (by rw [show (0 : Word).toNat = 0 from rfl]; omega))
    rcases hollow_setAccount hx with e | e
    · exact absurd e this
    · exact ⟨e, this⟩

theorem hollow_payOmmers {F : PowFork} {n : Nat} (l : List PowHeader) : ∀ {s s' : State} {x : Address}, (∀ o ∈ l, n ≤ o.number + 6) →
    payOmmers F n s l = .ok s' → Hollow s' x → Hollow s x ∧ ∀ o ∈ l, x ≠ o.coinbase := by
  induction l with
  | nil => intro s s' x _ h hx; cases h; exact ⟨hx, by simp⟩
  | cons o r ih =>
    intro s s' x ha h hx
    rw [payOmmers] at h
    split at h
    · cases h
    · rename_i age hage
      split at h
      · cases h
      · rename_i left hleft
        split at h
        · cases h
        · rename_i p hp
          split at h
          · cases h
          · rename_i s1 h1
            obtain ⟨e1, e2⟩ := ih (fun o ho => ha o (List.mem_cons_of_mem _ ho)) h hx
            have hv : p / 8 ≠ 0 := by
              have hl := ha o (List.mem_cons_self ..)
              obtain ⟨hlt, rfl⟩ := toU256_ok.mp hp
              unfold usub at hage hleft
              split at hage <;> cases hage
              split at hleft <;> cases hleft
              intro hz
              have hz : (BitVec.ofNat 256 ((8 - (n - o.number)) * (blockReward F).toNat) / 8).toNat = 0 := by rw [hz]; rfl
              rw [BitVec.toNat_udiv, BitVec.toNat_ofNat, Nat.mod_eq_of_lt hlt, reward_eq] at hz
              have h1 : 2 * blockRewards F ≤ (8 - (n - o.number)) * blockRewards F := Nat.mul_le_mul_right _ (by omega)
              have h2 : 2000000000000000000 ≤ blockRewards F := by cases F <;> decide
              rw [show (8 : Word).toNat = 8 from rfl] at hz
              omega
            obtain ⟨c1, c2⟩ := hollow_createEther hv h1 e1
            exact ⟨c1, fun o' ho => by
              rcases List.mem_cons.mp ho with rfl | ho
              · exact c2
              · exact e2 o' ho⟩

theorem hollow_rewards {F : PowFork} {s s' : State} {n : Nat} {coinbase : Address} {l : List PowHeader} {x : Address} (ha : ∀ o ∈ l, n ≤ o.number + 6)
    (h : payRewards F s n coinbase l = .ok s') (hx : Hollow s' x) : Hollow s x ∧ x ≠ coinbase ∧ ∀ o ∈ l, x ≠ o.coinbase := by
  unfold payRewards at h
  split at h
  · cases h
  · rename_i v hv
    split at h
    · cases h
    · rename_i s1 h1
      obtain ⟨e1, e2⟩ := hollow_payOmmers l ha h hx
      have hv' : v ≠ 0 := by
        obtain ⟨hlt, rfl⟩ := toU256_ok.mp hv
        intro hz
        have hz : (BitVec.ofNat 256 ((blockReward F).toNat + l.length * ((blockReward F).toNat / 32))).toNat = 0 := by rw [hz]; rfl
        rw [BitVec.toNat_ofNat, Nat.mod_eq_of_lt hlt, reward_eq] at hz
        have h2 : 2000000000000000000 ≤ blockRewards F := by cases F <;> decide
        omega
      obtain ⟨c1, c2⟩ := hollow_createEther hv' h1 e1
      exact ⟨c1, c2, e2⟩

/-- Accepted ommers are at most six generations old. -/
theorem ommers_age {T : Type} {K : Hashes} {F : PowFork} {ommers : List PowHeader} {block : PowHeader} {blocks : List (PowBlock T)}
    (h : validateOmmers K F ommers block blocks = .ok ()) : ∀ o ∈ ommers, block.number ≤ o.number + 6 := by
  unfold validateOmmers at h
  dsimp only at h
  rw [ite_error_ok] at h
  by_cases h0 : ommers.length = 0
  · rw [List.length_eq_zero_iff.mp h0]; simp
  · rw [if_neg h0, match_ok, ite_error_ok, ite_error_ok, validateOmmerPlaces_iff] at h
    obtain ⟨-, -, -, -, h5⟩ := h
    exact fun o ho => (h5 o ho).2.2.2.2.1

theorem mined_hollow {C : Crypto} {K : Hashes} {F : PowFork} {c c' : PowChain Txs} {b : PowBlock Txs} (hq : Quiet c.state)
    (hf : F.fork.since .spuriousDragon = true) (h : Pow.stateTransition K (evmExec C K) F c b = .ok c') {x : Address} (hx : Hollow c'.state x) :
    Hollow c.state x ∧ x ≠ b.header.coinbase ∧ ∀ o ∈ b.ommers, x ≠ o.coinbase := by
  obtain ⟨-, ho, s, r, hrun, hpay, -⟩ := powTransition_ok h
  obtain ⟨bs, hb, rfl, -⟩ := evmExec_ok hrun
  obtain ⟨h1, h2, h3⟩ := hollow_rewards (ommers_age ho) hpay hx
  exact ⟨(txs_hollow _ (b := ⟨{ c.state with fork := F.fork }, BlockOutput.empty⟩)
    ⟨⟨hq.wf.main, hq.wf.storage, hq.wf.snaps⟩, hq.snapshots, hq.created⟩ hf hb x h1).congr rfl, h2, h3⟩

end

end Verif
