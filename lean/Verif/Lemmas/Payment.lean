import Verif.Spec.Payment
import Verif.Props.C24_C25
import Verif.Props.C66_C67
/-! Lemmas for C93: the state after a message without code, and storage through the steps of a transaction. -/
namespace Verif
open Verif.Spec Verif.Props

theorem storage_prepaid (B : BlockEnv) (s : State) (tx : Transaction) (sender a : Address) (k : Word) :
    getStorage (prepaid B s tx sender) a k = getStorage s a k := by
  have e1 : ∀ k, getStorage (incrementNonce s sender) a k = getStorage s a k := by
    intro k
    unfold incrementNonce
    rw [getStorage_modifyState', if_neg]
    rintro ⟨-, h⟩
    have := congrArg Account.nonce h.2
    simp [emptyAccount] at this
  unfold prepaid setAccountBalance
  rw [getStorage_modifyState', if_neg, e1]
  rintro ⟨-, h⟩
  have := congrArg Account.nonce h.2
  unfold incrementNonce at this
  rw [getAccount_modifyState', if_pos rfl] at this
  simp [emptyAccount] at this

theorem storage_setBalance (s : State) (a x : Address) (v k : Word) (h : getAccount (setAccountBalance s a v) x ≠ emptyAccount) :
    getStorage (setAccountBalance s a v) x k = getStorage s x k := by
  unfold setAccountBalance at *
  rw [getStorage_modifyState', if_neg]
  rintro ⟨rfl, -, he⟩
  rw [getAccount_modifyState', if_pos rfl] at h
  exact h he

theorem storage_refund {s s' : State} {a : Address} {n : Nat} (h : refundSender s a n = .ok s') (x : Address) (k : Word)
    (hx : getAccount s' x ≠ emptyAccount) : getStorage s' x k = getStorage s x k := by
  unfold refundSender at h
  split at h
  · cases h
  · split at h
    · cases h
    · cases h; exact storage_setBalance _ _ _ _ _ hx

theorem storage_destroy (s : State) (a x : Address) (k : Word) :
    getStorage (destroyAccount s a) x k = if a = x then 0 else getStorage s x k := triesGet_del s.storageTries a x k

theorem account_destroyEmpty {s : State} {a : Address} (h : accountExistsAndIsEmpty s a = true) (x : Address) :
    getAccount (destroyAccount s a) x = getAccount s x := (swept_destroyEmpty h).account x

theorem storage_pay {s s' : State} {a : Address} {n : Nat} (h : payCoinbase s a n = .ok s') (x : Address) (k : Word)
    (hx : getAccount s' x ≠ emptyAccount) : getStorage s' x k = getStorage s x k := by
  unfold payCoinbase at h
  split at h
  · cases h
  · split at h
    · cases h
    · split at h
      · cases h; exact storage_setBalance _ _ _ _ _ hx
      · split at h
        · rename_i he
          cases h
          rw [storage_destroy, if_neg]
          rintro rfl
          exact hx (by rw [account_destroyEmpty he]; exact account_of_isEmpty he)
        · cases h; rfl

theorem storage_touched (l : List Address) : ∀ (s : State) (x : Address) (k : Word), getAccount s x ≠ emptyAccount →
    getStorage (destroyTouchedEmptyAccounts s l) x k = getStorage s x k := by
  induction l with
  | nil => intro s x k _; rfl
  | cons a l ih =>
    intro s x k hx
    show getStorage (destroyTouchedEmptyAccounts (if accountExistsAndIsEmpty s a then destroyAccount s a else s) l) x k = _
    by_cases he : accountExistsAndIsEmpty s a = true
    · rw [if_pos he, ih _ _ _ (by rw [account_destroyEmpty he]; exact hx), storage_destroy, if_neg]
      rintro rfl
      exact hx (account_of_isEmpty he)
    · rw [if_neg he]; exact ih _ _ _ hx

theorem storage_final (s : State) (o : MessageCallOutput) (hd : o.accountsToDelete = []) (x : Address) (k : Word)
    (hx : getAccount (finalDeletions s o) x ≠ emptyAccount) : getStorage (finalDeletions s o) x k = getStorage s x k := by
  have hx' : getAccount s x ≠ emptyAccount := by
    rw [← (finalDeletions_ok s o).keep x (by rw [hd]; exact List.not_mem_nil)]; exact hx
  unfold finalDeletions
  rw [hd]
  dsimp only [List.foldl]
  split
  · exact storage_touched _ _ _ _ hx'
  · rfl

/-- What a message without code leaves behind, in the state `s'`. -/
structure Handed (caller target : Address) (v : Word) (s s' : State) : Prop where
  balance : ∀ a, (getAccount s' a).balance.toNat + (if a = caller then v.toNat else 0) =
    (getAccount s a).balance.toNat + (if a = target then v.toNat else 0)
  rest : ∀ a, (getAccount s' a).nonce = (getAccount s a).nonce ∧ (getAccount s' a).code = (getAccount s a).code
  storage : (getAccount s caller).nonce ≠ 0 → ∀ a k, getStorage s' a k = getStorage s a k

theorem handed_move {s s' : State} {a b : Address} {v : Word} (h : moveEther s a b v = .ok s') (hv : v ≠ 0) : Handed a b v s s' := by
  obtain ⟨hle, s1, rfl, hlt, rfl⟩ := moveEther_ok h
  have hv' : v.toNat ≠ 0 := fun e => hv (by apply BitVec.eq_of_toNat_eq; rw [e]; rfl)
  have hsub : ((getAccount s a).balance - v).toNat = (getAccount s a).balance.toNat - v.toNat :=
    BitVec.toNat_sub_of_le (BitVec.le_def.mpr hle)
  have hadd := Nat.mod_eq_of_lt hlt
  rw [← BitVec.toNat_add] at hadd
  refine ⟨fun x => ?_, fun x => ?_, fun hn x k => ?_⟩
  · rw [getAccount_modifyState']
    by_cases e2 : b = x
    · subst e2
      rw [if_pos rfl, if_pos rfl]
      show (_ + v).toNat + _ = _
      rw [hadd, getAccount_modifyState']
      by_cases e1 : a = b
      · subst e1; rw [if_pos rfl, if_pos rfl]; show (_ - v).toNat + _ + _ = _; omega
      · rw [if_neg e1, if_neg (Ne.symm e1)]; omega
    · rw [if_neg e2, if_neg (Ne.symm e2), getAccount_modifyState']
      by_cases e1 : a = x
      · subst e1; rw [if_pos rfl, if_pos rfl]; show (_ - v).toNat + _ = _; omega
      · rw [if_neg e1, if_neg (Ne.symm e1)]
  · rw [getAccount_modifyState']
    by_cases e2 : b = x
    · subst e2
      rw [if_pos rfl]
      dsimp only
      rw [getAccount_modifyState']
      by_cases e1 : a = b
      · subst e1; rw [if_pos rfl]; exact ⟨rfl, rfl⟩
      · rw [if_neg e1]; exact ⟨rfl, rfl⟩
    · rw [if_neg e2, getAccount_modifyState']
      by_cases e1 : a = x
      · subst e1; rw [if_pos rfl]; exact ⟨rfl, rfl⟩
      · rw [if_neg e1]; exact ⟨rfl, rfl⟩
  · rw [getStorage_modifyState', if_neg, getStorage_modifyState', if_neg]
    · rintro ⟨-, -, he⟩
      exact hn (congrArg Account.nonce he)
    · rintro ⟨-, -, he⟩
      have he := congrArg (fun x => x.balance.toNat) he
      simp only at he
      rw [hadd] at he
      have : (emptyAccount.balance).toNat = 0 := rfl
      omega

theorem Handed.of_touch {s s' : State} {a b : Address} {v : Word} (x : Address) (h : Handed a b v (touchIn s x) s') : Handed a b v s s' := by
  refine ⟨fun y => ?_, fun y => ?_, fun hn y k => ?_⟩
  · have := h.balance y; rwa [touchIn_account] at this
  · have := h.rest y; rwa [touchIn_account] at this
  · rw [h.storage (by rw [touchIn_account]; exact hn), touchIn_storage]

theorem handed_touch {s : State} {a b : Address} (x : Address) : Handed a b 0 s (touchIn s x) :=
  ⟨fun y => by rw [touchIn_account]; simp, fun y => by rw [touchIn_account]; exact ⟨rfl, rfl⟩, fun _ y k => touchIn_storage ..⟩

theorem handed_same {s s1 s2 : State} {a b : Address} {v : Word} (h : Handed a b v s s1) (h1 : ∀ x, getAccount s2 x = getAccount s1 x)
    (h2 : ∀ x k, getStorage s2 x k = getStorage s1 x k) : Handed a b v s s2 :=
  ⟨fun x => by rw [h1]; exact h.balance x, fun x => by rw [h1]; exact h.rest x, fun hn x k => by rw [h2]; exact h.storage hn x k⟩

theorem handed_begin {w : World} {s : State} {a b : Address} {v : Word} (h : Handed a b v (beginTransaction w).state s) :
    Handed a b v w.state s := ⟨h.balance, h.rest, h.storage⟩

/-- A message whose frame ends at once only hands over its value. -/
theorem plain_message {E : Env} {msg : Message} {w w' : World} {evm : Evm}
    (hx : ∀ w2 : World, w2.state.fork = w.state.fork → executeCode E (exec E) msg w2 = .ok (initEvm msg, w2))
    (hs : msg.shouldTransferValue = true) (h : processMessage E (exec E) msg w = .ok (evm, w')) :
    evm = initEvm msg ∧ Handed msg.caller msg.currentTarget msg.value w.state w'.state := by
  unfold processMessage at h
  split at h
  · cases h
  · dsimp only at h
    have key : ∀ s, (if msg.shouldTransferValue = true ∧ msg.value ≠ 0
           then moveEther (touchIn (beginTransaction w).state msg.currentTarget) msg.caller msg.currentTarget msg.value
           else .ok (touchIn (beginTransaction w).state msg.currentTarget)) = Except.ok s →
        Handed msg.caller msg.currentTarget msg.value w.state s ∧ s.fork = w.state.fork ∧ s.snapshots = (beginTransaction w).state.snapshots := by
      intro s hs1
      split at hs1
      · rename_i hv
        refine ⟨handed_begin (Handed.of_touch msg.currentTarget (handed_move hs1 hv.2)), ?_⟩
        obtain ⟨-, s1, rfl, -, rfl⟩ := moveEther_ok hs1
        constructor
        · simp; rfl
        · simp
      · rename_i hv
        have hv : msg.value = 0 := Decidable.byContradiction fun hn => hv ⟨hs, hn⟩
        obtain rfl := Except.ok.inj hs1
        rw [hv]
        refine ⟨handed_begin (handed_touch msg.currentTarget), ?_⟩
        constructor
        · simp; rfl
        · simp
    split at h
    · cases h
    · rename_i s hs1
      obtain ⟨k1, k2, k3⟩ := key s hs1
      rw [hx { beginTransaction w with state := s } k2] at h
      dsimp only at h
      have hn : (initEvm msg).error = none := rfl
      rw [hn, Option.isSome_none, if_neg Bool.false_ne_true] at h
      obtain ⟨w2, hw2, hcont, -, -⟩ := commit_ok (w1 := { beginTransaction w with state := s }) (w := w)
        ⟨k3, rfl, k2⟩
      rw [hw2] at h
      dsimp only at h
      cases h
      obtain ⟨c1, c2, -, -⟩ := hcont
      refine ⟨rfl, handed_same k1 (fun x => ?_) (fun x k => ?_)⟩
      · unfold getAccount getAccountOptional; rw [c1]
      · unfold getStorage; rw [c2]

end Verif
