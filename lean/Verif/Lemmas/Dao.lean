import Verif.Model.Dao
import Verif.Lemmas.Supply
import Verif.Lemmas.State
/-! `modify_state` of the early forks. -/
namespace Verif.Dao
open Verif

theorem getAccount_setAccount (s : State) (a : Address) (acc : Account) (x : Address) :
    getAccount (setAccount s a (some acc)) x = if x = a then acc else getAccount s x := by
  unfold getAccount
  rw [getAccountOptional_setAccount]
  by_cases h : x = a
  · rw [if_pos h, if_pos h.symm]
  · rw [if_neg h, if_neg fun e => h e.symm]

theorem supply_set {s : State} (hd : s.mainTrie.default = none) (a : Address) (acc : Account) :
    supply (setAccount s a (some acc)) + (getAccount s a).balance.toNat = supply s + acc.balance.toNat := by
  have h := supply_setAccount hd a (some acc)
  rwa [balanceOf_getAccount] at h

/-- `create_ether`. -/
theorem createEther_ok {s s' : State} {a : Address} {v : Word} (h : createEther s a v = .ok s') :
    (getAccount s a).balance.toNat + v.toNat < 2 ^ 256 ∧
    s' = setAccount s a (some { getAccount s a with balance := (getAccount s a).balance + v }) := by
  unfold createEther modifyState increaseRecipientBalance checkedAdd at h
  by_cases hov : (getAccount s a).balance.toNat + v.toNat < 2 ^ 256
  · simp only [hov, if_true] at h; cases h; exact ⟨hov, rfl⟩
  · simp [hov] at h

theorem createEther_run {s : State} {a : Address} {v : Word} (h : (getAccount s a).balance.toNat + v.toNat < 2 ^ 256) :
    createEther s a v = .ok (setAccount s a (some { getAccount s a with balance := (getAccount s a).balance + v })) := by
  unfold createEther modifyState increaseRecipientBalance checkedAdd
  simp only [h, if_true]

/-- Moving the whole balance to another account. -/
theorem moveEther_all {s : State} (hd : s.mainTrie.default = none) (hs : supply s < 2 ^ 256) {a r : Address} (hr : a ≠ r) :
    ∃ s', moveEther s a r (getAccount s a).balance = .ok s' ∧ supply s' = supply s ∧ s'.mainTrie.default = none ∧
      s'.storageTries = s.storageTries ∧ s'.snapshots = s.snapshots ∧
      getAccount s' a = { getAccount s a with balance := 0 } ∧
      getAccount s' r = { getAccount s r with balance := (getAccount s r).balance + (getAccount s a).balance } ∧
      (getAccount s r).balance.toNat + (getAccount s a).balance.toNat < 2 ^ 256 ∧
      ∀ x, x ≠ a → x ≠ r → getAccountOptional s' x = getAccountOptional s x := by
  have hle := balance_add_le_supply hd hr
  have hr' : r ≠ a := fun h => hr h.symm
  have h1 := supply_set hd a { getAccount s a with balance := (getAccount s a).balance - (getAccount s a).balance }
  have e1 : getAccount (setAccount s a (some { getAccount s a with balance := (getAccount s a).balance - (getAccount s a).balance })) r
      = getAccount s r := by rw [getAccount_setAccount, if_neg hr']
  have hov : (getAccount s r).balance.toNat + (getAccount s a).balance.toNat < 2 ^ 256 := by omega
  refine ⟨setAccount (setAccount s a (some { getAccount s a with balance := (getAccount s a).balance - (getAccount s a).balance })) r
    (some { getAccount s r with balance := (getAccount s r).balance + (getAccount s a).balance }), ?_, ?_, ?_, rfl, rfl, ?_, ?_, hov, ?_⟩
  · unfold moveEther modifyState reduceSenderBalance increaseRecipientBalance checkedAdd
    simp only [BitVec.lt_irrefl, if_false, e1, hov, if_true]
  · have h2 := supply_set (s := setAccount s a (some { getAccount s a with balance := (getAccount s a).balance - (getAccount s a).balance }))
      (by rw [setAccount_default]; exact hd) r { getAccount s r with balance := (getAccount s r).balance + (getAccount s a).balance }
    rw [e1] at h2
    simp only [BitVec.sub_self, BitVec.toNat_zero] at h1
    rw [BitVec.toNat_add_of_lt hov] at h2
    simp only [BitVec.sub_self] at h2 ⊢
    have hz : (0#256).toNat = 0 := rfl
    omega
  · rw [setAccount_default, setAccount_default, hd]
  · rw [getAccount_setAccount, if_neg hr, getAccount_setAccount, if_pos rfl]
    simp
  · rw [getAccount_setAccount, if_pos rfl]
  · intro x hx hx'
    rw [getAccountOptional_setAccount, if_neg fun e => hx' e.symm, getAccountOptional_setAccount, if_neg fun e => hx e.symm]

end Verif.Dao
