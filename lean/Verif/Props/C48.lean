import Verif.Lemmas.Dao
import Verif.Spec.Dao
import Verif.Lemmas.SampleBlock
/-! C48: the irregular state change of the DAO fork. -/
namespace Verif
open Dao Spec

private theorem moveAll_ok : ∀ (l : List Address) (s : State), s.mainTrie.default = none → supply s < 2 ^ 256 → l.Nodup →
    DAO_RECOVERY ∉ l → ∃ s', moveAll s l = .ok s' ∧ supply s' = supply s ∧
      s'.storageTries = s.storageTries ∧
      (∀ a ∈ l, getAccount s' a = { getAccount s a with balance := 0 }) ∧
      (getAccount s' DAO_RECOVERY).balance.toNat =
        (getAccount s DAO_RECOVERY).balance.toNat + (l.map fun a => (getAccount s a).balance.toNat).sum ∧
      (getAccount s' DAO_RECOVERY).nonce = (getAccount s DAO_RECOVERY).nonce ∧
      (getAccount s' DAO_RECOVERY).code = (getAccount s DAO_RECOVERY).code ∧
      ∀ x, x ∉ l → x ≠ DAO_RECOVERY → getAccountOptional s' x = getAccountOptional s x := by
  intro l
  induction l with
  | nil => intro s _ _ _ _; exact ⟨s, rfl, rfl, rfl, by simp, by simp, rfl, rfl, fun _ _ _ => rfl⟩
  | cons a l ih =>
    intro s hd hs hn hr
    rw [List.nodup_cons] at hn
    rw [List.mem_cons, not_or] at hr
    obtain ⟨s1, e1, sup1, d1, st1, -, a1, r1, ov1, o1⟩ := moveEther_all hd hs (a := a) (r := DAO_RECOVERY) (fun h => hr.1 h.symm)
    obtain ⟨s2, e2, sup2, st2, a2, r2, n2, c2, o2⟩ := ih s1 d1 (by omega) hn.2 hr.2
    have keep : ∀ x ∈ l, getAccount s1 x = getAccount s x := by
      intro x hx
      unfold getAccount
      rw [o1 x (fun h => hn.1 (h ▸ hx)) (fun h => hr.2 (h ▸ hx))]
    refine ⟨s2, ?_, by omega, by rw [st2, st1], ?_, ?_, ?_, ?_, ?_⟩
    · unfold moveAll
      dsimp only
      rw [e1]
      exact e2
    · intro x hx
      rcases List.mem_cons.mp hx with rfl | hx
      · have := o2 x hn.1 (fun h => hr.1 h.symm)
        have e : getAccount s2 x = getAccount s1 x := by unfold getAccount; rw [this]
        rw [e, a1]
      · rw [a2 x hx, keep x hx]
    · rw [r2, r1, List.map_cons, List.sum_cons]
      have : (l.map fun x => (getAccount s1 x).balance.toNat) = l.map fun x => (getAccount s x).balance.toNat :=
        List.map_congr_left fun x hx => by rw [keep x hx]
      rw [this]
      show ((getAccount s DAO_RECOVERY).balance + (getAccount s a).balance).toNat + _ = _
      rw [BitVec.toNat_add_of_lt ov1]
      omega
    · rw [n2, r1]
    · rw [c2, r1]
    · intro x hx hx'
      rw [List.mem_cons, not_or] at hx
      rw [o2 x hx.2 hx', o1 x hx.1 hx']

/-- The listed accounts are 116 different ones, and the recovery account is not among them. -/
theorem C48_list : daoAccounts.length = 116 ∧ daoAccounts.Nodup ∧ daoRecovery ∉ daoAccounts := by decide +kernel

theorem daoAccounts_eq : DAO_ACCOUNTS = daoAccounts := by decide +kernel
theorem daoRecovery_eq : DAO_RECOVERY = daoRecovery := by decide +kernel

/-- **C48.** On every state whose total supply fits 256 bits the change succeeds. Every listed account ends with balance 0 (and
its nonce and code unchanged); the recovery account gains exactly the sum of their balances (and keeps nonce and code); every
other account and all storage are untouched; and the total supply is the same. -/
theorem C48_dao (s : State) (hd : s.mainTrie.default = none) (hs : supply s < 2 ^ 256) :
    ∃ s', applyDao s = .ok s' ∧ supply s' = supply s ∧
      (∀ a ∈ daoAccounts, getAccount s' a = { getAccount s a with balance := 0 }) ∧
      (getAccount s' daoRecovery).balance.toNat =
        (getAccount s daoRecovery).balance.toNat + (daoAccounts.map fun a => (getAccount s a).balance.toNat).sum ∧
      (getAccount s' daoRecovery).nonce = (getAccount s daoRecovery).nonce ∧
      (getAccount s' daoRecovery).code = (getAccount s daoRecovery).code ∧
      (∀ x, x ∉ daoAccounts → x ≠ daoRecovery → getAccountOptional s' x = getAccountOptional s x) ∧
      ∀ x k, getStorage s' x k = getStorage s x k := by
  obtain ⟨s', h1, h2, h3, h4, h5, h6, h7, h8⟩ := moveAll_ok daoAccounts s hd hs C48_list.2.1 (by rw [daoRecovery_eq]; exact C48_list.2.2)
  rw [daoRecovery_eq] at h5 h6 h7 h8
  rw [← daoAccounts_eq] at h1
  refine ⟨s', h1, h2, h4, h5, h6, h7, h8, fun x k => ?_⟩
  unfold getStorage
  rw [h3]

/-- A state in which the first two listed accounts hold 5 and 7 wei. -/
def daoSample : State :=
  setAccount (setAccount State.empty 0xd4fe7bc31cedb7bfb8a345f31e668033056b2728 (some { nonce := 1, balance := 5, code := [] }))
    0xb3fb0e5aba0e20e5c49d252dfd30e102b171a425 (some { nonce := 0, balance := 7, code := [0x60] })

example : daoSample.mainTrie.default = none ∧ supply daoSample < 2 ^ 256 ∧ supply daoSample = 12 ∧
    (DAO_ACCOUNTS.map fun a => (getAccount daoSample a).balance.toNat).sum = 12 := by decide +kernel

end Verif
