import Verif.Lemmas.State
import Verif.Spec.Supply
/-! How the state operations change the total supply. -/
namespace Verif

section
variable {K V : Type} [DecidableEq K]

theorem sum_aset (f : V → Nat) (l : List (K × V)) (k : K) (v : V) :
    ((aset l k v).map (fun e => f e.2)).sum + ((aget l k).map f).getD 0 = (l.map (fun e => f e.2)).sum + f v := by
  induction l with
  | nil => simp [aset, aget]
  | cons e r ih =>
    obtain ⟨k', v'⟩ := e
    by_cases h : k' = k
    · simp [aset, aget, h]; omega
    · simp only [aset, aget, h, if_false, List.map_cons, List.sum_cons]; omega

theorem sum_adel (f : V → Nat) (l : List (K × V)) (hn : (l.map Prod.fst).Nodup) (k : K) :
    ((adel l k).map (fun e => f e.2)).sum + ((aget l k).map f).getD 0 = (l.map (fun e => f e.2)).sum := by
  induction l with
  | nil => simp [adel, aget]
  | cons e r ih =>
    obtain ⟨k', v'⟩ := e
    simp only [List.map_cons, List.nodup_cons] at hn
    have ih := ih hn.2
    by_cases h : k' = k
    · subst h
      have hr : adel r k' = r := by
        unfold adel
        refine List.filter_eq_self.mpr fun x hx => ?_
        have : x.1 ∈ r.map Prod.fst := List.mem_map_of_mem hx
        simp; intro he; exact hn.1 (he ▸ this)
      have : adel ((k', v') :: r) k' = adel r k' := by simp [adel]
      rw [this, hr]; simp [aget]; omega
    · have : adel ((k', v') :: r) k = (k', v') :: adel r k := by simp [adel, h]
      rw [this]; simp only [aget, h, if_false, List.map_cons, List.sum_cons]; omega
end

theorem supply_setAccount {s : State} (hd : s.mainTrie.default = none) (a : Address) (acc : Option Account) :
    supply (setAccount s a acc) + balanceOf (getAccountOptional s a) = supply s + balanceOf acc := by
  have hb : balanceOf (getAccountOptional s a) = ((s.mainTrie.data.get? a).map balanceOf).getD 0 := by
    simp only [getAccountOptional, trieGet, hd]
    cases s.mainTrie.data.get? a <;> rfl
  rw [hb]
  simp only [supply, setAccount, trieSet, hd]
  split
  · rename_i h; subst h
    exact sum_adel balanceOf s.mainTrie.data.entries s.mainTrie.data.nodup a
  · exact sum_aset balanceOf s.mainTrie.data.entries a acc

theorem balanceOf_getAccount (s : State) (a : Address) :
    balanceOf (getAccountOptional s a) = (getAccount s a).balance.toNat := by
  unfold getAccount; cases getAccountOptional s a <;> rfl

theorem setAccount_default (s : State) (a : Address) (acc : Option Account) :
    (setAccount s a acc).mainTrie.default = s.mainTrie.default := by simp [setAccount]

theorem supply_modifyState' {s : State} (hd : s.mainTrie.default = none) (a : Address) (f : Account → Account) :
    supply (modifyState' s a f) + (getAccount s a).balance.toNat =
      supply s + (f (getAccount s a)).balance.toNat := by
  have h1 := supply_setAccount hd a (some (f (getAccount s a)))
  rw [balanceOf_getAccount] at h1
  rw [modifyState'_unfold]
  split
  · rename_i he
    have he : f (getAccount s a) = emptyAccount := he.2
    have h2 := supply_setAccount (s := setAccount s a (some (f (getAccount s a))))
      (by rw [setAccount_default]; exact hd) a none
    rw [getAccountOptional_setAccount] at h2
    simp only [if_true] at h2
    have h3 : supply (destroyAccount (setAccount s a (some (f (getAccount s a)))) a) =
        supply (setAccount (setAccount s a (some (f (getAccount s a)))) a none) := rfl
    rw [h3]
    rw [he] at h1 h2 ⊢
    simp only [balanceOf, emptyAccount] at *
    simp at *
    omega
  · exact h1

theorem modifyState'_default (s : State) (a : Address) (f : Account → Account) :
    (modifyState' s a f).mainTrie.default = s.mainTrie.default := by
  rw [modifyState'_unfold]; split
  · simp [destroyAccount, setAccount, destroyStorage]
  · simp [setAccount]

/-- What `move_ether` does when it returns. -/
theorem moveEther_ok {s s' : State} {a b : Address} {v : Word} (h : moveEther s a b v = .ok s') :
    v.toNat ≤ (getAccount s a).balance.toNat ∧
    ∃ s1, s1 = modifyState' s a (fun acc => { acc with balance := acc.balance - v }) ∧
      (getAccount s1 b).balance.toNat + v.toNat < 2 ^ 256 ∧
      s' = modifyState' s1 b (fun acc => { acc with balance := acc.balance + v }) := by
  unfold moveEther at h
  simp only [modifyState_eq, reduceSenderBalance] at h
  by_cases hb : (getAccount s a).balance < v
  · simp [hb] at h
  · simp only [hb, if_false] at h
    refine ⟨by simpa [BitVec.lt_def] using hb, _, rfl, ?_⟩
    have he : modifyState' s a (fun _ => { getAccount s a with balance := (getAccount s a).balance - v }) =
        modifyState' s a (fun acc => { acc with balance := acc.balance - v }) := rfl
    rw [he] at h
    generalize modifyState' s a (fun acc => { acc with balance := acc.balance - v }) = s1 at h ⊢
    simp only [increaseRecipientBalance, checkedAdd] at h
    by_cases hov : (getAccount s1 b).balance.toNat + v.toNat < 2 ^ 256
    · simp only [hov, if_true] at h; cases h; exact ⟨hov, rfl⟩
    · simp [hov] at h

theorem moveEther_default {s s' : State} {a b : Address} {v : Word} (h : moveEther s a b v = .ok s') : s'.mainTrie.default = s.mainTrie.default := by
  obtain ⟨-, s1, rfl, -, rfl⟩ := moveEther_ok h
  rw [modifyState'_default, modifyState'_default]

theorem supply_moveEther {s s' : State} (hd : s.mainTrie.default = none) {a b : Address} {v : Word}
    (h : moveEther s a b v = .ok s') : supply s' = supply s := by
  obtain ⟨hle, s1, rfl, hov, rfl⟩ := moveEther_ok h
  have h1 := supply_modifyState' hd a (fun acc => { acc with balance := acc.balance - v })
  have h2 := supply_modifyState' (s := modifyState' s a (fun acc => { acc with balance := acc.balance - v }))
    (by rw [modifyState'_default]; exact hd) b (fun acc => { acc with balance := acc.balance + v })
  simp only at h1 h2
  rw [BitVec.toNat_sub_of_le (by simpa [BitVec.le_def] using hle)] at h1
  rw [BitVec.toNat_add_of_lt hov] at h2
  omega

/-- No account holds more than the total. -/
theorem balance_le_supply {s : State} (hd : s.mainTrie.default = none) (a : Address) :
    (getAccount s a).balance.toNat ≤ supply s := by
  have := supply_modifyState' hd a (fun acc => { acc with balance := 0 })
  simp at this; omega

/-- Two different accounts together hold no more than the total. -/
theorem balance_add_le_supply {s : State} (hd : s.mainTrie.default = none) {a b : Address} (hab : a ≠ b) :
    (getAccount s a).balance.toNat + (getAccount s b).balance.toNat ≤ supply s := by
  have h1 := supply_modifyState' hd a (fun acc => { acc with balance := 0 })
  have h2 := balance_le_supply (s := modifyState' s a (fun acc => { acc with balance := 0 }))
    (by rw [modifyState'_default]; exact hd) b
  rw [getAccount_modifyState'] at h2
  simp [hab] at h1 h2; omega
end Verif
