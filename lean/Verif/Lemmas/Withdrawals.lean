import Verif.Spec.Withdrawals
import Verif.Lemmas.State
/-! Withdrawals. -/
namespace Verif
open Spec

theorem modifyState'_not_empty (s : State) (hp : s.fork.since .paris = true) (a : Address) (f : Account → Account) :
    accountExistsAndIsEmpty (modifyState' s a f) a = false := by
  unfold accountExistsAndIsEmpty
  rw [getAccountOptional_modifyState', if_pos rfl]
  simp only [normAccount, hp, true_and]
  split
  · rename_i h; split at h <;> simp_all
  · rename_i acc h
    split at h
    · cases h
    · rename_i hne
      have := Option.some.inj h
      subst this
      generalize f (getAccount s a) = acc at hne
      obtain ⟨n, b, c⟩ := acc
      simp only [emptyAccount, Account.mk.injEq] at hne
      by_cases h1 : n = 0 <;> by_cases h2 : c = [] <;> by_cases h3 : b = 0 <;> simp_all

theorem ten_pow_nine : (10 : Nat) ^ 9 = 1000000000 := by decide

theorem wei_eq (w : Withdrawal) : weiOfGwei w.amount.toNat = wei w := by
  rw [weiOfGwei, wei, ten_pow_nine]

/-- Crediting an amount. -/
def creditWith (n : Nat) (acc : Account) : Except Crash Account :=
  match toU256 n with
  | .error c => .error c
  | .ok x => increaseRecipientBalance x acc

theorem withdrawalCredit_with (w : Withdrawal) (acc : Account) : withdrawalCredit w.amount acc = creditWith (wei w) acc := by
  rw [← wei_eq]; rfl

theorem creditWith_eq (n : Nat) (acc : Account) :
    creditWith n acc = if acc.balance.toNat + n < 2 ^ 256 then
      .ok { acc with balance := BitVec.ofNat 256 (acc.balance.toNat + n) } else .error .overflowError := by
  unfold creditWith toU256
  by_cases h1 : n < 2 ^ 256
  · rw [if_pos h1]
    dsimp only
    unfold increaseRecipientBalance checkedAdd
    have e : (BitVec.ofNat 256 n).toNat = n := by rw [BitVec.toNat_ofNat, Nat.mod_eq_of_lt h1]
    rw [e]
    by_cases h2 : acc.balance.toNat + n < 2 ^ 256
    · rw [if_pos h2, if_pos h2]
      have e2 : acc.balance + BitVec.ofNat 256 n = BitVec.ofNat 256 (acc.balance.toNat + n) := by
        apply BitVec.eq_of_toNat_eq
        rw [BitVec.toNat_add, e, BitVec.toNat_ofNat]
      rw [e2]
    · rw [if_neg h2, if_neg h2]
  · rw [if_neg h1, if_neg (by omega)]

theorem withdrawalCredit_eq (w : Withdrawal) (acc : Account) :
    withdrawalCredit w.amount acc = if acc.balance.toNat + wei w < 2 ^ 256 then
      .ok { acc with balance := BitVec.ofNat 256 (acc.balance.toNat + wei w) } else .error .overflowError := by
  rw [withdrawalCredit_with, creditWith_eq]

/-- The state after one withdrawal. -/
def credit (s : State) (w : Withdrawal) : State :=
  modifyState' s w.address (fun acc =>
    { acc with balance := BitVec.ofNat 256 (acc.balance.toNat + wei w) })

theorem processWithdrawalsFrom_cons (b : BlockState) (hp : b.state.fork.since .paris = true) (i : Nat) (w : Withdrawal) (r : List Withdrawal) :
    processWithdrawalsFrom b i (w :: r) =
      if (getAccount b.state w.address).balance.toNat + wei w < 2 ^ 256 then
        processWithdrawalsFrom
          ⟨credit b.state w, { b.out with
            withdrawalsTrie := trieSet b.out.withdrawalsTrie (indexKey i) (some (Rlp.encode (.ofWithdrawal w))) }⟩ (i + 1) r
      else .error (.exn (.crash .overflowError), ⟨b.state, { b.out with
            withdrawalsTrie := trieSet b.out.withdrawalsTrie (indexKey i) (some (Rlp.encode (.ofWithdrawal w))) }⟩) := by
  have hm : modifyState b.state w.address (withdrawalCredit w.amount) =
      if (getAccount b.state w.address).balance.toNat + wei w < 2 ^ 256 then .ok (credit b.state w) else .error .overflowError := by
    rw [modifyState_eq, withdrawalCredit_eq]
    by_cases h : (getAccount b.state w.address).balance.toNat + wei w < 2 ^ 256
    · rw [if_pos h, if_pos h]; rfl
    · rw [if_neg h, if_neg h]
  rw [processWithdrawalsFrom]
  dsimp only
  rw [hm]
  by_cases h : (getAccount b.state w.address).balance.toNat + wei w < 2 ^ 256
  · rw [if_pos h, if_pos h]
    dsimp only
    have hc : accountExistsAndIsEmpty (credit b.state w) w.address = false := modifyState'_not_empty _ hp _ _
    rw [hc]
    simp only [Bool.false_eq_true, if_false]
  · rw [if_neg h, if_neg h]

theorem credit_account (s : State) (w : Withdrawal) (a : Address) :
    getAccount (credit s w) a = if w.address = a then
      { getAccount s a with balance := BitVec.ofNat 256 ((getAccount s a).balance.toNat + wei w) }
      else getAccount s a := by
  unfold credit
  rw [getAccount_modifyState']
  by_cases h : w.address = a
  · rw [if_pos h, if_pos h, h]
  · rw [if_neg h, if_neg h]

end Verif
