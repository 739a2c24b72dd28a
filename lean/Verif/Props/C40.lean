import Verif.Lemmas.Withdrawals
import Verif.Lemmas.World
import Verif.Lemmas.SampleBlock
/-! C40: withdrawals credit exactly their amount and change no other account. -/
namespace Verif
open Spec

theorem credited_cons (w : Withdrawal) (r : List Withdrawal) (a : Address) :
    credited (w :: r) a = (if w.address = a then wei w else 0) + credited r a := rfl

theorem credit_fork (s : State) (w : Withdrawal) : (credit s w).fork = s.fork := by unfold credit; simp

theorem shanghai_paris : ∀ {f : Fork}, f.since .shanghai = true → f.since .paris = true := by intro f; cases f <;> decide

theorem credit_fits {s : State} {w : Withdrawal} (h : (getAccount s w.address).balance.toNat + wei w < 2 ^ 256) (a : Address) :
    (getAccount (credit s w) a).balance.toNat = (getAccount s a).balance.toNat + (if w.address = a then wei w else 0) := by
  rw [credit_account]
  by_cases e : w.address = a
  · rw [if_pos e, if_pos e]
    subst e
    show (BitVec.ofNat 256 _).toNat = _
    rw [BitVec.toNat_ofNat, Nat.mod_eq_of_lt h]
  · rw [if_neg e, if_neg e]; rfl

theorem credit_add (acc : Account) (m n : Nat) (h : acc.balance.toNat + m < 2 ^ 256) :
    ({ acc with balance := BitVec.ofNat 256 ((BitVec.ofNat 256 (acc.balance.toNat + m)).toNat + n) } : Account) =
      { acc with balance := BitVec.ofNat 256 (acc.balance.toNat + (m + n)) } := by
  rw [BitVec.toNat_ofNat, Nat.mod_eq_of_lt h, Nat.add_assoc]

theorem withdrawals_run (ws : List Withdrawal) : ∀ (b : BlockState) (i : Nat), b.state.fork.since .paris = true →
    (∀ b', processWithdrawalsFrom b i ws = .ok b' → Credited b.state b'.state ws ∧
      { b'.out with withdrawalsTrie := b.out.withdrawalsTrie } = b.out) ∧
    ((∀ a, (getAccount b.state a).balance.toNat + credited ws a < 2 ^ 256) → ∃ b', processWithdrawalsFrom b i ws = .ok b') ∧
    (∀ e b', processWithdrawalsFrom b i ws = .error (e, b') → e = .exn (.crash .overflowError)) := by
  induction ws with
  | nil =>
    intro b i hp
    refine ⟨fun b' h => ?_, fun _ => ⟨b, rfl⟩, fun e b' h => (by cases h)⟩
    cases h
    exact ⟨⟨fun _ => rfl, fun _ => rfl, fun _ => rfl, fun _ _ => ⟨rfl, fun _ => rfl⟩, fun _ _ _ => rfl, rfl, rfl⟩, rfl⟩
  | cons w r ih =>
    intro b i hp
    rw [processWithdrawalsFrom_cons _ hp]
    by_cases h : (getAccount b.state w.address).balance.toNat + wei w < 2 ^ 256
    · rw [if_pos h]
      obtain ⟨i1, i2, i3⟩ := ih ⟨credit b.state w, { b.out with
            withdrawalsTrie := trieSet b.out.withdrawalsTrie (indexKey i) (some (Rlp.encode (.ofWithdrawal w))) }⟩ (i + 1) (by rw [credit_fork]; exact hp)
      refine ⟨fun b' hb => ?_, fun hf => ?_, i3⟩
      · obtain ⟨hc, ho⟩ := i1 b' hb
        dsimp only at hc ho
        refine ⟨⟨fun a => ?_, fun a => ?_, fun a => ?_, fun a hn => ?_, fun a hne k => ?_, ?_, ?_⟩, ?_⟩
        · rw [hc.balances a, credit_fits h a, credited_cons]; omega
        · rw [hc.nonces a, credit_account]; split <;> rfl
        · rw [hc.codes a, credit_account]; split <;> rfl
        · have hw : w.address ≠ a := hn w (by simp)
          obtain ⟨h1, h2⟩ := hc.others a (fun x hx => hn x (by simp [hx]))
          refine ⟨?_, fun k => ?_⟩
          · rw [h1]; unfold credit; rw [getAccountOptional_modifyState', if_neg hw]
          · rw [h2 k]; unfold credit; rw [getStorage_modifyState', if_neg (fun x => hw x.1)]
        · have hcn : getAccount (credit b.state w) a ≠ emptyAccount := by
            intro e
            apply hne
            have e1 := credit_fits h a
            have e2 : (getAccount (credit b.state w) a).nonce = (getAccount b.state a).nonce := by
              rw [credit_account]; split <;> rfl
            have e3 : (getAccount (credit b.state w) a).code = (getAccount b.state a).code := by
              rw [credit_account]; split <;> rfl
            rw [e] at e1 e2 e3
            have e0 : (getAccount b.state a).balance = 0 := by
              apply BitVec.eq_of_toNat_eq
              have z : (emptyAccount.balance).toNat = 0 := rfl
              rw [z] at e1
              show _ = 0
              omega
            generalize getAccount b.state a = acc at *
            obtain ⟨n, ba, c⟩ := acc
            simp only [emptyAccount, Account.mk.injEq] at *
            exact ⟨e2.symm, e0, e3.symm⟩
          rw [hc.storage a hcn k]
          unfold credit
          rw [getStorage_modifyState', if_neg]
          rintro ⟨rfl, e⟩
          apply hcn
          rw [credit_account, if_pos rfl]
          exact e.2
        · rw [hc.transient.1]; exact modifyState'_snapshots ..
        · rw [hc.transient.2]
          unfold credit
          rw [modifyState'_created]
        · have := congrArg (fun o : BlockOutput => { o with withdrawalsTrie := b.out.withdrawalsTrie }) ho
          exact this
      · apply i2
        intro a
        dsimp only
        have := hf a
        rw [credited_cons] at this
        rw [credit_fits h a]
        omega
    · rw [if_neg h]
      refine ⟨fun b' hb => (by cases hb), fun hf => ?_, fun e b' hb => ?_⟩
      · have := hf w.address
        rw [credited_cons, if_pos rfl] at this
        omega
      · cases hb; rfl

/-- **C40.** When the withdrawals of a block are processed, every account's balance grows by exactly the Wei of the
withdrawals naming it, with nonce and code unchanged; an account that no withdrawal names is unchanged in every respect
(existence and storage included); the storage of a recipient that was not empty is unchanged; and of the block output only
the withdrawals trie changes. -/
theorem C40_credit {b b' : BlockState} {ws : List Withdrawal} (hf : b.state.fork.since .shanghai = true)
    (h : processWithdrawals b ws = .ok b') :
    Credited b.state b'.state ws ∧ { b'.out with withdrawalsTrie := b.out.withdrawalsTrie } = b.out :=
  (withdrawals_run ws b 0 (shanghai_paris hf)).1 b' h

/-- **C40.** Processing succeeds exactly when every credited balance stays below 2^256. -/
theorem C40_succeeds_iff (b : BlockState) (hf : b.state.fork.since .shanghai = true) (ws : List Withdrawal) :
    (∃ b', processWithdrawals b ws = .ok b') ↔ ∀ a, (getAccount b.state a).balance.toNat + credited ws a < 2 ^ 256 := by
  refine ⟨fun ⟨b', h⟩ a => ?_, (withdrawals_run ws b 0 (shanghai_paris hf)).2.1⟩
  rw [← (C40_credit hf h).1.balances a]
  exact BitVec.isLt _

/-- **C40.** The only failure is the overflow. -/
theorem C40_fails {b b' : BlockState} {ws : List Withdrawal} {e : BlockExn} (hf : b.state.fork.since .shanghai = true)
    (h : processWithdrawals b ws = .error (e, b')) :
    e = .exn (.crash .overflowError) := (withdrawals_run ws b 0 (shanghai_paris hf)).2.2 e b' h

/-- Two withdrawals to one address and one to another, from the sample state. -/
def sampleWithdrawals : List Withdrawal := [⟨0, 1, 88, 4⟩, ⟨1, 9, 55, 7⟩, ⟨2, 1, 88, 2⟩]

example : (match processWithdrawals ⟨sampleState, BlockOutput.empty⟩ sampleWithdrawals with
    | .ok b' => (getAccount b'.state 88).balance == 6000000005 && (getAccount b'.state 55).balance == 7000000000
    | .error _ => false) = true := by decide +kernel
example : credited sampleWithdrawals 88 = 6000000000 := by
  simp only [credited, sampleWithdrawals, wei]
  decide +kernel
/-- A balance one Gwei too large for the last withdrawal. -/
example : (match processWithdrawals ⟨setAccountBalance sampleState 88 (0 - 5999999999), BlockOutput.empty⟩ sampleWithdrawals with
    | .error (.exn (.crash .overflowError), _) => true | _ => false) = true := by decide +kernel

end Verif
