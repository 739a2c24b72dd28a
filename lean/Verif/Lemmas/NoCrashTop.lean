import Verif.Lemmas.NoCrashExec
import Verif.Lemmas.RefundBound
import Verif.Lemmas.Top
/-! No internal errors: whole messages. -/
namespace Verif
open Spec

/-- A bound for every length in an execution that starts within the bounds of `Sane`. -/
def bigD : Nat := 2 ^ 250

theorem bigD_lt : bigD < 2 ^ 256 := by decide
theorem bigD_ge : 49152 ≤ bigD := by decide

theorem exec_message {E : Env} {f : Fork} {D : Nat} (hD : D < 2 ^ 256) (hD' : 49152 ≤ D) (hE : EnvFits f E) {msg : Message} {w : World} (hp : f.since .spuriousDragon = true → PreMsg msg w)
    (hf : MsgFits f D msg w) :
    (OldModexp f ∧ ∃ w', processMessage E (exec E) msg w = .error (.crash .overflowError, w')) ∨
    ∃ child w', processMessage E (exec E) msg w = .ok (child, w') ∧ child.output.length ≤ D ∧
      (∀ a, (getAccount w'.state a).code.length ≤ D) ∧ (child.error.isSome = false → child.refundCounter ≤ 25000 * (msg.gas : Int) + 25000) := by
  have h := processMessage_fits (E := E) hD' (exec_fits hE hD hD') (exec_snap E) msg w hp hf
  match hr : processMessage E (exec E) msg w with
  | .error (e, w') =>
    rw [hr] at h
    left
    match e with
    | .crash c =>
      obtain ⟨rfl, ho⟩ := h.1 c rfl
      exact ⟨ho, w', rfl⟩
    | .halt x => exact absurd trivial h.2
    | .revert => exact absurd trivial h.2
    | .outOfFuel =>
      obtain ⟨w1, m', h1⟩ := processMessage_fuel hr
      exact absurd h1 (exec_enough E _ (Nat.zero_le _) m')
  | .ok (child, w') =>
    rw [hr] at h
    refine .inr ⟨child, w', rfl, h.1, h.2, fun he => ?_⟩
    have := processMessage_ref (exec_ref E) _ _ _ _ hr he
    omega

theorem exec_create {E : Env} {f : Fork} {D : Nat} (hD : D < 2 ^ 256) (hD' : 49152 ≤ D) (hE : EnvFits f E) {msg : Message} {w : World} (hp : f.since .spuriousDragon = true → PreCreate msg w)
    (hf : MsgFits f D msg w) :
    (OldModexp f ∧ ∃ w', processCreateMessage E (exec E) msg w = .error (.crash .overflowError, w')) ∨
    ∃ child w', processCreateMessage E (exec E) msg w = .ok (child, w') ∧ child.output.length ≤ D ∧
      (∀ a, (getAccount w'.state a).code.length ≤ D) ∧ (child.error.isSome = false → child.refundCounter ≤ 25000 * (msg.gas : Int) + 25000) := by
  have h := processCreateMessage_fits (E := E) hD' (exec_fits hE hD hD') (exec_snap E) msg w hp hf
  match hr : processCreateMessage E (exec E) msg w with
  | .error (e, w') =>
    rw [hr] at h
    left
    match e with
    | .crash c =>
      obtain ⟨rfl, ho⟩ := h.1 c rfl
      exact ⟨ho, w', rfl⟩
    | .halt x => exact absurd trivial h.2
    | .revert => exact absurd trivial h.2
    | .outOfFuel =>
      obtain ⟨w1, m', h1⟩ := processCreateMessage_fuel hr
      exact absurd h1 (exec_enough E _ (Nat.zero_le _) m')
  | .ok (child, w') =>
    rw [hr] at h
    refine .inr ⟨child, w', rfl, h.1, h.2, fun he => ?_⟩
    have := processCreateMessage_ref (exec_ref E) _ _ _ _ hr he
    omega

theorem istanbul_later {f : Fork} (h : ¬ f.since .spuriousDragon = true) : f.since .istanbul = false := by
  revert h; cases f <;> decide

/-! ### authorizations -/

theorem delegationStep_refund (E : Env) (acc : DelegationAcc) (auth : Authorization) :
    (delegationStep E acc auth).refund ≤ acc.refund + 12500 := by
  unfold delegationStep
  split
  · simp
  split
  · simp
  split
  · simp
  · dsimp only
    split
    · simp
    split
    · simp
    · simp only [PER_EMPTY_ACCOUNT_COST, PER_AUTH_BASE_COST]; split <;> omega

theorem fold_refund (E : Env) : ∀ (l : List Authorization) (acc : DelegationAcc),
    (l.foldl (delegationStep E) acc).refund ≤ acc.refund + 12500 * l.length
  | [], acc => by simp
  | a :: r, acc => by
    have h1 := fold_refund E r (delegationStep E acc a)
    have h2 := delegationStep_refund E acc a
    simp only [List.foldl_cons, List.length_cons]; omega

theorem delegationStep_codes (E : Env) (acc : DelegationAcc) (auth : Authorization) (a : Address) :
    (getAccount (delegationStep E acc auth).state a).code = (getAccount acc.state a).code ∨
    (getAccount (delegationStep E acc auth).state a).code.length ≤ 23 := by
  unfold delegationStep
  split
  · exact .inl rfl
  split
  · exact .inl rfl
  split
  · exact .inl rfl
  · dsimp only
    split
    · exact .inl rfl
    split
    · exact .inl rfl
    · rename_i authority _ _ _
      rw [(incNonce_account _ _ _).1]
      unfold setCode
      rw [getAccount_modifyState']
      split
      · right
        simp only
        split
        · exact Nat.zero_le _
        · simp [EOA_DELEGATION_MARKER, addressBytes_length]
      · exact .inl rfl

theorem fold_codes (E : Env) (a : Address) : ∀ (l : List Authorization) (acc : DelegationAcc),
    (getAccount (l.foldl (delegationStep E) acc).state a).code = (getAccount acc.state a).code ∨
    (getAccount (l.foldl (delegationStep E) acc).state a).code.length ≤ 23
  | [], _ => .inl rfl
  | x :: r, acc => by
    rcases fold_codes E a r (delegationStep E acc x) with h | h
    · rw [List.foldl_cons, h]; exact delegationStep_codes E acc x a
    · exact .inr h

/-- The authorizations are applied without an internal error. -/
theorem authorized_fits {E : Env} {msg : Message} {w : World} (ht : TopMessage msg w) (hl : E.tx.authorizations.length < 2 ^ 240) :
    ∃ r msg1 s1, authorized E msg w = .ok (r, msg1, s1) ∧ r.toNat ≤ 12500 * E.tx.authorizations.length ∧
      (∀ a, (getAccount s1 a).code = (getAccount w.state a).code ∨ (getAccount s1 a).code.length ≤ 23) := by
  unfold authorized
  split
  · exact ⟨_, _, _, rfl, Nat.zero_le _, fun _ => .inl rfl⟩
  · rename_i t htar
    split
    case isFalse => exact ⟨_, _, _, rfl, Nat.zero_le _, fun _ => .inl rfl⟩
    · have hr := fold_refund E E.tx.authorizations ⟨w.state, msg.accessedAddresses, 0⟩
      simp only [Nat.zero_add] at hr
      have hlt : (E.tx.authorizations.foldl (delegationStep E) ⟨w.state, msg.accessedAddresses, 0⟩).refund < 2 ^ 256 := by omega
      unfold setDelegation
      simp only
      rw [if_neg (Nat.not_le.mpr hlt), (ht.call t htar).2.1]
      refine ⟨_, _, _, rfl, ?_, fun a => fold_codes E a _ _⟩
      rw [BitVec.toNat_ofNat, Nat.mod_eq_of_lt hlt]; exact hr

theorem messageCallOutput_fits {r : Word} {child : Evm} {g n : Nat} (h0 : child.error = none → 0 ≤ child.refundCounter)
    (h1 : child.error.isSome = false → child.refundCounter ≤ 25000 * (g : Int) + 25000) (hr : r.toNat ≤ 12500 * n)
    (hg : g < 2 ^ 240) (hn : n < 2 ^ 240) : ∀ ts, ∃ out, messageCallOutput r { child with touchedAccounts := ts } = .ok out := by
  intro ts
  unfold messageCallOutput
  by_cases he : child.error.isSome = true
  · exact ⟨_, if_pos he⟩
  · rw [if_neg he]
    have hn' : child.error = none := by simpa using he
    have := h0 hn'
    have := h1 (by simp [hn'])
    dsimp only
    rw [if_neg (by omega), if_pos (by omega)]
    exact ⟨_, rfl⟩

/-- With any bound `D` for the lengths: the codes stay below it. -/
theorem processMessageCall_codes {E : Env} {msg : Message} {w : World} {D : Nat} (hD : D < 2 ^ 256) (hD' : 49152 ≤ D) (hw : w.WF)
    (ht : TopMessage msg w) (hs : Sane E msg w) (hg : 32 * msg.gas ≤ D) (hmcode : msg.code.length ≤ D) (hdata : msg.data.length ≤ D)
    (hwc : ∀ a, (getAccount w.state a).code.length ≤ D) :
    (OldModexp w.state.fork ∧ ∃ w', processMessageCall E msg w = .error (.crash .overflowError, w')) ∨
    ∃ out w', processMessageCall E msg w = .ok (out, w') ∧ ∀ a, (getAccount w'.state a).code.length ≤ D := by
  obtain ⟨r, msg1, s1, ha, hr, hcodes⟩ := authorized_fits (E := E) ht hs.authorizations
  obtain ⟨hrel, hmsg⟩ := authorized_rel ha
  rw [processMessageCall, processMessageCallWith_eq, ha]
  simp only
  by_cases htar : msg.target = none
  · simp only [htar, if_true]
    by_cases hcol : (accountHasCodeOrNonce w.state msg.currentTarget || accountHasStorage w.state msg.currentTarget) = true
    · rw [if_pos hcol]; exact .inr ⟨_, _, rfl, hwc⟩
    · rw [if_neg hcol]
      have hno : ¬ Owned w.state msg.currentTarget := by
        intro ho; simp only [Owned] at ho; simp [ho] at hcol
      have hpc : w.state.fork.since .spuriousDragon = true → PreCreate msg w := fun hsd => ⟨hw, by rw [ht.depth]; omega, ht.static, hno, hsd, by simp [ht.parents]⟩
      have hx := exec_create hD hD' hs.env hpc ⟨hw.state.main.1, by rw [ht.depth]; omega, hg, hmcode, hdata,
        hwc, hs.supply, rfl, hs.funds⟩
      rcases hx with ⟨ho, w', h1⟩ | ⟨child, w', h1, h2, h4, h3⟩
      · left; rw [h1]; exact ⟨ho, w', rfl⟩
      right
      have hpos : child.error = none → 0 ≤ child.refundCounter := by
        intro he
        by_cases hsd : w.state.fork.since .spuriousDragon = true
        · have hok := processCreateMessage_ok (E := E) (exec_ok E) msg w (hpc hsd)
          rw [h1] at hok
          have := hok.refund he; rw [cleared_nil ht.snapshots.1] at this
          have := Int.mul_nonneg (clearUnit_nonneg w.state.fork) (Int.natCast_nonneg (cleared w'.state))
          simp at *; omega
        · exact processCreateMessage_pos (exec_pos E) _ _ _ _ h1 (istanbul_later hsd) (by simp [he])
      rw [h1]
      obtain ⟨out, ho⟩ := messageCallOutput_fits (r := 0) (n := 0) hpos h3 (Nat.zero_le _) hs.gas (by decide) child.touchedAccounts
      simp only [ho]
      exact ⟨_, _, rfl, h4⟩
  · simp only [htar, if_false]
    obtain ⟨t, htt⟩ : ∃ t, msg.target = some t := by
      cases hq : msg.target with
      | none => exact absurd hq htar
      | some t => exact ⟨t, rfl⟩
    have hrd := resolveDelegation_msg msg1 s1
    have hdep : (resolveDelegation msg1 s1).depth ≤ 1024 := by
      rw [hrd.depth.trans hmsg.depth, ht.depth]; omega
    have hpm : w.state.fork.since .spuriousDragon = true → PreMsg (resolveDelegation msg1 s1) { w with state := s1 } := by
      intro hsd
      refine .ofCode ⟨hrel.wf hw.state, hw.transient⟩ (fun hc => ?_) hdep
        (by show s1.fork.since .spuriousDragon = true; rw [hrel.fork]; exact hsd)
        ((hrd.parents.trans hmsg.parents).trans ht.parents)
      have hc1 := resolveDelegation_code hc
      rw [authorized_code ht htt ha] at hc1
      have : (resolveDelegation msg1 s1).currentTarget = t := by
        rw [hrd.currentTarget, hmsg.currentTarget]; exact (ht.call t htt).1
      rw [this]
      exact hc1
    have hc2 : ∀ a, (getAccount s1 a).code.length ≤ D := by
      intro a
      rcases hcodes a with h | h
      · rw [h]; exact hwc a
      · omega
    have hgas : (resolveDelegation msg1 s1).gas = msg.gas := hrd.gas.trans hmsg.gas
    have hmc : (resolveDelegation msg1 s1).code.length ≤ D := by
      unfold resolveDelegation
      split
      · split
        · rw [authorized_code ht htt ha]; exact hc2 _
        · exact hc2 _
      · rw [authorized_code ht htt ha]; exact hc2 _
    have hx := exec_message hD hD' hs.env hpm ⟨(hrel.wf hw.state).main.1, hdep, by rw [hgas]; exact hg, hmc,
      by rw [show (resolveDelegation msg1 s1).data = msg.data from hrd.data.trans hmsg.data]; exact hdata,
      hc2, by show supply s1 < _; rw [hrel.supply hw.state]; exact hs.supply, hrel.fork,
      fun hst => by
        rw [show (resolveDelegation msg1 s1).shouldTransferValue = msg.shouldTransferValue from hrd.transfer.trans hmsg.transfer] at hst
        rw [show (resolveDelegation msg1 s1).value = msg.value from hrd.value.trans hmsg.value,
          show (resolveDelegation msg1 s1).caller = msg.caller from hrd.caller.trans hmsg.caller]
        show msg.value ≤ (getAccount s1 msg.caller).balance
        rw [hrel.balance]; exact hs.funds hst⟩
    rcases hx with ⟨ho, w', h1⟩ | ⟨child, w', h1, h2, h4, h3⟩
    · left; rw [h1]; exact ⟨ho, w', rfl⟩
    right
    have hpos : child.error = none → 0 ≤ child.refundCounter := by
      intro he
      by_cases hsd : w.state.fork.since .spuriousDragon = true
      · have hok := processMessage_ok (E := E) (exec_ok E) _ _ (hpm hsd)
        rw [h1] at hok
        have := hok.refund he
        rw [cleared_nil (s := s1) (by rw [hrel.snaps]; exact ht.snapshots.1)] at this
        have := Int.mul_nonneg (clearUnit_nonneg s1.fork) (Int.natCast_nonneg (cleared w'.state))
        simp at *; omega
      · exact processMessage_pos (exec_pos E) _ _ _ _ h1 (by show s1.fork.since _ = _; rw [hrel.fork]; exact istanbul_later hsd)
          (by simp [he])
    rw [h1]
    rw [hgas] at h3
    obtain ⟨out, ho⟩ := messageCallOutput_fits (r := r) hpos h3 hr hs.gas
      hs.authorizations (topTouched msg w' child)
    simp only [ho]
    exact ⟨_, _, rfl, h4⟩

theorem processMessageCall_fits {E : Env} {msg : Message} {w : World} (hw : w.WF) (ht : TopMessage msg w) (hs : Sane E msg w) :
    (OldModexp w.state.fork ∧ ∃ w', processMessageCall E msg w = .error (.crash .overflowError, w')) ∨
    ∃ out w', processMessageCall E msg w = .ok (out, w') := by
  have small : ∀ n, n < 2 ^ 240 → n ≤ bigD := fun n h => Nat.le_trans (Nat.le_of_lt h) (by decide)
  have small32 : ∀ n, n < 2 ^ 240 → 32 * n ≤ bigD := fun n h => by
    have : 32 * 2 ^ 240 ≤ bigD := by decide
    omega
  exact (processMessageCall_codes bigD_lt bigD_ge hw ht hs (small32 _ hs.gas) (small _ hs.code) (small _ hs.data)
    fun a => small _ (hs.codes a)).imp id fun ⟨out, w', h, _⟩ => ⟨out, w', h⟩

/-- Less than 2^240 / 32 gas leaves every code shorter than 2^240 bytes. -/
theorem top_short {E : Env} {msg : Message} {w w' : World} {out : MessageCallOutput} (hw : w.WF) (ht : TopMessage msg w) (hs : Sane E msg w)
    (hg : msg.gas < 2 ^ 235) (h : processMessageCall E msg w = .ok (out, w')) (a : Address) : (getAccount w'.state a).code.length < 2 ^ 240 := by
  have key := processMessageCall_codes (D := 2 ^ 240 - 1) (by decide) (by decide) hw ht hs (by omega) (by have := hs.code; omega)
    (by have := hs.data; omega) fun a => by have := hs.codes a; omega
  rcases key with ⟨-, w1, h1⟩ | ⟨o, w1, h1, hc⟩
  · rw [h] at h1; cases h1
  · rw [h] at h1; cases h1; have := hc a; omega

end Verif
