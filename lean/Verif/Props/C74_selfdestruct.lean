import Verif.Props.C74
import Verif.Lemmas.World
import Verif.Lemmas.Supply
/-! Property C74, SELFDESTRUCT: exactly what it does, in every fork. -/
namespace Verif.Props
open Verif Spec

variable (E : Env) (pm pcm : Sub) (m : Mach)

private theorem outcome (x : Word) (rest : List Word) (hst : m.evm.stack = x :: rest) :
    if m.evm.gasLeft < selfdestructPrice m (x.setWidth 160) then ∃ m', opSelfdestruct m = .err (.halt .outOfGas) m'
    else if m.evm.message.isStatic = true then ∃ m', opSelfdestruct m = .err (.halt .writeInStaticContext) m'
    else ∀ s1, selfdestructState m.world.state m.evm.message.currentTarget (x.setWidth 160) = .ok s1 → ∃ m', opSelfdestruct m = .ok () m' := by
  have key : ∀ (warm : List Address) (c : Nat), c = coldAccount m.world.state.fork m.evm.accessedAddresses (x.setWidth 160) → ∀ r, r =
      (do
        selfdestructRefund m.evm.message.currentTarget
        chargeGas (gasSelfDestruct m.world.state.fork + c + selfdestructNewCost m.world.state m.evm.message.currentTarget (x.setWidth 160))
        if m.evm.message.isStatic then raiseHalt .writeInStaticContext
        else do
          let s' ← liftCrash (selfdestructState m.world.state m.evm.message.currentTarget (x.setWidth 160))
          setState s'
          if selfdestructDeletes m.world.state m.evm.message.currentTarget then addDeleted m.evm.message.currentTarget
          else pure ()
          touchIfEmpty (x.setWidth 160)
          stopRunning : M Unit) { m with evm := { m.evm with stack := rest, accessedAddresses := warm } } →
      if m.evm.gasLeft < selfdestructPrice m (x.setWidth 160) then ∃ m', r = .err (.halt .outOfGas) m'
      else if m.evm.message.isStatic = true then ∃ m', r = .err (.halt .writeInStaticContext) m'
      else ∀ s1, selfdestructState m.world.state m.evm.message.currentTarget (x.setWidth 160) = .ok s1 → ∃ m', r = .ok () m' := by
    intro warm c hc r h
    have hcost : gasSelfDestruct m.world.state.fork + c + selfdestructNewCost m.world.state m.evm.message.currentTarget (x.setWidth 160) =
        selfdestructPrice m (x.setWidth 160) := by
      have hd := dead_iff m.world.state (x.setWidth 160)
      have h3 : getAccountOptional m.world.state (x.setWidth 160) = none ↔ accountExists m.world.state (x.setWidth 160) = false := by
        unfold accountExists; simp
      rw [hc]; unfold selfdestructPrice gasSelfDestruct selfdestructNewCost
      simp only [GAS_SELF_DESTRUCT, GAS_ZERO, GAS_SELF_DESTRUCT_NEW_ACCOUNT, hd, h3, Bool.not_eq_true]
    rw [hcost] at h
    have hre := selfdestructRefund_eq { m with evm := { m.evm with stack := rest, accessedAddresses := warm } }
    rw [bind_eq, show selfdestructRefund m.evm.message.currentTarget _ = _ from hre] at h
    simp only [bind_eq, chargeGas] at h
    by_cases hgas : m.evm.gasLeft < selfdestructPrice m (x.setWidth 160)
    · rw [if_pos hgas] at h; rw [if_pos hgas]; exact ⟨_, h⟩
    rw [if_neg hgas] at h; rw [if_neg hgas]
    by_cases hstat : m.evm.message.isStatic = true
    · rw [if_pos hstat] at h; rw [if_pos hstat]; exact ⟨_, h⟩
    rw [if_neg hstat] at h; rw [if_neg hstat]
    intro s1 hs
    simp only [bind_eq, liftCrash, hs, setState] at h
    by_cases hmade : selfdestructDeletes m.world.state m.evm.message.currentTarget = true
    · rw [if_pos hmade] at h; exact ⟨_, h⟩
    · rw [if_neg hmade] at h; exact ⟨_, h⟩
  by_cases hb : m.world.state.fork.since .berlin = true
  · by_cases hw : (x.setWidth 160 : Address) ∈ m.evm.accessedAddresses
    · refine key m.evm.accessedAddresses 0 (by simp [coldAccount, hw]) _ ?_
      simp only [opSelfdestruct, bind_eq, pop, hst, getEvm, getState, toAddressMasked]
      rw [if_pos (.inr hw)]; rfl
    · refine key (setAdd m.evm.accessedAddresses (x.setWidth 160)) 2600 (by simp [coldAccount, hb, hw]) _ ?_
      simp only [opSelfdestruct, bind_eq, pop, hst, getEvm, getState, toAddressMasked]
      rw [if_neg (by simp [hb, hw])]; rfl
  · refine key m.evm.accessedAddresses 0 (by simp [coldAccount, hb]) _ ?_
    simp only [opSelfdestruct, bind_eq, pop, hst, getEvm, getState, toAddressMasked]
    rw [if_pos (.inl hb)]; rfl

/-- The balance of `a` after the account `self` has sent all its ether to `b`. To itself: the ether is gone, but since cancun (EIP-6780) only
if the account was created in the same transaction. -/
def balanceAfter (s : State) (self b a : Address) : Word :=
  let all := (getAccount s self).balance
  if a = self then
    if b = self ∧ s.fork.since .cancun = true ∧ self ∉ s.createdAccounts then all else 0
  else if a = b then (getAccount s b).balance + all
  else (getAccount s a).balance

/-- The state after a SELFDESTRUCT. -/
private theorem state_after {s : State} {self b : Address} (hsum : (getAccount s b).balance.toNat + (getAccount s self).balance.toNat < 2 ^ 256) :
    ∃ s1, selfdestructState s self b = .ok s1 ∧ s1.fork = s.fork ∧ s1.createdAccounts = s.createdAccounts ∧ s1.snapshots = s.snapshots ∧
      (∀ a, getAccount s1 a = { getAccount s a with balance := balanceAfter s self b a }) ∧
      ∀ a k, getStorage s1 a k = getStorage s a k ∨ (getStorage s1 a k = 0 ∧ (a = self ∨ a = b) ∧ ∃ v, { getAccount s a with balance := v } = emptyAccount) := by
  unfold selfdestructState
  by_cases hc : s.fork.since .cancun = true
  · rw [if_pos hc]
    let sm := modifyState' s self (fun acc => { acc with balance := acc.balance - (getAccount s self).balance })
    let sn := modifyState' sm b (fun acc => { acc with balance := acc.balance + (getAccount s self).balance })
    have hg1 : ∀ a, getAccount sm a = if self = a then { getAccount s self with balance := 0 } else getAccount s a := by
      intro a; rw [getAccount_modifyState']; simp
    have hm : moveEther s self b (getAccount s self).balance = .ok sn := by
      have e1 : modifyState s self (reduceSenderBalance (getAccount s self).balance) = .ok sm := by
        rw [modifyState_eq]
        unfold reduceSenderBalance
        rw [if_neg (by simp)]
        rfl
      unfold moveEther
      rw [e1]
      dsimp only
      rw [modifyState_eq]
      unfold increaseRecipientBalance checkedAdd
      have hlt : (getAccount sm b).balance.toNat + (getAccount s self).balance.toNat < 2 ^ 256 := by
        rw [hg1]; split
        · simp; exact (getAccount s self).balance.isLt
        · exact hsum
      rw [if_pos hlt]
      rfl
    rw [hm]
    dsimp only
    have hg2 : ∀ a, getAccount sn a = if b = a then { getAccount sm b with balance := (getAccount sm b).balance + (getAccount s self).balance } else getAccount sm a := by
      intro a; rw [getAccount_modifyState']
    have hcr : sn.createdAccounts = s.createdAccounts := by rw [modifyState'_created, modifyState'_created]
    have hst2 : ∀ a k, getStorage sn a k = getStorage s a k ∨ (getStorage sn a k = 0 ∧ (a = self ∨ a = b) ∧ ∃ v, { getAccount s a with balance := v } = emptyAccount) := by
      intro a k
      have h2 := getStorage_modifyState' sm b (fun acc => { acc with balance := acc.balance + (getAccount s self).balance }) a k
      have h1 := getStorage_modifyState' s self (fun acc => { acc with balance := acc.balance - (getAccount s self).balance }) a k
      replace h2 : getStorage sn a k = _ := h2
      replace h1 : getStorage sm a k = _ := h1
      by_cases hA : b = a ∧ sm.fork.since .paris = true ∧ { getAccount sm b with balance := (getAccount sm b).balance + (getAccount s self).balance } = emptyAccount
      · rw [if_pos hA] at h2
        obtain ⟨rfl, -, he⟩ := hA
        refine .inr ⟨h2, .inr rfl, (getAccount sm b).balance + (getAccount s self).balance, ?_⟩
        rw [← he, hg1]; split
        · rename_i e; subst e; rfl
        · rfl
      · rw [if_neg hA] at h2
        by_cases hB : self = a ∧ s.fork.since .paris = true ∧ { getAccount s self with balance := (getAccount s self).balance - (getAccount s self).balance } = emptyAccount
        · rw [if_pos hB] at h1
          obtain ⟨rfl, -, he⟩ := hB
          exact .inr ⟨by rw [h2, h1], .inl rfl, _, he⟩
        · rw [if_neg hB] at h1
          exact .inl (by rw [h2, h1])
    refine ⟨_, rfl, ?_⟩
    by_cases hmem : self ∈ sn.createdAccounts
    · rw [if_pos hmem]
      rw [hcr] at hmem
      refine ⟨by unfold setAccountBalance; simp [sn, sm], by unfold setAccountBalance; rw [modifyState'_created, hcr],
        by unfold setAccountBalance; simp [sn, sm], fun a => ?_, fun a k => ?_⟩
      · unfold setAccountBalance
        rw [getAccount_modifyState', hg2, hg2, hg1, hg1, hg1]
        unfold balanceAfter
        by_cases ha : a = self
        · subst ha
          by_cases hb : b = a
          · subst hb; simp [hmem, hc]
          · simp [hb]
        · by_cases hb : a = b
          · subst hb; simp [ha, Ne.symm ha]
          · simp [ha, hb, Ne.symm ha, Ne.symm hb]
      · unfold setAccountBalance
        rw [getStorage_modifyState']
        by_cases hA : self = a ∧ sn.fork.since .paris = true ∧ { getAccount sn self with balance := 0 } = emptyAccount
        · rw [if_pos hA]
          obtain ⟨rfl, -, he⟩ := hA
          refine .inr ⟨rfl, .inl rfl, 0, ?_⟩
          rw [← he, hg2, hg1, hg1]; grind
        · rw [if_neg hA]; exact hst2 a k
    · rw [if_neg hmem]
      rw [hcr] at hmem
      refine ⟨by simp [sn, sm], hcr, by simp [sn, sm], fun a => ?_, hst2⟩
      rw [hg2, hg1, hg1]
      unfold balanceAfter
      by_cases ha : a = self
      · subst ha
        by_cases hb : b = a
        · subst hb; simp [hmem, hc]
        · simp [hb]
      · by_cases hb : a = b
        · subst hb; simp [ha, Ne.symm ha]
        · simp [ha, hb, Ne.symm ha, Ne.symm hb]
  · rw [if_neg hc]
    unfold checkedAdd
    rw [if_pos hsum]
    refine ⟨_, rfl, by unfold setAccountBalance; simp, by unfold setAccountBalance; simp, by unfold setAccountBalance; simp, fun a => ?_, fun a k => ?_⟩
    · unfold setAccountBalance
      rw [getAccount_modifyState', getAccount_modifyState', getAccount_modifyState']
      unfold balanceAfter
      by_cases ha : a = self
      · subst ha
        by_cases hb : b = a
        · subst hb; simp [hc]
        · simp [hb]
      · by_cases hb : a = b
        · subst hb; simp [ha, Ne.symm ha]
        · simp [ha, hb, Ne.symm ha, Ne.symm hb]
    · unfold setAccountBalance
      rw [getStorage_modifyState', getStorage_modifyState', getAccount_modifyState']
      grind

/-- **C74**, SELFDESTRUCT. The price is as in C17. A static frame halts. Otherwise the frame ends without output; all ether of the account has gone
to the beneficiary (see `balanceAfter`), and nothing else of any account has changed. The account is to be deleted, but since cancun only if it
was created in the same transaction. Before london 24000 gas are earned, once for each account. The beneficiary is warm since berlin.
Storage stays, except that an account without nonce and code that ends up without ether is removed, along with any storage it had (since paris). -/
theorem C74_selfdestruct (x : Word) (rest : List Word) (hst : m.evm.stack = x :: rest)
    (hsum : (getAccount m.world.state (x.setWidth 160)).balance.toNat + (getAccount m.world.state m.evm.message.currentTarget).balance.toNat < 2 ^ 256) :
    let self := m.evm.message.currentTarget
    let b : Address := x.setWidth 160
    let s := m.world.state
    let f := s.fork
    let cost := selfdestructPrice m b
    if m.evm.gasLeft < cost then ∃ m', opStep E pm pcm .selfdestruct m = .err (.halt .outOfGas) m'
    else if m.evm.message.isStatic = true then ∃ m', opStep E pm pcm .selfdestruct m = .err (.halt .writeInStaticContext) m'
    else ∃ s1 warm' doomed' touched', opStep E pm pcm .selfdestruct m = .ok () ⟨{ m.evm with
          stack := rest, gasLeft := m.evm.gasLeft - cost, running := false, accessedAddresses := warm', accountsToDelete := doomed'
          touchedAccounts := touched'
          refundCounter := m.evm.refundCounter +
            if f.since .london = true ∨ self ∈ m.evm.accountsToDelete ∨ self ∈ m.evm.message.parentsToDelete then 0 else 24000 },
        { m.world with state := s1 }⟩ ∧
      (∀ a, a ∈ warm' ↔ a ∈ m.evm.accessedAddresses ∨ (f.since .berlin = true ∧ a = b)) ∧
      (∀ a, a ∈ doomed' ↔ a ∈ m.evm.accountsToDelete ∨ (f.since .london = false ∧ a ∈ m.evm.message.parentsToDelete) ∨
        (a = self ∧ (f.since .cancun = true → self ∈ s.createdAccounts))) ∧
      (∀ a, a ∈ touched' ↔ a ∈ m.evm.touchedAccounts ∨ (a = b ∧ accountExists s1 b = true ∧ dead s1 b)) ∧
      s1.fork = f ∧ s1.createdAccounts = s.createdAccounts ∧ s1.snapshots = s.snapshots ∧
      (∀ a, getAccount s1 a = { getAccount s a with balance := balanceAfter s self b a }) ∧
      ∀ a k, getStorage s1 a k = getStorage s a k ∨ (getStorage s1 a k = 0 ∧ (a = self ∨ a = b) ∧ ∃ v, { getAccount s a with balance := v } = emptyAccount) := by
  intro self b s f cost
  have ho := outcome m x rest hst
  rw [show opStep E pm pcm .selfdestruct = opSelfdestruct from rfl]
  by_cases hg : m.evm.gasLeft < cost
  · rw [if_pos hg] at ho ⊢; exact ho
  rw [if_neg hg] at ho ⊢
  by_cases hs : m.evm.message.isStatic = true
  · rw [if_pos hs] at ho ⊢; exact ho
  rw [if_neg hs] at ho ⊢
  obtain ⟨s1, h1, h2, h3, h4, h5, h6⟩ := state_after hsum
  obtain ⟨m', hm'⟩ := ho s1 h1
  rw [hm']
  obtain ⟨x', rest', s1', e1, -, e2, -, e3⟩ := opSelfdestruct_inv hm'
  rw [hst] at e1; cases e1
  rw [show selfdestructState m.world.state m.self (x.setWidth 160) = .ok s1 from h1] at e2; cases e2
  subst e3
  have hr : m.sdRefund = if f.since .london = true ∨ self ∈ m.evm.accountsToDelete ∨ self ∈ m.evm.message.parentsToDelete then 0 else 24000 := by
    unfold Mach.sdRefund Mach.sdBase
    by_cases hl : f.since .london = true
    · rw [if_pos (.inl hl), if_pos (.inl hl)]
    · rw [show m.world.state.fork.since .london = f.since .london from rfl, if_neg hl]
      simp only [mem_setUpdate, hl, false_or]
      rfl
  refine ⟨s1, accWarm m.world.state.fork m.evm.accessedAddresses (x.setWidth 160),
    if selfdestructDeletes m.world.state m.self then setAdd m.sdBase m.self else m.sdBase,
    touchedIfEmpty s1 (x.setWidth 160) m.evm.touchedAccounts, ?_, ?_, ?_, ?_, h2, h3, h4, h5, h6⟩
  · rw [← hr]
  · intro a
    unfold accWarm
    split
    · rw [mem_setAdd]; grind
    · grind
  · intro a
    unfold Mach.sdBase selfdestructDeletes
    grind [mem_setAdd, mem_setUpdate]
  · intro a
    have he : accountExistsAndIsEmpty s1 b = true ↔ accountExists s1 b = true ∧ dead s1 b := by
      rw [dead_iff]
      unfold accountExistsAndIsEmpty accountExists isAccountAlive
      cases getAccountOptional s1 b with
      | none => simp
      | some acc => obtain ⟨n, v, c⟩ := acc; simp [emptyAccount]; tauto
    unfold touchedIfEmpty
    by_cases h : accountExistsAndIsEmpty s1 b = true
    · rw [if_pos h, mem_setAdd]; exact ⟨fun o => o.imp id fun e => ⟨e, he.1 h⟩, fun o => o.imp id fun e => e.1⟩
    · rw [if_neg h]; exact ⟨.inl, fun o => o.elim id fun e => absurd (he.2 e.2) h⟩

/-! ### Concrete cases -/

/-- A frame of the account 0xaa, with 55 wei, and another account 0xbb with 7 wei; `made` says whether 0xaa was created in this transaction. -/
def endingFrame (f : Fork) (static made : Bool) (stack : List Word) : Mach :=
  let w := beginTransaction (Sample.worldOf [(0xaa, ⟨1, 55, [0x60, 0x61]⟩), (0xbb, ⟨0, 7, []⟩)] [(0xaa, 1, 5)])
  { evm := { initEvm { Sample.callTo w 0xaa 60000 3 with isStatic := static } with stack := stack }
    world := { w with state := { w.state with fork := f, createdAccounts := if made then [0xaa] else [] } } }

def ended (m : Mach) : Option Exn × Nat × Int × Word × Word × List Address × Bool :=
  match opStep Sample.env (fun _ _ => .error (.outOfFuel, m.world)) (fun _ _ => .error (.outOfFuel, m.world)) .selfdestruct m with
  | .ok _ m' => (none, m'.evm.gasLeft, m'.evm.refundCounter, (getAccount m'.world.state 0xaa).balance, (getAccount m'.world.state 0xbb).balance,
      m'.evm.accountsToDelete, m'.evm.running)
  | .err e _ => (some e, 0, 0, 0, 0, [], false)

/-- The hypotheses of `C74_selfdestruct` hold. -/
example : (endingFrame .osaka false true [0xbb]).evm.stack = [0xbb] ∧
    (getAccount (endingFrame .osaka false true [0xbb]).world.state ((0xbb : Word).setWidth 160)).balance.toNat +
      (getAccount (endingFrame .osaka false true [0xbb]).world.state (endingFrame .osaka false true [0xbb]).evm.message.currentTarget).balance.toNat
        < 2 ^ 256 := by decide +kernel

set_option synthInstance.maxSize 1000 in
/-- Osaka, created in the same transaction or not, to another account and to itself; static; london and berlin; frontier. -/
example : ended (endingFrame .osaka false true [0xbb]) = (none, 52400, 0, 0, 62, [0xaa], false) ∧
    ended (endingFrame .osaka false false [0xbb]) = (none, 52400, 0, 0, 62, [], false) ∧
    ended (endingFrame .osaka false true [0xaa]) = (none, 52400, 0, 0, 7, [0xaa], false) ∧
    ended (endingFrame .osaka false false [0xaa]) = (none, 52400, 0, 55, 7, [], false) ∧
    ended (endingFrame .osaka true false [0xbb]) = (some (.halt .writeInStaticContext), 0, 0, 0, 0, [], false) ∧
    ended (endingFrame .osaka false false [0xcc]) = (none, 27400, 0, 0, 7, [], false) ∧
    ended (endingFrame .london false false [0xaa]) = (none, 52400, 0, 0, 7, [0xaa], false) ∧
    ended (endingFrame .berlin false false [0xbb]) = (none, 52400, 24000, 0, 62, [0xaa], false) ∧
    ended (endingFrame .frontier false false [0xbb]) = (none, 60000, 24000, 0, 62, [0xaa], false) := by
  refine ⟨?_, ?_, ?_, ?_, ?_, ?_, ?_, ?_, ?_⟩ <;> decide +kernel

end Verif.Props
