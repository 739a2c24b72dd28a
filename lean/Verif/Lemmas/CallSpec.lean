import Verif.Lemmas.CallRun
import Verif.Spec.Calls
/-! The call and create instructions in terms of the specification's charges. -/
namespace Verif
open Spec

theorem ceil32_eq (n : Nat) : ceil32 n = 32 * ((n + 31) / 32) := by
  have h1 := ceil32_mod n; have h2 := ceil32_ge n; have h3 := ceil32_lt n; omega

theorem memory_price (w : Nat) : calculateMemoryGasCost (32 * w) = memoryPrice w := by
  unfold calculateMemoryGasCost memoryPrice
  have h : ceil32 (32 * w) / 32 = w := by rw [ceil32_of_mod (by omega)]; omega
  simp only [h, GAS_MEMORY, Nat.pow_two]
  omega

theorem memoryPrice_mono {a b : Nat} (h : a ≤ b) : memoryPrice a ≤ memoryPrice b := by
  unfold memoryPrice
  have h2 : a * a / 512 ≤ b * b / 512 := Nat.div_le_div_right (Nat.mul_le_mul h h)
  omega

theorem neededSize_cons (n : Nat) (hn : n % 32 = 0) (x : Word × Word) (r : List (Word × Word)) :
    neededSize n (x :: r) = neededSize (32 * max (n / 32) (wordsFor x.1 x.2)) r := by
  rw [neededSize]
  congr 1
  unfold wordsFor
  split
  · have : max (n / 32) 0 = n / 32 := by omega
    rw [this]; omega
  · rw [ceil32_eq]; omega

theorem neededSize_one (n : Nat) (hn : n % 32 = 0) (x : Word × Word) :
    neededSize n [x] = 32 * max (n / 32) (wordsFor x.1 x.2) := by
  rw [neededSize_cons n hn, neededSize]

theorem neededSize_two (n : Nat) (hn : n % 32 = 0) (x y : Word × Word) :
    neededSize n [x, y] = 32 * max (n / 32) (max (wordsFor x.1 x.2) (wordsFor y.1 y.2)) := by
  rw [neededSize_cons n hn, neededSize_cons _ (by omega), neededSize]
  congr 1
  have : 32 * max (n / 32) (wordsFor x.1 x.2) / 32 = max (n / 32) (wordsFor x.1 x.2) := by omega
  rw [this]; omega

theorem callExt_eq {m : Mach} (ha : Aligned m.evm.memory) (o : CallOperands) :
    callExt m o.inStart o.inSize o.outStart o.outSize =
      ⟨memoryPrice (callWords m o) - memoryPrice (m.evm.memory.length / 32), 32 * callWords m o - m.evm.memory.length⟩ := by
  unfold callExt
  rw [extendMemory_eq _ ha, neededSize_two _ ha, memory_price]
  have h : m.evm.memory.length = 32 * (m.evm.memory.length / 32) := by unfold Aligned at ha; omega
  have h2 : calculateMemoryGasCost m.evm.memory.length = memoryPrice (m.evm.memory.length / 32) := by
    conv => lhs; rw [h]
    exact memory_price _
  rw [h2]; rfl

theorem createExt_eq {m : Mach} (ha : Aligned m.evm.memory) (start size : Word) :
    createExt m start size =
      ⟨memoryPrice (max (m.evm.memory.length / 32) (wordsFor start size)) - memoryPrice (m.evm.memory.length / 32),
       32 * max (m.evm.memory.length / 32) (wordsFor start size) - m.evm.memory.length⟩ := by
  unfold createExt
  rw [extendMemory_eq _ ha, neededSize_one _ ha, memory_price]
  have h : m.evm.memory.length = 32 * (m.evm.memory.length / 32) := by unfold Aligned at ha; omega
  have h2 : calculateMemoryGasCost m.evm.memory.length = memoryPrice (m.evm.memory.length / 32) := by
    conv => lhs; rw [h]
    exact memory_price _
  rw [h2]

theorem delegate_eq (code : Bytes) : delegate code = getDelegatedCodeAddress code := by
  unfold delegate getDelegatedCodeAddress isValidDelegation delegationTarget
  simp only [EOA_DELEGATED_CODE_LENGTH, EOA_DELEGATION_MARKER_LENGTH, EOA_DELEGATION_MARKER]
  by_cases h1 : code.length = 23 <;> by_cases h2 : code.take 3 = [0xef, 0x01, 0x00] <;> simp [h1, h2]

theorem accCost_eq (f : Fork) (w : List Address) (a : Address) : accCost f .call w a = accountPrice f w a := by
  unfold accCost accountPrice flatAccessCost
  split
  · rfl
  · rfl

theorem calleeCost_eq (m : Mach) (a : Address) :
    calleeCost m a = calleePrice m.world.state m.evm.accessedAddresses a := by
  unfold calleeCost calleePrice delegateOf delCost delegates
  rw [delegate_eq]
  unfold getDelegatedCodeAddress
  simp only [accCost_eq]
  congr 1
  cases hp : m.world.state.fork.since .prague
  · simp
  · have hb := prague_berlin hp
    cases isValidDelegation (getAccount m.world.state a).code <;>
      simp [accountPrice, accWarm, hb, mem_setAdd, List.mem_cons, or_comm]

theorem dead_iff (s : State) (a : Address) : dead s a ↔ isAccountAlive s a = false := by
  unfold dead isAccountAlive getAccount
  cases h : getAccountOptional s a with
  | none => simp [emptyAccount]
  | some acc =>
    obtain ⟨n, b, c⟩ := acc
    simp [emptyAccount]

/-- The instruction of a kind. -/
def callOp (pm : Sub) : CallKind → M Unit
  | .call => opCall pm
  | .callcode => opCallcode pm
  | .delegatecall => opDelegatecall pm
  | .staticcall => opStaticcall pm

/-- Arguments with which the child is called. -/
def callArgs (k : CallKind) (m : Mach) (o : CallOperands) : CallArgs :=
  { gas := forwarded k m o + stipend o
    value := if k = .delegatecall then m.evm.message.value else o.value
    caller := if k = .delegatecall then m.evm.message.caller else m.self
    to := if k = .callcode ∨ k = .delegatecall then m.self else o.address
    codeAddress := delAddr m.world.state o.address
    shouldTransferValue := decide (k ≠ .delegatecall)
    isStaticcall := decide (k = .staticcall)
    inputStart := o.inStart, inputSize := o.inSize, outputStart := o.outStart, outputSize := o.outSize
    code := (getAccount m.world.state (delAddr m.world.state o.address)).code
    disablePrecompiles := delegates m.world.state o.address }

/-- The frame when the child starts. -/
def callMid (k : CallKind) (m : Mach) (o : CallOperands) : Mach :=
  callFrame m o.rest o.address ⟨0, 32 * callWords m o - m.evm.memory.length⟩ (forwarded k m o + callCharges k m o)

theorem ite_not_eq {α : Type} (v : Word) (a b : α) : (if v ≠ 0 then a else b) = if v = 0 then b else a := by
  split <;> simp_all

theorem tangerine_of_spurious : ∀ {f : Fork}, f.since .spuriousDragon = true → f.since .tangerineWhistle = true := by
  intro f; cases f <;> decide

theorem callExtra_eq (m : Mach) (o : CallOperands) :
    callExtra m o.value o.address = calleePrice m.world.state m.evm.accessedAddresses o.address + (if o.value ≠ 0 then 9000 else 0) +
      (if newAccountCharged .call m o then 25000 else 0) := by
  unfold callExtra
  rw [calleeCost_eq]
  have : callCreateCost m.world.state o.address o.value = (if newAccountCharged .call m o then 25000 else 0) := by
    have hd := dead_iff m.world.state o.address
    unfold callCreateCost newAccountCharged
    by_cases hs : m.world.state.fork.since .spuriousDragon = true
    · simp only [hs, if_true]
      by_cases h1 : o.value = 0 <;> cases h2 : isAccountAlive m.world.state o.address <;> simp [h1, GAS_NEW_ACCOUNT, hd, h2]
    · have h3 : getAccountOptional m.world.state o.address = none ↔ accountExists m.world.state o.address = false := by
        unfold accountExists; simp
      cases h2 : accountExists m.world.state o.address <;> simp [hs, h2, h3, GAS_NEW_ACCOUNT]
  rw [this, ite_not_eq]
  simp only [GAS_CALL_VALUE]
  omega

theorem callcodeExtra_eq (m : Mach) (o : CallOperands) :
    callcodeExtra m o.value o.address =
      calleePrice m.world.state m.evm.accessedAddresses o.address + (if o.value ≠ 0 then 9000 else 0) +
        (if newAccountCharged .callcode m o then 25000 else 0) := by
  unfold callcodeExtra
  rw [calleeCost_eq, ite_not_eq]
  have : callcodeCreateCost m.world.state m.self = (if newAccountCharged .callcode m o then 25000 else 0) := by
    unfold callcodeCreateCost newAccountCharged Mach.self
    by_cases ht : m.world.state.fork.since .tangerineWhistle = true
    · simp [ht]
    · have hs : ¬ m.world.state.fork.since .spuriousDragon = true := fun h => ht (tangerine_of_spurious h)
      have h3 : getAccountOptional m.world.state m.evm.message.currentTarget = none ↔
          accountExists m.world.state m.evm.message.currentTarget = false := by
        unfold accountExists; simp
      cases h2 : accountExists m.world.state m.evm.message.currentTarget <;> simp [hs, ht, h2, h3, GAS_NEW_ACCOUNT]
  rw [this]
  simp only [GAS_CALL_VALUE]
  omega

theorem calleeCost_charges (m : Mach) (o : CallOperands) {k : CallKind} (hk : k = .delegatecall ∨ k = .staticcall) (hv : o.value = 0) :
    calleeCost m o.address + (memoryPrice (callWords m o) - memoryPrice (m.evm.memory.length / 32)) = callCharges k m o := by
  rw [calleeCost_eq]
  unfold callCharges newAccountCharged
  rcases hk with rfl | rfl <;> simp [hv]

theorem sentGas_eq {k : CallKind} {m : Mach} {o : CallOperands} {extra mem : Nat}
    (h : callCharges k m o = extra + mem) :
    sentGas m.world.state.fork o.gas.toNat m.evm.gasLeft mem extra = forwarded k m o := by
  unfold sentGas forwarded allButOne64th maxMessageCallGas
  rw [h]
  have : m.evm.gasLeft - mem - extra = m.evm.gasLeft - (extra + mem) := by omega
  rw [this]

/-- Since tangerine_whistle a call can forward what it has left, so paying the charges is enough. -/
theorem affordable {k : CallKind} {m : Mach} {o : CallOperands} (hf : m.world.state.fork.since .tangerineWhistle = true)
    (h : callCharges k m o ≤ m.evm.gasLeft) : forwarded k m o + callCharges k m o ≤ m.evm.gasLeft := by
  unfold forwarded allButOne64th
  rw [if_pos hf]
  omega

theorem callOp_oog {pm : Sub} {k : CallKind} {m : Mach} {o : CallOperands} (ha : Aligned m.evm.memory)
    (ho : callOperands k m.evm.stack = some o) (h : m.evm.gasLeft < forwarded k m o + callCharges k m o) :
    ∃ m', callOp pm k m = .err (.halt .outOfGas) m' ∧ m'.evm.output = m.evm.output := by
  unfold callOperands at ho
  have hx := callExt_eq ha o
  split at ho <;> cases ho
  · rename_i g a v i l oo kk rest hst
    refine opCall_oog pm m hst ?_
    have e := callExtra_eq m ⟨g, a.setWidth 160, v, i, l, oo, kk, rest⟩
    have e1 := sentGas_eq (k := .call) (m := m) (o := ⟨g, a.setWidth 160, v, i, l, oo, kk, rest⟩) (extra := callExtra m v (a.setWidth 160))
      (mem := (callExt m i l oo kk).cost) (by rw [hx, e]; rfl)
    rw [toAddressMasked, e1, Nat.add_assoc, hx, e]; exact h
  · rename_i g a v i l oo kk rest hst
    refine opCallcode_oog pm m hst ?_
    have e := callcodeExtra_eq m ⟨g, a.setWidth 160, v, i, l, oo, kk, rest⟩
    have e1 := sentGas_eq (k := .callcode) (m := m) (o := ⟨g, a.setWidth 160, v, i, l, oo, kk, rest⟩)
      (extra := callcodeExtra m v (a.setWidth 160)) (mem := (callExt m i l oo kk).cost) (by rw [hx, e]; rfl)
    rw [toAddressMasked, e1, Nat.add_assoc, hx, e]; exact h
  · rename_i g a i l oo kk rest hst
    refine opDelegatecall_oog pm m hst ?_
    have e := calleeCost_charges m ⟨g, a.setWidth 160, 0, i, l, oo, kk, rest⟩ (k := .delegatecall) (.inl rfl) rfl
    have e1 := sentGas_eq (k := .delegatecall) (m := m) (o := ⟨g, a.setWidth 160, 0, i, l, oo, kk, rest⟩)
      (extra := calleeCost m (a.setWidth 160)) (mem := (callExt m i l oo kk).cost) (by rw [hx]; exact e.symm)
    rw [toAddressMasked, e1, Nat.add_assoc, hx, e]; exact h
  · rename_i g a i l oo kk rest hst
    refine opStaticcall_oog pm m hst ?_
    have e := calleeCost_charges m ⟨g, a.setWidth 160, 0, i, l, oo, kk, rest⟩ (k := .staticcall) (.inr rfl) rfl
    have e1 := sentGas_eq (k := .staticcall) (m := m) (o := ⟨g, a.setWidth 160, 0, i, l, oo, kk, rest⟩)
      (extra := calleeCost m (a.setWidth 160)) (mem := (callExt m i l oo kk).cost) (by rw [hx]; exact e.symm)
    rw [toAddressMasked, e1, Nat.add_assoc, hx, e]; exact h

/-- Why a call that can pay its charges does not run the callee: static context, or not enough ether. -/
theorem callOp_run {pm : Sub} {k : CallKind} {m : Mach} {o : CallOperands} (ha : Aligned m.evm.memory)
    (hlen : m.evm.stack.length ≤ 1024)
    (ho : callOperands k m.evm.stack = some o) (h : forwarded k m o + callCharges k m o ≤ m.evm.gasLeft) :
    callOp pm k m =
      if k = .call ∧ m.evm.message.isStatic = true ∧ o.value ≠ 0 then
        .err (.halt .writeInStaticContext) { callMid k m o with evm := { (callMid k m o).evm with memory := m.evm.memory } }
      else if (getAccount m.world.state m.self).balance < o.value then
        .ok () ⟨{ (callMid k m o).evm with
          stack := 0 :: o.rest, returnData := [], pc := m.evm.pc + 1
          gasLeft := m.evm.gasLeft - callCharges k m o + stipend o }, m.world⟩
      else (genericCall pm (callArgs k m o) >>= fun _ => incPc 1) (callMid k m o) := by
  have hx := callExt_eq ha o
  have hfw : forwarded k m o ≤ m.evm.gasLeft - callCharges k m o := by omega
  have hstip : stipend o = if o.value = 0 then 0 else GAS_CALL_STIPEND := by
    unfold stipend; rw [ite_not_eq]; rfl
  unfold callOperands at ho
  split at ho <;> cases ho
  · rename_i g a v i l oo kk rest hst
    generalize ho' : (⟨g, a.setWidth 160, v, i, l, oo, kk, rest⟩ : CallOperands) = o at *
    have e1 : callExtra m v (toAddressMasked a) + (callExt m i l oo kk).cost = callCharges .call m o := by
      have e := callExtra_eq m o; subst ho'; rw [hx, toAddressMasked, e]; rfl
    have hgo : g.toNat = o.gas.toNat := by subst ho'; rfl
    have e2 := sentGas_eq (m := m) (o := o) (k := .call) e1.symm
    rw [show callOp pm .call m = opCall pm m from rfl, opCall_run pm m hst hlen (by rw [hgo, e2, Nat.add_assoc, e1]; exact h)]
    subst ho'
    simp only at e2 hx hstip
    rw [hx] at e2
    simp only [toAddressMasked] at e1 e2
    simp only [hx, e2, toAddressMasked, true_and]
    have e3 : forwarded .call m ⟨g, a.setWidth 160, v, i, l, oo, kk, rest⟩ + callExtra m v (BitVec.setWidth 160 a) +
      (memoryPrice (callWords m ⟨g, a.setWidth 160, v, i, l, oo, kk, rest⟩) - memoryPrice (m.evm.memory.length / 32)) =
      forwarded .call m ⟨g, a.setWidth 160, v, i, l, oo, kk, rest⟩ + callCharges .call m ⟨g, a.setWidth 160, v, i, l, oo, kk, rest⟩ := by
      have e4 := e1; rw [hx] at e4; simp only at e4; omega
    simp only [e3, callMid, callArgs, ← hstip, callFrame]
    split
    · rfl
    · split
      · congr 3; omega
      · rfl
  · rename_i g a v i l oo kk rest hst
    generalize ho' : (⟨g, a.setWidth 160, v, i, l, oo, kk, rest⟩ : CallOperands) = o at *
    have e1 : callcodeExtra m v (toAddressMasked a) + (callExt m i l oo kk).cost = callCharges .callcode m o := by
      have e := callcodeExtra_eq m o; subst ho'; rw [hx, toAddressMasked, e]; rfl
    have hgo : g.toNat = o.gas.toNat := by subst ho'; rfl
    have e2 := sentGas_eq (m := m) (o := o) (k := .callcode) e1.symm
    rw [show callOp pm .callcode m = opCallcode pm m from rfl, opCallcode_run pm m hst hlen (by rw [hgo, e2, Nat.add_assoc, e1]; exact h)]
    subst ho'
    simp only at e2 hx hstip
    rw [hx] at e2
    simp only [toAddressMasked] at e1 e2
    have e3 : forwarded .callcode m ⟨g, a.setWidth 160, v, i, l, oo, kk, rest⟩ + callcodeExtra m v (BitVec.setWidth 160 a) +
      (memoryPrice (callWords m ⟨g, a.setWidth 160, v, i, l, oo, kk, rest⟩) - memoryPrice (m.evm.memory.length / 32)) =
      forwarded .callcode m ⟨g, a.setWidth 160, v, i, l, oo, kk, rest⟩ + callCharges .callcode m ⟨g, a.setWidth 160, v, i, l, oo, kk, rest⟩ := by
      have e4 := e1; rw [hx] at e4; simp only at e4; omega
    simp only [hx, e2, toAddressMasked, reduceCtorEq, false_and, if_false, e3, callMid, callArgs, ← hstip, callFrame]
    split
    · congr 3; omega
    · rfl
  · rename_i g a i l oo kk rest hst
    generalize ho' : (⟨g, a.setWidth 160, 0, i, l, oo, kk, rest⟩ : CallOperands) = o at *
    have e1 : calleeCost m (toAddressMasked a) + (callExt m i l oo kk).cost = callCharges .delegatecall m o := by
      subst ho'; rw [hx]; exact calleeCost_charges m ⟨g, a.setWidth 160, 0, i, l, oo, kk, rest⟩ (.inl rfl) rfl
    have hgo : g.toNat = o.gas.toNat := by subst ho'; rfl
    have e2 := sentGas_eq (m := m) (o := o) (k := .delegatecall) e1.symm
    rw [show callOp pm .delegatecall m = opDelegatecall pm m from rfl, opDelegatecall_run pm m hst (by rw [hgo, e2, Nat.add_assoc, e1]; exact h)]
    subst ho'
    simp only at e2 hx hstip
    rw [hx] at e2
    simp only [toAddressMasked] at e1 e2
    have e3 : forwarded .delegatecall m ⟨g, a.setWidth 160, 0, i, l, oo, kk, rest⟩ + calleeCost m (BitVec.setWidth 160 a) +
      (memoryPrice (callWords m ⟨g, a.setWidth 160, 0, i, l, oo, kk, rest⟩) - memoryPrice (m.evm.memory.length / 32)) =
      forwarded .delegatecall m ⟨g, a.setWidth 160, 0, i, l, oo, kk, rest⟩ + callCharges .delegatecall m ⟨g, a.setWidth 160, 0, i, l, oo, kk, rest⟩ := by
      have e4 := e1; rw [hx] at e4; simp only at e4; omega
    have hz : ¬ (getAccount m.world.state m.self).balance < (0 : Word) := by intro h; exact absurd h (by simp)
    simp only [hx, e2, toAddressMasked, reduceCtorEq, false_and, if_false, e3, callMid, callArgs, hstip, callFrame, hz]
    rfl
  · rename_i g a i l oo kk rest hst
    generalize ho' : (⟨g, a.setWidth 160, 0, i, l, oo, kk, rest⟩ : CallOperands) = o at *
    have e1 : calleeCost m (toAddressMasked a) + (callExt m i l oo kk).cost = callCharges .staticcall m o := by
      subst ho'; rw [hx]; exact calleeCost_charges m ⟨g, a.setWidth 160, 0, i, l, oo, kk, rest⟩ (.inr rfl) rfl
    have hgo : g.toNat = o.gas.toNat := by subst ho'; rfl
    have e2 := sentGas_eq (m := m) (o := o) (k := .staticcall) e1.symm
    rw [show callOp pm .staticcall m = opStaticcall pm m from rfl, opStaticcall_run pm m hst (by rw [hgo, e2, Nat.add_assoc, e1]; exact h)]
    subst ho'
    simp only at e2 hx hstip
    rw [hx] at e2
    simp only [toAddressMasked] at e1 e2
    have e3 : forwarded .staticcall m ⟨g, a.setWidth 160, 0, i, l, oo, kk, rest⟩ + calleeCost m (BitVec.setWidth 160 a) +
      (memoryPrice (callWords m ⟨g, a.setWidth 160, 0, i, l, oo, kk, rest⟩) - memoryPrice (m.evm.memory.length / 32)) =
      forwarded .staticcall m ⟨g, a.setWidth 160, 0, i, l, oo, kk, rest⟩ + callCharges .staticcall m ⟨g, a.setWidth 160, 0, i, l, oo, kk, rest⟩ := by
      have e4 := e1; rw [hx] at e4; simp only at e4; omega
    have hz : ¬ (getAccount m.world.state m.self).balance < (0 : Word) := by intro h; exact absurd h (by simp)
    simp only [hx, e2, toAddressMasked, reduceCtorEq, false_and, if_false, e3, callMid, callArgs, hstip, callFrame, hz]
    rfl

theorem pop_bind_ok {α : Type} {f : Word → M α} {m m' : Mach} {a : α} (h : (pop >>= f) m = .ok a m') :
    ∃ x r, m.evm.stack = x :: r ∧ f x { m with evm := { m.evm with stack := r } } = .ok a m' := by
  rw [bind_eq] at h
  unfold pop at h
  match hs : m.evm.stack with
  | [] => rw [hs] at h; cases h
  | x :: r => rw [hs] at h; exact ⟨x, r, rfl, h⟩

theorem callOperands_of_ok {pm : Sub} {k : CallKind} {m m' : Mach} (h : callOp pm k m = .ok () m') :
    ∃ o, callOperands k m.evm.stack = some o := by
  cases k
  · obtain ⟨x1, r1, e1, h⟩ := pop_bind_ok (show (pop >>= _) m = _ from h)
    obtain ⟨x2, r2, e2, h⟩ := pop_bind_ok h
    obtain ⟨x3, r3, e3, h⟩ := pop_bind_ok h
    obtain ⟨x4, r4, e4, h⟩ := pop_bind_ok h
    obtain ⟨x5, r5, e5, h⟩ := pop_bind_ok h
    obtain ⟨x6, r6, e6, h⟩ := pop_bind_ok h
    obtain ⟨x7, r7, e7, h⟩ := pop_bind_ok h
    simp only at e2 e3 e4 e5 e6 e7
    subst e2 e3 e4 e5 e6 e7
    rw [e1]; exact ⟨_, rfl⟩
  · obtain ⟨x1, r1, e1, h⟩ := pop_bind_ok (show (pop >>= _) m = _ from h)
    obtain ⟨x2, r2, e2, h⟩ := pop_bind_ok h
    obtain ⟨x3, r3, e3, h⟩ := pop_bind_ok h
    obtain ⟨x4, r4, e4, h⟩ := pop_bind_ok h
    obtain ⟨x5, r5, e5, h⟩ := pop_bind_ok h
    obtain ⟨x6, r6, e6, h⟩ := pop_bind_ok h
    obtain ⟨x7, r7, e7, h⟩ := pop_bind_ok h
    simp only at e2 e3 e4 e5 e6 e7
    subst e2 e3 e4 e5 e6 e7
    rw [e1]; exact ⟨_, rfl⟩
  · obtain ⟨x1, r1, e1, h⟩ := pop_bind_ok (show (pop >>= _) m = _ from h)
    obtain ⟨x2, r2, e2, h⟩ := pop_bind_ok h
    obtain ⟨x3, r3, e3, h⟩ := pop_bind_ok h
    obtain ⟨x4, r4, e4, h⟩ := pop_bind_ok h
    obtain ⟨x5, r5, e5, h⟩ := pop_bind_ok h
    obtain ⟨x6, r6, e6, h⟩ := pop_bind_ok h
    simp only at e2 e3 e4 e5 e6
    subst e2 e3 e4 e5 e6
    rw [e1]; exact ⟨_, rfl⟩
  · obtain ⟨x1, r1, e1, h⟩ := pop_bind_ok (show (pop >>= _) m = _ from h)
    obtain ⟨x2, r2, e2, h⟩ := pop_bind_ok h
    obtain ⟨x3, r3, e3, h⟩ := pop_bind_ok h
    obtain ⟨x4, r4, e4, h⟩ := pop_bind_ok h
    obtain ⟨x5, r5, e5, h⟩ := pop_bind_ok h
    obtain ⟨x6, r6, e6, h⟩ := pop_bind_ok h
    simp only at e2 e3 e4 e5 e6
    subst e2 e3 e4 e5 e6
    rw [e1]; exact ⟨_, rfl⟩

/-- The frame after a call that was refused. -/
def callRefused (k : CallKind) (m : Mach) (o : CallOperands) : Mach :=
  ⟨{ (callMid k m o).evm with
      stack := 0 :: o.rest, returnData := [], pc := m.evm.pc + 1
      gasLeft := m.evm.gasLeft - callCharges k m o + stipend o }, m.world⟩

theorem rest_length {k : CallKind} {s : List Word} {o : CallOperands} (h : callOperands k s = some o) :
    o.rest.length + 6 ≤ s.length := by
  unfold callOperands at h
  split at h <;> cases h <;> simp

/-- Complete description of the call instructions when the charges can be paid. -/
theorem callOp_cases {pm : Sub} {k : CallKind} {m : Mach} {o : CallOperands} (ha : Aligned m.evm.memory)
    (hlen : m.evm.stack.length ≤ 1024)
    (ho : callOperands k m.evm.stack = some o) (h : forwarded k m o + callCharges k m o ≤ m.evm.gasLeft) :
    callOp pm k m =
      if k = .call ∧ m.evm.message.isStatic = true ∧ o.value ≠ 0 then
        .err (.halt .writeInStaticContext) { callMid k m o with evm := { (callMid k m o).evm with memory := m.evm.memory } }
      else if (getAccount m.world.state m.self).balance < o.value ∨ m.evm.message.depth + 1 > STACK_DEPTH_LIMIT then
        .ok () (callRefused k m o)
      else match pm (callMessage (callMid k m o) (callArgs k m o)) m.world with
        | .error (e, w) => .err e ⟨{ (callMid k m o).evm with returnData := [] }, w⟩
        | .ok (child, w) =>
          if child.output.length < 2 ^ 256 then .ok () (callDone (callMid k m o) (callArgs k m o) child w)
          else .err (.crash .overflowError) ⟨{ incorporate (callMid k m o) child w with
            returnData := child.output, stack := (if child.error.isSome then 0 else 1) :: o.rest }, w⟩ := by
  rw [callOp_run ha hlen ho h]
  have hr := rest_length ho
  rw [genericCall_run _ _ _ (by show o.rest.length ≤ 1023; omega)]
  have hfw : forwarded k m o ≤ m.evm.gasLeft - callCharges k m o := by omega
  by_cases h1 : k = .call ∧ m.evm.message.isStatic = true ∧ o.value ≠ 0
  · simp only [h1, and_self, ne_eq, not_false_eq_true, if_true]
  · simp only [h1, if_false]
    by_cases h2 : (getAccount m.world.state m.self).balance < o.value
    · simp only [h2, if_true, true_or]; rfl
    · simp only [h2, if_false, false_or]
      by_cases h3 : m.evm.message.depth + 1 > STACK_DEPTH_LIMIT
      · have h3' : (callMid k m o).evm.message.depth + 1 > STACK_DEPTH_LIMIT := h3
        simp only [h3, h3', if_true]
        simp only [callRefused, callMid, callFrame, callArgs]
        congr 3; omega
      · have h3' : ¬ (callMid k m o).evm.message.depth + 1 > STACK_DEPTH_LIMIT := h3
        simp only [h3, h3', if_false]
        rfl

theorem callOp_inv {pm : Sub} {k : CallKind} {m m' : Mach} (ha : Aligned m.evm.memory)
    (hlen : m.evm.stack.length ≤ 1024) (h : callOp pm k m = .ok () m') :
    ∃ o, callOperands k m.evm.stack = some o ∧ forwarded k m o + callCharges k m o ≤ m.evm.gasLeft ∧
      ¬ (k = .call ∧ m.evm.message.isStatic = true ∧ o.value ≠ 0) ∧
      ((((getAccount m.world.state m.self).balance < o.value ∨ m.evm.message.depth + 1 > STACK_DEPTH_LIMIT) ∧
          m' = callRefused k m o) ∨
       (¬ ((getAccount m.world.state m.self).balance < o.value ∨ m.evm.message.depth + 1 > STACK_DEPTH_LIMIT) ∧
        ∃ child w, pm (callMessage (callMid k m o) (callArgs k m o)) m.world = .ok (child, w) ∧
          m' = callDone (callMid k m o) (callArgs k m o) child w)) := by
  obtain ⟨o, ho⟩ := callOperands_of_ok h
  by_cases hg : forwarded k m o + callCharges k m o ≤ m.evm.gasLeft
  · refine ⟨o, ho, hg, ?_⟩
    rw [callOp_cases ha hlen ho hg] at h
    split at h
    · cases h
    · rename_i h1
      refine ⟨h1, ?_⟩
      split at h
      · rename_i h2; cases h; exact .inl ⟨h2, rfl⟩
      · rename_i h2
        refine .inr ⟨h2, ?_⟩
        split at h
        · cases h
        · rename_i child w hp
          split at h <;> cases h
          exact ⟨child, w, hp, rfl⟩
  · obtain ⟨m1, h1, _⟩ := callOp_oog (pm := pm) ha ho (by omega)
    rw [h1] at h; cases h

/-! ### Creates -/

/-- CREATE (`false`) and CREATE2 (`true`). -/
def createOp (E : Env) (pcm : Sub) : Bool → M Unit
  | false => opCreate E pcm
  | true => opCreate2 E pcm

theorem createOperands_of_ok {E : Env} {pcm : Sub} {k : Bool} {m m' : Mach} (h : createOp E pcm k m = .ok () m') :
    ∃ o, createOperands k m.evm.stack = some o := by
  cases k
  · obtain ⟨x1, r1, e1, h⟩ := pop_bind_ok (show (pop >>= _) m = _ from h)
    obtain ⟨x2, r2, e2, h⟩ := pop_bind_ok h
    obtain ⟨x3, r3, e3, h⟩ := pop_bind_ok h
    simp only at e2 e3
    subst e2 e3
    rw [e1]; exact ⟨_, rfl⟩
  · obtain ⟨x1, r1, e1, h⟩ := pop_bind_ok (show (pop >>= _) m = _ from h)
    obtain ⟨x2, r2, e2, h⟩ := pop_bind_ok h
    obtain ⟨x3, r3, e3, h⟩ := pop_bind_ok h
    obtain ⟨x4, r4, e4, h⟩ := pop_bind_ok h
    simp only at e2 e3 e4
    subst e2 e3 e4
    rw [e1]; exact ⟨_, rfl⟩

/-- The frame after the charges of a create. -/
def createMid (m : Mach) (o : CreateOperands) : Mach :=
  createFrame m o.rest ⟨0, 32 * max (m.evm.memory.length / 32) (wordsFor o.start o.size) - m.evm.memory.length⟩
    (createCharges m o)

/-- The init code, read after memory was expanded. -/
def initCode (m : Mach) (o : CreateOperands) : Bytes :=
  memoryReadBytes (createMid m o).evm.memory o.start.toNat o.size.toNat

/-- The address of the new contract. -/
def createAddress (E : Env) (m : Mach) (o : CreateOperands) : Address :=
  match o.salt with
  | none => computeContractAddress E.crypto m.self (getAccount m.world.state m.self).nonce
  | some salt => computeCreate2ContractAddress E.crypto m.self salt (initCode m o)

theorem words_zero (size : Word) : wordsFor 0 size = ceil32 size.toNat / 32 := by
  unfold wordsFor
  rw [ceil32_eq]
  split
  · rename_i h; simp [h]
  · simp

theorem createCharge_eq {m : Mach} (ha : Aligned m.evm.memory) (v start size : Word) (rest : List Word) :
    createCharge m start size = createCharges m ⟨v, start, size, none, rest⟩ := by
  unfold createCharge createCharges
  rw [createExt_eq ha]
  simp only [words_zero, GAS_CREATE, initCodeCostIn, initCodeCost, GAS_INIT_CODE_WORD_COST, Option.isSome_none, Bool.false_eq_true, if_false]
  have := ceil32_mod size.toNat
  split <;> omega

theorem create2Charge_eq {m : Mach} (ha : Aligned m.evm.memory) (v start size salt : Word) (rest : List Word) :
    create2Charge m start size = createCharges m ⟨v, start, size, some salt, rest⟩ := by
  unfold create2Charge createCharges
  rw [createExt_eq ha]
  simp only [words_zero, GAS_CREATE, initCodeCostIn, initCodeCost, GAS_INIT_CODE_WORD_COST, Option.isSome_some, if_true, GAS_KECCAK256_WORD]
  have := ceil32_mod size.toNat
  split <;> omega

theorem createOp_oog {E : Env} {pcm : Sub} {k : Bool} {m : Mach} {o : CreateOperands} (ha : Aligned m.evm.memory)
    (ho : createOperands k m.evm.stack = some o) (h : m.evm.gasLeft < createCharges m o) :
    ∃ m', createOp E pcm k m = .err (.halt .outOfGas) m' ∧ m'.evm.output = m.evm.output := by
  unfold createOperands at ho
  split at ho <;> cases ho
  · rename_i hst; exact opCreate_oog m hst (by rw [createCharge_eq ha]; exact h)
  · rename_i hst; exact opCreate2_oog m hst (by rw [create2Charge_eq ha]; exact h)

theorem create_rest_length {k : Bool} {s : List Word} {o : CreateOperands} (h : createOperands k s = some o) :
    o.rest.length + 3 ≤ s.length := by
  unfold createOperands at h
  split at h <;> cases h <;> simp

theorem createFrame_congr {m : Mach} {rest : List Word} {e e' : ExtendMemory} {c : Nat} (h : e.expandBy = e'.expandBy) :
    createFrame m rest e c = createFrame m rest e' c := by unfold createFrame; rw [h]

/-- Complete description of the create instructions when the charges can be paid. -/
theorem createOp_cases {E : Env} {pcm : Sub} {k : Bool} {m : Mach} {o : CreateOperands} (ha : Aligned m.evm.memory)
    (hlen : m.evm.stack.length ≤ 1024)
    (ho : createOperands k m.evm.stack = some o) (h : createCharges m o ≤ m.evm.gasLeft) :
    createOp E pcm k m =
      let a := createAddress E m o
      let m1 := createMid m o
      if m.world.state.fork.since .shanghai ∧ (initCode m o).length > MAX_INIT_CODE_SIZE then .err (.halt .outOfGas) m1
      else if m.evm.message.isStatic then
        .err (.halt .writeInStaticContext)
          ⟨{ m1.evm with gasLeft := m1.evm.gasLeft - createMessageGas m.world.state.fork m1.evm.gasLeft }, m.world⟩
      else if (getAccount m.world.state m.self).balance < o.value ∨ (getAccount m.world.state m.self).nonce = 2 ^ 64 - 1 ∨
          m.evm.message.depth + 1 > STACK_DEPTH_LIMIT then
        .ok () ⟨{ m1.evm with returnData := [], stack := 0 :: o.rest, pc := m.evm.pc + 1 }, m.world⟩
      else if accountHasCodeOrNonce m.world.state a || accountHasStorage m.world.state a then
        .ok () { creating m1 a with evm := { (creating m1 a).evm with stack := 0 :: o.rest, pc := m.evm.pc + 1 } }
      else match pcm (createMessage m1 o.value a (initCode m o)) (creating m1 a).world with
        | .error (e, w) => .err e ⟨(creating m1 a).evm, w⟩
        | .ok (child, w) =>
          .ok () ⟨{ incorporate (creating m1 a) child w with
            pc := m.evm.pc + 1
            returnData := if child.error.isSome then child.output else []
            stack := (if child.error.isSome then 0 else addressWord child.message.currentTarget) :: o.rest }, w⟩ := by
  have hr := create_rest_length ho
  have key : createOp E pcm k m =
      (genericCreate pcm o.value (createAddress E m o) o.start o.size >>= fun _ => incPc 1) (createMid m o) := by
    unfold createOperands at ho
    split at ho <;> cases ho
    · rename_i hst
      rw [show createOp E pcm false m = opCreate E pcm m from rfl,
        opCreate_run m hst (by rw [createCharge_eq ha]; exact h), createCharge_eq ha]
      rw [createFrame_congr (e' := ⟨0, _⟩) (by rw [createExt_eq ha])]
      rfl
    · rename_i hst
      rw [show createOp E pcm true m = opCreate2 E pcm m from rfl,
        opCreate2_run m hst (by rw [create2Charge_eq ha]; exact h), create2Charge_eq ha]
      rw [createFrame_congr (e' := ⟨0, _⟩) (by rw [createExt_eq ha])]
      rfl
  rw [key, genericCreate_run _ _ _ _ _ _ (by show o.rest.length ≤ 1023; omega)]
  rfl

end Verif
