import Verif.Lemmas.Memory
import Verif.Spec.Calls
/-! The call and create instructions as explicit functions of the machine. -/
namespace Verif

/-- Cost of touching an account. -/
def accCost (f : Fork) (k : AccessKind) (warm : List Address) (a : Address) : Nat :=
  if f.since .berlin then (if a ∈ warm then GAS_WARM_ACCESS else GAS_COLD_ACCOUNT_ACCESS) else flatAccessCost f k

/-- The warm accounts after touching one: there are none before berlin. -/
def accWarm (f : Fork) (warm : List Address) (a : Address) : List Address := if f.since .berlin then setAdd warm a else warm

theorem accWarm_berlin {f : Fork} (h : f.since .berlin = true) (warm : List Address) (a : Address) :
    accWarm f warm a = setAdd warm a := by simp [accWarm, h]

theorem prague_berlin : ∀ {f : Fork}, f.since .prague = true → f.since .berlin = true := by
  intro f; cases f <;> decide

theorem setAdd_mem {α : Type} [DecidableEq α] {s : List α} {a : α} (h : a ∈ s) : setAdd s a = s := by
  simp [setAdd, h]

theorem accessAddress_run (k : AccessKind) (a : Address) (m : Mach) : accessAddress k a m =
    .ok (accCost m.world.state.fork k m.evm.accessedAddresses a)
      { m with evm := { m.evm with accessedAddresses := accWarm m.world.state.fork m.evm.accessedAddresses a } } := by
  unfold accessAddress accCost accWarm
  simp only [bind_eq, getEvm, getState]
  by_cases hb : m.world.state.fork.since .berlin = true
  · by_cases h : a ∈ m.evm.accessedAddresses
    · simp [hb, h, pure_eq, setAdd_mem h]
    · simp only [hb, h, not_true_eq_false, if_false, if_true]; rfl
  · simp [hb, pure_eq]

/-- The warm set after looking at the code of `a`. -/
def delWarm (s : State) (warm : List Address) (a : Address) : List Address :=
  if delegates s a then setAdd warm (delegationTarget (getAccount s a).code) else warm
def delCost (s : State) (warm : List Address) (a : Address) : Nat :=
  if delegates s a then accCost s.fork .call warm (delegationTarget (getAccount s a).code) else 0
def delAddr (s : State) (a : Address) : Address :=
  if delegates s a then delegationTarget (getAccount s a).code else a

theorem accessDelegation_run (a : Address) (m : Mach) : accessDelegation a m =
    .ok (delegates m.world.state a, delAddr m.world.state a,
        (getAccount m.world.state (delAddr m.world.state a)).code, delCost m.world.state m.evm.accessedAddresses a)
      { m with evm := { m.evm with accessedAddresses := delWarm m.world.state m.evm.accessedAddresses a } } := by
  unfold accessDelegation delWarm delCost delAddr
  simp only [bind_eq, getState]
  split
  · rename_i h; simp only [h, bind_eq]; rw [accessAddress_run]
    have hp : m.world.state.fork.since .prague = true := by
      unfold delegates at h; simp only [Bool.and_eq_true] at h; exact h.1
    rw [accWarm_berlin (prague_berlin hp)]; rfl
  · rename_i h; simp only [Bool.not_eq_true] at h; simp only [h]; rfl

/-- The message `generic_call` sends. -/
def callMessage (m : Mach) (a : CallArgs) : Message :=
  { caller := a.caller
    target := some a.to
    gas := a.gas
    value := a.value
    data := memoryReadBytes m.evm.memory a.inputStart.toNat a.inputSize.toNat
    code := a.code
    currentTarget := a.to
    depth := m.evm.message.depth + 1
    codeAddress := some a.codeAddress
    shouldTransferValue := a.shouldTransferValue
    isStatic := if a.isStaticcall then true else m.evm.message.isStatic
    accessedAddresses := m.evm.accessedAddresses
    accessedStorageKeys := m.evm.accessedStorageKeys
    disablePrecompiles := a.disablePrecompiles
    parentsToDelete := setUpdate m.evm.message.parentsToDelete m.evm.accountsToDelete }

/-- What is taken over from a child that left the world `w`. -/
def incorporate (m : Mach) (child : Evm) (w : World) : Evm :=
  if child.error.isSome then { m.evm with
    gasLeft := m.evm.gasLeft + child.gasLeft
    touchedAccounts := touchedOnError w.state child m.evm.touchedAccounts }
  else { m.evm with
    gasLeft := m.evm.gasLeft + child.gasLeft
    logs := m.evm.logs ++ child.logs
    refundCounter := m.evm.refundCounter + child.refundCounter
    accountsToDelete := setUpdate m.evm.accountsToDelete child.accountsToDelete
    accessedAddresses := setUpdate m.evm.accessedAddresses child.accessedAddresses
    accessedStorageKeys := setUpdate m.evm.accessedStorageKeys child.accessedStorageKeys
    touchedAccounts := touchedIfEmpty w.state child.message.currentTarget (setUpdate m.evm.touchedAccounts child.touchedAccounts) }

/-- The end of a call. -/
def callDone (m : Mach) (a : CallArgs) (child : Evm) (w : World) : Mach :=
  ⟨{ incorporate m child w with
      pc := m.evm.pc + 1
      returnData := child.output
      stack := (if child.error.isSome then 0 else 1) :: m.evm.stack
      memory := memoryWrite m.evm.memory a.outputStart.toNat
        (child.output.take (min a.outputSize.toNat child.output.length)) }, w⟩

/-- `generic_call` and the following `pc += 1`. -/
theorem genericCall_run (pm : Sub) (a : CallArgs) (m : Mach) (hs : m.evm.stack.length ≤ 1023) :
    (genericCall pm a >>= fun _ => incPc 1) m =
      if m.evm.message.depth + 1 > STACK_DEPTH_LIMIT then
        .ok () ⟨{ m.evm with pc := m.evm.pc + 1, returnData := [], stack := 0 :: m.evm.stack, gasLeft := m.evm.gasLeft + a.gas },
          m.world⟩
      else match pm (callMessage m a) m.world with
        | .error (e, w) => .err e ⟨{ m.evm with returnData := [] }, w⟩
        | .ok (child, w) =>
          if child.output.length < 2 ^ 256 then .ok () (callDone m a child w)
          else .err (.crash .overflowError) ⟨{ incorporate m child w with
            returnData := child.output, stack := (if child.error.isSome then 0 else 1) :: m.evm.stack }, w⟩ := by
  have hs' : m.evm.stack.length ≠ 1024 := by omega
  unfold genericCall
  by_cases hd : m.evm.message.depth + 1 > STACK_DEPTH_LIMIT
  · simp only [bind_eq, setReturnData, getEvm, hd, if_true, addGas, push, hs', if_false, incPc]
  · simp only [bind_eq, setReturnData, getEvm, hd, if_false, runSub, callMessage]
    match hpm : pm (callMessage m a) m.world with
    | .error (e, w) => simp only [callMessage] at hpm; simp only [hpm]
    | .ok (child, w) =>
      simp only [callMessage] at hpm; simp only [hpm]
      cases he : child.error.isSome
      · simp only [Bool.false_eq_true, if_false, bind_eq, incorporateChildOnSuccess, setReturnData, push, hs', u256]
        by_cases hl : child.output.length < 2 ^ 256
        · simp only [hl, if_true, writeMemory, incPc, callDone, incorporate, he, BitVec.toNat_ofNat, Nat.mod_eq_of_lt hl,
            Bool.false_eq_true, if_false]
        · simp only [hl, if_false, incorporate, he, Bool.false_eq_true]
      · simp only [if_true, bind_eq, incorporateChildOnError, setReturnData, push, hs', if_false, u256]
        by_cases hl : child.output.length < 2 ^ 256
        · simp only [hl, if_true, writeMemory, incPc, callDone, incorporate, he, BitVec.toNat_ofNat, Nat.mod_eq_of_lt hl]
        · simp only [hl, if_false, incorporate, he, if_true]

/-! ### The four call instructions -/

theorem chargeGas_run {n : Nat} {m : Mach} (h : n ≤ m.evm.gasLeft) :
    chargeGas n m = .ok () { m with evm := { m.evm with gasLeft := m.evm.gasLeft - n } } := by
  unfold chargeGas; rw [if_neg (by omega)]
theorem chargeGas_oog {n : Nat} {m : Mach} (h : m.evm.gasLeft < n) : chargeGas n m = .err (.halt .outOfGas) m := by
  unfold chargeGas; rw [if_pos h]

/-- The expansion of memory for the two ranges of a call. -/
def callExt (m : Mach) (is iz os oz : Word) : ExtendMemory :=
  calculateGasExtendMemory m.evm.memory.length [(is, iz), (os, oz)]

/-- Access costs of the callee and of the account it delegates to. -/
def calleeCost (m : Mach) (a : Address) : Nat :=
  accCost m.world.state.fork .call m.evm.accessedAddresses a +
    delCost m.world.state (accWarm m.world.state.fork m.evm.accessedAddresses a) a

/-- The frame when the child is about to run: `sent` is what is taken for the child. -/
def callFrame (m : Mach) (rest : List Word) (a : Address) (ext : ExtendMemory) (charged : Nat) : Mach :=
  { m with evm := { m.evm with
      stack := rest
      accessedAddresses := delWarm m.world.state (accWarm m.world.state.fork m.evm.accessedAddresses a) a
      gasLeft := m.evm.gasLeft - charged
      memory := m.evm.memory ++ List.replicate ext.expandBy 0 } }

/-- The gas taken for the child. -/
def sentGas (f : Fork) (gas : Nat) (left mem extra : Nat) : Nat :=
  if f.since .tangerineWhistle then min gas (maxMessageCallGas (left - mem - extra)) else gas

theorem messageCallGas_low {f : Fork} {value : Word} {gas left mem extra : Nat} (h : left < sentGas f gas left mem extra + extra + mem) :
    left < (calculateMessageCallGas f value gas left mem extra).cost + mem := by
  unfold sentGas maxMessageCallGas at h
  unfold calculateMessageCallGas maxMessageCallGas
  by_cases hf : f.since .tangerineWhistle = true
  · simp only [hf, not_true_eq_false, false_or, if_true] at h ⊢
    split <;> dsimp only <;> omega
  · simp only [hf, not_false_eq_true, true_or, if_true, if_false] at h ⊢
    exact h

theorem messageCallGas_ok {f : Fork} {value : Word} {gas left mem extra : Nat} (h : sentGas f gas left mem extra + extra + mem ≤ left) :
    calculateMessageCallGas f value gas left mem extra =
      ⟨sentGas f gas left mem extra + extra, sentGas f gas left mem extra + (if value = 0 then 0 else GAS_CALL_STIPEND)⟩ := by
  unfold sentGas at h ⊢
  unfold calculateMessageCallGas
  by_cases hf : f.since .tangerineWhistle = true
  · simp only [hf, not_true_eq_false, false_or, if_true] at h ⊢
    rw [if_neg (by omega)]
  · simp [hf]

section
variable (pm : Sub) (m : Mach) {g t v is iz os oz : Word} {rest : List Word}

/-- What CALL charges beside memory and the gas it forwards. -/
def callExtra (v : Word) (a : Address) : Nat :=
  calleeCost m a + callCreateCost m.world.state a v + (if v = 0 then 0 else GAS_CALL_VALUE)

theorem opCall_oog (hst : m.evm.stack = g :: t :: v :: is :: iz :: os :: oz :: rest)
    (h : m.evm.gasLeft <
      sentGas m.world.state.fork g.toNat m.evm.gasLeft (callExt m is iz os oz).cost (callExtra m v (toAddressMasked t)) + callExtra m v (toAddressMasked t) + (callExt m is iz os oz).cost) :
    ∃ m', opCall pm m = .err (.halt .outOfGas) m' ∧ m'.evm.output = m.evm.output := by
  unfold opCall
  simp only [bind_eq, pop, hst, extendCost, pure_eq, getEvm, getState, accessAddress_run, accessDelegation_run]
  rw [chargeGas_oog (by exact messageCallGas_low h)]
  exact ⟨_, rfl, rfl⟩

theorem opCall_run (hst : m.evm.stack = g :: t :: v :: is :: iz :: os :: oz :: rest)
    (hlen : m.evm.stack.length ≤ 1024)
    (h : sentGas m.world.state.fork g.toNat m.evm.gasLeft (callExt m is iz os oz).cost (callExtra m v (toAddressMasked t)) + callExtra m v (toAddressMasked t) + (callExt m is iz os oz).cost ≤
      m.evm.gasLeft) :
    opCall pm m =
      let a := toAddressMasked t
      let ext := callExt m is iz os oz
      let sent := sentGas m.world.state.fork g.toNat m.evm.gasLeft ext.cost (callExtra m v a)
      let m1 := callFrame m rest a ext (sent + callExtra m v a + ext.cost)
      if m.evm.message.isStatic ∧ v ≠ 0 then
        .err (.halt .writeInStaticContext) { m1 with evm := { m1.evm with memory := m.evm.memory } }
      else if (getAccount m.world.state m.self).balance < v then
        .ok () ⟨{ m1.evm with stack := 0 :: rest, returnData := [], pc := m.evm.pc + 1
                              gasLeft := m1.evm.gasLeft + (sent + (if v = 0 then 0 else GAS_CALL_STIPEND)) }, m.world⟩
      else (genericCall pm
          { gas := sent + (if v = 0 then 0 else GAS_CALL_STIPEND), value := v, caller := m.self, to := a
            codeAddress := delAddr m.world.state a, shouldTransferValue := true, isStaticcall := false
            inputStart := is, inputSize := iz, outputStart := os, outputSize := oz
            code := (getAccount m.world.state (delAddr m.world.state a)).code
            disablePrecompiles := delegates m.world.state a } >>= fun _ => incPc 1) m1 := by
  have hr : rest.length ≠ 1024 := by rw [hst] at hlen; simp at hlen; omega
  have hc := messageCallGas_ok (value := v) (gas := g.toNat) h
  unfold callExtra calleeCost callExt at *
  unfold opCall
  simp only [bind_eq, pop, hst, extendCost, pure_eq, getEvm, getState, accessAddress_run, accessDelegation_run]
  rw [hc]
  rw [chargeGas_run (by exact h)]
  by_cases hs : m.evm.message.isStatic = true ∧ v ≠ 0
  · simp only [hs, if_true, callFrame, raiseHalt, raise, and_self, ne_eq, not_false_eq_true]
  · simp only [hs, if_false, callFrame, expandMemory, bind_eq]
    by_cases hb : (getAccount m.world.state m.self).balance < v
    · have hb' : (getAccount m.world.state m.evm.message.currentTarget).balance < v := hb
      simp only [hb, hb', if_true, bind_eq, setReturnData, addGas, push, hr, if_false, incPc]
    · have hb' : ¬ (getAccount m.world.state m.evm.message.currentTarget).balance < v := hb
      simp only [hb, hb', if_false, bind_eq]

/-- What CALLCODE charges beside memory and the gas it forwards. -/
def callcodeExtra (v : Word) (a : Address) : Nat :=
  calleeCost m a + callcodeCreateCost m.world.state m.self + (if v = 0 then 0 else GAS_CALL_VALUE)

theorem opCallcode_oog (hst : m.evm.stack = g :: t :: v :: is :: iz :: os :: oz :: rest)
    (h : m.evm.gasLeft <
      sentGas m.world.state.fork g.toNat m.evm.gasLeft (callExt m is iz os oz).cost (callcodeExtra m v (toAddressMasked t)) + callcodeExtra m v (toAddressMasked t) + (callExt m is iz os oz).cost) :
    ∃ m', opCallcode pm m = .err (.halt .outOfGas) m' ∧ m'.evm.output = m.evm.output := by
  unfold opCallcode
  simp only [bind_eq, pop, hst, extendCost, pure_eq, getEvm, getState, accessAddress_run, accessDelegation_run]
  rw [chargeGas_oog (by exact messageCallGas_low h)]
  exact ⟨_, rfl, rfl⟩

theorem opCallcode_run (hst : m.evm.stack = g :: t :: v :: is :: iz :: os :: oz :: rest)
    (hlen : m.evm.stack.length ≤ 1024)
    (h : sentGas m.world.state.fork g.toNat m.evm.gasLeft (callExt m is iz os oz).cost (callcodeExtra m v (toAddressMasked t)) + callcodeExtra m v (toAddressMasked t) + (callExt m is iz os oz).cost ≤
      m.evm.gasLeft) :
    opCallcode pm m =
      let a := toAddressMasked t
      let ext := callExt m is iz os oz
      let sent := sentGas m.world.state.fork g.toNat m.evm.gasLeft ext.cost (callcodeExtra m v a)
      let m1 := callFrame m rest a ext (sent + callcodeExtra m v a + ext.cost)
      if (getAccount m.world.state m.self).balance < v then
        .ok () ⟨{ m1.evm with stack := 0 :: rest, returnData := [], pc := m.evm.pc + 1
                              gasLeft := m1.evm.gasLeft + (sent + (if v = 0 then 0 else GAS_CALL_STIPEND)) }, m.world⟩
      else (genericCall pm
          { gas := sent + (if v = 0 then 0 else GAS_CALL_STIPEND), value := v, caller := m.self, to := m.self
            codeAddress := delAddr m.world.state a, shouldTransferValue := true, isStaticcall := false
            inputStart := is, inputSize := iz, outputStart := os, outputSize := oz
            code := (getAccount m.world.state (delAddr m.world.state a)).code
            disablePrecompiles := delegates m.world.state a } >>= fun _ => incPc 1) m1 := by
  have hr : rest.length ≠ 1024 := by rw [hst] at hlen; simp at hlen; omega
  have hc := messageCallGas_ok (value := v) (gas := g.toNat) h
  unfold callcodeExtra calleeCost callExt at *
  unfold opCallcode
  simp only [bind_eq, pop, hst, extendCost, pure_eq, getEvm, getState, accessAddress_run, accessDelegation_run]
  rw [hc]
  rw [chargeGas_run (by exact h)]
  simp only [callFrame, expandMemory, bind_eq]
  by_cases hb : (getAccount m.world.state m.self).balance < v
  · have hb' : (getAccount m.world.state m.evm.message.currentTarget).balance < v := hb
    simp only [hb, hb', if_true, bind_eq, setReturnData, addGas, push, hr, if_false, incPc]
  · have hb' : ¬ (getAccount m.world.state m.evm.message.currentTarget).balance < v := hb
    simp only [hb, hb', if_false, bind_eq]

theorem opDelegatecall_oog (hst : m.evm.stack = g :: t :: is :: iz :: os :: oz :: rest)
    (h : m.evm.gasLeft <
      sentGas m.world.state.fork g.toNat m.evm.gasLeft (callExt m is iz os oz).cost (calleeCost m (toAddressMasked t)) + calleeCost m (toAddressMasked t) + (callExt m is iz os oz).cost) :
    ∃ m', opDelegatecall pm m = .err (.halt .outOfGas) m' ∧ m'.evm.output = m.evm.output := by
  unfold opDelegatecall
  simp only [bind_eq, pop, hst, extendCost, pure_eq, getEvm, getState, accessAddress_run, accessDelegation_run]
  rw [chargeGas_oog (by exact messageCallGas_low h)]
  exact ⟨_, rfl, rfl⟩

theorem opDelegatecall_run (hst : m.evm.stack = g :: t :: is :: iz :: os :: oz :: rest)
    (h : sentGas m.world.state.fork g.toNat m.evm.gasLeft (callExt m is iz os oz).cost (calleeCost m (toAddressMasked t)) + calleeCost m (toAddressMasked t) + (callExt m is iz os oz).cost ≤
      m.evm.gasLeft) :
    opDelegatecall pm m =
      let a := toAddressMasked t
      let ext := callExt m is iz os oz
      let sent := sentGas m.world.state.fork g.toNat m.evm.gasLeft ext.cost (calleeCost m a)
      let m1 := callFrame m rest a ext (sent + calleeCost m a + ext.cost)
      (genericCall pm
          { gas := sent, value := m.evm.message.value, caller := m.evm.message.caller, to := m.self
            codeAddress := delAddr m.world.state a, shouldTransferValue := false, isStaticcall := false
            inputStart := is, inputSize := iz, outputStart := os, outputSize := oz
            code := (getAccount m.world.state (delAddr m.world.state a)).code
            disablePrecompiles := delegates m.world.state a } >>= fun _ => incPc 1) m1 := by
  have hc := messageCallGas_ok (value := 0) (gas := g.toNat) h
  unfold calleeCost callExt at *
  unfold opDelegatecall
  simp only [bind_eq, pop, hst, extendCost, pure_eq, getEvm, getState, accessAddress_run, accessDelegation_run]
  rw [hc]
  rw [chargeGas_run (by exact h)]
  simp only [callFrame, expandMemory, bind_eq, if_true, Nat.add_zero]

theorem opStaticcall_oog (hst : m.evm.stack = g :: t :: is :: iz :: os :: oz :: rest)
    (h : m.evm.gasLeft <
      sentGas m.world.state.fork g.toNat m.evm.gasLeft (callExt m is iz os oz).cost (calleeCost m (toAddressMasked t)) + calleeCost m (toAddressMasked t) + (callExt m is iz os oz).cost) :
    ∃ m', opStaticcall pm m = .err (.halt .outOfGas) m' ∧ m'.evm.output = m.evm.output := by
  unfold opStaticcall
  simp only [bind_eq, pop, hst, extendCost, pure_eq, getEvm, getState, accessAddress_run, accessDelegation_run]
  rw [chargeGas_oog (by exact messageCallGas_low h)]
  exact ⟨_, rfl, rfl⟩

theorem opStaticcall_run (hst : m.evm.stack = g :: t :: is :: iz :: os :: oz :: rest)
    (h : sentGas m.world.state.fork g.toNat m.evm.gasLeft (callExt m is iz os oz).cost (calleeCost m (toAddressMasked t)) + calleeCost m (toAddressMasked t) + (callExt m is iz os oz).cost ≤
      m.evm.gasLeft) :
    opStaticcall pm m =
      let a := toAddressMasked t
      let ext := callExt m is iz os oz
      let sent := sentGas m.world.state.fork g.toNat m.evm.gasLeft ext.cost (calleeCost m a)
      let m1 := callFrame m rest a ext (sent + calleeCost m a + ext.cost)
      (genericCall pm
          { gas := sent, value := 0, caller := m.self, to := a
            codeAddress := delAddr m.world.state a, shouldTransferValue := true, isStaticcall := true
            inputStart := is, inputSize := iz, outputStart := os, outputSize := oz
            code := (getAccount m.world.state (delAddr m.world.state a)).code
            disablePrecompiles := delegates m.world.state a } >>= fun _ => incPc 1) m1 := by
  have hc := messageCallGas_ok (value := 0) (gas := g.toNat) h
  unfold calleeCost callExt at *
  unfold opStaticcall
  simp only [bind_eq, pop, hst, extendCost, pure_eq, getEvm, getState, accessAddress_run, accessDelegation_run]
  rw [hc]
  rw [chargeGas_run (by exact h)]
  simp only [callFrame, expandMemory, bind_eq, if_true, Nat.add_zero]

/-! ### The two create instructions -/

/-- The expansion of memory for the init code. -/
def createExt (m : Mach) (start size : Word) : ExtendMemory :=
  calculateGasExtendMemory m.evm.memory.length [(start, size)]

/-- The frame after the charges of a create. -/
def createFrame (m : Mach) (rest : List Word) (ext : ExtendMemory) (charged : Nat) : Mach :=
  { m with evm := { m.evm with
      stack := rest
      gasLeft := m.evm.gasLeft - charged
      memory := m.evm.memory ++ List.replicate ext.expandBy 0 } }

/-- The message `generic_create` sends. -/
def createMessage (m : Mach) (endowment : Word) (a : Address) (code : Bytes) : Message :=
  { caller := m.self
    target := none
    gas := createMessageGas m.world.state.fork m.evm.gasLeft
    value := endowment
    data := []
    code := code
    currentTarget := a
    depth := m.evm.message.depth + 1
    codeAddress := none
    shouldTransferValue := true
    isStatic := false
    accessedAddresses := setAdd m.evm.accessedAddresses a
    accessedStorageKeys := m.evm.accessedStorageKeys
    disablePrecompiles := false
    parentsToDelete := setUpdate m.evm.message.parentsToDelete m.evm.accountsToDelete }

/-- The frame while the child of a create runs. -/
def creating (m : Mach) (a : Address) : Mach :=
  ⟨{ m.evm with
      gasLeft := m.evm.gasLeft - createMessageGas m.world.state.fork m.evm.gasLeft
      returnData := []
      accessedAddresses := setAdd m.evm.accessedAddresses a },
    { m.world with state := incrementNonce m.world.state m.self }⟩

theorem genericCreate_run (pcm : Sub) (endowment : Word) (a : Address) (start size : Word) (hs : m.evm.stack.length ≤ 1023) :
    (genericCreate pcm endowment a start size >>= fun _ => incPc 1) m =
      let code := memoryReadBytes m.evm.memory start.toNat size.toNat
      let left := m.evm.gasLeft - createMessageGas m.world.state.fork m.evm.gasLeft
      if m.world.state.fork.since .shanghai ∧ code.length > MAX_INIT_CODE_SIZE then .err (.halt .outOfGas) m
      else if m.evm.message.isStatic then
        .err (.halt .writeInStaticContext) ⟨{ m.evm with gasLeft := left }, m.world⟩
      else if (getAccount m.world.state m.self).balance < endowment ∨ (getAccount m.world.state m.self).nonce = 2 ^ 64 - 1 ∨
          m.evm.message.depth + 1 > STACK_DEPTH_LIMIT then
        .ok () ⟨{ m.evm with returnData := [], stack := 0 :: m.evm.stack, pc := m.evm.pc + 1 }, m.world⟩
      else if accountHasCodeOrNonce m.world.state a || accountHasStorage m.world.state a then
        .ok () { creating m a with evm := { (creating m a).evm with stack := 0 :: m.evm.stack, pc := m.evm.pc + 1 } }
      else match pcm (createMessage m endowment a code) (creating m a).world with
        | .error (e, w) => .err e ⟨(creating m a).evm, w⟩
        | .ok (child, w) =>
          .ok () ⟨{ incorporate (creating m a) child w with
            pc := m.evm.pc + 1
            returnData := if child.error.isSome then child.output else []
            stack := (if child.error.isSome then 0 else addressWord child.message.currentTarget) :: m.evm.stack }, w⟩ := by
  have hs' : m.evm.stack.length ≠ 1024 := by omega
  have hmax : createMessageGas m.world.state.fork m.evm.gasLeft ≤ m.evm.gasLeft := by
    unfold createMessageGas maxMessageCallGas; split <;> omega
  unfold genericCreate
  by_cases h1 : m.world.state.fork.since .shanghai = true ∧ (memoryReadBytes m.evm.memory start.toNat size.toNat).length > MAX_INIT_CODE_SIZE
  · simp only [bind_eq, getEvm, getState, h1, raiseHalt]
    simp [raise]
  simp only [bind_eq, getEvm, getState, h1, if_false]
  rw [chargeGas_run hmax]
  by_cases h2 : m.evm.message.isStatic = true
  · simp only [h2, if_true, raiseHalt, raise]
  simp only [h2, if_false, Bool.false_eq_true]
  by_cases h3 : (getAccount m.world.state m.self).balance < endowment ∨
      (getAccount m.world.state m.self).nonce = 2 ^ 64 - 1 ∨ m.evm.message.depth + 1 > STACK_DEPTH_LIMIT
  · simp only [bind_eq, setReturnData, getState, h3, if_true, addGas, push, hs', if_false, incPc, Nat.sub_add_cancel hmax]
  simp only [bind_eq, setReturnData, getState, h3, if_false, warmAddress]
  by_cases h4 : (accountHasCodeOrNonce m.world.state a || accountHasStorage m.world.state a) = true
  · simp only [h4, if_true, bind_eq, setState, push, hs', if_false, incPc, creating]
  simp only [h4, if_false, bind_eq, setState, getEvm, Bool.false_eq_true, runSub, createMessage, creating]
  match hpm : pcm (createMessage m endowment a (memoryReadBytes m.evm.memory start.toNat size.toNat))
    (creating m a).world with
  | .error (e, w) => simp only [createMessage, creating] at hpm; simp only [hpm]
  | .ok (child, w) =>
    simp only [createMessage, creating] at hpm; simp only [hpm]
    cases he : child.error.isSome
    · simp only [Bool.false_eq_true, if_false, bind_eq, incorporateChildOnSuccess, setReturnData, push, hs', incPc,
        incorporate, he]
    · simp only [if_true, bind_eq, incorporateChildOnError, setReturnData, push, hs', if_false, incPc, incorporate, he]

variable {E : Env} {pcm : Sub} {endowment start size salt : Word}

/-- What CREATE charges beside the gas it forwards. -/
def createCharge (m : Mach) (start size : Word) : Nat :=
  GAS_CREATE + (createExt m start size).cost + initCodeCostIn m.world.state.fork size.toNat
def create2Charge (m : Mach) (start size : Word) : Nat :=
  GAS_CREATE + GAS_KECCAK256_WORD * (ceil32 size.toNat / 32) + (createExt m start size).cost + initCodeCostIn m.world.state.fork size.toNat

theorem opCreate_oog (hst : m.evm.stack = endowment :: start :: size :: rest)
    (h : m.evm.gasLeft < createCharge m start size) : ∃ m', opCreate E pcm m = .err (.halt .outOfGas) m' ∧ m'.evm.output = m.evm.output := by
  unfold opCreate
  simp only [bind_eq, pop, hst, extendCost, pure_eq, getEvm, getState]
  rw [chargeGas_oog (by exact h)]
  exact ⟨_, rfl, rfl⟩

theorem opCreate_run (hst : m.evm.stack = endowment :: start :: size :: rest)
    (h : createCharge m start size ≤ m.evm.gasLeft) :
    opCreate E pcm m =
      (genericCreate pcm endowment
        (computeContractAddress E.crypto m.self (getAccount m.world.state m.self).nonce) start size >>= fun _ => incPc 1)
        (createFrame m rest (createExt m start size) (createCharge m start size)) := by
  unfold opCreate
  simp only [bind_eq, pop, hst, extendCost, pure_eq, getEvm, getState]
  rw [chargeGas_run (by exact h)]
  rfl

theorem opCreate2_oog (hst : m.evm.stack = endowment :: start :: size :: salt :: rest)
    (h : m.evm.gasLeft < create2Charge m start size) : ∃ m', opCreate2 E pcm m = .err (.halt .outOfGas) m' ∧ m'.evm.output = m.evm.output := by
  unfold opCreate2
  simp only [bind_eq, pop, hst, extendCost, pure_eq, getEvm, getState]
  rw [chargeGas_oog (by exact h)]
  exact ⟨_, rfl, rfl⟩

theorem opCreate2_run (hst : m.evm.stack = endowment :: start :: size :: salt :: rest)
    (h : create2Charge m start size ≤ m.evm.gasLeft) :
    opCreate2 E pcm m =
      let m1 := createFrame m rest (createExt m start size) (create2Charge m start size)
      (genericCreate pcm endowment
        (computeCreate2ContractAddress E.crypto m.self salt (memoryReadBytes m1.evm.memory start.toNat size.toNat))
        start size >>= fun _ => incPc 1) m1 := by
  unfold opCreate2
  simp only [bind_eq, pop, hst, extendCost, pure_eq, getEvm, getState]
  rw [chargeGas_run (by exact h)]
  rfl

/-! ### Missing operands -/

theorem opCall_underflow (h : m.evm.stack.length < 7) : ∃ m', opCall pm m = .err (.halt .stackUnderflow) m' := by
  unfold opCall
  match hs : m.evm.stack with
  | [] => simp only [bind_eq, pop, hs]; exact ⟨_, rfl⟩
  | [_] => simp only [bind_eq, pop, hs]; exact ⟨_, rfl⟩
  | [_, _] => simp only [bind_eq, pop, hs]; exact ⟨_, rfl⟩
  | [_, _, _] => simp only [bind_eq, pop, hs]; exact ⟨_, rfl⟩
  | [_, _, _, _] => simp only [bind_eq, pop, hs]; exact ⟨_, rfl⟩
  | [_, _, _, _, _] => simp only [bind_eq, pop, hs]; exact ⟨_, rfl⟩
  | [_, _, _, _, _, _] => simp only [bind_eq, pop, hs]; exact ⟨_, rfl⟩
  | _ :: _ :: _ :: _ :: _ :: _ :: _ :: _ => rw [hs] at h; simp at h; omega

end
end Verif
