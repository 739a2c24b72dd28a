import Verif.Lemmas.OpEffect
/-! The create and call instructions, and the classification theorem `opStep_effect`. -/
namespace Verif

/-- The operation never lengthens the stack. -/
def NoPush {α : Type} (x : M α) : Prop := ∀ m a m', x m = .ok a m' → m'.evm.stack.length ≤ m.evm.stack.length

section
variable {k : Kind} {pm pcm : Sub} {α β : Type}

theorem pop_ok {m m' : Mach} {w : Word} (h : pop m = .ok w m') :
    m'.evm.stack.length + 1 = m.evm.stack.length ∧ m'.evm.gasLeft = m.evm.gasLeft := by
  unfold pop at h; split at h
  · cases h
  · rename_i hs; cases h; simp [hs]

theorem np_bind {x : M α} {f : α → M β} (hx : NoPush x) (hf : ∀ a, NoPush (f a)) : NoPush (x >>= f) := by
  intro m b m' h
  rw [bind_eq] at h
  match hxm : x m with
  | .ok a m1 => rw [hxm] at h; exact Nat.le_trans (hf a _ _ _ h) (hx _ _ _ hxm)
  | .err _ _ => rw [hxm] at h; cases h
theorem np_pure (a : α) : NoPush (pure a : M α) := by intro m b m' h; cases h; exact Nat.le_refl _
theorem np_raise (e : Exn) : NoPush (raise e : M α) := by intro m b m' h; cases h
theorem np_getEvm : NoPush getEvm := by intro m b m' h; cases h; exact Nat.le_refl _
theorem np_getState : NoPush getState := by intro m b m' h; cases h; exact Nat.le_refl _
theorem np_pop : NoPush pop := by intro m b m' h; have := pop_ok h; omega
theorem np_charge (n : Nat) : NoPush (chargeGas n) := by
  intro m b m' h; obtain ⟨_, rfl⟩ := chargeGas_ok h; exact Nat.le_refl _
theorem np_warm (a : Address) : NoPush (warmAddress a) := by intro m b m' h; cases h; exact Nat.le_refl _
theorem np_expand (n : Nat) : NoPush (expandMemory n) := by intro m b m' h; cases h; exact Nat.le_refl _
theorem np_extendCost (l : List (Word × Word)) : NoPush (extendCost l) := by
  unfold extendCost; intro m b m' h; cases h; exact Nat.le_refl _
theorem np_access (kd : AccessKind) (a : Address) : NoPush (accessAddress kd a) := by
  unfold accessAddress
  refine np_bind np_getEvm fun e => np_bind np_getState fun s => ?_
  dsimp only
  split
  · exact np_pure _
  split
  · exact np_pure _
  · exact np_bind (np_warm _) fun _ => np_pure _
theorem np_accessDelegation (a : Address) : NoPush (accessDelegation a) := by
  unfold accessDelegation
  refine np_bind np_getState fun e => ?_
  dsimp only
  split
  · exact np_bind (np_access _ _) fun _ => np_pure _
  · exact np_pure _

/-- `eff_bind` for the operations before the child call: it also carries the bound on the stack. -/
theorem eff_bind' {x : M α} {f : α → M Unit} {m0 m : Mach} (hx : Pres x) (hn : NoPush x)
    (h : Loc m0 m ∧ m.evm.stack.length ≤ 1023)
    (hf : ∀ a m', x m = .ok a m' → Loc m0 m' ∧ m'.evm.stack.length ≤ 1023 → OpEffect k pm pcm m0 (f a m')) :
    OpEffect k pm pcm m0 ((x >>= f) m) :=
  eff_bind hx h.1 fun a m' e h' => hf a m' e ⟨h', Nat.le_trans (hn _ _ _ e) h.2⟩

theorem eff_popFirst {f : Word → M Unit} {m : Mach} (hst : m.evm.stack.length ≤ 1024)
    (hf : ∀ a m', pop m = .ok a m' → Loc m m' ∧ m'.evm.stack.length ≤ 1023 → OpEffect k pm pcm m (f a m')) :
    OpEffect k pm pcm m ((pop >>= f) m) :=
  eff_bind pres_pop (Loc.refl m) fun a m' e h => hf a m' e ⟨h, by have := pop_ok e; omega⟩

theorem eff_genericCreate (hk : k = .create) {m0 m : Mach} (endowment : Word) (a : Address) (start size : Word)
    (h : Loc m0 m ∧ m.evm.stack.length ≤ 1023) (hg : m.evm.gasLeft < m0.evm.gasLeft) :
    OpEffect k pm pcm m0 ((genericCreate pcm endowment a start size >>= fun _ => incPc 1) m) := by
  obtain ⟨h, hst⟩ := h
  have hne : m.evm.stack.length ≠ 1024 := by omega
  obtain ⟨cg, hcg⟩ : ∃ cg, createMessageGas m.world.state.fork m.evm.gasLeft = cg := ⟨_, rfl⟩
  have hmax : cg ≤ m.evm.gasLeft := by
    subst hcg; unfold createMessageGas; split
    · exact Nat.sub_le _ _
    · exact Nat.le_refl _
  have hleft : 64 * (m.evm.gasLeft - cg) ≤ m.evm.gasLeft := by
    subst hcg; unfold createMessageGas maxMessageCallGas; split <;> omega
  have hself : m.evm.message.currentTarget = m0.self := by simp [Mach.self, h.message]
  unfold genericCreate
  simp only [bind_eq, getEvm, getState]
  by_cases hlen : m.world.state.fork.since .shanghai = true ∧
      (memoryReadBytes m.evm.memory start.toNat size.toNat).length > MAX_INIT_CODE_SIZE
  · simp only [hlen, if_true]; exact .err _ _ h.errLoc (by simp)
  simp only [hlen, if_false, chargeGas, bind_eq, hcg, show ¬ (m.evm.gasLeft < cg) by omega]
  by_cases hs : m.evm.message.isStatic = true
  · simp only [hs, if_true]
    exact .err _ _ ⟨h.world, h.message, Nat.le_trans (Nat.sub_le _ _) h.gas⟩ (by simp)
  have hstatic : m0.evm.message.isStatic = false := by rw [← h.message]; simpa using hs
  simp only [hs, Bool.false_eq_true, if_false, bind_eq, setReturnData, getState]
  by_cases hrefuse : (getAccount m.world.state m.evm.message.currentTarget).balance < endowment ∨
      (getAccount m.world.state m.evm.message.currentTarget).nonce = 2 ^ 64 - 1 ∨
      m.evm.message.depth + 1 > STACK_DEPTH_LIMIT
  · simp only [hrefuse, if_true, bind_eq, addGas, push, hne, if_false, incPc]
    refine .ok _ ⟨h.world, h.message, h.code, h.jumps, h.logs, h.refund, h.deleted, h.error, h.touched, ?_, h.addrs, h.keys, ?_⟩ (.inr ⟨.inr hk, rfl⟩) (.inl ?_)
    · simp only; omega
    · intro _; simp only [List.length_cons]; omega
    · simp only; omega
  simp only [hrefuse, if_false, bind_eq, warmAddress]
  obtain ⟨hbal, hnonce, hdepth⟩ : endowment ≤ (getAccount m.world.state m.evm.message.currentTarget).balance ∧
      (getAccount m.world.state m.evm.message.currentTarget).nonce ≠ 2 ^ 64 - 1 ∧
      m.evm.message.depth + 1 ≤ STACK_DEPTH_LIMIT := by
    refine ⟨?_, ?_, ?_⟩
    · exact BitVec.not_lt.mp fun hh => hrefuse (.inl hh)
    · exact fun hh => hrefuse (.inr (.inl hh))
    · exact Nat.not_lt.mp fun hh => hrefuse (.inr (.inr hh))
  rw [hself, h.world] at hbal hnonce
  by_cases hcol : (accountHasCodeOrNonce m.world.state a || accountHasStorage m.world.state a) = true
  · simp only [hcol, if_true, bind_eq, setState, push, hne, if_false, incPc]
    simp only [h.world, hself]
    have := OpEffect.collision (k := k) (pm := pm) (pcm := pcm) (m := m0) hk
      { world := m0.world,
        evm := { m.evm with
          gasLeft := m.evm.gasLeft - cg
          returnData := []
          accessedAddresses := setAdd m.evm.accessedAddresses a
          stack := 0 :: m.evm.stack
          pc := m.evm.pc + 1 } } a
      ⟨rfl, h.message, h.code, h.jumps, h.logs, h.refund, h.deleted, h.error, h.touched,
        Nat.le_trans (Nat.sub_le _ _) h.gas, fun x hx => by simp [mem_setAdd, h.addrs x hx], h.keys,
        fun _ => by simp only [List.length_cons]; omega⟩
      (by simp only; omega) (by simp only; omega) hstatic
      (by rw [h.world] at hcol; simpa using hcol) hnonce rfl
    exact this
  · simp only [hcol, if_false, bind_eq, setState, runSub, Bool.false_eq_true]
    simp only [h.world, hself]
    generalize hm1 : (Mach.mk (world := { m0.world with state := incrementNonce m0.world.state m0.self })
      (evm := { m.evm with
        gasLeft := m.evm.gasLeft - cg
        returnData := []
        accessedAddresses := setAdd m.evm.accessedAddresses a })) = m1
    simp only [getEvm]
    generalize hmsg : (Message.mk (caller := m0.self) (target := none) (gas := cg)
      (value := endowment) (data := []) (code := memoryReadBytes m.evm.memory start.toNat size.toNat)
      (currentTarget := a) (depth := m.evm.message.depth + 1) (codeAddress := none) (shouldTransferValue := true)
      (isStatic := false) (accessedAddresses := m1.evm.accessedAddresses)
      (accessedStorageKeys := m1.evm.accessedStorageKeys) (disablePrecompiles := false)
      (parentsToDelete := setUpdate m1.evm.message.parentsToDelete m1.evm.accountsToDelete)) = msg
    have hC : CreateMsg m0 m1 msg := by
      subst hmsg hm1
      rw [h.world] at hcol
      simp only [Bool.or_eq_true, not_or, Bool.not_eq_true] at hcol
      simp only
      refine { depth := by simp only [h.message], depthLe := hdepth, gas := by simp only; omega,
               static := by simp [hstatic], funds := ?_, addrs := rfl, keys := rfl, parents := rfl,
               frame := ⟨h.message, h.code, h.jumps, h.error, fun x hx => by simp [mem_setAdd, h.addrs x hx], h.keys,
                 fun _ => by simp only; omega⟩
               world := rfl, logs := h.logs, refund := h.refund, deleted := h.deleted, touched := h.touched, notStatic := hstatic,
               msgStatic := rfl,               target := rfl, codeAddress := rfl, caller := rfl, transfer := rfl, data := rfl,
               codeSize := by simp only; intro hf; rw [h.world] at hlen; exact Nat.not_lt.mp fun hh => hlen ⟨hf, hh⟩, nonce := hnonce, fresh := hcol, balance := hbal,
               warm := by simp [mem_setAdd] }
      intro _
      refine ⟨rfl, ?_⟩
      simp only [incrementNonce]
      rw [getAccount_modifyState']
      simpa using hbal
    have hlen1 : m1.evm.stack.length = m.evm.stack.length := by subst hm1; rfl
    match hsub : pcm msg m1.world with
    | .error (e, w) => exact .createErr hk m1 msg e w _ hC hsub rfl
    | .ok (child, w) =>
      have hne1 : m1.evm.stack.length ≠ 1024 := by omega
      simp only
      by_cases herr : child.error.isSome = true
      · simp only [herr, if_true, bind_eq, incorporateChildOnError, setReturnData, push, hne1, if_false, incPc]
        refine .create hk m1 msg child w _ hC hsub ⟨⟨rfl, rfl, rfl, rfl, fun _ h => h, fun _ h => h, ?_⟩, rfl, rfl, ?_, ?_, fun _ => rfl,
          fun h => by rw [herr] at h; cases h⟩ (by simp [herr])
        · intro _; simp only [List.length_cons]; omega
        · intro _; exact ⟨rfl, rfl, rfl, rfl, rfl⟩
        · simp [herr]
      · simp only [herr, Bool.false_eq_true, if_false, bind_eq, incorporateChildOnSuccess, setReturnData, push, hne1, incPc]
        refine .create hk m1 msg child w _ hC hsub ⟨⟨rfl, rfl, rfl, rfl, ?_, ?_, ?_⟩, rfl, rfl, ?_, ?_, fun h => absurd h herr,
          fun _ => rfl⟩ (by simp [herr])
        · intro x hx; simp [mem_setUpdate, hx]
        · intro x hx; simp [mem_setUpdate, hx]
        · intro _; simp only [List.length_cons]; omega
        · simp [herr]
        · intro _; exact ⟨rfl, rfl, rfl, rfl, rfl⟩

theorem eff_create (hk : k = .create) (E : Env) (m : Mach) (hst : m.evm.stack.length ≤ 1024) :
    OpEffect k pm pcm m (opCreate E pcm m) := by
  unfold opCreate
  refine eff_popFirst hst fun endow m1 _ h1 => ?_
  refine eff_bind' pres_pop np_pop h1 fun start m2 _ h2 => ?_
  refine eff_bind' pres_pop np_pop h2 fun size m3 _ h3 => ?_
  refine eff_bind' (pres_extendCost _) (np_extendCost _) h3 fun ext m4 _ h4 => ?_
  refine eff_bind' pres_getState np_getState h4 fun _ m4' e4 h4 => ?_
  refine eff_bind' (pres_chargeGas _) (np_charge _) h4 fun _ m5 e5 h5 => ?_
  refine eff_bind' (pres_expandMemory _) (np_expand _) h5 fun _ m6 e6 h6 => ?_
  refine eff_bind' pres_getEvm np_getEvm h6 fun _ m7 e7 h7 => ?_
  obtain ⟨rfl, rfl⟩ := getEvm_ok e7
  refine eff_bind' pres_getState np_getState h7 fun _ m8 e8 h8 => ?_
  obtain ⟨rfl, rfl⟩ := getState_ok e8
  refine eff_genericCreate hk _ _ _ _ h8 ?_
  obtain ⟨hle, rfl⟩ := chargeGas_ok e5
  cases e6
  have := h4.1.gas
  simp only [GAS_CREATE] at hle ⊢; omega

theorem eff_create2 (hk : k = .create) (E : Env) (m : Mach) (hst : m.evm.stack.length ≤ 1024) :
    OpEffect k pm pcm m (opCreate2 E pcm m) := by
  unfold opCreate2
  refine eff_popFirst hst fun endow m1 _ h1 => ?_
  refine eff_bind' pres_pop np_pop h1 fun start m2 _ h2 => ?_
  refine eff_bind' pres_pop np_pop h2 fun size m3 _ h3 => ?_
  refine eff_bind' pres_pop np_pop h3 fun salt m3' _ h3' => ?_
  refine eff_bind' (pres_extendCost _) (np_extendCost _) h3' fun ext m4 _ h4 => ?_
  refine eff_bind' pres_getState np_getState h4 fun _ m4' e4 h4 => ?_
  refine eff_bind' (pres_chargeGas _) (np_charge _) h4 fun _ m5 e5 h5 => ?_
  refine eff_bind' (pres_expandMemory _) (np_expand _) h5 fun _ m6 e6 h6 => ?_
  refine eff_bind' pres_getEvm np_getEvm h6 fun _ m7 e7 h7 => ?_
  obtain ⟨rfl, rfl⟩ := getEvm_ok e7
  refine eff_genericCreate hk _ _ _ _ h7 ?_
  obtain ⟨hle, rfl⟩ := chargeGas_ok e5
  cases e6
  have := h4.1.gas
  simp only [GAS_CREATE] at hle ⊢; omega


theorem u256_cases (n : Nat) (m : Mach) :
    (n < 2 ^ 256 ∧ u256 n m = .ok (BitVec.ofNat 256 n) m) ∨ (2 ^ 256 ≤ n ∧ u256 n m = .err (.crash .overflowError) m) := by
  unfold u256; split
  · exact .inl ⟨by assumption, rfl⟩
  · exact .inr ⟨by omega, rfl⟩

theorem eff_genericCall (hk : k = .call) {m0 m : Mach} (a : CallArgs) (h : Loc m0 m ∧ m.evm.stack.length ≤ 1023)
    (hg : m.evm.gasLeft + a.gas < m0.evm.gasLeft)
    (hstatic : m0.evm.message.isStatic = true → a.shouldTransferValue = true → a.value = 0 ∨ a.to = m0.self)
    (hfunds : a.shouldTransferValue = true →
      a.caller = m0.self ∧ a.value ≤ (getAccount m0.world.state m0.self).balance)
    (howner : a.code ≠ [] → a.to = m0.self ∨ (getAccount m0.world.state a.to).code ≠ [])
    (hno : a.shouldTransferValue = false → a.to = m0.self)
    (hfrom : a.to = m0.self ∨ a.code = (getAccount m0.world.state a.to).code ∨
      isValidDelegation (getAccount m0.world.state a.to).code = true) :
    OpEffect k pm pcm m0 ((genericCall pm a >>= fun _ => incPc 1) m) := by
  obtain ⟨h, hst⟩ := h
  have hne : m.evm.stack.length ≠ 1024 := by omega
  unfold genericCall
  simp only [bind_eq, getEvm, setReturnData]
  by_cases hd : m.evm.message.depth + 1 > STACK_DEPTH_LIMIT
  · simp only [hd, if_true, bind_eq, addGas, push, hne, if_false, incPc]
    refine .ok _ ⟨h.world, h.message, h.code, h.jumps, h.logs, h.refund, h.deleted, h.error, h.touched, ?_, h.addrs, h.keys, ?_⟩ (.inr ⟨.inl hk, rfl⟩) (.inl ?_)
    · simp only; omega
    · intro _; simp only [List.length_cons]; omega
    · simp only; omega
  simp only [hd, if_false, bind_eq, runSub]
  generalize hev : ({ m.evm with returnData := [] } : Evm) = e1
  generalize hmsg : (Message.mk (caller := a.caller) (target := some a.to) (gas := a.gas)
      (value := a.value) (data := memoryReadBytes m.evm.memory a.inputStart.toNat a.inputSize.toNat) (code := a.code)
      (currentTarget := a.to) (depth := m.evm.message.depth + 1) (codeAddress := some a.codeAddress)
      (shouldTransferValue := a.shouldTransferValue)
      (isStatic := if a.isStaticcall = true then true else m.evm.message.isStatic)
      (accessedAddresses := m.evm.accessedAddresses)
      (accessedStorageKeys := m.evm.accessedStorageKeys) (disablePrecompiles := a.disablePrecompiles)
      (parentsToDelete := setUpdate m.evm.message.parentsToDelete m.evm.accountsToDelete)) = msg
  obtain ⟨m1, hm1⟩ : ∃ m1 : Mach, m1 = { m with evm := e1 } := ⟨_, rfl⟩
  have he1 : e1 = m1.evm := by rw [hm1]
  have hL : Loc m0 m1 := by subst hm1 hev; exact h.trans ((pres_setReturnData []).run m)
  have hC : CallMsg m0 m1 msg := by
    subst hmsg
    refine { depth := by simp only [h.message], depthLe := ?_, gas := ?_, static := ?_, funds := ?_, addrs := ?_,
             keys := ?_, parents := ?_, locals := hL, target := rfl, codeOwner := howner, noTransfer := hno, codeFrom := hfrom }
    · simp only [STACK_DEPTH_LIMIT] at hd ⊢; omega
    · subst hm1 hev; exact hg
    · intro hs; refine ⟨?_, hstatic hs⟩; rw [h.message]; simp [hs]
    · intro ht; rw [hL.world]; exact hfunds ht
    · subst hm1 hev; rfl
    · subst hm1 hev; rfl
    · subst hm1 hev; rfl
  have hw : m1.world = m.world := by subst hm1 hev; rfl
  have hlen1 : m1.evm.stack.length = m.evm.stack.length := by subst hm1 hev; rfl
  have hne1 : m1.evm.stack.length ≠ 1024 := by omega
  rw [← hw, he1]
  match hsub : pm msg m1.world with
  | .error (e, w) => exact .callErr hk m1 msg e w _ hC hsub rfl
  | .ok (child, w) =>
    simp only
    by_cases herr : child.error.isSome = true
    · simp only [herr, if_true, bind_eq, incorporateChildOnError, push, hne1, if_false, setReturnData]
      rcases u256_cases child.output.length (Mach.mk (world := w) (evm := { m1.evm with
          gasLeft := m1.evm.gasLeft + child.gasLeft
          touchedAccounts := touchedOnError w.state child m1.evm.touchedAccounts
          returnData := child.output
          stack := 0 :: m1.evm.stack })) with ⟨hl, he⟩ | ⟨hl, he⟩
      · rw [he]
        simp only [writeMemory, incPc]
        refine .call hk m1 msg child w _ hC hsub ⟨⟨rfl, rfl, rfl, rfl, fun _ h => h, fun _ h => h, ?_⟩, rfl, rfl, ?_, ?_, fun _ => rfl,
          fun h => by rw [herr] at h; cases h⟩ (by simp [herr])
        · intro _; simp only [List.length_cons]; omega
        · intro _; exact ⟨rfl, rfl, rfl, rfl, rfl⟩
        · simp [herr]
      · rw [he]; exact .callOverflow hk m1 msg child w _ hC hsub hl
    · simp only [herr, Bool.false_eq_true, if_false, bind_eq, incorporateChildOnSuccess, setReturnData, push, hne1]
      rcases u256_cases child.output.length (Mach.mk (world := w) (evm := { m1.evm with
          gasLeft := m1.evm.gasLeft + child.gasLeft
          logs := m1.evm.logs ++ child.logs
          refundCounter := m1.evm.refundCounter + child.refundCounter
          accountsToDelete := setUpdate m1.evm.accountsToDelete child.accountsToDelete
          accessedAddresses := setUpdate m1.evm.accessedAddresses child.accessedAddresses
          accessedStorageKeys := setUpdate m1.evm.accessedStorageKeys child.accessedStorageKeys
          touchedAccounts := touchedIfEmpty w.state child.message.currentTarget
            (setUpdate m1.evm.touchedAccounts child.touchedAccounts)
          returnData := child.output
          stack := 1 :: m1.evm.stack })) with ⟨hl, he⟩ | ⟨hl, he⟩
      · rw [he]
        simp only [writeMemory, incPc]
        refine .call hk m1 msg child w _ hC hsub ⟨⟨rfl, rfl, rfl, rfl, ?_, ?_, ?_⟩, rfl, rfl, ?_, ?_, fun h => absurd h herr,
          fun _ => rfl⟩ (by simp [herr])
        · intro x hx; simp [mem_setUpdate, hx]
        · intro x hx; simp [mem_setUpdate, hx]
        · intro _; simp only [List.length_cons]; omega
        · simp [herr]
        · intro _; exact ⟨rfl, rfl, rfl, rfl, rfl⟩
      · rw [he]; exact .callOverflow hk m1 msg child w _ hC hsub hl

/-- What a call leaves to the calling frame plus what it hands down is less than what there was. -/
theorem callGas_lt (f : Fork) (value : Word) (gas left mem extra : Nat) (hx : 20 ≤ extra) (hv : value ≠ 0 → 9000 ≤ extra)
    (hle : (calculateMessageCallGas f value gas left mem extra).cost + mem ≤ left) :
    left - ((calculateMessageCallGas f value gas left mem extra).cost + mem) +
      (calculateMessageCallGas f value gas left mem extra).subCall < left := by
  unfold calculateMessageCallGas at *
  by_cases hv0 : value = 0
  · simp only [hv0, if_true] at *
    split at hle <;> rename_i hc <;> simp only [hc, if_true, if_false] <;> simp only at hle <;> omega
  · have := hv hv0
    simp only [hv0, if_false, GAS_CALL_STIPEND] at *
    split at hle <;> rename_i hc <;> simp only [hc, if_true, if_false] <;> simp only at hle <;> omega

/-- The code `access_delegation` gives is empty unless the named account has code. -/
theorem accessDelegation_ok {a : Address} {m m' : Mach} {r : Bool × Address × Bytes × Nat}
    (h : accessDelegation a m = .ok r m') :
    (r.2.2.1 ≠ [] → (getAccount m.world.state a).code ≠ []) ∧ m'.evm.gasLeft = m.evm.gasLeft ∧
    (r.2.2.1 = (getAccount m.world.state a).code ∨ isValidDelegation (getAccount m.world.state a).code = true) := by
  unfold accessDelegation at h
  simp only [bind_eq, getState] at h
  split at h
  · rename_i hd
    rw [bind_eq] at h
    refine ⟨fun _ hn => ?_, ?_, .inr (by simp only [delegates, Bool.and_eq_true] at hd; exact hd.2)⟩
    · simp only [delegates, hn] at hd; simp [isValidDelegation, EOA_DELEGATED_CODE_LENGTH] at hd
    · split at h
      · rename_i ha; cases h; exact (accessAddress_ok ha).2.1
      · cases h
  · cases h; exact ⟨fun h => h, rfl, .inl rfl⟩

theorem eff_call (hk : k = .call) (m : Mach) (hst : m.evm.stack.length ≤ 1024) : OpEffect k pm pcm m (opCall pm m) := by
  unfold opCall
  refine eff_popFirst hst fun gas m1 _ h1 => ?_
  refine eff_bind' pres_pop np_pop h1 fun to m2 _ h2 => ?_
  refine eff_bind' pres_pop np_pop h2 fun value m3 _ h3 => ?_
  refine eff_bind' pres_pop np_pop h3 fun is m4 _ h4 => ?_
  refine eff_bind' pres_pop np_pop h4 fun isz m5 _ h5 => ?_
  refine eff_bind' pres_pop np_pop h5 fun os m6 _ h6 => ?_
  refine eff_bind' pres_pop np_pop h6 fun osz m7 _ h7 => ?_
  refine eff_bind' (pres_extendCost _) (np_extendCost _) h7 fun ext m8 _ h8 => ?_
  refine eff_bind' (pres_accessAddress _ _) (np_access _ _) h8 fun ac m9 e9 h9 => ?_
  refine eff_bind' (pres_accessDelegation _) (np_accessDelegation _) h9 fun ⟨dp, ca, code, dc⟩ m10 e10 h10 => ?_
  have hcode := (accessDelegation_ok e10).1
  have hfrom := (accessDelegation_ok e10).2.2
  have hac := (accessAddress_ok e9).1
  dsimp only at hcode hfrom ⊢
  refine eff_bind' pres_getState np_getState h10 fun _ m11 e11 h11 => ?_
  obtain ⟨rfl, rfl⟩ := getState_ok e11
  refine eff_bind' pres_getEvm np_getEvm h11 fun _ m12 e12 h12 => ?_
  obtain ⟨rfl, rfl⟩ := getEvm_ok e12
  refine eff_bind' (pres_chargeGas _) (np_charge _) h12 fun _ m13 e13 h13 => ?_
  obtain ⟨hle, hm13⟩ := chargeGas_ok e13
  split
  · exact eff_raiseHalt h13.1 _
  rename_i hs
  refine eff_bind' (pres_expandMemory _) (np_expand _) h13 fun _ m14 e14 h14 => ?_
  have hgl : m14.evm.gasLeft = m13.evm.gasLeft := by cases e14; rfl
  have hlt := callGas_lt m12.world.state.fork value gas.toNat m12.evm.gasLeft ext.cost _ (by omega)
    (by intro hv; simp only [hv, if_false, GAS_CALL_VALUE]; omega) hle
  have hself : m12.evm.message.currentTarget = m.self := by simp [Mach.self, h12.1.message]
  have hgas12 := h12.1.gas
  have hg14 : m14.evm.gasLeft = m12.evm.gasLeft - ((calculateMessageCallGas m12.world.state.fork value gas.toNat m12.evm.gasLeft ext.cost
      (ac + dc + callCreateCost m12.world.state (toAddressMasked to) value +
        if value = 0 then 0 else GAS_CALL_VALUE)).cost + ext.cost) := by rw [hgl, hm13]
  split
  · rename_i hb
    have hne : m14.evm.stack.length ≠ 1024 := by have := h14.2; omega
    simp only [bind_eq, push, hne, if_false, setReturnData, addGas, incPc]
    have h := h14.1
    refine .ok _ ⟨h.world, h.message, h.code, h.jumps, h.logs, h.refund, h.deleted, h.error, h.touched, ?_, h.addrs, h.keys, ?_⟩ (.inr ⟨.inl hk, rfl⟩) (.inl ?_)
    · simp only; omega
    · intro _; simp only [List.length_cons]; omega
    · simp only; omega
  · rename_i hb
    refine eff_genericCall hk _ h14 ?_ ?_ ?_ ?_ ?_ ?_
    · simp only; omega
    · intro hs' _
      rw [h12.1.message] at hs
      simp only [hs', true_and] at hs
      exact .inl (by simpa using hs)
    · intro _
      refine ⟨hself, ?_⟩
      rw [hself, h12.1.world] at hb
      exact BitVec.not_lt.mp hb
    · intro hc; right; rw [← h9.1.world]; exact hcode hc
    · intro hh; cases hh
    · right; rw [← h9.1.world]; exact hfrom

theorem eff_callcode (hk : k = .call) (m : Mach) (hst : m.evm.stack.length ≤ 1024) : OpEffect k pm pcm m (opCallcode pm m) := by
  unfold opCallcode
  refine eff_popFirst hst fun gas m1 _ h1 => ?_
  refine eff_bind' pres_pop np_pop h1 fun to m2 _ h2 => ?_
  refine eff_bind' pres_pop np_pop h2 fun value m3 _ h3 => ?_
  refine eff_bind' pres_pop np_pop h3 fun is m4 _ h4 => ?_
  refine eff_bind' pres_pop np_pop h4 fun isz m5 _ h5 => ?_
  refine eff_bind' pres_pop np_pop h5 fun os m6 _ h6 => ?_
  refine eff_bind' pres_pop np_pop h6 fun osz m7 _ h7 => ?_
  refine eff_bind' (pres_extendCost _) (np_extendCost _) h7 fun ext m8 _ h8 => ?_
  refine eff_bind' (pres_accessAddress _ _) (np_access _ _) h8 fun ac m9 e9 h9 => ?_
  refine eff_bind' (pres_accessDelegation _) (np_accessDelegation _) h9 fun ⟨dp, ca, code, dc⟩ m10 e10 h10 => ?_
  have hac := (accessAddress_ok e9).1
  dsimp only
  refine eff_bind' pres_getEvm np_getEvm h10 fun _ m11 e11 h11 => ?_
  obtain ⟨rfl, rfl⟩ := getEvm_ok e11
  refine eff_bind' pres_getState np_getState h11 fun _ m12 e12 h12 => ?_
  obtain ⟨rfl, rfl⟩ := getState_ok e12
  refine eff_bind' (pres_chargeGas _) (np_charge _) h12 fun _ m13 e13 h13 => ?_
  obtain ⟨hle, hm13⟩ := chargeGas_ok e13
  refine eff_bind' (pres_expandMemory _) (np_expand _) h13 fun _ m14 e14 h14 => ?_
  have hgl : m14.evm.gasLeft = m13.evm.gasLeft := by cases e14; rfl
  have hlt := callGas_lt m12.world.state.fork value gas.toNat m12.evm.gasLeft ext.cost _ (by omega)
    (by intro hv; simp only [hv, if_false, GAS_CALL_VALUE]; omega) hle
  have hself : m12.evm.message.currentTarget = m.self := by simp [Mach.self, h12.1.message]
  have hgas12 := h12.1.gas
  have hg14 : m14.evm.gasLeft = m12.evm.gasLeft - ((calculateMessageCallGas m12.world.state.fork value gas.toNat m12.evm.gasLeft ext.cost
      (ac + dc + callcodeCreateCost m12.world.state m12.evm.message.currentTarget +
        if value = 0 then 0 else GAS_CALL_VALUE)).cost + ext.cost) := by rw [hgl, hm13]
  split
  · rename_i hb
    have hne : m14.evm.stack.length ≠ 1024 := by have := h14.2; omega
    simp only [bind_eq, push, hne, if_false, setReturnData, addGas, incPc]
    have h := h14.1
    refine .ok _ ⟨h.world, h.message, h.code, h.jumps, h.logs, h.refund, h.deleted, h.error, h.touched, ?_, h.addrs, h.keys, ?_⟩ (.inr ⟨.inl hk, rfl⟩) (.inl ?_)
    · simp only; omega
    · intro _; simp only [List.length_cons]; omega
    · simp only; omega
  · rename_i hb
    refine eff_genericCall hk _ h14 ?_ ?_ ?_ ?_ ?_ ?_
    · simp only; omega
    · intro _ _; exact .inr hself
    · intro _
      refine ⟨hself, ?_⟩
      rw [hself, h12.1.world] at hb
      exact BitVec.not_lt.mp hb
    · intro hc; left; exact hself
    · intro hh; cases hh
    · exact .inl hself

theorem eff_delegatecall (hk : k = .call) (m : Mach) (hst : m.evm.stack.length ≤ 1024) : OpEffect k pm pcm m (opDelegatecall pm m) := by
  unfold opDelegatecall
  refine eff_popFirst hst fun gas m1 _ h1 => ?_
  refine eff_bind' pres_pop np_pop h1 fun to m2 _ h2 => ?_
  refine eff_bind' pres_pop np_pop h2 fun is m4 _ h4 => ?_
  refine eff_bind' pres_pop np_pop h4 fun isz m5 _ h5 => ?_
  refine eff_bind' pres_pop np_pop h5 fun os m6 _ h6 => ?_
  refine eff_bind' pres_pop np_pop h6 fun osz m7 _ h7 => ?_
  refine eff_bind' (pres_extendCost _) (np_extendCost _) h7 fun ext m8 _ h8 => ?_
  refine eff_bind' (pres_accessAddress _ _) (np_access _ _) h8 fun ac m9 e9 h9 => ?_
  refine eff_bind' (pres_accessDelegation _) (np_accessDelegation _) h9 fun ⟨dp, ca, code, dc⟩ m10 e10 h10 => ?_
  have hac := (accessAddress_ok e9).1
  dsimp only
  refine eff_bind' pres_getEvm np_getEvm h10 fun _ m11 e11 h11 => ?_
  obtain ⟨rfl, rfl⟩ := getEvm_ok e11
  refine eff_bind' pres_getState np_getState h11 fun _ m12 e12 h12 => ?_
  obtain ⟨rfl, rfl⟩ := getState_ok e12
  refine eff_bind' (pres_chargeGas _) (np_charge _) h12 fun _ m13 e13 h13 => ?_
  obtain ⟨hle, hm13⟩ := chargeGas_ok e13
  refine eff_bind' (pres_expandMemory _) (np_expand _) h13 fun _ m14 e14 h14 => ?_
  have hgl : m14.evm.gasLeft = m13.evm.gasLeft := by cases e14; rfl
  have hlt := callGas_lt m12.world.state.fork 0 gas.toNat m12.evm.gasLeft ext.cost _ (by omega) (by simp) hle
  have hself : m12.evm.message.currentTarget = m.self := by simp [Mach.self, h12.1.message]
  have hgas12 := h12.1.gas
  have hg14 : m14.evm.gasLeft = m12.evm.gasLeft - ((calculateMessageCallGas m12.world.state.fork 0 gas.toNat m12.evm.gasLeft ext.cost
      (ac + dc)).cost + ext.cost) := by rw [hgl, hm13]
  refine eff_genericCall hk _ h14 ?_ ?_ ?_ ?_ ?_ ?_
  · simp only; omega
  · intro _ hh; cases hh
  · intro hh; cases hh
  · intro hc; left; exact hself
  · intro _; exact hself
  · exact .inl hself

theorem eff_staticcall (hk : k = .call) (m : Mach) (hst : m.evm.stack.length ≤ 1024) : OpEffect k pm pcm m (opStaticcall pm m) := by
  unfold opStaticcall
  refine eff_popFirst hst fun gas m1 _ h1 => ?_
  refine eff_bind' pres_pop np_pop h1 fun to m2 _ h2 => ?_
  refine eff_bind' pres_pop np_pop h2 fun is m4 _ h4 => ?_
  refine eff_bind' pres_pop np_pop h4 fun isz m5 _ h5 => ?_
  refine eff_bind' pres_pop np_pop h5 fun os m6 _ h6 => ?_
  refine eff_bind' pres_pop np_pop h6 fun osz m7 _ h7 => ?_
  refine eff_bind' (pres_extendCost _) (np_extendCost _) h7 fun ext m8 _ h8 => ?_
  refine eff_bind' (pres_accessAddress _ _) (np_access _ _) h8 fun ac m9 e9 h9 => ?_
  refine eff_bind' (pres_accessDelegation _) (np_accessDelegation _) h9 fun ⟨dp, ca, code, dc⟩ m10 e10 h10 => ?_
  have hcode := (accessDelegation_ok e10).1
  have hfrom := (accessDelegation_ok e10).2.2
  have hac := (accessAddress_ok e9).1
  dsimp only at hcode hfrom ⊢
  refine eff_bind' pres_getEvm np_getEvm h10 fun _ m11 e11 h11 => ?_
  obtain ⟨rfl, rfl⟩ := getEvm_ok e11
  refine eff_bind' pres_getState np_getState h11 fun _ m12 e12 h12 => ?_
  obtain ⟨rfl, rfl⟩ := getState_ok e12
  refine eff_bind' (pres_chargeGas _) (np_charge _) h12 fun _ m13 e13 h13 => ?_
  obtain ⟨hle, hm13⟩ := chargeGas_ok e13
  refine eff_bind' (pres_expandMemory _) (np_expand _) h13 fun _ m14 e14 h14 => ?_
  have hgl : m14.evm.gasLeft = m13.evm.gasLeft := by cases e14; rfl
  have hlt := callGas_lt m12.world.state.fork 0 gas.toNat m12.evm.gasLeft ext.cost _ (by omega) (by simp) hle
  have hself : m12.evm.message.currentTarget = m.self := by simp [Mach.self, h12.1.message]
  have hgas12 := h12.1.gas
  have hg14 : m14.evm.gasLeft = m12.evm.gasLeft - ((calculateMessageCallGas m12.world.state.fork 0 gas.toNat m12.evm.gasLeft ext.cost
      (ac + dc)).cost + ext.cost) := by rw [hgl, hm13]
  refine eff_genericCall hk _ h14 ?_ ?_ ?_ ?_ ?_ ?_
  · simp only; omega
  · intro _ _; exact .inl rfl
  · intro _; exact ⟨hself, by simp [BitVec.le_def]⟩
  · intro hc; right; rw [← h9.1.world]; exact hcode hc
  · intro hh; cases hh
  · right; rw [← h9.1.world]; exact hfrom

/-- Every instruction has one of the effects of `OpEffect`. -/
theorem opStep_effect (E : Env) (pm pcm : Sub) (op : Op) (m : Mach) (hst : m.evm.stack.length ≤ 1024) :
    OpEffect (kindOf op) pm pcm m (opStep E pm pcm op m) := by
  by_cases hp : op.isPure = true
  · exact eff_pure (by cases op <;> first | rfl | cases hp) E op hp m
  cases op <;> first | exact absurd rfl hp | skip
  case sstore => exact eff_sstore rfl m
  case tstore => exact eff_tstore rfl m
  case log n => exact eff_log rfl n m
  case selfdestruct => exact eff_selfdestruct rfl m
  case create => exact eff_create rfl E m hst
  case create2 => exact eff_create2 rfl E m hst
  case call => exact eff_call rfl m hst
  case callcode => exact eff_callcode rfl m hst
  case delegatecall => exact eff_delegatecall rfl m hst
  case staticcall => exact eff_staticcall rfl m hst
end
end Verif
