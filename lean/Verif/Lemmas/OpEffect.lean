import Verif.Lemmas.Effect
/-! Every instruction has one of the effects of `OpEffect`. -/
namespace Verif
section
variable {k : Kind} {pm pcm : Sub} {α : Type}

theorem eff_bind {x : M α} {f : α → M Unit} {m0 m : Mach} (hx : Pres x) (h : Loc m0 m)
    (hf : ∀ a m', x m = .ok a m' → Loc m0 m' → OpEffect k pm pcm m0 (f a m')) :
    OpEffect k pm pcm m0 ((x >>= f) m) := by
  rw [bind_eq]
  have h1 := hx.run m
  have h2 := hx.fuel m
  revert h1 h2 hf
  match x m with
  | .ok a m' => intro hf h1 _; exact hf a m' rfl (h.trans h1)
  | .err e m' => intro _ h1 h2; exact .err _ _ (h.trans h1).errLoc (h2 _ _ rfl)

theorem eff_raiseHalt {m0 m : Mach} (h : Loc m0 m) (e : Halt) : OpEffect k pm pcm m0 (raiseHalt e m) :=
  .err _ _ h.errLoc (by simp)

theorem chargeGas_ok {n : Nat} {m m' : Mach} {a : Unit} (h : chargeGas n m = .ok a m') :
    n ≤ m.evm.gasLeft ∧ m' = { m with evm := { m.evm with gasLeft := m.evm.gasLeft - n } } := by
  unfold chargeGas at h
  split at h
  · cases h
  · cases h; exact ⟨by omega, rfl⟩

theorem accessAddress_ok {kd : AccessKind} {a : Address} {m m' : Mach} {c : Nat} (h : accessAddress kd a m = .ok c m') :
    20 ≤ c ∧ m'.evm.gasLeft = m.evm.gasLeft ∧ (m.world.state.fork.since .berlin = true → a ∈ m'.evm.accessedAddresses) := by
  unfold accessAddress at h
  simp only [bind_eq, getEvm, getState] at h
  split at h
  · rename_i hb
    cases h; exact ⟨flatAccessCost_pos _ _, rfl, fun h => absurd h hb⟩
  split at h
  · cases h; exact ⟨by decide, rfl, fun _ => by assumption⟩
  · simp only [bind_eq, warmAddress] at h; cases h; exact ⟨by decide, rfl, fun _ => by simp [mem_setAdd]⟩

theorem getEvm_ok {m m' : Mach} {e : Evm} (h : getEvm m = .ok e m') : e = m.evm ∧ m' = m := by cases h; exact ⟨rfl, rfl⟩
theorem getState_ok {m m' : Mach} {s : State} (h : getState m = .ok s m') : s = m.world.state ∧ m' = m := by
  cases h; exact ⟨rfl, rfl⟩
theorem liftCrash_ok {x : Except Crash α} {m m' : Mach} {s : α} (h : liftCrash x m = .ok s m') : x = .ok s ∧ m' = m := by
  unfold liftCrash at h; split at h
  · cases h; exact ⟨rfl, rfl⟩
  · cases h

theorem eff_pure (hk : k = .pure) (E : Env) (op : Op) (h : op.isPure = true) (m : Mach) :
    OpEffect k pm pcm m (opStep E pm pcm op m) := by
  have h1 := pres_pureOp E pm pcm op h
  have h2 := strict_pureOp E pm pcm op h
  have a := h1.run m; have b := h1.fuel m; have c := h2.run m
  revert a b c
  match opStep E pm pcm op m with
  | .ok () m' => intro a _ c; exact .ok m' a (.inl hk) (c _ _ rfl)
  | .err e m' => intro a b _; exact .err _ _ a.errLoc (b _ _ rfl)

theorem popN_length : ∀ {n : Nat} {m m' : Mach} {l : List Word}, popN n m = .ok l m' → l.length = n := by
  intro n
  induction n with
  | zero => intro m m' l h; cases h; rfl
  | succ n ih =>
    intro m m' l h
    rw [popN] at h
    simp only [bind_eq] at h
    split at h
    · split at h
      · rename_i hp
        cases h
        rw [List.length_cons, ih hp]
      · cases h
    · cases h

theorem eff_log (hk : k = .log) (n : Nat) (m : Mach) : OpEffect k pm pcm m (opLog n m) := by
  unfold opLog
  refine eff_bind pres_pop (Loc.refl m) fun start m1 _ h1 => ?_
  refine eff_bind pres_pop h1 fun size m2 _ h2 => ?_
  refine eff_bind (pres_popN n) h2 fun topics m3 e3 h3 => ?_
  refine eff_bind (pres_extendCost _) h3 fun ext m4 _ h4 => ?_
  refine eff_bind (pres_chargeGas _) h4 fun _ m5 e5 h5 => ?_
  obtain ⟨hle, rfl⟩ := chargeGas_ok e5
  refine eff_bind (pres_expandMemory _) h5 fun _ m6 e6 h6 => ?_
  refine eff_bind pres_getEvm h6 fun evm m7 e7 h7 => ?_
  obtain ⟨rfl, rfl⟩ := getEvm_ok e7
  split
  · exact eff_raiseHalt h7 _
  · rename_i hs
    have hg : m7.evm.gasLeft < m.evm.gasLeft := by
      cases e6
      have := h4.gas
      simp only [GAS_LOG] at hle ⊢
      omega
    have hlen : (memoryReadBytes m7.evm.memory start.toNat size.toNat).length ≤ size.toNat := by
      unfold memoryReadBytes slice; rw [List.length_take]; omega
    have hpay : m7.evm.gasLeft + (375 + 375 * topics.length + 8 * (memoryReadBytes m7.evm.memory start.toNat size.toNat).length) ≤
        m.evm.gasLeft := by
      have ht := popN_length e3
      generalize (memoryReadBytes m7.evm.memory start.toNat size.toNat).length = l at *
      cases e6
      have := h4.gas
      simp only [GAS_LOG, GAS_LOG_DATA, GAS_LOG_TOPIC] at hle ⊢
      omega
    have := OpEffect.log (k := k) (pm := pm) (pcm := pcm) (m := m) hk { m7 with evm := { m7.evm with pc := m7.evm.pc + 1 } } topics
      (memoryReadBytes m7.evm.memory start.toNat size.toNat)
      (h7.trans ((pres_incPc 1).run m7)) hg (by rw [← h7.message]; simpa using hs) hpay
    simp only [bind_eq, addLog, incPc]
    rw [← h7.logs] at this
    have e : m.self = m7.self := by simp [Mach.self, h7.message]
    rw [e] at this
    exact this

theorem eff_tstore (hk : k = .tstore) (m : Mach) : OpEffect k pm pcm m (opTstore m) := by
  unfold opTstore
  refine eff_bind pres_pop (Loc.refl m) fun key m1 _ h1 => ?_
  refine eff_bind pres_pop h1 fun new m2 _ h2 => ?_
  refine eff_bind (pres_chargeGas _) h2 fun _ m3 e3 h3 => ?_
  obtain ⟨hle, rfl⟩ := chargeGas_ok e3
  refine eff_bind pres_getEvm h3 fun evm m4 e4 h4 => ?_
  obtain ⟨rfl, rfl⟩ := getEvm_ok e4
  split
  · exact eff_raiseHalt h4 _
  · rename_i hs
    generalize hm4 : ({ m2 with evm := { m2.evm with gasLeft := m2.evm.gasLeft - GAS_WARM_ACCESS } } : Mach) = m4 at *
    have hg : m4.evm.gasLeft < m.evm.gasLeft := by
      subst hm4; have := h2.gas; simp only [GAS_WARM_ACCESS] at hle ⊢; omega
    have := OpEffect.tstore (k := k) (pm := pm) (pcm := pcm) (m := m) hk { m4 with evm := { m4.evm with pc := m4.evm.pc + 1 } }
      key new (h4.trans ((pres_incPc 1).run m4)) hg (by rw [← h4.message]; simpa using hs)
    simp only [bind_eq, getTransient, setTransient, incPc]
    rw [← h4.world] at this
    have e : m.self = m4.self := by simp [Mach.self, h4.message]
    rw [e] at this
    exact this

theorem eff_sstore (hk : k = .sstore) (m : Mach) : OpEffect k pm pcm m (opSstore m) := by
  unfold opSstore
  refine eff_bind pres_pop (Loc.refl m) fun key m1 _ h1 => ?_
  refine eff_bind pres_pop h1 fun new m2 _ h2 => ?_
  refine eff_bind pres_getEvm h2 fun evm m3 e3 h3 => ?_
  obtain ⟨rfl, rfl⟩ := getEvm_ok e3
  refine eff_bind pres_getState h3 fun s m4 e4 h4 => ?_
  obtain ⟨rfl, rfl⟩ := getState_ok e4
  split
  · exact eff_raiseHalt h4 _
  rename_i hst
  refine eff_bind (pres_liftCrash _) h4 fun orig m5 e5 h5 => ?_
  obtain ⟨horig, rfl⟩ := liftCrash_ok e5
  dsimp only
  have hself : m5.evm.message.currentTarget = m.self := by simp [Mach.self, h5.message]
  rw [hself, h5.world]
  rw [hself, h5.world] at horig
  rw [h5.world] at hst
  -- the warm/cold step
  have main : ∀ (c : Nat) (m6 : Mach), Loc m m6 → m6.evm.message.currentTarget = m.self →
      (m.world.state.fork.since .berlin = true → (m.self, key) ∈ m6.evm.accessedStorageKeys) →
      OpEffect k pm pcm m ((do
        addRefund (sstoreRefund m.world.state.fork orig (getStorage m.world.state m.self key) new)
        chargeGas (c + sstoreGas m.world.state.fork orig (getStorage m.world.state m.self key) new)
        if m5.evm.message.isStatic then raiseHalt .writeInStaticContext
        else do
          let s' ← liftCrash (setStorage m.world.state m.self key new)
          setState s'
          incPc 1 : M Unit) m6) := by
    intro c m6 h6 _ hw
    simp only [bind_eq, addRefund, chargeGas]
    by_cases hgas : m6.evm.gasLeft < c + sstoreGas m.world.state.fork orig (getStorage m.world.state m.self key) new
    · simp only [hgas, if_true]
      exact .err _ _ ⟨h6.world, h6.message, h6.gas⟩ (by simp)
    · simp only [hgas, if_false]
      by_cases hs : m5.evm.message.isStatic = true
      · simp only [hs, if_true]
        exact .err _ _ ⟨h6.world, h6.message, Nat.le_trans (Nat.sub_le _ _) h6.gas⟩ (by simp)
      · simp only [hs, Bool.false_eq_true, if_false, bind_eq, liftCrash]
        match hset : setStorage m.world.state m.self key new with
        | .error c => exact .err _ _ ⟨h6.world, h6.message, Nat.le_trans (Nat.sub_le _ _) h6.gas⟩ (by simp)
        | .ok s' =>
          have hpos : 0 < sstoreGas m.world.state.fork orig (getStorage m.world.state m.self key) new := by
            unfold sstoreGas sstoreUpdate sstoreBase gasSload; repeat' split
            all_goals decide
          have := OpEffect.sstore (k := k) (pm := pm) (pcm := pcm) (m := m) hk
            { m6 with evm := { m6.evm with
                gasLeft := m6.evm.gasLeft - (c + sstoreGas m.world.state.fork orig (getStorage m.world.state m.self key) new)
                pc := m6.evm.pc + 1 } } key new orig s'
            ⟨h6.world, h6.message, h6.code, h6.jumps, h6.logs, h6.refund, h6.deleted, h6.error, h6.touched,
              Nat.le_trans (Nat.sub_le _ _) h6.gas, h6.addrs, h6.keys, h6.stack⟩
            (by have := h6.gas; simp only; omega)
            (by rw [← h5.message]; simpa using hs)
            (by intro hi; have := h5.gas; simp only [GAS_CALL_STIPEND, hi, true_and] at hst; omega) horig hset hw
          simp only [setState, incPc, h6.world, h6.refund]
          exact this
  split
  · rename_i hwarm
    exact main 0 m5 h5 hself (fun hb => hwarm.resolve_left (fun h => h hb))
  · exact main GAS_COLD_SLOAD { m5 with evm := { m5.evm with
      accessedStorageKeys := setAdd m5.evm.accessedStorageKeys (m.self, key) } }
      (h5.trans ((pres_warmSlot _ _).run m5)) hself (fun _ => by simp [mem_setAdd])

theorem Loc.sdBase {m m' : Mach} (h : Loc m m') : m'.sdBase = m.sdBase := by
  unfold Mach.sdBase; rw [h.world, h.deleted, h.message]
theorem Loc.self {m m' : Mach} (h : Loc m m') : m'.self = m.self := by
  unfold Mach.self; rw [h.message]
theorem Loc.sdRefund {m m' : Mach} (h : Loc m m') : m'.sdRefund = m.sdRefund := by
  unfold Mach.sdRefund; rw [h.world, h.sdBase, h.self]

theorem eff_selfdestruct (hk : k = .selfdestruct) (m : Mach) : OpEffect k pm pcm m (opSelfdestruct m) := by
  unfold opSelfdestruct
  refine eff_bind pres_pop (Loc.refl m) fun b m1 _ h1 => ?_
  refine eff_bind pres_getEvm h1 fun evm m3 e3 h3 => ?_
  obtain ⟨rfl, rfl⟩ := getEvm_ok e3
  refine eff_bind pres_getState h3 fun s m4 e4 h4 => ?_
  obtain ⟨rfl, rfl⟩ := getState_ok e4
  dsimp only
  have hself : m4.evm.message.currentTarget = m.self := h4.self
  rw [hself, h4.world, h4.message]
  have main : ∀ (c : Nat) (m6 : Mach), Loc m m6 →
      OpEffect k pm pcm m ((do
        selfdestructRefund m.self
        chargeGas (gasSelfDestruct m.world.state.fork + c + selfdestructNewCost m.world.state m.self (toAddressMasked b))
        if m.evm.message.isStatic = true then raiseHalt .writeInStaticContext
        else do
          let s' ← liftCrash (selfdestructState m.world.state m.self (toAddressMasked b))
          setState s'
          if selfdestructDeletes m.world.state m.self then addDeleted m.self
          else pure ()
          touchIfEmpty (toAddressMasked b)
          stopRunning : M Unit) m6) := by
    intro c m6 h6
    generalize hcost : gasSelfDestruct m.world.state.fork + c + selfdestructNewCost m.world.state m.self (toAddressMasked b) = cost
    rw [bind_eq, ← h6.self, selfdestructRefund_eq]
    dsimp only
    rw [bind_eq]
    unfold chargeGas
    dsimp only
    split
    · rename_i heq
      split at heq
      · cases heq
      rename_i hle
      cases heq
      split
      · exact .err _ _ ⟨h6.world, h6.message, Nat.le_trans (Nat.sub_le _ _) h6.gas⟩ (by simp)
      rename_i hs
      rw [bind_eq]
      unfold liftCrash
      rw [h6.self]
      match hmove : selfdestructState m.world.state m.self (toAddressMasked b) with
      | .error e => exact .err _ _ ⟨h6.world, h6.message, Nat.le_trans (Nat.sub_le _ _) h6.gas⟩ (by simp)
      | .ok s' =>
        have hgas : m.world.state.fork.since .tangerineWhistle = true → m6.evm.gasLeft - cost < m.evm.gasLeft := by
          intro ht
          have := h6.gas
          simp only [gasSelfDestruct, ht, if_true, GAS_SELF_DESTRUCT] at hcost
          omega
        have := OpEffect.selfdestruct (k := k) (pm := pm) (pcm := pcm) (m := m) hk
          { m6 with evm := { m6.evm with
              gasLeft := m6.evm.gasLeft - cost
              running := false } } (toAddressMasked b) s'
          ⟨h6.world, h6.message, h6.code, h6.jumps, h6.logs, h6.refund, h6.deleted, h6.error, h6.touched,
            Nat.le_trans (Nat.sub_le _ _) h6.gas, h6.addrs, h6.keys, h6.stack⟩
          hgas (by simpa using hs) rfl hmove
        rw [← h6.sdBase, ← h6.sdRefund, ← h6.refund, ← h6.world, ← h6.touched] at this
        simp only [bind_eq, setState, addDeleted, touchIfEmpty, stopRunning, pure_eq]
        by_cases hd : selfdestructDeletes m.world.state m.self = true
        · simp only [hd, if_true, h6.world, bind_eq, addDeleted] at this ⊢
          exact this
        · simp only [hd, Bool.false_eq_true, if_false, h6.world, bind_eq, pure_eq] at this ⊢
          exact this
    · rename_i heq
      split at heq
      · cases heq
        exact .err _ _ ⟨h6.world, h6.message, h6.gas⟩ (by simp)
      · cases heq
  split
  · exact main 0 m4 h4
  · exact main GAS_COLD_ACCOUNT_ACCESS { m4 with evm := { m4.evm with
      accessedAddresses := setAdd m4.evm.accessedAddresses (toAddressMasked b) } }
      (h4.trans ((pres_warmAddress _).run m4))
end
end Verif
