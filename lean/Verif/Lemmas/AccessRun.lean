import Verif.Spec.Access
import Verif.Lemmas.Agree
/-! The instructions that touch accounts and slots, as explicit functions of the machine. -/
namespace Verif
open Spec

theorem push_run {w : Word} {m : Mach} (h : m.evm.stack.length ≤ 1023) :
    push w m = .ok () { m with evm := { m.evm with stack := w :: m.evm.stack } } := by
  unfold push; rw [if_neg (by omega)]

section
variable {m : Mach}

/-- The frame after an account was looked at. -/
def touched (m : Mach) (a : Address) (cost : Nat) (stack : List Word) : Mach :=
  { m with evm := { m.evm with
      stack := stack
      gasLeft := m.evm.gasLeft - cost
      accessedAddresses := accWarm m.world.state.fork m.evm.accessedAddresses a
      pc := m.evm.pc + 1 } }

theorem lookPrice_eq (f : Fork) (w : List Address) (a : Address) : accCost f .balance w a = lookPrice f .balance w a ∧
    accCost f .codeHash w a = lookPrice f .extcodehash w a ∧ accCost f .external w a = lookPrice f .extcodesize w a ∧
    accCost f .external w a = lookPrice f .extcodecopy w a := by
  unfold accCost lookPrice flatAccessCost
  exact ⟨rfl, rfl, rfl, rfl⟩

theorem opBalance_run {x : Word} {rest : List Word} (hst : m.evm.stack = x :: rest) (hlen : m.evm.stack.length ≤ 1024) :
    let a : Address := x.setWidth 160
    let cost := lookPrice m.world.state.fork .balance m.evm.accessedAddresses a
    if m.evm.gasLeft < cost then ∃ m', opBalance m = .err (.halt .outOfGas) m'
    else opBalance m = .ok () (touched m a cost ((getAccount m.world.state a).balance :: rest)) := by
  intro a cost
  have hl : rest.length ≤ 1023 := by rw [hst] at hlen; simpa using hlen
  simp only [opBalance, bind_eq, pop, hst, accessAddress_run, chargeGas, toAddressMasked, getState, (lookPrice_eq _ _ _).1]
  split
  · exact ⟨_, rfl⟩
  · simp only; rw [push_run (by simpa using hl)]; rfl

theorem opExtcodehash_run (E : Env) {x : Word} {rest : List Word} (hst : m.evm.stack = x :: rest)
    (hlen : m.evm.stack.length ≤ 1024) :
    let a : Address := x.setWidth 160
    let cost := lookPrice m.world.state.fork .extcodehash m.evm.accessedAddresses a
    if m.evm.gasLeft < cost then ∃ m', opExtcodehash E m = .err (.halt .outOfGas) m'
    else opExtcodehash E m = .ok () (touched m a cost
      ((if getAccount m.world.state a = emptyAccount then 0 else E.crypto.keccak256 (getAccount m.world.state a).code) :: rest)) := by
  intro a cost
  have hl : rest.length ≤ 1023 := by rw [hst] at hlen; simpa using hlen
  simp only [opExtcodehash, bind_eq, pop, hst, accessAddress_run, chargeGas, toAddressMasked, getState, (lookPrice_eq _ _ _).2.1]
  split
  · exact ⟨_, rfl⟩
  · simp only; rw [push_run (by simpa using hl)]; rfl

theorem opExtcodesize_run {x : Word} {rest : List Word} (hst : m.evm.stack = x :: rest)
    (hlen : m.evm.stack.length ≤ 1024) (hcode : (getAccount m.world.state (x.setWidth 160)).code.length < 2 ^ 256) :
    let a : Address := x.setWidth 160
    let cost := lookPrice m.world.state.fork .extcodesize m.evm.accessedAddresses a
    if m.evm.gasLeft < cost then ∃ m', opExtcodesize m = .err (.halt .outOfGas) m'
    else opExtcodesize m = .ok () (touched m a cost
      (BitVec.ofNat 256 (getAccount m.world.state a).code.length :: rest)) := by
  intro a cost
  have hl : rest.length ≤ 1023 := by rw [hst] at hlen; simpa using hlen
  simp only [opExtcodesize, bind_eq, pop, hst, accessAddress_run, chargeGas, toAddressMasked, getState, (lookPrice_eq _ _ _).2.2.1, u256]
  split
  · exact ⟨_, rfl⟩
  · simp only; rw [if_pos hcode]; simp only; rw [push_run (by simpa using hl)]; rfl

theorem opExtcodecopy_run (ha : Aligned m.evm.memory) {x start from_ size : Word} {rest : List Word}
    (hst : m.evm.stack = x :: start :: from_ :: size :: rest) :
    let a : Address := x.setWidth 160
    let words := m.evm.memory.length / 32
    let cost := lookPrice m.world.state.fork .extcodecopy m.evm.accessedAddresses a + 3 * wordsFor 0 size +
      (memoryPrice (max words (wordsFor start size)) - memoryPrice words)
    if m.evm.gasLeft < cost then ∃ m', opExtcodecopy m = .err (.halt .outOfGas) m'
    else opExtcodecopy m = .ok () { touched m a cost rest with evm := { (touched m a cost rest).evm with
      memory := memoryWrite (m.evm.memory ++
          List.replicate (32 * max words (wordsFor start size) - m.evm.memory.length) 0) start.toNat
        (bufferRead (getAccount m.world.state a).code from_.toNat size.toNat) } } := by
  intro a words cost
  have hx := createExt_eq ha start size
  simp only [createExt] at hx
  have hw := words_zero size
  simp only [opExtcodecopy, bind_eq, pop, hst, accessAddress_run, chargeGas, toAddressMasked, getState, (lookPrice_eq _ _ _).2.2.2,
    extendCost, getEvm, pure_eq, hx, GAS_COPY, ← hw]
  split
  · exact ⟨_, rfl⟩
  · rfl

/-- The warm slots after touching one: there are none before berlin. -/
def slotWarm (f : Fork) (warm : List (Address × Word)) (x : Address × Word) : List (Address × Word) :=
  if f.since .berlin then setAdd warm x else warm

theorem mem_slotWarm {f : Fork} (hb : f.since .berlin = true) (l : List (Address × Word)) (a b : Address × Word) :
    a ∈ slotWarm f l b ↔ a ∈ l ∨ a = b := by
  unfold slotWarm; rw [if_pos hb, mem_setAdd]

theorem mem_accWarm {f : Fork} (hb : f.since .berlin = true) (l : List Address) (a b : Address) : a ∈ accWarm f l b ↔ a ∈ l ∨ a = b := by
  unfold accWarm; rw [if_pos hb, mem_setAdd]

theorem opSload_run {key : Word} {rest : List Word} (hst : m.evm.stack = key :: rest) (hlen : m.evm.stack.length ≤ 1024) :
    let cost := slotPrice m.world.state.fork m.evm.accessedStorageKeys m.self key
    if m.evm.gasLeft < cost then ∃ m', opSload m = .err (.halt .outOfGas) m'
    else opSload m = .ok () { m with evm := { m.evm with
      stack := getStorage m.world.state m.self key :: rest
      gasLeft := m.evm.gasLeft - cost
      accessedStorageKeys := slotWarm m.world.state.fork m.evm.accessedStorageKeys (m.self, key)
      pc := m.evm.pc + 1 } } := by
  intro cost
  have hl : rest.length ≤ 1023 := by rw [hst] at hlen; simpa using hlen
  by_cases hb : m.world.state.fork.since .berlin = true
  · by_cases hw : (m.self, key) ∈ m.evm.accessedStorageKeys
    · have hc : cost = 100 := by simp only [cost, slotPrice, hb, hw, if_true]
      rw [hc]
      simp only [opSload, bind_eq, pop, hst, getEvm, getState, hb, not_true_eq_false, if_false]
      simp only [if_pos hw, chargeGas, GAS_WARM_ACCESS, bind_eq]
      split
      · exact ⟨_, rfl⟩
      · simp only
        rw [push_run (by simpa using hl)]
        simp only [incPc, slotWarm, hb, if_true, setAdd_mem hw]
    · have hc : cost = 2100 := by simp only [cost, slotPrice, hb, hw, if_false, if_true]
      rw [hc]
      simp only [opSload, bind_eq, pop, hst, getEvm, getState, hb, not_true_eq_false, if_false]
      simp only [if_neg hw, chargeGas, GAS_COLD_SLOAD, bind_eq, warmSlot]
      split
      · exact ⟨_, rfl⟩
      · simp only
        rw [push_run (by simpa using hl)]
        simp only [incPc, slotWarm, hb, if_true]
  · have hc : cost = gasSload m.world.state.fork := by simp only [cost, slotPrice, hb, if_false, gasSload, Bool.false_eq_true]
    rw [hc]
    simp only [opSload, bind_eq, pop, hst, getEvm, getState, hb, Bool.false_eq_true, not_false_eq_true, if_true, chargeGas]
    split
    · exact ⟨_, rfl⟩
    · simp only
      rw [push_run (by simpa using hl)]
      simp only [incPc, slotWarm, hb, if_false, Bool.false_eq_true]

theorem since_chain (f : Fork) : (f.since .london = true → f.since .berlin = true) ∧ (f.since .berlin = true → f.since .istanbul = true) := by
  cases f <;> decide

theorem sstoreGas_eq (f : Fork) (o c n : Word) : sstoreGas f o c n = writePrice f o c n := by
  unfold sstoreGas writePrice sstoreBase sstoreUpdate gasSload
  simp only [GAS_STORAGE_SET, GAS_STORAGE_UPDATE, GAS_COLD_SLOAD, GAS_WARM_ACCESS]
  by_cases hi : f.since .istanbul = true
  · simp only [hi, if_true]
    by_cases hb : f.since .berlin = true
    · simp only [hb, if_true]; grind
    · simp only [hb, if_false, Bool.false_eq_true]; grind
  · simp only [hi, if_false, Bool.false_eq_true]; grind

theorem sstoreRefund_eq (f : Fork) (o c n : Word) : sstoreRefund f o c n = writeRefund f o c n := by
  have hch := since_chain f
  unfold sstoreRefund writeRefund storageClearRefund sstoreBase sstoreUpdate gasSload
  simp only [GAS_STORAGE_SET, GAS_STORAGE_UPDATE, GAS_COLD_SLOAD, GAS_WARM_ACCESS, GAS_STORAGE_CLEAR_REFUND]
  by_cases hi : f.since .istanbul = true
  · simp only [hi, if_true]
    by_cases hb : f.since .berlin = true
    · by_cases hl : f.since .london = true
      · simp only [hb, hl, if_true]; grind
      · simp only [hb, hl, if_true, if_false, Bool.false_eq_true]; grind
    · have hl : ¬ f.since .london = true := fun h => hb (hch.1 h)
      simp only [hb, hl, if_false, Bool.false_eq_true]; grind
  · have hb : ¬ f.since .berlin = true := fun h => hi (hch.2 h)
    have hl : ¬ f.since .london = true := fun h => hb (hch.1 h)
    simp only [hi, hl, if_false, Bool.false_eq_true]; grind

theorem opSstore_inv {m' : Mach} (h : opSstore m = .ok () m') :
    ∃ key new rest orig s', m.evm.stack = key :: new :: rest ∧ (m.world.state.fork.since .istanbul = true → 2300 < m.evm.gasLeft) ∧
      m.evm.message.isStatic = false ∧
      sstoreOriginal m.world.state m.self key = .ok orig ∧ setStorage m.world.state m.self key new = .ok s' ∧
      let f := m.world.state.fork
      let cost := coldSlot f m.evm.accessedStorageKeys m.self key + writePrice f orig (getStorage m.world.state m.self key) new
      cost ≤ m.evm.gasLeft ∧
      m' = ⟨{ m.evm with
        stack := rest
        gasLeft := m.evm.gasLeft - cost
        refundCounter := m.evm.refundCounter + writeRefund f orig (getStorage m.world.state m.self key) new
        accessedStorageKeys := slotWarm f m.evm.accessedStorageKeys (m.self, key)
        pc := m.evm.pc + 1 }, { m.world with state := s' }⟩ := by
  match hst : m.evm.stack with
  | [] => simp [opSstore, bind_eq, pop, hst] at h
  | [x] => simp [opSstore, bind_eq, pop, hst] at h
  | key :: new :: rest =>
    simp only [opSstore, bind_eq, pop, hst, getEvm, getState] at h
    by_cases hg : m.world.state.fork.since .istanbul = true ∧ m.evm.gasLeft ≤ GAS_CALL_STIPEND
    · rw [if_pos hg] at h; simp [raiseHalt, raise] at h
    · rw [if_neg hg] at h
      simp only [bind_eq, liftCrash] at h
      match ho : sstoreOriginal m.world.state m.self key with
      | .error c => simp [ho] at h
      | .ok orig =>
        simp only [ho] at h
        have main : ∀ (keys : List (Address × Word)) (c : Nat), keys = slotWarm m.world.state.fork m.evm.accessedStorageKeys (m.self, key) →
            c = coldSlot m.world.state.fork m.evm.accessedStorageKeys m.self key →
            (do
              addRefund (sstoreRefund m.world.state.fork orig (getStorage m.world.state m.self key) new)
              chargeGas (c + sstoreGas m.world.state.fork orig (getStorage m.world.state m.self key) new)
              if m.evm.message.isStatic then raiseHalt .writeInStaticContext
              else do
                let s' ← liftCrash (setStorage m.world.state m.self key new)
                setState s'
                incPc 1 : M Unit) { m with evm := { m.evm with stack := rest, accessedStorageKeys := keys } } = .ok () m' →
            ∃ s', m.evm.message.isStatic = false ∧ setStorage m.world.state m.self key new = .ok s' ∧
              let f := m.world.state.fork
              let cost := coldSlot f m.evm.accessedStorageKeys m.self key + writePrice f orig (getStorage m.world.state m.self key) new
              cost ≤ m.evm.gasLeft ∧
              m' = ⟨{ m.evm with
                stack := rest
                gasLeft := m.evm.gasLeft - cost
                refundCounter := m.evm.refundCounter + writeRefund f orig (getStorage m.world.state m.self key) new
                accessedStorageKeys := slotWarm f m.evm.accessedStorageKeys (m.self, key)
                pc := m.evm.pc + 1 }, { m.world with state := s' }⟩ := by
          intro keys c hk hc h
          simp only [addRefund, chargeGas, bind_eq, sstoreGas_eq, sstoreRefund_eq, hk, hc] at h
          by_cases hgas : m.evm.gasLeft < coldSlot m.world.state.fork m.evm.accessedStorageKeys m.self key +
              writePrice m.world.state.fork orig (getStorage m.world.state m.self key) new
          · simp [if_pos hgas] at h
          · rw [if_neg hgas] at h
            · by_cases hstat : m.evm.message.isStatic = true
              · simp [hstat, raiseHalt, raise] at h
              · match hs : setStorage m.world.state m.self key new with
                | .error c => simp [hstat, hs, bind_eq, liftCrash] at h
                | .ok s' =>
                  simp only [hstat, Bool.false_eq_true, if_false, hs, setState, bind_eq, incPc, liftCrash] at h
                  cases h
                  exact ⟨s', by simpa using hstat, rfl, by omega, rfl⟩
        have fin : ∃ s', m.evm.message.isStatic = false ∧ setStorage m.world.state m.self key new = .ok s' ∧
              let f := m.world.state.fork
              let cost := coldSlot f m.evm.accessedStorageKeys m.self key + writePrice f orig (getStorage m.world.state m.self key) new
              cost ≤ m.evm.gasLeft ∧
              m' = ⟨{ m.evm with
                stack := rest
                gasLeft := m.evm.gasLeft - cost
                refundCounter := m.evm.refundCounter + writeRefund f orig (getStorage m.world.state m.self key) new
                accessedStorageKeys := slotWarm f m.evm.accessedStorageKeys (m.self, key)
                pc := m.evm.pc + 1 }, { m.world with state := s' }⟩ := by
          by_cases hb : m.world.state.fork.since .berlin = true
          · by_cases hw : (m.self, key) ∈ m.evm.accessedStorageKeys
            · rw [if_pos (.inr hw)] at h
              exact main m.evm.accessedStorageKeys 0 (by simp [slotWarm, hb, setAdd_mem hw]) (by simp [coldSlot, hw]) h
            · rw [if_neg (by simp [hb, hw])] at h
              exact main (setAdd m.evm.accessedStorageKeys (m.self, key)) 2100 (by simp [slotWarm, hb]) (by simp [coldSlot, hb, hw]) h
          · rw [if_pos (.inl hb)] at h
            exact main m.evm.accessedStorageKeys 0 (by simp [slotWarm, hb]) (by simp [coldSlot, hb]) h
        obtain ⟨s', h1, h2, h3⟩ := fin
        exact ⟨key, new, rest, orig, s', rfl, fun hi => by
          have : ¬ m.evm.gasLeft ≤ GAS_CALL_STIPEND := fun hl => hg ⟨hi, hl⟩
          simp only [GAS_CALL_STIPEND] at this; omega, h1, ho, h2, h3⟩

theorem opSelfdestruct_inv {m' : Mach} (h : opSelfdestruct m = .ok () m') :
    ∃ x rest s1, m.evm.stack = x :: rest ∧ m.evm.message.isStatic = false ∧
      let b : Address := x.setWidth 160
      selfdestructState m.world.state m.self b = .ok s1 ∧
      let cost := selfdestructPrice m b
      let made := selfdestructDeletes m.world.state m.self
      cost ≤ m.evm.gasLeft ∧
      m' = ⟨{ m.evm with
        stack := rest
        gasLeft := m.evm.gasLeft - cost
        accessedAddresses := accWarm m.world.state.fork m.evm.accessedAddresses b
        accountsToDelete := if made then setAdd m.sdBase m.self else m.sdBase
        refundCounter := m.evm.refundCounter + m.sdRefund
        touchedAccounts := touchedIfEmpty s1 b m.evm.touchedAccounts
        running := false },
        { m.world with state := s1 }⟩ := by
  match hst : m.evm.stack with
  | [] => simp [opSelfdestruct, bind_eq, pop, hst] at h
  | x :: rest =>
    have key : ∀ (warm : List Address) (c : Nat), c = coldAccount m.world.state.fork m.evm.accessedAddresses (x.setWidth 160) →
        (do
          selfdestructRefund m.evm.message.currentTarget
          chargeGas (gasSelfDestruct m.world.state.fork + c + selfdestructNewCost m.world.state m.evm.message.currentTarget (x.setWidth 160))
          if m.evm.message.isStatic then raiseHalt .writeInStaticContext
          else do
            let s' ← liftCrash (selfdestructState m.world.state m.evm.message.currentTarget (x.setWidth 160))
            setState s'
            if selfdestructDeletes m.world.state m.evm.message.currentTarget then addDeleted m.evm.message.currentTarget
            else pure ()
            touchIfEmpty (x.setWidth 160)
            stopRunning : M Unit) { m with evm := { m.evm with stack := rest, accessedAddresses := warm } } = .ok () m' →
        ∃ s1, m.evm.message.isStatic = false ∧
          selfdestructState m.world.state m.self (x.setWidth 160) = .ok s1 ∧
          let cost := selfdestructPrice m (x.setWidth 160)
          let made := selfdestructDeletes m.world.state m.self
          cost ≤ m.evm.gasLeft ∧
          m' = ⟨{ m.evm with
            stack := rest
            gasLeft := m.evm.gasLeft - cost
            accessedAddresses := warm
            accountsToDelete := if made then setAdd m.sdBase m.self else m.sdBase
            refundCounter := m.evm.refundCounter + m.sdRefund
            touchedAccounts := touchedIfEmpty s1 (x.setWidth 160) m.evm.touchedAccounts
            running := false },
            { m.world with state := s1 }⟩ := by
      intro warm c hc h
      have hcost : gasSelfDestruct m.world.state.fork + c + selfdestructNewCost m.world.state m.evm.message.currentTarget (x.setWidth 160) =
          selfdestructPrice m (x.setWidth 160) := by
        have hd := dead_iff m.world.state (x.setWidth 160)
        have h3 : getAccountOptional m.world.state (x.setWidth 160) = none ↔ accountExists m.world.state (x.setWidth 160) = false := by
          unfold accountExists; simp
        rw [hc]; unfold selfdestructPrice gasSelfDestruct selfdestructNewCost
        simp only [GAS_SELF_DESTRUCT, GAS_ZERO, GAS_SELF_DESTRUCT_NEW_ACCOUNT, hd, h3, Bool.not_eq_true]
      rw [hcost] at h
      have hre := selfdestructRefund_eq { m with evm := { m.evm with stack := rest, accessedAddresses := warm } }
      rw [bind_eq, show selfdestructRefund m.evm.message.currentTarget _ = _ from hre] at h
      simp only [bind_eq, chargeGas] at h
      have e1 : Mach.sdBase { m with evm := { m.evm with stack := rest, accessedAddresses := warm } } = m.sdBase := rfl
      have e2 : Mach.sdRefund { m with evm := { m.evm with stack := rest, accessedAddresses := warm } } = m.sdRefund := rfl
      rw [e1, e2] at h
      by_cases hgas : m.evm.gasLeft < selfdestructPrice m (x.setWidth 160)
      · simp [if_pos hgas] at h
      · rw [if_neg hgas] at h
        by_cases hstat : m.evm.message.isStatic = true
        · simp [hstat, raiseHalt, raise] at h
        · simp only [hstat, Bool.false_eq_true, if_false, bind_eq, liftCrash] at h
          match hmv : selfdestructState m.world.state m.self (x.setWidth 160) with
          | .error c => simp [hmv] at h
          | .ok s1 =>
            simp only [hmv, setState] at h
            refine ⟨s1, by simpa using hstat, rfl, by omega, ?_⟩
            by_cases hmade : selfdestructDeletes m.world.state m.self = true
            · rw [if_pos hmade] at h
              simp only [bind_eq, addDeleted, touchIfEmpty, stopRunning] at h
              cases h; simp only [hmade, if_true]
            · rw [if_neg hmade] at h
              simp only [bind_eq, pure_eq, touchIfEmpty, stopRunning] at h
              cases h; simp only [hmade, if_false, Bool.false_eq_true]
    simp only [opSelfdestruct, bind_eq, pop, hst, getEvm, getState, toAddressMasked] at h
    have fin : ∃ s1, m.evm.message.isStatic = false ∧
          selfdestructState m.world.state m.self (x.setWidth 160) = .ok s1 ∧
          let cost := selfdestructPrice m (x.setWidth 160)
          let made := selfdestructDeletes m.world.state m.self
          cost ≤ m.evm.gasLeft ∧
          m' = ⟨{ m.evm with
            stack := rest
            gasLeft := m.evm.gasLeft - cost
            accessedAddresses := accWarm m.world.state.fork m.evm.accessedAddresses (x.setWidth 160)
            accountsToDelete := if made then setAdd m.sdBase m.self else m.sdBase
            refundCounter := m.evm.refundCounter + m.sdRefund
            touchedAccounts := touchedIfEmpty s1 (x.setWidth 160) m.evm.touchedAccounts
            running := false },
            { m.world with state := s1 }⟩ := by
      by_cases hb : m.world.state.fork.since .berlin = true
      · by_cases hw : (x.setWidth 160 : Address) ∈ m.evm.accessedAddresses
        · rw [if_pos (.inr hw)] at h
          rw [show accWarm m.world.state.fork m.evm.accessedAddresses (x.setWidth 160) = m.evm.accessedAddresses from by simp [accWarm, hb, setAdd_mem hw]]
          exact key m.evm.accessedAddresses 0 (by simp [coldAccount, hw]) h
        · rw [if_neg (by simp [hb, hw])] at h
          rw [show accWarm m.world.state.fork m.evm.accessedAddresses (x.setWidth 160) = (setAdd m.evm.accessedAddresses (x.setWidth 160)) from by simp [accWarm, hb]]
          exact key (setAdd m.evm.accessedAddresses (x.setWidth 160)) 2600 (by simp [coldAccount, hb, hw]) h
      · rw [if_pos (.inl hb)] at h
        rw [show accWarm m.world.state.fork m.evm.accessedAddresses (x.setWidth 160) = m.evm.accessedAddresses from by simp [accWarm, hb]]
        exact key m.evm.accessedAddresses 0 (by simp [coldAccount, hb]) h
    obtain ⟨s1, h1, h2, h3, h4⟩ := fin
    exact ⟨x, rest, s1, rfl, h1, h2, h3, h4⟩
end
end Verif
