import Verif.Lemmas.MemoryRun
import Verif.Lemmas.AccessRun
import Verif.Lemmas.State
import Verif.Lemmas.SampleWF
/-!
Property C74: what a frame leaves behind by LOG, TSTORE, SSTORE, RETURN and REVERT is exactly what it says, in every fork. The hypotheses on
the frame are those that C12 proves for all frames.
-/
namespace Verif.Props
open Verif Spec

variable (E : Env) (pm pcm : Sub) (m : Mach)

private theorem popN_run (topics rest : List Word) (m : Mach) (h : m.evm.stack = topics ++ rest) :
    popN topics.length m = .ok topics { m with evm := { m.evm with stack := rest } } := by
  induction topics generalizing m with
  | nil =>
    cases (show m.evm.stack = rest from h)
    rfl
  | cons t ts ih =>
    have hst : m.evm.stack = t :: (ts ++ rest) := h
    have h1 : pop m = .ok t { m with evm := { m.evm with stack := ts ++ rest } } := by unfold pop; rw [hst]
    show (pop >>= fun t => popN ts.length >>= fun r => pure (t :: r)) m = _
    simp only [bind_eq, h1]
    rw [ih _ rfl]
    rfl

/-- **C74**, LOG0 to LOG4: 375, 375 for each topic and 8 for each byte, besides the growth of memory. A static frame halts. Otherwise one
entry is added at the end of the log: the account that runs, the topics in the order in which they are popped, and the bytes in memory. -/
theorem C74_log (ha : Aligned m.evm.memory) (n : Nat) (start size : Word) (topics rest : List Word) (hn : topics.length = n)
    (hst : m.evm.stack = start :: size :: topics ++ rest) :
    let cost := 375 + 8 * size.toNat + 375 * n + growthPrice m (wordsFor start size)
    if m.evm.gasLeft < cost then ∃ m', opStep E pm pcm (.log n) m = .err (.halt .outOfGas) m'
    else if m.evm.message.isStatic = true then ∃ m', opStep E pm pcm (.log n) m = .err (.halt .writeInStaticContext) m'
    else ∃ mem', opStep E pm pcm (.log n) m = .ok () { m with evm := { m.evm with
          stack := rest, memory := mem', gasLeft := m.evm.gasLeft - cost, pc := m.evm.pc + 1
          logs := m.evm.logs ++ [⟨m.evm.message.currentTarget, topics, bytesAt m.evm.memory start.toNat size.toNat⟩] } } ∧
        mem'.length = 32 * wordsAfter m (wordsFor start size) ∧ ∀ i, cell mem' i = cell m.evm.memory i := by
  intro cost
  subst hn
  have rd := read_grown (s := start.toNat) (z := size.toNat) (memory_le_after ha (wordsFor start size)) (range_fits (Nat.le_max_right _ _))
  unfold grown at rd
  rw [show opStep E pm pcm (.log topics.length) = opLog topics.length from rfl]
  simp only [opLog, bind_eq, pop, hst, List.cons_append, popN_run topics rest { m with evm := { m.evm with stack := topics ++ rest } } rfl,
    extendCost, getEvm, pure_eq, growth_eq ha, chargeGas, GAS_LOG, GAS_LOG_DATA, GAS_LOG_TOPIC]
  by_cases hg : m.evm.gasLeft < cost
  · rw [if_pos hg, if_pos hg]; exact ⟨_, rfl⟩
  rw [if_neg hg, if_neg hg]
  simp only [expandMemory]
  by_cases hs : m.evm.message.isStatic = true
  · rw [if_pos hs, if_pos hs]; exact ⟨_, rfl⟩
  rw [if_neg hs, if_neg hs]
  simp only [bind_eq, addLog, rd]
  exact ⟨_, rfl, grown_length (memory_le_after ha _), cell_grown _ _⟩

/-- **C74**, RETURN: the output is the bytes in memory, and the frame ends without error. Only the growth of memory is charged. -/
theorem C74_return (ha : Aligned m.evm.memory) (start size : Word) (rest : List Word) (hst : m.evm.stack = start :: size :: rest) :
    let cost := growthPrice m (wordsFor start size)
    if m.evm.gasLeft < cost then ∃ m', opStep E pm pcm .ret m = .err (.halt .outOfGas) m'
    else ∃ mem', opStep E pm pcm .ret m = .ok () { m with evm := { m.evm with
          stack := rest, memory := mem', gasLeft := m.evm.gasLeft - cost, running := false
          output := bytesAt m.evm.memory start.toNat size.toNat } } := by
  intro cost
  have rd := read_grown (s := start.toNat) (z := size.toNat) (memory_le_after ha (wordsFor start size)) (range_fits (Nat.le_max_right _ _))
  unfold grown at rd
  rw [show opStep E pm pcm .ret = opReturn from rfl]
  simp only [opReturn, bind_eq, pop, hst, extendCost, getEvm, pure_eq, growth_eq ha, chargeGas, GAS_ZERO, Nat.zero_add]
  by_cases hg : m.evm.gasLeft < cost
  · rw [if_pos hg, if_pos hg]; exact ⟨_, rfl⟩
  rw [if_neg hg, if_neg hg]
  simp only [expandMemory, setOutput, rd]
  exact ⟨_, rfl⟩

/-- **C74**, REVERT: the output is the bytes in memory, the gas that is left stays, and the frame ends with the exception that undoes it
(C01, C06). -/
theorem C74_revert (ha : Aligned m.evm.memory) (start size : Word) (rest : List Word) (hst : m.evm.stack = start :: size :: rest) :
    let cost := growthPrice m (wordsFor start size)
    if m.evm.gasLeft < cost then ∃ m', opStep E pm pcm .revert m = .err (.halt .outOfGas) m'
    else ∃ m', opStep E pm pcm .revert m = .err .revert m' ∧ m'.evm.output = bytesAt m.evm.memory start.toNat size.toNat ∧
      m'.evm.gasLeft = m.evm.gasLeft - cost ∧ m'.world = m.world := by
  intro cost
  have rd := read_grown (s := start.toNat) (z := size.toNat) (memory_le_after ha (wordsFor start size)) (range_fits (Nat.le_max_right _ _))
  unfold grown at rd
  rw [show opStep E pm pcm .revert = opRevert from rfl]
  simp only [opRevert, bind_eq, pop, hst, extendCost, getEvm, pure_eq, growth_eq ha, chargeGas]
  by_cases hg : m.evm.gasLeft < cost
  · rw [if_pos hg, if_pos hg]; exact ⟨_, rfl⟩
  rw [if_neg hg, if_neg hg]
  simp only [expandMemory, setOutput, rd]
  exact ⟨_, rfl, rfl, rfl, rfl⟩

/-- **C74**, TSTORE: 100; a static frame halts; otherwise one slot of the transient storage of the account that runs has the new value and
no other slot changes, nor does the state. -/
theorem C74_tstore (hw : m.world.transient.WF) (key new : Word) (rest : List Word) (hst : m.evm.stack = key :: new :: rest) :
    if m.evm.gasLeft < 100 then ∃ m', opStep E pm pcm .tstore m = .err (.halt .outOfGas) m'
    else if m.evm.message.isStatic = true then ∃ m', opStep E pm pcm .tstore m = .err (.halt .writeInStaticContext) m'
    else ∃ t', opStep E pm pcm .tstore m = .ok ()
        ⟨{ m.evm with stack := rest, gasLeft := m.evm.gasLeft - 100, pc := m.evm.pc + 1 }, { m.world with transient := t' }⟩ ∧
      ∀ a k, getTransientStorage t' a k =
        if a = m.evm.message.currentTarget ∧ k = key then new else getTransientStorage m.world.transient a k := by
  rw [show opStep E pm pcm .tstore = opTstore from rfl]
  simp only [opTstore, bind_eq, pop, hst, chargeGas, GAS_WARM_ACCESS]
  by_cases hg : m.evm.gasLeft < 100
  · rw [if_pos hg, if_pos hg]; exact ⟨_, rfl⟩
  rw [if_neg hg, if_neg hg]
  simp only [getEvm]
  by_cases hs : m.evm.message.isStatic = true
  · rw [if_pos hs, if_pos hs]; exact ⟨_, rfl⟩
  rw [if_neg hs, if_neg hs]
  refine ⟨_, rfl, fun a k => ?_⟩
  show triesGet (triesSet m.world.transient.tries _ _ _) a k = _
  rw [triesGet_triesSet hw.1]
  simp only [eq_comm, getTransientStorage]

/-- **C74**, SSTORE, where the slot had `original` at the start of the transaction (which plays a role since istanbul only). It runs out of
gas if the price cannot be paid or, since istanbul, if no more than 2300 is left. A static frame halts. Otherwise one slot of the account
that runs has the new value, and no other slot and no account changes. -/
theorem C74_sstore (hw : m.world.state.WF) (key new original : Word) (rest : List Word) (hst : m.evm.stack = key :: new :: rest)
    (horig : m.world.state.fork.since .istanbul = true →
      getStorageOriginal m.world.state m.evm.message.currentTarget key = .ok original)
    (hacc : accountExists m.world.state m.evm.message.currentTarget = true) :
    let self := m.evm.message.currentTarget
    let f := m.world.state.fork
    let current := getStorage m.world.state self key
    let cost := coldSlot f m.evm.accessedStorageKeys self key + writePrice f original current new
    if m.evm.gasLeft < cost ∨ (f.since .istanbul = true ∧ m.evm.gasLeft ≤ 2300) then
      ∃ m', opStep E pm pcm .sstore m = .err (.halt .outOfGas) m'
    else if m.evm.message.isStatic = true then ∃ m', opStep E pm pcm .sstore m = .err (.halt .writeInStaticContext) m'
    else ∃ warm' tries', opStep E pm pcm .sstore m = .ok () ⟨{ m.evm with
          stack := rest, gasLeft := m.evm.gasLeft - cost, pc := m.evm.pc + 1, accessedStorageKeys := warm'
          refundCounter := m.evm.refundCounter + writeRefund f original current new },
        { m.world with state := { m.world.state with storageTries := tries' } }⟩ ∧
      (∀ x, x ∈ warm' ↔ x ∈ m.evm.accessedStorageKeys ∨ (f.since .berlin = true ∧ x = (self, key))) ∧
      ∀ a k, getStorage { m.world.state with storageTries := tries' } a k =
        if a = self ∧ k = key then new else getStorage m.world.state a k := by
  intro self f current cost
  have hset : setStorage m.world.state self key new =
      .ok { m.world.state with storageTries := triesSet m.world.state.storageTries self key new } := by
    unfold accountExists at hacc
    unfold setStorage
    cases h : getAccountOptional m.world.state self with
    | none => rw [h] at hacc; cases hacc
    | some x => rfl
  have ho : ∃ o, sstoreOriginal m.world.state self key = .ok o ∧ sstoreGas f o current new = writePrice f original current new ∧
      sstoreRefund f o current new = writeRefund f original current new := by
    unfold sstoreOriginal
    by_cases hi : m.world.state.fork.since .istanbul = true
    · rw [if_pos hi, horig hi]; exact ⟨_, rfl, sstoreGas_eq _ _ _ _, sstoreRefund_eq _ _ _ _⟩
    · rw [if_neg hi]
      refine ⟨_, rfl, ?_, ?_⟩
      · rw [sstoreGas_eq]; unfold writePrice; rw [if_neg hi, if_neg hi]
      · rw [sstoreRefund_eq]; unfold writeRefund; simp only [show f.since .istanbul = false from by simpa using hi, Bool.false_eq_true, if_false]
  obtain ⟨o, ho, hgas, href⟩ := ho
  replace ho : sstoreOriginal m.world.state m.evm.message.currentTarget key = .ok o := ho
  rw [show opStep E pm pcm .sstore = opSstore from rfl]
  simp only [opSstore, bind_eq, pop, hst, getEvm, getState]
  by_cases hl : f.since .istanbul = true ∧ m.evm.gasLeft ≤ 2300
  · rw [if_pos (.inr hl), if_pos (c := m.world.state.fork.since .istanbul = true ∧ m.evm.gasLeft ≤ GAS_CALL_STIPEND) hl]; exact ⟨_, rfl⟩
  rw [if_neg (c := m.world.state.fork.since .istanbul = true ∧ m.evm.gasLeft ≤ GAS_CALL_STIPEND) hl]
  simp only [bind_eq, liftCrash, ho]
  have main : ∀ (keys : List (Address × Word)) (c : Nat), keys = slotWarm f m.evm.accessedStorageKeys (self, key) →
      c = coldSlot f m.evm.accessedStorageKeys self key → ∀ r, r = (do
        addRefund (sstoreRefund f o current new)
        chargeGas (c + sstoreGas f o current new)
        if m.evm.message.isStatic then raiseHalt .writeInStaticContext
        else do
          let s' ← liftCrash (setStorage m.world.state self key new)
          setState s'
          incPc 1 : M Unit) { m with evm := { m.evm with stack := rest, accessedStorageKeys := keys } } →
      if m.evm.gasLeft < cost ∨ (f.since .istanbul = true ∧ m.evm.gasLeft ≤ 2300) then ∃ m', r = .err (.halt .outOfGas) m'
      else if m.evm.message.isStatic = true then ∃ m', r = .err (.halt .writeInStaticContext) m'
      else ∃ warm' tries', r = .ok () ⟨{ m.evm with
            stack := rest, gasLeft := m.evm.gasLeft - cost, pc := m.evm.pc + 1, accessedStorageKeys := warm'
            refundCounter := m.evm.refundCounter + writeRefund f original current new },
          { m.world with state := { m.world.state with storageTries := tries' } }⟩ ∧
        (∀ x, x ∈ warm' ↔ x ∈ m.evm.accessedStorageKeys ∨ (f.since .berlin = true ∧ x = (self, key))) ∧
        ∀ a k, getStorage { m.world.state with storageTries := tries' } a k =
          if a = self ∧ k = key then new else getStorage m.world.state a k := by
    intro keys c hk hc r hr
    rw [hgas, href, hc] at hr
    simp only [bind_eq, addRefund, chargeGas] at hr
    by_cases hg : m.evm.gasLeft < cost
    · rw [if_pos (by exact hg)] at hr; rw [if_pos (.inl hg)]; exact ⟨_, hr⟩
    rw [if_neg (by exact hg)] at hr; rw [if_neg (fun h => h.elim hg hl)]
    dsimp only at hr
    by_cases hs : m.evm.message.isStatic = true
    · rw [if_pos hs] at hr ⊢; exact ⟨_, hr⟩
    rw [if_neg hs] at hr ⊢
    simp only [bind_eq, hset, liftCrash] at hr
    refine ⟨_, _, hr, fun x => ?_, fun a k => ?_⟩
    · rw [hk]
      by_cases hb : f.since .berlin = true
      · rw [mem_slotWarm hb]; simp [hb]
      · unfold slotWarm; rw [if_neg hb]; simp [hb]
    · show triesGet (triesSet m.world.state.storageTries _ _ _) a k = _
      rw [triesGet_triesSet hw.storage]
      simp only [eq_comm, getStorage]
  by_cases hb : f.since .berlin = true
  · by_cases hwarm : (self, key) ∈ m.evm.accessedStorageKeys
    · rw [if_pos (c := ¬ m.world.state.fork.since .berlin = true ∨ (m.evm.message.currentTarget, key) ∈ m.evm.accessedStorageKeys) (.inr hwarm)]
      exact main m.evm.accessedStorageKeys 0 (by simp [slotWarm, hb, setAdd_mem hwarm]) (by simp [coldSlot, hwarm]) _ rfl
    · rw [if_neg (c := ¬ m.world.state.fork.since .berlin = true ∨ (m.evm.message.currentTarget, key) ∈ m.evm.accessedStorageKeys) (fun h => h.elim (fun h => h hb) hwarm)]
      exact main (setAdd m.evm.accessedStorageKeys (self, key)) 2100 (by simp [slotWarm, hb]) (by simp [coldSlot, hb, hwarm]) _ rfl
  · rw [if_pos (c := ¬ m.world.state.fork.since .berlin = true ∨ (m.evm.message.currentTarget, key) ∈ m.evm.accessedStorageKeys) (.inl hb)]
    exact main m.evm.accessedStorageKeys 0 (by simp [slotWarm, hb]) (by simp [coldSlot, hb]) _ rfl

/-! ### Concrete cases -/

/-- A frame with one word of memory, holding the bytes 1 to 32. -/
def leavingFrame (static : Bool) (stack : List Word) : Mach :=
  let w := beginTransaction (Sample.worldOf [(0xaa, ⟨1, 55, [0x60, 0x61]⟩)] [(0xaa, 1, 5)])
  { evm := { initEvm { Sample.callTo w 0xaa 30000 3 with isStatic := static } with
      stack := stack, memory := (List.range 32).map fun i => UInt8.ofNat (i + 1) }
    world := w }

def left (m : Mach) (op : Op) : Option Exn × List Log × Bytes × Bool × Word × Word × Nat :=
  match opStep Sample.env (fun _ _ => .error (.outOfFuel, m.world)) (fun _ _ => .error (.outOfFuel, m.world)) op m with
  | .ok _ m' => (none, m'.evm.logs, m'.evm.output, m'.evm.running, getTransientStorage m'.world.transient 0xaa 1,
      getStorage m'.world.state 0xaa 1, m'.evm.gasLeft)
  | .err e m' => (some e, [], m'.evm.output, false, 0, 0, 0)

example : (leavingFrame false []).world.WF := (Sample.worldOf_wf _ _).begin
example : accountExists (leavingFrame false []).world.state 0xaa = true := by decide +kernel
example : left (leavingFrame false [30, 3, 7, 8]) (.log 2) = (none, [⟨0xaa, [7, 8], [31, 32, 0]⟩], [], true, 0, 5, 28848) ∧
    left (leavingFrame true [30, 3, 7, 8]) (.log 2) = (some (.halt .writeInStaticContext), [], [], false, 0, 0, 0) ∧
    left (leavingFrame true [30, 3, 7, 8]) .ret = (none, [], [31, 32, 0], false, 0, 5, 29997) ∧
    left (leavingFrame true [30, 3, 7, 8]) .revert = (some .revert, [], [31, 32, 0], false, 0, 0, 0) ∧
    left (leavingFrame false [1, 9]) .tstore = (none, [], [], true, 9, 5, 29900) ∧
    left (leavingFrame false [1, 9]) .sstore = (none, [], [], true, 0, 9, 25000) ∧
    left (leavingFrame true [1, 9]) .sstore = (some (.halt .writeInStaticContext), [], [], false, 0, 0, 0) := by
  refine ⟨?_, ?_, ?_, ?_, ?_, ?_, ?_⟩ <;> decide +kernel

end Verif.Props
