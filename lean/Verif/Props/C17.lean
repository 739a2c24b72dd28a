import Verif.Props.C09_C11
import Verif.Lemmas.AccessRun
import Verif.Lemmas.Trace
/-! C17: accounts and slots are paid for as cold at most once. -/
namespace Verif.Props
open Verif Verif.Spec

/-- **C17**, an instruction that touched an account or a slot and succeeded has made it warm, since berlin. -/
theorem C17_touched (E : Env) (op : Op) (m m' : Mach) (hm : WithinLimits m) (hb : m.world.state.fork.since .berlin = true) (h : step E op m = .ok () m') :
    (∀ a, TouchesAccount op m a → a ∈ m'.evm.accessedAddresses) ∧
    (∀ k, TouchesSlot op m k → (m.evm.message.currentTarget, k) ∈ m'.evm.accessedStorageKeys) := by
  have hcall : ∀ k : CallKind, op = k.op → ∀ a x, m.evm.stack[1]? = some x →
      (a = x.setWidth 160 ∨ delegateOf m.world.state (x.setWidth 160) = some a) →
      a ∈ m'.evm.accessedAddresses := by
    rintro k rfl a x hx ha
    have h : opStep E _ _ k.op m = .ok () m' := h
    rw [opStep_callOp] at h
    obtain ⟨o, ho, -, -, hc⟩ := callOp_inv hm.memory hm.stack h
    have hox : o.address = x.setWidth 160 := by
      cases k <;> (unfold callOperands at ho; split at ho <;> simp_all <;> (subst ho; simp_all))
    have hmid : a ∈ (callMid k m o).evm.accessedAddresses := by
      unfold delegateOf at ha
      rw [← hox, delegate_eq] at ha
      unfold getDelegatedCodeAddress at ha
      unfold callMid callFrame delWarm delegates
      rw [accWarm_berlin hb]
      by_cases hpr : m.world.state.fork.since .prague = true
      · simp only [hpr, Bool.true_and, if_true] at ha ⊢
        split
        · rw [mem_setAdd, mem_setAdd]; rename_i hd; simp only [hd, if_true, Option.some.injEq] at ha; grind
        · rw [mem_setAdd]; rename_i hd; simp_all
      · simp only [hpr, Bool.false_and, if_false, Bool.false_eq_true] at ha ⊢
        rw [mem_setAdd]; simp_all
    rcases hc with ⟨-, rfl⟩ | ⟨-, child, w, hp, rfl⟩
    · exact hmid
    · simp only [callDone, incorporate]
      split
      · exact hmid
      · exact (mem_setUpdate _ _ _).mpr (.inl hmid)
  have hlook : ∀ {m1 : Mach} {x : Word}, m.evm.stack[0]? = some x → looksAtAccount op → step E op m = .ok () m1 →
      (x.setWidth 160 : Address) ∈ m1.evm.accessedAddresses := by
    intro m1 x hx hop h1
    match hst : m.evm.stack with
    | [] => rw [hst] at hx; simp at hx
    | y :: rest =>
      rw [hst] at hx; simp only [List.getElem?_cons_zero, Option.some.injEq] at hx; subst hx
      cases op <;> simp only [looksAtAccount] at hop
      · have hr := opBalance_run hst hm.stack
        simp only at hr
        have h1 : opBalance m = .ok () m1 := h1
        split at hr
        · obtain ⟨_, hr⟩ := hr; rw [hr] at h1; cases h1
        · rw [hr] at h1; cases h1; exact (mem_accWarm hb _ _ _).mpr (by simp)
      · have h1 : opExtcodesize m = .ok () m1 := h1
        by_cases hcode : (getAccount m.world.state (y.setWidth 160)).code.length < 2 ^ 256
        · have hr := opExtcodesize_run hst hm.stack hcode
          simp only at hr
          split at hr
          · obtain ⟨_, hr⟩ := hr; rw [hr] at h1; cases h1
          · rw [hr] at h1; cases h1; exact (mem_accWarm hb _ _ _).mpr (by simp)
        · simp only [opExtcodesize, bind_eq, pop, hst, accessAddress_run, chargeGas, toAddressMasked, getState, (lookPrice_eq _ _ _).2.2.1, u256] at h1
          by_cases hg : m.evm.gasLeft < lookPrice m.world.state.fork .extcodesize m.evm.accessedAddresses (y.setWidth 160)
          · simp [hg] at h1
          · simp [hg, hcode] at h1
      · have h1 : opExtcodecopy m = .ok () m1 := h1
        match hrest : rest with
        | [] => simp [opExtcodecopy, bind_eq, pop, hst] at h1
        | [_] => simp [opExtcodecopy, bind_eq, pop, hst] at h1
        | [_, _] => simp [opExtcodecopy, bind_eq, pop, hst] at h1
        | start :: from_ :: size :: rest =>
          have hr := opExtcodecopy_run hm.memory hst
          simp only at hr
          split at hr
          · obtain ⟨_, hr⟩ := hr; rw [hr] at h1; cases h1
          · rw [hr] at h1; cases h1; exact (mem_accWarm hb _ _ _).mpr (by simp)
      · have hr := opExtcodehash_run E hst hm.stack
        simp only at hr
        have h1 : opExtcodehash E m = .ok () m1 := h1
        split at hr
        · obtain ⟨_, hr⟩ := hr; rw [hr] at h1; cases h1
        · rw [hr] at h1; cases h1; exact (mem_accWarm hb _ _ _).mpr (by simp)
  constructor
  · rintro a (⟨hop | rfl, x, hx, rfl⟩ | ⟨hop, x, hx, ha⟩)
    · exact hlook hx hop h
    · obtain ⟨y, rest, s1, hst, -, -, -, rfl⟩ := opSelfdestruct_inv h
      rw [hst] at hx; simp only [List.getElem?_cons_zero, Option.some.injEq] at hx; subst hx
      exact (mem_accWarm hb _ _ _).mpr (by simp)
    · rcases hop with rfl | rfl | rfl | rfl
      · exact hcall .call rfl a x hx ha
      · exact hcall .callcode rfl a x hx ha
      · exact hcall .delegatecall rfl a x hx ha
      · exact hcall .staticcall rfl a x hx ha
  · rintro k ⟨rfl | rfl, hk⟩
    · match hst : m.evm.stack with
      | [] => rw [hst] at hk; simp at hk
      | y :: rest =>
        rw [hst] at hk; simp only [List.getElem?_cons_zero, Option.some.injEq] at hk; subst hk
        have hr := opSload_run hst hm.stack
        simp only at hr
        have h : opSload m = .ok () m' := h
        split at hr
        · obtain ⟨_, hr⟩ := hr; rw [hr] at h; cases h
        · rw [hr] at h; cases h; exact (mem_slotWarm hb _ _ _).mpr (by simp [Mach.self])
    · obtain ⟨key, new, rest, orig, s', hst, -, -, -, -, -, rfl⟩ := opSstore_inv h
      rw [hst] at hk; simp only [List.getElem?_cons_zero, Option.some.injEq] at hk; subst hk
      exact (mem_slotWarm hb _ _ _).mpr (by simp [Mach.self])

/-- **C17**, what is warm stays warm as the frame goes on, through any instructions and any calls. -/
theorem C17_stays_warm (E : Env) (m m' : Mach) (hm : m.evm.stack.length ≤ 1024) (h : Steps E m m') :
    (∀ a ∈ m.evm.accessedAddresses, a ∈ m'.evm.accessedAddresses) ∧
    (∀ k ∈ m.evm.accessedStorageKeys, k ∈ m'.evm.accessedStorageKeys) := ⟨(h.frame hm).addrs, (h.frame hm).keys⟩

/-- **C17**, together: once an instruction of a frame has touched an account or a slot, it is warm for the rest of the
frame, so its access price is 100 from then on. -/
theorem C17_cold_once (E : Env) (op : Op) (m m1 m2 : Mach) (hm : WithinLimits m) (hb : m.world.state.fork.since .berlin = true) (h : step E op m = .ok () m1)
    (hr : Steps E m1 m2) :
    (∀ a, TouchesAccount op m a → accountPrice m.world.state.fork m2.evm.accessedAddresses a = 100 ∧
      ∀ op', lookPrice m.world.state.fork op' m2.evm.accessedAddresses a = 100) ∧
    (∀ k, TouchesSlot op m k → slotPrice m.world.state.fork m2.evm.accessedStorageKeys m.evm.message.currentTarget k = 100) := by
  obtain ⟨h1, h2⟩ := C17_touched E op m m1 hm hb h
  obtain ⟨h3, h4⟩ := C17_stays_warm E m1 m2 (opStep_limits hm h).stack hr
  refine ⟨fun a ha => ⟨?_, fun op' => ?_⟩, fun k hk => ?_⟩
  · unfold accountPrice; rw [if_pos hb, if_pos (h3 a (h1 a ha))]
  · unfold lookPrice; rw [if_pos hb, if_pos (h3 a (h1 a ha))]
  · unfold slotPrice; rw [if_pos hb, if_pos (h4 _ (h2 k hk))]

/-- **C17**, a callee starts with what is warm for its caller, and what it warms stays warm for the caller if it succeeds
and is forgotten if it fails. For any procedure `pm` that runs messages. -/
theorem C17_callee (E : Env) (pm pcm : Sub) (k : CallKind) (m m' : Mach) (hm : WithinLimits m) (hb : m.world.state.fork.since .berlin = true)
    (h : opStep E pm pcm k.op m = .ok () m') :
    ∃ o, callOperands k m.evm.stack = some o ∧
    let Warm (a : Address) := a ∈ m.evm.accessedAddresses ∨ a = o.address ∨
      delegateOf m.world.state o.address = some a
    ((∀ a, a ∈ m'.evm.accessedAddresses ↔ Warm a) ∧ m'.evm.accessedStorageKeys = m.evm.accessedStorageKeys ∧
        m'.evm.stack.head? = some 0) ∨
    ∃ msg child w, pm msg m.world = .ok (child, w) ∧
      (∀ a, a ∈ msg.accessedAddresses ↔ Warm a) ∧ msg.accessedStorageKeys = m.evm.accessedStorageKeys ∧
      (if child.error = none then
        (∀ a, a ∈ m'.evm.accessedAddresses ↔ Warm a ∨ a ∈ child.accessedAddresses) ∧
        (∀ x, x ∈ m'.evm.accessedStorageKeys ↔ x ∈ m.evm.accessedStorageKeys ∨ x ∈ child.accessedStorageKeys)
      else (∀ a, a ∈ m'.evm.accessedAddresses ↔ Warm a) ∧ m'.evm.accessedStorageKeys = m.evm.accessedStorageKeys) := by
  have hwarm : ∀ o a, a ∈ (callMid k m o).evm.accessedAddresses ↔
      a ∈ m.evm.accessedAddresses ∨ a = o.address ∨ delegateOf m.world.state o.address = some a := by
    intro o a
    unfold delegateOf
    rw [delegate_eq]
    unfold callMid callFrame getDelegatedCodeAddress delWarm delegates
    rw [accWarm_berlin hb]
    by_cases hp : m.world.state.fork.since .prague = true
    · simp only [hp, Bool.true_and, if_true]
      split
      · rw [mem_setAdd, mem_setAdd]; simp only [Option.some.injEq]; grind
      · rw [mem_setAdd]; simp
    · simp only [hp, Bool.false_and, if_false, Bool.false_eq_true]
      rw [mem_setAdd]; simp
  rw [opStep_callOp] at h
  obtain ⟨o, ho, -, -, hc⟩ := callOp_inv hm.memory hm.stack h
  refine ⟨o, ho, ?_⟩
  rcases hc with ⟨-, rfl⟩ | ⟨-, child, w, hp, rfl⟩
  · exact .inl ⟨hwarm o, rfl, rfl⟩
  · refine .inr ⟨_, child, w, hp, hwarm o, rfl, ?_⟩
    simp only [callDone, incorporate]
    cases he : child.error with
    | none =>
      simp only [Option.isSome_none, Bool.false_eq_true, if_false, if_true, mem_setUpdate]
      exact ⟨fun a => or_congr (hwarm o a) Iff.rfl, fun x => Iff.rfl⟩
    | some x =>
      simp only [Option.isSome_some, if_true, reduceCtorEq, if_false]
      exact ⟨hwarm o, rfl⟩

/-! ### Prices -/

/-- **C17**, BALANCE and EXTCODEHASH: either the price cannot be paid, or it is paid and the result is pushed. Since berlin the prices
are 100 for a warm account and 2600 for a cold one. -/
theorem C17_balance (E : Env) (m : Mach) (x : Word) (rest : List Word) (hst : m.evm.stack = x :: rest)
    (hlen : m.evm.stack.length ≤ 1024) :
    let a : Address := x.setWidth 160
    let price := lookPrice m.world.state.fork .balance m.evm.accessedAddresses a
    if m.evm.gasLeft < price then ∃ m', step E .balance m = .err (.halt .outOfGas) m'
    else ∃ m', step E .balance m = .ok () m' ∧ m'.evm.gasLeft = m.evm.gasLeft - price ∧
      m'.evm.stack = (getAccount m.world.state a).balance :: rest ∧ m'.world = m.world := by
  intro a price
  have hr := opBalance_run hst hlen
  simp only at hr
  have hp : price = lookPrice m.world.state.fork .balance m.evm.accessedAddresses a := rfl
  rw [hp]
  split
  · rename_i h; rw [if_pos h] at hr; exact hr
  · rename_i h; rw [if_neg h] at hr; exact ⟨_, hr, rfl, rfl, rfl⟩

theorem C17_extcodehash (E : Env) (m : Mach) (x : Word) (rest : List Word) (hst : m.evm.stack = x :: rest)
    (hlen : m.evm.stack.length ≤ 1024) :
    let a : Address := x.setWidth 160
    let price := lookPrice m.world.state.fork .extcodehash m.evm.accessedAddresses a
    if m.evm.gasLeft < price then ∃ m', step E .extcodehash m = .err (.halt .outOfGas) m'
    else ∃ m', step E .extcodehash m = .ok () m' ∧ m'.evm.gasLeft = m.evm.gasLeft - price ∧ m'.world = m.world ∧
      m'.evm.stack = (if dead m.world.state a then 0 else E.crypto.keccak256 (getAccount m.world.state a).code) :: rest := by
  intro a price
  have hr := opExtcodehash_run E hst hlen
  simp only at hr
  have hp : price = lookPrice m.world.state.fork .extcodehash m.evm.accessedAddresses a := rfl
  rw [hp]
  split
  · rename_i h; rw [if_pos h] at hr; exact hr
  · rename_i h; rw [if_neg h] at hr
    refine ⟨_, hr, rfl, rfl, ?_⟩
    have : getAccount m.world.state a = emptyAccount ↔ dead m.world.state a := by
      unfold dead emptyAccount
      cases getAccount m.world.state a; simp
    simp only [touched, a, ← this]

/-- **C17**, EXTCODESIZE, for code that a U256 can count. -/
theorem C17_extcodesize (E : Env) (m : Mach) (x : Word) (rest : List Word) (hst : m.evm.stack = x :: rest)
    (hlen : m.evm.stack.length ≤ 1024) (hcode : (getAccount m.world.state (x.setWidth 160)).code.length < 2 ^ 256) :
    let a : Address := x.setWidth 160
    let price := lookPrice m.world.state.fork .extcodesize m.evm.accessedAddresses a
    if m.evm.gasLeft < price then ∃ m', step E .extcodesize m = .err (.halt .outOfGas) m'
    else ∃ m' size, step E .extcodesize m = .ok () m' ∧ m'.evm.gasLeft = m.evm.gasLeft - price ∧ m'.world = m.world ∧
      m'.evm.stack = size :: rest ∧ size.toNat = (getAccount m.world.state a).code.length := by
  intro a price
  have hr := opExtcodesize_run hst hlen hcode
  simp only at hr
  have hp : price = lookPrice m.world.state.fork .extcodesize m.evm.accessedAddresses a := rfl
  rw [hp]
  split
  · rename_i h; rw [if_pos h] at hr; exact hr
  · rename_i h; rw [if_neg h] at hr
    exact ⟨_, _, hr, rfl, rfl, rfl, by rw [BitVec.toNat_ofNat]; exact Nat.mod_eq_of_lt hcode⟩

/-- **C17**, EXTCODECOPY: the access, 3 per word copied, and memory. -/
theorem C17_extcodecopy (E : Env) (m : Mach) (hm : WithinLimits m) (x start from_ size : Word) (rest : List Word)
    (hst : m.evm.stack = x :: start :: from_ :: size :: rest) :
    let a : Address := x.setWidth 160
    let words := m.evm.memory.length / 32
    let price := lookPrice m.world.state.fork .extcodecopy m.evm.accessedAddresses a + 3 * wordsFor 0 size +
      (memoryPrice (max words (wordsFor start size)) - memoryPrice words)
    if m.evm.gasLeft < price then ∃ m', step E .extcodecopy m = .err (.halt .outOfGas) m'
    else ∃ m', step E .extcodecopy m = .ok () m' ∧ m'.evm.gasLeft = m.evm.gasLeft - price ∧ m'.world = m.world ∧
      m'.evm.stack = rest := by
  intro a words price
  have hr := opExtcodecopy_run hm.memory hst
  simp only at hr
  have hp : price = lookPrice m.world.state.fork .extcodecopy m.evm.accessedAddresses a + 3 * wordsFor 0 size +
      (memoryPrice (max words (wordsFor start size)) - memoryPrice words) := rfl
  rw [hp]
  split
  · rename_i h; rw [if_pos h] at hr; exact hr
  · rename_i h; rw [if_neg h] at hr; exact ⟨_, hr, rfl, rfl, rfl⟩

/-- **C17**, SLOAD. -/
theorem C17_sload (E : Env) (m : Mach) (key : Word) (rest : List Word) (hst : m.evm.stack = key :: rest)
    (hlen : m.evm.stack.length ≤ 1024) :
    let self := m.evm.message.currentTarget
    let price := slotPrice m.world.state.fork m.evm.accessedStorageKeys self key
    if m.evm.gasLeft < price then ∃ m', step E .sload m = .err (.halt .outOfGas) m'
    else ∃ m', step E .sload m = .ok () m' ∧ m'.evm.gasLeft = m.evm.gasLeft - price ∧ m'.world = m.world ∧
      m'.evm.stack = getStorage m.world.state self key :: rest := by
  intro self price
  have hr := opSload_run hst hlen
  simp only at hr
  have hp : price = slotPrice m.world.state.fork m.evm.accessedStorageKeys m.self key := rfl
  rw [hp]
  split
  · rename_i h; rw [if_pos h] at hr; exact hr
  · rename_i h; rw [if_neg h] at hr; exact ⟨_, hr, rfl, rfl, rfl⟩

/-- **C17**, SSTORE: more than 2300 gas is needed, since istanbul; 2100 for a cold slot, since berlin; and a price and a refund that
depend on the value at the start of the transaction (before istanbul they do not), the present one and the new one. -/
theorem C17_sstore (E : Env) (m m' : Mach) (h : step E .sstore m = .ok () m') :
    ∃ key new rest original, m.evm.stack = key :: new :: rest ∧ m'.evm.stack = rest ∧
      let self := m.evm.message.currentTarget
      let f := m.world.state.fork
      (f.since .istanbul = true → getStorageOriginal m.world.state self key = .ok original) ∧
      let current := getStorage m.world.state self key
      let price := (if f.since .berlin = true ∧ (self, key) ∉ m.evm.accessedStorageKeys then 2100 else 0) +
        writePrice f original current new
      (f.since .istanbul = true → 2300 < m.evm.gasLeft) ∧ m'.evm.gasLeft + price = m.evm.gasLeft ∧
      m'.evm.refundCounter = m.evm.refundCounter + writeRefund f original current new ∧
      setStorage m.world.state self key new = .ok m'.world.state := by
  obtain ⟨key, new, rest, orig, s', hst, hg, -, ho, hs, hc, rfl⟩ := opSstore_inv h
  refine ⟨key, new, rest, orig, hst, rfl, fun hi => by simpa [sstoreOriginal, hi] using ho, hg, ?_, rfl, hs⟩
  simp only
  exact Nat.sub_add_cancel hc

/-- **C17**, SELFDESTRUCT: 5000, 2600 for a cold beneficiary since berlin, 25000 if ether is sent to an account that is dead; see
`selfdestructPrice` for the forks before spurious_dragon. -/
theorem C17_selfdestruct (E : Env) (m m' : Mach) (h : step E .selfdestruct m = .ok () m') :
    ∃ x rest, m.evm.stack = x :: rest ∧
      let b : Address := x.setWidth 160
      m'.evm.gasLeft + selfdestructPrice m b = m.evm.gasLeft ∧
      (m.world.state.fork.since .berlin = true → selfdestructPrice m b = 5000 + (if b ∈ m.evm.accessedAddresses then 0 else 2600) +
        (if dead m.world.state b ∧ (getAccount m.world.state m.evm.message.currentTarget).balance ≠ 0 then 25000 else 0)) := by
  obtain ⟨x, rest, s1, hst, -, -, hc, rfl⟩ := opSelfdestruct_inv h
  refine ⟨x, rest, hst, Nat.sub_add_cancel hc, fun hb => ?_⟩
  have h1 : m.world.state.fork.since .spuriousDragon = true := by revert hb; cases m.world.state.fork <;> decide
  have h2 := tangerine_of_spurious h1
  unfold selfdestructPrice coldAccount
  simp only [h1, h2, hb, if_true, true_and]
  grind

/-! ### Concrete cases -/
section Examples
open Verif.Sample

def looking (warm : List Address) : Mach :=
  let m := frameOf busyWorld 0xcc 60000 false [0xaa, 7]
  { m with evm := { m.evm with accessedAddresses := warm } }
def seen (op : Op) (m : Mach) : Option (Nat × List Word × List Address × List (Address × Word)) :=
  match step env op m with
  | .ok _ m' => some (m'.evm.gasLeft, m'.evm.stack, m'.evm.accessedAddresses, m'.evm.accessedStorageKeys)
  | .err _ _ => none

example : WithinLimits (looking []) := ⟨by decide, by decide, by decide⟩
/-- Cold, then warm. -/
example : seen .balance (looking []) = some (57400, [50, 7], [0xaa], []) := by decide +kernel
example : seen .balance (looking [0xaa]) = some (59900, [50, 7], [0xaa], []) := by decide +kernel
example : seen .extcodesize (looking []) = some (57400, [14, 7], [0xaa], []) := by decide +kernel
example : TouchesAccount .balance (looking []) 0xaa := .inl ⟨.inl trivial, 0xaa, rfl, by decide +kernel⟩
/-- SSTORE of a cold empty slot: 22100. -/
example : seen .sstore (frameOf busyWorld 0xcc 60000 false [0, 7]) = some (37900, [], [], [(0xcc, 0)]) := by decide +kernel
example : seen .sload (frameOf busyWorld 0xcc 60000 false [0]) = some (57900, [0], [], [(0xcc, 0)]) := by decide +kernel

/-- A failing callee: only the callee itself stays warm. A successful one: what it has written, too. -/
example : seen .call (frameOf busyWorld 0xcc 60000 false [50000, 0xaa, 0, 0, 0, 0, 0]) = some (51907, [0], [0xaa], []) := by
  decide +kernel
example : seen .call (frameOf busyWorld 0xcc 60000 false [50000, 0xbb, 0, 0, 0, 0, 0]) = some (34807, [1], [0xbb], [(0xbb, 0)]) := by
  decide +kernel

end Examples
end Verif.Props
