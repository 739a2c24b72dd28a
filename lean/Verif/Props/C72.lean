import Verif.Lemmas.MemoryRun
import Verif.Spec.Sample
/-!
Property C72: memory is an endless array of bytes, zero at first; the instructions that write to it or read from it act on exactly their
range and pay for the words used for the first time. The hypotheses on the frame are those that C12 proves for all frames.
-/
namespace Verif.Props
open Verif Spec

variable (E : Env) (pm pcm : Sub) (m : Mach) (hm : WithinLimits m)
include hm

/-- **C72**, writes: MSTORE, MSTORE8, CALLDATACOPY, CODECOPY, RETURNDATACOPY and MCOPY, in every fork that has them. They run out of gas if
the price, with that of the growth of memory, cannot be paid. RETURNDATACOPY past the end of the data halts. Otherwise the range holds
the new bytes, all other bytes are the same, memory is as many words long as were ever used, and nothing else changes. -/
theorem C72_write (hret : m.evm.returnData.length < 2 ^ 256) (op : Op) (w : Write) (h : writeOf m op m.evm.stack = some w) :
    let cost := w.price + growthPrice m w.needed
    if m.evm.gasLeft < cost then ∃ m', opStep E pm pcm op m = .err (.halt .outOfGas) m'
    else (PastEnd m op → ∃ m', opStep E pm pcm op m = .err (.halt .outOfBoundsRead) m') ∧
      (¬ PastEnd m op → ∃ mem', opStep E pm pcm op m = .ok () { m with evm :=
          { m.evm with stack := w.rest, memory := mem', gasLeft := m.evm.gasLeft - cost, pc := m.evm.pc + 1 } } ∧
        Written m.evm.memory mem' (wordsAfter m w.needed) w.start.toNat w.size.toNat w.byte) := by
  have ha : Aligned m.evm.memory := hm.memory
  intro cost
  have fits := fun n => memory_le_after ha n
  have after : ∀ {s z : Word} {n : Nat}, wordsFor s z ≤ n → z.toNat = 0 ∨ s.toNat + z.toNat ≤ 32 * wordsAfter m n := fun h =>
    range_fits (Nat.le_trans h (Nat.le_max_right _ _))
  have bytes : ∀ (b : Bytes) (s n k : Nat), k < n → cell (bytesAt b s n) k = cell b (s + k) := fun b s n k h => by
    rw [cell_eq, bytesAt_cell _ _ _ _ h]; rfl
  match op, hst : m.evm.stack, h with
  | .mstore, a :: v :: rest, h =>
    cases h
    rw [show opStep E pm pcm .mstore = opMstore from rfl]
    simp only [opMstore, bind_eq, pop, hst, extendCost, getEvm, pure_eq, growth_eq ha, chargeGas, GAS_VERY_LOW]
    by_cases hg : m.evm.gasLeft < cost
    · rw [if_pos hg, if_pos hg]; exact ⟨_, rfl⟩
    rw [if_neg hg, if_neg hg]
    refine ⟨fun h => h.elim, fun _ => ⟨_, rfl, ?_⟩⟩
    exact write_grown (fits _) (after (Nat.le_refl _)) (toBE_length 32 _) fun k hk => cell_toBE 32 _ k hk
  | .mstore8, a :: v :: rest, h =>
    cases h
    rw [show opStep E pm pcm .mstore8 = opMstore8 from rfl]
    simp only [opMstore8, bind_eq, pop, hst, extendCost, getEvm, pure_eq, growth_eq ha, chargeGas, GAS_VERY_LOW]
    by_cases hg : m.evm.gasLeft < cost
    · rw [if_pos hg, if_pos hg]; exact ⟨_, rfl⟩
    rw [if_neg hg, if_neg hg]
    refine ⟨fun h => h.elim, fun _ => ⟨_, rfl, ?_⟩⟩
    refine write_grown (fits _) (after (Nat.le_refl _)) rfl fun k hk => ?_
    have hk : k = 0 := by have : k < 1 := hk; omega
    subst hk
    show UInt8.ofNat (v &&& 0xFF).toNat = UInt8.ofNat (v.toNat / 1)
    rw [Nat.div_one, BitVec.toNat_and, show BitVec.toNat (0xFF : Word) = 2 ^ 8 - 1 from rfl, Nat.and_two_pow_sub_one_eq_mod]
    apply UInt8.toNat_inj.mp
    simp
  | .calldatacopy, a :: b :: n :: rest, h =>
    cases h
    rw [show opStep E pm pcm .calldatacopy = opCalldatacopy from rfl]
    simp only [opCalldatacopy, bind_eq, pop, hst, extendCost, getEvm, pure_eq, growth_eq ha, chargeGas, GAS_VERY_LOW, GAS_COPY, ← words_zero,
      bufferRead_eq]
    by_cases hg : m.evm.gasLeft < cost
    · rw [if_pos hg, if_pos hg]; exact ⟨_, rfl⟩
    rw [if_neg hg, if_neg hg]
    refine ⟨fun h => h.elim, fun _ => ⟨_, rfl, ?_⟩⟩
    exact write_grown (fits _) (after (Nat.le_refl _)) (bytesAt_length _ _ _) fun k hk => bytes _ _ _ k hk
  | .codecopy, a :: b :: n :: rest, h =>
    cases h
    rw [show opStep E pm pcm .codecopy = opCodecopy from rfl]
    simp only [opCodecopy, bind_eq, pop, hst, extendCost, getEvm, pure_eq, growth_eq ha, chargeGas, GAS_VERY_LOW, GAS_COPY, ← words_zero,
      bufferRead_eq]
    by_cases hg : m.evm.gasLeft < cost
    · rw [if_pos hg, if_pos hg]; exact ⟨_, rfl⟩
    rw [if_neg hg, if_neg hg]
    refine ⟨fun h => h.elim, fun _ => ⟨_, rfl, ?_⟩⟩
    exact write_grown (fits _) (after (Nat.le_refl _)) (bytesAt_length _ _ _) fun k hk => bytes _ _ _ k hk
  | .mcopy, a :: b :: n :: rest, h =>
    cases h
    rw [show opStep E pm pcm .mcopy = opMcopy from rfl]
    simp only [opMcopy, bind_eq, pop, hst, extendCost, getEvm, pure_eq, growth_two ha, chargeGas, GAS_VERY_LOW, GAS_COPY, ← words_zero]
    by_cases hg : m.evm.gasLeft < cost
    · rw [if_pos hg, if_pos hg]; exact ⟨_, rfl⟩
    rw [if_neg hg, if_neg hg]
    refine ⟨fun h => h.elim, fun _ => ⟨_, rfl, ?_⟩⟩
    have hr := read_grown (fits (max (wordsFor b n) (wordsFor a n))) (after (Nat.le_max_left (wordsFor b n) (wordsFor a n)))
    refine write_grown (fits _) (after (Nat.le_max_right _ _)) (show (memoryReadBytes (grown _ _) _ _).length = _ from ?_) fun k hk => ?_
    · rw [hr, bytesAt_length]
    · dsimp only
      rw [hr]; exact bytes _ _ _ k hk
  | .returndatacopy, a :: b :: n :: rest, h =>
    cases h
    have hpast : PastEnd m .returndatacopy ↔ m.evm.returnData.length < b.toNat + n.toNat :=
      ⟨fun ⟨_, _, _, _, h1, h2⟩ => by rw [hst] at h1; cases h1; exact h2, fun h => ⟨_, _, _, _, hst, h⟩⟩
    rw [hpast]
    rw [show opStep E pm pcm .returndatacopy = opReturndatacopy from rfl]
    simp only [opReturndatacopy, bind_eq, pop, hst, extendCost, getEvm, pure_eq, growth_eq ha, chargeGas, GAS_VERY_LOW, GAS_RETURN_DATA_COPY,
      ← words_zero]
    by_cases hg : m.evm.gasLeft < cost
    · rw [if_pos hg, if_pos hg]; exact ⟨_, rfl⟩
    rw [if_neg hg, if_neg hg]
    dsimp only
    refine ⟨fun h => ?_, fun h => ?_⟩
    · rw [if_pos h]; exact ⟨_, rfl⟩
    · rw [if_neg h]
      have hlt : b.toNat + n.toNat < 2 ^ 256 := by omega
      have hu : ∀ m', u256 (b.toNat + n.toNat) m' = .ok (BitVec.ofNat 256 (b.toNat + n.toNat)) m' := fun m' => if_pos hlt
      have hv : (BitVec.ofNat 256 (b.toNat + n.toNat)).toNat = b.toNat + n.toNat := by rw [BitVec.toNat_ofNat, Nat.mod_eq_of_lt hlt]
      have hsl := slice_eq_bytesAt (b := m.evm.returnData) (s := b.toNat) (n := n.toNat) (.inr (by omega))
      simp only [expandMemory, bind_eq, hu, hv, hsl]
      refine ⟨_, rfl, ?_⟩
      exact write_grown (fits _) (after (Nat.le_refl _)) (bytesAt_length _ _ _) fun k hk => bytes _ _ _ k hk

/-- **C72**, EXTCODECOPY, which also pays for the access to the account and makes it warm (C17). -/
theorem C72_extcodecopy (x a b n : Word) (rest : List Word) (hst : m.evm.stack = x :: a :: b :: n :: rest) :
    let address : Address := x.setWidth 160
    let cost := lookPrice m.world.state.fork .extcodecopy m.evm.accessedAddresses address + 3 * wordsFor 0 n + growthPrice m (wordsFor a n)
    if m.evm.gasLeft < cost then ∃ m', opStep E pm pcm .extcodecopy m = .err (.halt .outOfGas) m'
    else ∃ mem' warm', opStep E pm pcm .extcodecopy m = .ok () { m with evm := { m.evm with
          stack := rest, memory := mem', gasLeft := m.evm.gasLeft - cost, pc := m.evm.pc + 1, accessedAddresses := warm' } } ∧
      (∀ c, c ∈ warm' ↔ c ∈ m.evm.accessedAddresses ∨ (m.world.state.fork.since .berlin = true ∧ c = address)) ∧
      Written m.evm.memory mem' (wordsAfter m (wordsFor a n)) a.toNat n.toNat
        fun k => cell (getAccount m.world.state address).code (b.toNat + k) := by
  have ha : Aligned m.evm.memory := hm.memory
  intro address cost
  have hr := opExtcodecopy_run ha hst
  simp only [bufferRead_eq] at hr
  rw [show opStep E pm pcm .extcodecopy = opExtcodecopy from rfl]
  by_cases hg : m.evm.gasLeft < cost
  · rw [if_pos hg]; rw [if_pos (by exact hg)] at hr; exact hr
  · rw [if_neg hg]; rw [if_neg (by exact hg)] at hr
    refine ⟨_, _, hr, fun c => ?_, ?_⟩
    · show c ∈ accWarm _ _ _ ↔ _
      by_cases hb : m.world.state.fork.since .berlin = true
      · rw [mem_accWarm hb]; simp [hb, address]
      · unfold accWarm; rw [if_neg hb]; simp [hb]
    · exact write_grown (memory_le_after ha _) (range_fits (Nat.le_max_right _ _)) (bytesAt_length _ _ _) fun k hk => by
        rw [cell_eq, bytesAt_cell _ _ _ _ hk]; rfl

/-- **C72**, reads: MLOAD and KECCAK256. Bytes never written are read as zeros. Memory grows to hold the range, and all its bytes stay the
same. -/
theorem C72_read (op : Op) (r : Read) (h : readOf E m op m.evm.stack = some r) :
    let cost := r.price + growthPrice m (wordsFor r.start r.size)
    if m.evm.gasLeft < cost then ∃ m', opStep E pm pcm op m = .err (.halt .outOfGas) m'
    else ∃ mem', opStep E pm pcm op m = .ok () { m with evm :=
          { m.evm with stack := r.result :: r.rest, memory := mem', gasLeft := m.evm.gasLeft - cost, pc := m.evm.pc + 1 } } ∧
        mem'.length = 32 * wordsAfter m (wordsFor r.start r.size) ∧ ∀ i, cell mem' i = cell m.evm.memory i := by
  have ha : Aligned m.evm.memory := hm.memory
  have hlen := hm.stack
  intro cost
  have rd : ∀ s z : Word, memoryReadBytes (m.evm.memory ++ List.replicate (32 * wordsAfter m (wordsFor s z) - m.evm.memory.length) 0) s.toNat z.toNat =
      bytesAt m.evm.memory s.toNat z.toNat := fun s z => read_grown (memory_le_after ha _) (range_fits (Nat.le_max_right _ _))
  match op, hst : m.evm.stack, h with
  | .mload, a :: rest, h =>
    cases h
    have hl : rest.length ≤ 1023 := by rw [hst] at hlen; simpa using hlen
    have rd' := rd a 32
    rw [show BitVec.toNat (32 : Word) = 32 from rfl, ← bufferRead_eq] at rd'
    rw [show opStep E pm pcm .mload = opMload from rfl]
    simp only [opMload, bind_eq, pop, hst, extendCost, getEvm, pure_eq, growth_eq ha, chargeGas, GAS_VERY_LOW, expandMemory]
    by_cases hg : m.evm.gasLeft < cost
    · rw [if_pos hg, if_pos hg]; exact ⟨_, rfl⟩
    rw [if_neg hg, if_neg hg]
    simp only [rd', fromBE_bufferRead]
    rw [push_run (by simpa using hl)]
    exact ⟨_, rfl, grown_length (memory_le_after ha _), cell_grown _ _⟩
  | .keccak, a :: n :: rest, h =>
    cases h
    have hl : rest.length ≤ 1023 := by rw [hst] at hlen; simp at hlen; omega
    rw [show opStep E pm pcm .keccak = opKeccak E from rfl]
    simp only [opKeccak, bind_eq, pop, hst, extendCost, getEvm, pure_eq, growth_eq ha, chargeGas, GAS_KECCAK256, GAS_KECCAK256_WORD, ← words_zero,
      expandMemory]
    by_cases hg : m.evm.gasLeft < cost
    · rw [if_pos hg, if_pos hg]; exact ⟨_, rfl⟩
    rw [if_neg hg, if_neg hg]
    simp only [rd]
    rw [push_run (by simpa using hl)]
    exact ⟨_, rfl, grown_length (memory_le_after ha _), cell_grown _ _⟩

omit hm

/-- A frame with one word of memory, holding the bytes 1 to 32, and two bytes of return data. -/
def memoryFrame (stack : List Word) : Mach :=
  let w := Sample.worldOf [(0xaa, ⟨1, 55, [0x60, 0x61]⟩)] []
  { evm := { initEvm (Sample.callTo w 0xaa 1000 3) with
      stack := stack, memory := (List.range 32).map fun i => UInt8.ofNat (i + 1), returnData := [0xab, 0xcd] }
    world := w }

/-- The memory, the top of the stack and the gas after a step; or the exception. -/
def after (m : Mach) (op : Op) : Option Exn × Option (Bytes × Option Word × Nat) :=
  match opStep Sample.env (fun _ _ => .error (.outOfFuel, m.world)) (fun _ _ => .error (.outOfFuel, m.world)) op m with
  | .ok _ m' => (none, some (m'.evm.memory, m'.evm.stack.head?, m'.evm.gasLeft))
  | .err e _ => (some e, none)

example : WithinLimits (memoryFrame [1, 2]) := ⟨by decide, by decide, by decide⟩

/-- MLOAD across the end of memory adds a word of zeros and pays 3 more; MSTORE8 of 0x1234 writes one byte; MCOPY moves overlapping
bytes as they were before; RETURNDATACOPY of more than there is halts; CODECOPY of nothing far away needs no memory. -/
example : after (memoryFrame [31]) .mload =
      (none, some (((List.range 32).map fun i => UInt8.ofNat (i + 1)) ++ List.replicate 32 0, some (32 * 256 ^ 31), 994)) ∧
    after (memoryFrame [0, 0x1234]) .mstore8 = (none, some (0x34 :: (List.range 31).map fun i => UInt8.ofNat (i + 2), none, 997)) ∧
    after (memoryFrame [1, 0, 31]) .mcopy = (none, some (1 :: (List.range 31).map fun i => UInt8.ofNat (i + 1), none, 994)) ∧
    after (memoryFrame [0, 1, 2]) .returndatacopy = (some (.halt .outOfBoundsRead), none) ∧
    after (memoryFrame [2 ^ 255, 1, 0]) .codecopy = (none, some ((List.range 32).map fun i => UInt8.ofNat (i + 1), none, 997)) ∧
    after (memoryFrame [2 ^ 255, 1]) .mstore = (some (.halt .outOfGas), none) := by
  refine ⟨?_, ?_, ?_, ?_, ?_, ?_⟩ <;> decide +kernel

end Verif.Props
