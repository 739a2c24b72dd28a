import Verif.Spec.MemoryOps
import Verif.Lemmas.AccessRun
import Verif.Lemmas.NoCrashRun
import Verif.Props.C49
/-! Ranges of memory after it has been made long enough. -/
namespace Verif
open Spec

/-- Memory made `n` words long. -/
def grown (mem : Bytes) (n : Nat) : Bytes := mem ++ List.replicate (32 * n - mem.length) 0

theorem cell_eq (b : Bytes) (i : Nat) : cell b i = (b[i]?).getD 0 := by unfold cell; rw [List.getD_eq_getElem?_getD]

theorem cell_grown (mem : Bytes) (n i : Nat) : cell (grown mem n) i = cell mem i := by
  rw [cell_eq, cell_eq]; unfold grown
  rw [List.getElem?_append]
  split
  · rfl
  · rename_i h
    rw [List.getElem?_eq_none (l := mem) (by omega), List.getElem?_replicate]
    split <;> rfl

theorem grown_length {mem : Bytes} {n : Nat} (h : mem.length ≤ 32 * n) : (grown mem n).length = 32 * n := by
  unfold grown; rw [List.length_append, List.length_replicate]; omega

theorem bytesAt_length (b : Bytes) (s n : Nat) : (bytesAt b s n).length = n := by unfold bytesAt; simp

theorem bytesAt_cell (b : Bytes) (s n k : Nat) (h : k < n) : (bytesAt b s n)[k]? = some (cell b (s + k)) := by
  unfold bytesAt; rw [List.getElem?_map, List.getElem?_range h]; rfl

theorem bytesAt_congr {b c : Bytes} (s n : Nat) (h : ∀ i, cell b i = cell c i) : bytesAt b s n = bytesAt c s n := by
  unfold bytesAt; simp only [h]

theorem bufferRead_eq (b : Bytes) (s n : Nat) : bufferRead b s n = bytesAt b s n := by
  apply List.ext_getElem?
  intro k
  by_cases hk : k < n
  · rw [bytesAt_cell _ _ _ _ hk, cell_eq]
    unfold bufferRead rightPad slice
    rw [List.getElem?_append, List.getElem?_take, List.getElem?_drop]
    split
    · rename_i h
      rw [List.length_take, List.length_drop] at h
      rw [if_pos (by omega), List.getElem?_eq_getElem (by omega)]; rfl
    · rename_i h
      rw [List.length_take, List.length_drop] at h ⊢
      rw [List.getElem?_replicate, if_pos (by omega), List.getElem?_eq_none (by omega)]; rfl
  · rw [List.getElem?_eq_none (by rw [bufferRead_length]; omega), List.getElem?_eq_none (by rw [bytesAt_length]; omega)]

theorem slice_eq_bytesAt {b : Bytes} {s n : Nat} (h : n = 0 ∨ s + n ≤ b.length) : slice b s (s + n) = bytesAt b s n := by
  rcases h with rfl | h
  · unfold slice bytesAt; simp
  · rw [← bufferRead_eq]; unfold bufferRead rightPad
    rw [show n - (slice b s (s + n)).length = 0 by unfold slice; rw [List.length_take, List.length_drop]; omega]
    simp

/-- Reading a range of the grown memory. -/
theorem read_grown {mem : Bytes} {n s z : Nat} (hm : mem.length ≤ 32 * n) (h : z = 0 ∨ s + z ≤ 32 * n) :
    memoryReadBytes (grown mem n) s z = bytesAt mem s z := by
  unfold memoryReadBytes
  rw [slice_eq_bytesAt (by rw [grown_length hm]; exact h)]
  exact bytesAt_congr _ _ (cell_grown mem n)

/-- Writing a range of the grown memory. -/
theorem write_grown {mem v : Bytes} {n s z : Nat} (hm : mem.length ≤ 32 * n) (h : z = 0 ∨ s + z ≤ 32 * n) (hv : v.length = z)
    {byte : Nat → UInt8} (hb : ∀ k, k < z → cell v k = byte k) : Written mem (memoryWrite (grown mem n) s v) n s z byte := by
  have hl := grown_length hm
  have hwl : (memoryWrite (grown mem n) s v).length = 32 * n := by
    rw [memoryWrite_length, hl]
    rcases h with h | h
    · exact .inl (List.eq_nil_of_length_eq_zero (by omega))
    · exact .inr (by omega)
  refine ⟨hwl, fun i => ?_⟩
  rcases h with h | h
  · have : v = [] := List.eq_nil_of_length_eq_zero (by omega)
    subst this
    rw [if_neg (by omega)]
    have : memoryWrite (grown mem n) s [] = grown mem n := by unfold memoryWrite; simp
    rw [this, cell_grown]
  · have ht : ((grown mem n).take s).length = s := by rw [List.length_take]; omega
    rw [cell_eq]
    unfold memoryWrite
    rw [List.append_assoc, List.getElem?_append, ht]
    by_cases h1 : i < s
    · rw [if_pos h1, if_neg (by omega), List.getElem?_take, if_pos h1, ← cell_eq, cell_grown]
    rw [if_neg h1, List.getElem?_append]
    by_cases h2 : i - s < v.length
    · rw [if_pos h2, if_pos (by omega), ← cell_eq]; exact hb _ (by omega)
    · rw [if_neg h2, if_neg (by omega), List.getElem?_drop, show s + v.length + (i - s - v.length) = i by omega, ← cell_eq, cell_grown]

theorem cell_toBE (n x k : Nat) (h : k < n) : cell (toBE n x) k = UInt8.ofNat (x / 256 ^ (n - 1 - k)) := by
  induction n generalizing x with
  | zero => omega
  | succ n ih =>
    rw [cell_eq, toBE, List.getElem?_append, toBE_length]
    by_cases hk : k < n
    · rw [if_pos hk, ← cell_eq, ih _ hk, Nat.div_div_eq_div_mul, show n + 1 - 1 - k = (n - 1 - k) + 1 by omega, Nat.pow_succ, Nat.mul_comm]
    · rw [if_neg hk, show k - n = 0 by omega, show n + 1 - 1 - k = 0 by omega]
      simp

theorem range_fits {start size : Word} {n : Nat} (h : wordsFor start size ≤ n) : size.toNat = 0 ∨ start.toNat + size.toNat ≤ 32 * n := by
  by_cases h0 : size = 0
  · exact .inl (by rw [h0]; rfl)
  · exact .inr (Nat.le_trans (wordsFor_cover h0) (Nat.mul_le_mul_left 32 h))

theorem growth_eq {m : Mach} (ha : Aligned m.evm.memory) (start size : Word) :
    calculateGasExtendMemory m.evm.memory.length [(start, size)] =
      ⟨growthPrice m (wordsFor start size), 32 * wordsAfter m (wordsFor start size) - m.evm.memory.length⟩ :=
  createExt_eq ha start size

theorem growth_two {m : Mach} (ha : Aligned m.evm.memory) (s1 z1 s2 z2 : Word) :
    calculateGasExtendMemory m.evm.memory.length [(s1, z1), (s2, z2)] =
      ⟨growthPrice m (max (wordsFor s1 z1) (wordsFor s2 z2)), 32 * wordsAfter m (max (wordsFor s1 z1) (wordsFor s2 z2)) - m.evm.memory.length⟩ :=
  callExt_eq ha ⟨0, 0, 0, s1, z1, s2, z2, []⟩

theorem memory_le_after {m : Mach} (ha : Aligned m.evm.memory) (n : Nat) : m.evm.memory.length ≤ 32 * wordsAfter m n := by
  unfold Aligned at ha; unfold wordsAfter; omega

end Verif
