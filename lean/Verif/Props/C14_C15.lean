import Verif.Lemmas.Jumps
import Verif.Lemmas.Monitor
import Verif.Lemmas.CallSpec
import Verif.Spec.Sample
import Mathlib.Order.Bounds.Basic
/-! Properties C14 (jumps) and C15 (memory expansion). -/
namespace Verif.Props
open Verif Spec

/-- **C14**, the valid destinations of a code are exactly its JUMPDEST instructions: a 0x5b byte at the start of an
instruction, so not within the data of a push. -/
theorem C14_destinations (code : Bytes) (p : Nat) : p ∈ getValidJumpDestinations code ↔ JumpDest code p :=
  validJumps_iff code p

/-- A JUMPDEST, and a 0x5b that is push data. -/
example : JumpDest [0x60, 0x5b, 0x5b] 2 ∧ ¬ JumpDest [0x60, 0x5b, 0x5b] 1 := by
  constructor
  · rw [← C14_destinations]; decide +kernel
  · rw [← C14_destinations]; decide +kernel

section
variable (E : Env) (pm pcm : Sub) (m : Mach) (hj : m.evm.validJumpDestinations = getValidJumpDestinations m.evm.code)
include hj

/-- **C14**, JUMP: it lands on the destination if that is a JUMPDEST of the code, and halts otherwise. -/
theorem C14_jump (d : Word) (rest : List Word) (hst : m.evm.stack = d :: rest) (hg : 8 ≤ m.evm.gasLeft) :
    (JumpDest m.evm.code d.toNat → opStep E pm pcm .jump m =
      .ok () { m with evm := { m.evm with stack := rest, gasLeft := m.evm.gasLeft - 8, pc := d.toNat } }) ∧
    (¬ JumpDest m.evm.code d.toNat → ∃ m', opStep E pm pcm .jump m = .err (.halt .invalidJumpDest) m') := by
  have e : opStep E pm pcm .jump m = opJump m := rfl
  rw [e]
  simp only [← validJumps_iff, ← hj]
  have hg' : ¬ m.evm.gasLeft < 8 := by omega
  constructor
  · intro hd
    simp [opJump, bind_eq, pop, hst, chargeGas, GAS_MID, hg', getEvm, hd, setPc]
  · intro hd
    simp only [opJump, bind_eq, pop, hst, chargeGas, GAS_MID, hg', getEvm, hd, if_false]
    exact ⟨_, rfl⟩

/-- **C14**, JUMPI: the same when the condition is not zero; otherwise it goes on with the next instruction. -/
theorem C14_jumpi (d c : Word) (rest : List Word) (hst : m.evm.stack = d :: c :: rest) (hg : 10 ≤ m.evm.gasLeft) :
    (c = 0 → opStep E pm pcm .jumpi m =
      .ok () { m with evm := { m.evm with stack := rest, gasLeft := m.evm.gasLeft - 10, pc := m.evm.pc + 1 } }) ∧
    (c ≠ 0 → JumpDest m.evm.code d.toNat → opStep E pm pcm .jumpi m =
      .ok () { m with evm := { m.evm with stack := rest, gasLeft := m.evm.gasLeft - 10, pc := d.toNat } }) ∧
    (c ≠ 0 → ¬ JumpDest m.evm.code d.toNat → ∃ m', opStep E pm pcm .jumpi m = .err (.halt .invalidJumpDest) m') := by
  have e : opStep E pm pcm .jumpi m = opJumpi m := rfl
  rw [e]
  simp only [← validJumps_iff, ← hj]
  have hg' : ¬ m.evm.gasLeft < 10 := by omega
  refine ⟨?_, ?_, ?_⟩
  · intro hc
    simp [opJumpi, bind_eq, pop, hst, chargeGas, GAS_HIGH, hg', getEvm, hc, setPc]
  · intro hc hd
    have hc' : ¬ c = 0#256 := hc
    simp [opJumpi, bind_eq, pop, hst, chargeGas, GAS_HIGH, hg', getEvm, hc', hd, setPc]
  · intro hc hd
    simp only [opJumpi, bind_eq, pop, hst, chargeGas, GAS_HIGH, hg', getEvm, hc, hd, if_false]
    exact ⟨_, rfl⟩
end

/-- **C14**, in every execution of every message, in every frame at any depth, whatever is executed is an instruction of
the code and never push data: checking this at each iteration and doing anything else (`bad`) if it fails changes
nothing. Every frame also has the destinations of its own code, so the hypothesis of `C14_jump` and `C14_jumpi` holds. -/
theorem C14_at_instruction (E : Env) (bad : Loop) (msg : Message) (w : World) :
    processMessageCallWith E
      (execChecked E (fun m => AtInstr m ∧ m.evm.validJumpDestinations = getValidJumpDestinations m.evm.code) bad) msg w =
    processMessageCall E msg w := by
  exact checked_call_inv E _ CodeFrame bad (fun m h => ⟨h.atInstr, h.jumps⟩) init_codeFrame
    (fun n op m m' b hm hb hop hr h => codeFrame_step hm hb hop hr h) msg w

/-- Non-trivial: a frame that jumps over a push of 0x5b. -/
example : (exec Sample.env ⟨initEvm { Sample.callTo (Sample.worldOf [Sample.eoa] []) 0xaa 100 0 with
      code := [0x60, 0x05, 0x56, 0x60, 0x5b, 0x5b, 0x00] }, Sample.worldOf [Sample.eoa] []⟩
    matches .ok () ⟨{ pc := 7, gasLeft := 88, .. }, _⟩) = true := by decide +kernel

/-! ### C15 -/

/-- Growing memory of `n` bytes by several accesses in turn (each to a list of ranges): the size in the end and the gas
charged in total. -/
def growInTurn (n : Nat) : List (List (Word × Word)) → Nat × Nat
  | [] => (n, 0)
  | l :: r =>
    let e := calculateGasExtendMemory n l
    let x := growInTurn (n + e.expandBy) r
    (x.1, e.cost + x.2)

/-- All non-empty ranges of the list lie within the first `size` bytes. -/
def Fits (l : List (Word × Word)) (size : Nat) : Prop := ∀ x ∈ l, x.2 ≠ 0 → x.1.toNat + x.2.toNat ≤ size

variable (n : Nat) (hn : n % 32 = 0) (l : List (Word × Word))
include hn

/-- **C15**, memory grows to the least multiple of 32 that is not below the old size and covers all non-empty ranges. -/
theorem C15_size : IsLeast {k | k % 32 = 0 ∧ n ≤ k ∧ Fits l k} (n + (calculateGasExtendMemory n l).expandBy) := by
  have h := neededSize_ge l n
  rw [extendMemory_eq n hn l]
  show IsLeast _ (n + (neededSize n l - n))
  rw [Nat.add_sub_cancel' h]
  exact ⟨⟨neededSize_mod l n hn, h, fun x hx h0 => neededSize_covers l n x hx h0⟩,
    fun k ⟨h1, h2, h3⟩ => neededSize_least l n k h1 h2 h3⟩

/-- **C15**, and costs the difference of the prices of the two sizes, where `w` words cost `3 w + w² / 512`. -/
theorem C15_cost : (calculateGasExtendMemory n l).cost + memoryPrice (n / 32) =
    memoryPrice ((n + (calculateGasExtendMemory n l).expandBy) / 32) := by
  have h := neededSize_ge l n
  have hm := memory_cost_mono h
  rw [extendMemory_eq n hn l]
  show calculateMemoryGasCost (neededSize n l) - calculateMemoryGasCost n + _ = memoryPrice ((n + (neededSize n l - n)) / 32)
  rw [Nat.add_sub_cancel' h, ← memory_price, ← memory_price, Nat.mul_div_cancel' (Nat.dvd_of_mod_eq_zero hn),
    Nat.mul_div_cancel' (Nat.dvd_of_mod_eq_zero (neededSize_mod l n hn))]
  omega

/-- **C15**, path independence: accesses in turn grow memory to the same size, for the same gas, as one access to all the
ranges. -/
theorem C15_path_independent (ll : List (List (Word × Word))) :
    growInTurn n ll = (n + (calculateGasExtendMemory n ll.flatten).expandBy, (calculateGasExtendMemory n ll.flatten).cost) := by
  induction ll generalizing n with
  | nil => simp [growInTurn, calculateGasExtendMemory]
  | cons l r ih =>
    have h := neededSize_ge l n
    have happ : neededSize n (l ++ r.flatten) = neededSize (neededSize n l) r.flatten := neededSize_append l _ n
    have h2 := neededSize_ge r.flatten (neededSize n l)
    simp only [growInTurn, List.flatten_cons]
    rw [extendMemory_eq n hn l]
    simp only [Nat.add_sub_cancel' h]
    rw [ih _ (neededSize_mod l n hn), extendMemory_eq _ (neededSize_mod l n hn), extendMemory_eq n hn, happ]
    have m1 := memory_cost_mono h
    have m2 := memory_cost_mono h2
    simp only [Prod.mk.injEq]
    omega

/-- **C15**, in particular the gas in total depends on the final size only, not on the accesses. -/
theorem C15_depends_on_final_size (a b : List (List (Word × Word))) (h : (growInTurn n a).1 = (growInTurn n b).1) :
    (growInTurn n a).2 = (growInTurn n b).2 := by
  rw [C15_path_independent n hn, C15_path_independent n hn] at *
  have h1 := C15_cost n hn a.flatten
  have h2 := C15_cost n hn b.flatten
  simp only at h ⊢
  rw [h] at h1
  omega

/-- **C15**, nothing is charged when the ranges are within memory already, and only then. -/
theorem C15_free : (calculateGasExtendMemory n l).cost = 0 ↔ Fits l n := by
  have hs := C15_size n hn l
  have hc := C15_cost n hn l
  constructor
  · intro h0
    have : (calculateGasExtendMemory n l).expandBy = 0 := by
      have hmod := hs.1.1
      by_contra hne
      have hw : n / 32 < (n + (calculateGasExtendMemory n l).expandBy) / 32 := by omega
      have : memoryPrice (n / 32) < memoryPrice ((n + (calculateGasExtendMemory n l).expandBy) / 32) := by
        unfold memoryPrice
        have := Nat.div_le_div_right (c := 512) (Nat.mul_le_mul (Nat.le_of_lt hw) (Nat.le_of_lt hw))
        omega
      omega
    have h := hs.1.2.2
    rwa [this, Nat.add_zero] at h
  · intro hf
    have : n + (calculateGasExtendMemory n l).expandBy ≤ n := hs.2 ⟨hn, Nat.le_refl _, hf⟩
    have h0 : (calculateGasExtendMemory n l).expandBy = 0 := by omega
    rw [h0, Nat.add_zero] at hc
    omega

/-- **C15**, monotone: more ranges never cost less. -/
theorem C15_monotone (l' : List (Word × Word)) (h : ∀ x ∈ l, x ∈ l') :
    (calculateGasExtendMemory n l).cost ≤ (calculateGasExtendMemory n l').cost := by
  have hs := C15_size n hn l
  have hs' := C15_size n hn l'
  have hc := C15_cost n hn l
  have hc' := C15_cost n hn l'
  have hle : n + (calculateGasExtendMemory n l).expandBy ≤ n + (calculateGasExtendMemory n l').expandBy :=
    hs.2 ⟨hs'.1.1, hs'.1.2.1, fun x hx h0 => hs'.1.2.2 x (h x hx) h0⟩
  have hw : (n + (calculateGasExtendMemory n l).expandBy) / 32 ≤ (n + (calculateGasExtendMemory n l').expandBy) / 32 := by omega
  have : memoryPrice ((n + (calculateGasExtendMemory n l).expandBy) / 32) ≤
      memoryPrice ((n + (calculateGasExtendMemory n l').expandBy) / 32) := by
    unfold memoryPrice
    have := Nat.div_le_div_right (c := 512) (Nat.mul_le_mul hw hw)
    omega
  omega

omit hn in
/-- Two ranges, one empty but far away, from 64 bytes of memory. -/
example : calculateGasExtendMemory 64 [(0, 100), (2 ^ 200, 0), (1000, 25)] = ⟨95, 992⟩ := by decide +kernel

end Verif.Props
