import Verif.Lemmas.Curves
import Verif.Lemmas.Precompile
import Verif.Lemmas.Bytes
/-! C60: the BLAKE2 precompile. -/
namespace Verif
open Spec.Blake2b

theorem le_eq_fromLE (b : Bytes) : le b = fromLE b := by
  induction b with
  | nil => rfl
  | cons x b ih => show x.toNat + 256 * le b = _; rw [ih]; rfl

theorem fromLE_reverse (b : Bytes) : fromLE b.reverse = fromBE b := by
  induction b with
  | nil => rfl
  | cons x b ih =>
    rw [List.reverse_cons, fromLE_append, ih, fromBE_cons, List.length_reverse]
    simp [fromLE, Nat.mul_comm, Nat.add_comm]

theorem toLE_eq_map (n x : Nat) : toLE n x = (List.range n).map fun k => UInt8.ofNat (x / 256 ^ k) := by
  induction n generalizing x with
  | zero => rfl
  | succ n ih =>
    rw [toLE, ih, List.range_succ_eq_map, List.map_cons, List.map_map]
    congr 1
    · simp
    · apply List.map_congr_left
      intro k _
      simp only [Function.comp]
      rw [Nat.div_div_eq_div_mul, Nat.succ_eq_add_one, Nat.pow_succ, Nat.mul_comm]

theorem word_eq (data : Bytes) (o : Nat) : word data o = leWordAt data o := by
  unfold word leWordAt slice
  rw [le_eq_fromLE, Nat.add_sub_cancel_left]

theorem counter_eq (data : Bytes) (h : data.length = 213) :
    BitVec.ofNat 128 (le ((data.drop 196).take 16)) = leWordAt data 204 ++ leWordAt data 196 := by
  have hd : (data.drop 196).take 16 = slice data 196 204 ++ slice data 204 212 := by
    unfold slice
    have e : data.drop 204 = (data.drop 196).drop 8 := by rw [List.drop_drop]
    rw [e, show 204 - 196 = 8 from rfl, ← List.take_add]
  have hl : (slice data 196 204).length = 8 := by
    unfold slice; rw [List.length_take, List.length_drop, h]; decide
  apply BitVec.eq_of_toNat_eq
  have e : (leWordAt data 204 ++ leWordAt data 196).toNat = (leWordAt data 204).toNat * 2 ^ 64 + (leWordAt data 196).toNat := by
    rw [BitVec.toNat_append, ← Nat.shiftLeft_add_eq_or_of_lt (leWordAt data 196).isLt, Nat.shiftLeft_eq]
  have h1 : fromLE (slice data 196 204) < 2 ^ 64 := word_lt data 196
  have h2 : fromLE (slice data 204 212) < 2 ^ 64 := word_lt data 204
  rw [e, leWordAt_toNat, leWordAt_toNat, hd, le_eq_fromLE, fromLE_append, hl, BitVec.toNat_ofNat]
  have : (256 : Nat) ^ 8 = 2 ^ 64 := by decide
  rw [this]
  rw [Nat.mod_eq_of_lt (by omega)]
  show _ = fromLE (slice data 204 212) * 2 ^ 64 + fromLE (slice data 196 204)
  omega

theorem flag_eq (data : Bytes) (h : data.length = 213) :
    ∃ b, data.drop 212 = [b] ∧ fromBE (data.drop 212) = b.toNat := by
  have hl : (data.drop 212).length = 1 := by rw [List.length_drop, h]
  match hd : data.drop 212, hl with
  | [b], _ => exact ⟨b, rfl, by simp [fromBE]⟩

theorem compress_eip152 (data : Bytes) (h : data.length = 213) (hf : fromBE (data.drop 212) = 0 ∨ fromBE (data.drop 212) = 1) :
    blake2b.compress (Blake2.getParameters data).1 (Blake2.getParameters data).2.1 (Blake2.getParameters data).2.2.1
      (Blake2.getParameters data).2.2.2.1 (Blake2.getParameters data).2.2.2.2.1
      (decide ((Blake2.getParameters data).2.2.2.2.2 ≠ 0)) = .ok (eip152 data) := by
  rw [blake2_params]
  unfold eip152
  have hfl : decide ((Blake2.getParameters data).2.2.2.2.2 ≠ 0) = (data.drop 212 == [1]) := by
    obtain ⟨b, hb, hv⟩ := flag_eq data h
    have e : (Blake2.getParameters data).2.2.2.2.2 = fromBE (data.drop 212) := rfl
    rw [e]
    rw [hv] at hf
    rw [hv, hb]
    rcases hf with hf | hf
    · have : b = 0 := by cases b; simp_all [UInt8.toNat, UInt8.ext_iff]
      subst this; rfl
    · have : b = 1 := by cases b; simp_all [UInt8.toNat, UInt8.ext_iff]
      subst this; rfl
  have hr : roundsOf data = fromBE (data.take 4) := by unfold roundsOf; rw [le_eq_fromLE, fromLE_reverse]
  have hb : ∀ x : W, bytesOf x = toLE 8 x.toNat := fun x => (toLE_eq_map 8 x.toNat).symm
  simp only [hb, hr, counter_eq data h, word_eq, hfl, Nat.mul_comm 8]

/-- C60. The precompile at address 9 on any input: an input that is not 213 bytes long fails; otherwise one unit of gas is charged
per round, a final-block flag other than 0 and 1 fails, and the output is the compression function `F` of RFC 7693 on the decoded
input. It never crashes. -/
theorem C60_blake2f (E : Env) (f : Fork) (p : M Unit) (hp : precompile E f 9 = some p) (m : Mach) :
    let data := m.evm.message.data
    let paid := { m with evm := { m.evm with gasLeft := m.evm.gasLeft - roundsOf data } }
    p m =
      if data.length ≠ 213 then .err (.halt .invalidParameter) m
      else if m.evm.gasLeft < roundsOf data then .err (.halt .outOfGas) m
      else if data.drop 212 ≠ [0] ∧ data.drop 212 ≠ [1] then .err (.halt .invalidParameter) paid
      else .ok () { paid with evm := { paid.evm with output := eip152 data } } := by
  intro data paid
  have hp' : p = pBlake2f := by
    have : precompileFn E f 9 = some pBlake2f := rfl
    rw [(precompileFn_of hp).2] at this; exact Option.some.inj this
  subst hp'
  by_cases hl : data.length = 213
  · have hl' : m.evm.message.data.length = 213 := hl
    have hr : (Blake2.getParameters m.evm.message.data).1 = roundsOf data := by
      show fromBE _ = _
      unfold roundsOf; rw [le_eq_fromLE, fromLE_reverse]
    obtain ⟨b, hb, hv⟩ := flag_eq data hl
    have hflag : (Blake2.getParameters m.evm.message.data).2.2.2.2.2 = b.toNat := hv
    have hz : ∀ c : UInt8, ([b] ≠ [c]) ↔ b.toNat ≠ c.toNat := by
      intro c
      constructor
      · intro h e; exact h (by rw [UInt8.toNat_inj.mp e])
      · intro h e; exact h (by rw [List.cons.inj e |>.1])
    have hcond : (data.drop 212 ≠ [0] ∧ data.drop 212 ≠ [1]) ↔ (b.toNat ≠ 0 ∧ b.toNat ≠ 1) := by
      rw [hb, hz, hz]; exact Iff.rfl
    have hstep : pBlake2f m = (chargeGas (GAS_BLAKE2_PER_ROUND * (Blake2.getParameters data).1) >>= fun _ =>
        if (Blake2.getParameters data).2.2.2.2.2 ≠ 0 ∧ (Blake2.getParameters data).2.2.2.2.2 ≠ 1 then raiseHalt .invalidParameter
        else liftCrash (blake2b.compress (Blake2.getParameters data).1 (Blake2.getParameters data).2.1
          (Blake2.getParameters data).2.2.1 (Blake2.getParameters data).2.2.2.1 (Blake2.getParameters data).2.2.2.2.1
          (decide ((Blake2.getParameters data).2.2.2.2.2 ≠ 0))) >>= fun out => setOutput out) m := by
      show (if m.evm.message.data.length ≠ 213 then raiseHalt .invalidParameter else _ : M Unit) m = _
      rw [if_neg (not_not_intro hl')]
      rfl
    rw [hstep, if_neg (not_not_intro hl)]
    have hg : GAS_BLAKE2_PER_ROUND * (Blake2.getParameters data).1 = roundsOf data := by
      rw [hr]; exact Nat.one_mul _
    rw [hg]
    by_cases hgas : m.evm.gasLeft < roundsOf data
    · rw [if_pos hgas]
      rw [bind_eq]
      unfold chargeGas
      rw [if_pos hgas]
    · rw [if_neg hgas]
      rw [bind_eq]
      unfold chargeGas
      rw [if_neg hgas]
      simp only
      rw [hflag]
      by_cases hc : b.toNat ≠ 0 ∧ b.toNat ≠ 1
      · rw [if_pos hc, if_pos (hcond.mpr hc)]; rfl
      · rw [if_neg hc, if_neg (fun h => hc (hcond.mp h))]
        have hf : fromBE (data.drop 212) = 0 ∨ fromBE (data.drop 212) = 1 := by rw [hv]; omega
        have := compress_eip152 data hl hf
        rw [show (Blake2.getParameters data).2.2.2.2.2 = b.toNat from hflag] at this
        rw [this]
        rfl
  · rw [if_pos hl]
    show (if m.evm.message.data.length ≠ 213 then raiseHalt .invalidParameter else _ : M Unit) m = _
    rw [if_pos hl]; rfl

/-- C60. The output has 64 bytes. -/
theorem C60_output_size (data : Bytes) : (eip152 data).length = 64 := by
  unfold eip152
  rw [List.length_flatMap]
  simp [bytesOf, List.finRange]

/-! ### the hypotheses are met: test vector 5 of EIP-152, the last block of BLAKE2b-512("abc") -/

private def abcInput : Bytes :=
  [0, 0, 0, 12,
   0x48, 0xc9, 0xbd, 0xf2, 0x67, 0xe6, 0x09, 0x6a, 0x3b, 0xa7, 0xca, 0x84, 0x85, 0xae, 0x67, 0xbb, 0x2b, 0xf8, 0x94, 0xfe,
   0x72, 0xf3, 0x6e, 0x3c, 0xf1, 0x36, 0x1d, 0x5f, 0x3a, 0xf5, 0x4f, 0xa5, 0xd1, 0x82, 0xe6, 0xad, 0x7f, 0x52, 0x0e, 0x51,
   0x1f, 0x6c, 0x3e, 0x2b, 0x8c, 0x68, 0x05, 0x9b, 0x6b, 0xbd, 0x41, 0xfb, 0xab, 0xd9, 0x83, 0x1f, 0x79, 0x21, 0x7e, 0x13,
   0x19, 0xcd, 0xe0, 0x5b] ++
  [0x61, 0x62, 0x63] ++ List.replicate 125 0 ++ [3] ++ List.replicate 15 0 ++ [1]

private def abcHash : Bytes :=
  [0xba, 0x80, 0xa5, 0x3f, 0x98, 0x1c, 0x4d, 0x0d, 0x6a, 0x27, 0x97, 0xb6, 0x9f, 0x12, 0xf6, 0xe9, 0x4c, 0x21, 0x2f, 0x14,
   0x68, 0x5a, 0xc4, 0xb7, 0x4b, 0x12, 0xbb, 0x6f, 0xdb, 0xff, 0xa2, 0xd1, 0x7d, 0x87, 0xc5, 0x39, 0x2a, 0xab, 0x79, 0x2d,
   0xc2, 0x52, 0xd5, 0xde, 0x45, 0x33, 0xcc, 0x95, 0x18, 0xd3, 0x8a, 0xa8, 0xdb, 0xf1, 0x92, 0x5a, 0xb9, 0x23, 0x86, 0xed,
   0xd4, 0x00, 0x99, 0x23]

example : abcInput.length = 213 ∧ abcInput.drop 212 = [1] ∧ roundsOf abcInput = 12 ∧ eip152 abcInput = abcHash := by
  refine ⟨by decide +kernel, by decide +kernel, by decide +kernel, ?_⟩
  have h := compress_eip152 abcInput (by decide +kernel) (Or.inr (by decide +kernel))
  have h' : blake2b.compress (Blake2.getParameters abcInput).1 (Blake2.getParameters abcInput).2.1
      (Blake2.getParameters abcInput).2.2.1 (Blake2.getParameters abcInput).2.2.2.1 (Blake2.getParameters abcInput).2.2.2.2.1
      (decide ((Blake2.getParameters abcInput).2.2.2.2.2 ≠ 0)) = .ok abcHash := by decide +kernel
  rw [h'] at h
  exact (Except.ok.inj h).symm

end Verif
