import Verif.Spec.Code
import Verif.Lemmas.Pc
import Verif.Lemmas.Trace
import Verif.Lemmas.AccessRun
/-! Jump destinations and the program counter. -/
namespace Verif
open Spec

theorem decode_push (b : UInt8) : (match decodeOp b with | some (.push n) => n | _ => 0) = dataBytes b := by
  have h : ∀ n < 256, (match decodeOp (UInt8.ofNat n) with | some (.push n) => n | _ => 0) = dataBytes (UInt8.ofNat n) := by
    decide +kernel
  have := h b.toNat b.toNat_lt
  simpa using this

theorem decode_jumpdest (b : UInt8) : decodeOp b = some .jumpdest ↔ b = 0x5b := by
  have h : ∀ n < 256, decodeOp (UInt8.ofNat n) = some .jumpdest ↔ UInt8.ofNat n = 0x5b := by decide +kernel
  have := h b.toNat b.toNat_lt
  simpa using this

theorem decode_pushLen {b : UInt8} {op : Op} (h : decodeOp b = some op) : pushLen op = dataBytes b := by
  rw [← decode_push, h]; cases op <;> rfl

theorem decodeOpIn_some {f : Fork} {b : UInt8} {op : Op} (h : decodeOpIn f b = some op) :
    decodeOp b = some op ∧ f.since op.firstFork = true := by
  unfold decodeOpIn at h
  split at h
  · cases h
  · rename_i o ho
    split at h
    · rename_i hf; cases h; exact ⟨ho, hf⟩
    · cases h

/-- `scanJumpDests` with the `Ops` table of any fork. -/
def scanJumpDestsIn (f : Fork) : Bytes → Nat → Nat → List Nat
  | [], _, _ => []
  | _ :: r, pc, skip + 1 => scanJumpDestsIn f r (pc + 1) skip
  | b :: r, pc, 0 =>
    match decodeOpIn f b with
    | none => scanJumpDestsIn f r (pc + 1) 0
    | some .jumpdest => pc :: scanJumpDestsIn f r (pc + 1) 0
    | some (.push n) => scanJumpDestsIn f r (pc + 1) n
    | some _ => scanJumpDestsIn f r (pc + 1) 0

/-- The valid jump destinations are the same with the `Ops` table of any fork. -/
theorem scanJumpDestsIn_eq (f : Fork) : ∀ (code : Bytes) (pc skip : Nat),
    scanJumpDestsIn f code pc skip = scanJumpDests code pc skip
  | [], _, _ => by unfold scanJumpDestsIn scanJumpDests; rfl
  | _ :: r, pc, skip + 1 => by unfold scanJumpDestsIn scanJumpDests; exact scanJumpDestsIn_eq f r _ _
  | b :: r, pc, 0 => by
    have ih := scanJumpDestsIn_eq f r (pc + 1)
    unfold scanJumpDestsIn scanJumpDests decodeOpIn
    cases hd : decodeOp b with
    | none => exact ih 0
    | some op =>
      dsimp only
      by_cases hf : f.since op.firstFork = true
      · rw [if_pos hf]
        split
        · contradiction
        · rename_i h; cases h; rw [ih]
        · rename_i h; cases h; rw [ih]
        · rename_i h1 h2 h; cases h; rw [ih]; split <;> simp_all
      · rw [if_neg hf]
        dsimp only
        rw [ih]
        split
        · rfl
        · rename_i h; cases h; cases f <;> exact absurd rfl hf
        · rename_i n h; cases h
          have : n = 0 := by
            cases n with
            | zero => rfl
            | succ k => cases f <;> exact absurd rfl hf
          rw [this]
        · rfl

theorem instrStart_shift {b : UInt8} {r : Bytes} {q : Nat} (h : InstrStart (r.drop (dataBytes b)) q) :
    InstrStart (b :: r) (1 + dataBytes b + q) := by
  induction h with
  | zero => have := InstrStart.next (code := b :: r) 0 b .zero rfl; rwa [Nat.zero_add] at this
  | next p c _ hc ih =>
    rw [List.getElem?_drop] at hc
    have := InstrStart.next (code := b :: r) (1 + dataBytes b + p) c ih (by
      rw [show 1 + dataBytes b + p = (dataBytes b + p) + 1 by omega, List.getElem?_cons_succ]; exact hc)
    rwa [show 1 + dataBytes b + p + 1 + dataBytes c = 1 + dataBytes b + (p + 1 + dataBytes c) by omega] at this

theorem instrStart_unshift {b : UInt8} {r : Bytes} {p : Nat} (h : InstrStart (b :: r) p) :
    p = 0 ∨ ∃ q, p = 1 + dataBytes b + q ∧ InstrStart (r.drop (dataBytes b)) q := by
  induction h with
  | zero => exact .inl rfl
  | next p c _ hc ih =>
    right
    rcases ih with rfl | ⟨q, rfl, hq⟩
    · simp only [List.getElem?_cons_zero, Option.some.injEq] at hc
      subst hc
      exact ⟨0, by omega, .zero⟩
    · refine ⟨q + 1 + dataBytes c, by omega, .next q c hq ?_⟩
      rw [show 1 + dataBytes b + q = (dataBytes b + q) + 1 by omega, List.getElem?_cons_succ] at hc
      rw [List.getElem?_drop]; exact hc

theorem scan_iff (r : Bytes) : ∀ (pc skip p : Nat),
    p ∈ scanJumpDests r pc skip ↔ ∃ q, p = pc + skip + q ∧ JumpDest (r.drop skip) q := by
  induction r with
  | nil => intro pc skip p; simp [scanJumpDests, JumpDest]
  | cons b r ih =>
    intro pc skip p
    cases skip with
    | succ skip =>
      rw [scanJumpDests, ih, List.drop_succ_cons]
      constructor <;> rintro ⟨q, rfl, h⟩ <;> exact ⟨q, by omega, h⟩
    | zero =>
      rw [List.drop_zero]
      have key : (∃ q, p = pc + 0 + q ∧ JumpDest (b :: r) q) ↔
          (p = pc ∧ b = 0x5b) ∨ p ∈ scanJumpDests r (pc + 1) (dataBytes b) := by
        rw [ih]
        constructor
        · rintro ⟨q, rfl, h1, h2⟩
          rcases instrStart_unshift h1 with rfl | ⟨q, rfl, hq⟩
          · left; simp only [List.getElem?_cons_zero, Option.some.injEq] at h2; exact ⟨rfl, h2⟩
          · right
            refine ⟨q, by omega, hq, ?_⟩
            rw [show 1 + dataBytes b + q = (dataBytes b + q) + 1 by omega, List.getElem?_cons_succ] at h2
            rw [List.getElem?_drop]; exact h2
        · rintro (⟨rfl, rfl⟩ | ⟨q, rfl, h1, h2⟩)
          · exact ⟨0, rfl, .zero, rfl⟩
          · refine ⟨1 + dataBytes b + q, by omega, instrStart_shift h1, ?_⟩
            rw [show 1 + dataBytes b + q = (dataBytes b + q) + 1 by omega, List.getElem?_cons_succ]
            rw [List.getElem?_drop] at h2; exact h2
      rw [key]
      have hp := decode_push b
      have hj := decode_jumpdest b
      rw [scanJumpDests]
      split
      · rename_i hd; rw [hd] at hp hj; simp only at hp; rw [← hp]; simp at hj; simp [hj]
      · rename_i hd; rw [hd] at hp hj; simp only at hp; rw [← hp]; simp at hj; simp [hj]
      · rename_i n hd; rw [hd] at hp hj; simp only at hp; rw [← hp]; simp at hj; simp [hj]
      · rename_i op h1 h2 hd
        rw [hd] at hp hj
        have : b ≠ 0x5b := fun h => h1 (Option.some.inj (hj.mpr h))
        have hz : dataBytes b = 0 := by rw [← hp]; cases op <;> simp_all
        simp [this, hz]

theorem validJumps_iff (code : Bytes) (p : Nat) : p ∈ getValidJumpDestinations code ↔ JumpDest code p := by
  unfold getValidJumpDestinations
  rw [scan_iff, List.drop_zero]
  constructor
  · rintro ⟨q, rfl, h⟩; simpa using h
  · intro h; exact ⟨p, by omega, h⟩

/-- What C14's invariant needs: the frame has the jump destinations of its code. -/
structure CodeFrame (m : Mach) : Prop where
  limits : WithinLimits m
  jumps : m.evm.validJumpDestinations = getValidJumpDestinations m.evm.code
  atInstr : AtInstr m

theorem opJump_inv {m m' : Mach} (h : opJump m = .ok () m') :
    ∃ d rest, m.evm.stack = d :: rest ∧ d.toNat ∈ m.evm.validJumpDestinations ∧ 8 ≤ m.evm.gasLeft ∧
      m' = { m with evm := { m.evm with stack := rest, gasLeft := m.evm.gasLeft - 8, pc := d.toNat } } := by
  match hst : m.evm.stack with
  | [] => simp [opJump, bind_eq, pop, hst] at h
  | d :: rest =>
    simp only [opJump, bind_eq, pop, hst, chargeGas, GAS_MID] at h
    by_cases hg : m.evm.gasLeft < 8
    · simp [hg] at h
    · simp only [hg, if_false, getEvm] at h
      by_cases hd : d.toNat ∈ m.evm.validJumpDestinations
      · simp only [hd, if_true] at h; cases h
        exact ⟨d, rest, rfl, hd, by omega, rfl⟩
      · simp only [hd, if_false] at h; cases h

theorem opJumpi_inv {m m' : Mach} (h : opJumpi m = .ok () m') :
    ∃ d c rest, m.evm.stack = d :: c :: rest ∧ (c ≠ 0 → d.toNat ∈ m.evm.validJumpDestinations) ∧ 10 ≤ m.evm.gasLeft ∧
      m' = { m with evm := { m.evm with stack := rest, gasLeft := m.evm.gasLeft - 10,
                                        pc := if c = 0 then m.evm.pc + 1 else d.toNat } } := by
  match hst : m.evm.stack with
  | [] => simp [opJumpi, bind_eq, pop, hst] at h
  | [x] => simp [opJumpi, bind_eq, pop, hst] at h
  | d :: c :: rest =>
    simp only [opJumpi, bind_eq, pop, hst, chargeGas, GAS_HIGH] at h
    by_cases hg : m.evm.gasLeft < 10
    · simp [hg] at h
    · simp only [hg, if_false, getEvm] at h
      by_cases hc : c = 0
      · simp only [hc, if_true] at h; cases h
        exact ⟨d, c, rest, rfl, fun hn => absurd hc hn, by omega, by simp [hc]⟩
      · by_cases hd : d.toNat ∈ m.evm.validJumpDestinations
        · simp only [hc, hd, if_true, if_false] at h; cases h
          exact ⟨d, c, rest, rfl, fun _ => hd, by omega, by rw [if_neg hc]⟩
        · simp only [hc, hd, if_false] at h; cases h

theorem opReturn_stops {m m' : Mach} (h : opReturn m = .ok () m') : m'.evm.running = false := by
  unfold opReturn at h
  obtain ⟨x1, r1, e1, h⟩ := pop_bind_ok h
  obtain ⟨x2, r2, e2, h⟩ := pop_bind_ok h
  simp only [bind_eq, extendCost, getEvm, pure_eq, chargeGas] at h
  split at h
  · cases h; rfl
  · cases h

theorem codeFrame_step {E : Env} {pm pcm : Sub} {op : Op} {m m' : Mach} {b : UInt8} (hm : CodeFrame m)
    (hb : m.evm.code[m.evm.pc]? = some b) (hop : decodeOpIn m.world.state.fork b = some op) (hr : m.evm.running = true)
    (h : opStep E pm pcm op m = .ok () m') : CodeFrame m' := by
  have hf := (opStep_effect E pm pcm op m hm.limits.stack).frameLoc h
  refine ⟨opStep_limits hm.limits h, by rw [hf.jumps, hf.code]; exact hm.jumps, fun hr' => ?_⟩
  rw [hf.code]
  have hop := (decodeOpIn_some hop).1
  have hst := hm.atInstr hr
  have hnext := InstrStart.next _ b hst hb
  by_cases hl : leaves op = false
  · rw [opStep_pc E pm pcm op hl m () m' h, decode_pushLen hop, ← Nat.add_assoc]; exact hnext
  · cases op <;> simp only [leaves, not_true_eq_false, Bool.true_eq_false, not_false_eq_true] at hl
    · obtain ⟨d, rest, -, hd, -, rfl⟩ := opJump_inv h
      rw [hm.jumps, validJumps_iff] at hd; exact hd.1
    · obtain ⟨d, c, rest, -, hd, -, rfl⟩ := opJumpi_inv h
      dsimp only
      split
      · rw [← decode_pushLen hop] at hnext; exact hnext
      · rename_i hc
        have hd := hd hc
        rw [hm.jumps, validJumps_iff] at hd; exact hd.1
    · rw [opReturn_stops h] at hr'; cases hr'
    · have h : opRevert m = .ok () m' := h
      exact absurd h (by
        intro h
        unfold opRevert at h
        obtain ⟨x1, r1, e1, h⟩ := pop_bind_ok h
        obtain ⟨x2, r2, e2, h⟩ := pop_bind_ok h
        simp only [bind_eq, extendCost, getEvm, pure_eq, chargeGas] at h
        split at h <;> cases h)
    · obtain ⟨x, rest, s1, -, -, -, -, rfl⟩ := opSelfdestruct_inv h; cases hr'

theorem init_codeFrame (msg : Message) (w : World) (h : msg.depth ≤ 1024) : CodeFrame ⟨initEvm msg, w⟩ :=
  ⟨init_limits msg w h, rfl, fun _ => .zero⟩

end Verif
