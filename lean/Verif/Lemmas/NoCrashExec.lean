import Verif.Lemmas.NoCrashRun
import Verif.Lemmas.Raises
import Verif.Lemmas.Bytes
import Verif.Lemmas.Curves
/-! No internal errors: precompiled contracts, messages and whole executions. -/
namespace Verif
open Spec

theorem leftPad_length_le {b : Bytes} {n : Nat} (h : b.length ≤ n) : (leftPad b n).length = n := by
  simp only [leftPad, List.length_append, List.length_replicate]; omega

theorem modexpOutput_length {data : Bytes} {b e n : Nat} (h : n ≤ 1024) : (modexpOutput data b e n).length ≤ 1024 := by
  unfold modexpOutput
  split
  · exact Nat.zero_le _
  · simp only
    split
    · simpa using h
    · rw [toBE_length]; exact h

section
variable {D : Nat} {X : World → Prop}

theorem nc_blsOutput1 (E : Env) (hD : 49152 ≤ D) (r : Option (Point3D (Fq BLS_P))) : NC D X (blsOutput1 E r) := by
  unfold blsOutput1
  split
  · exact nc_raiseHalt _
  · exact nc_setOutput (by simp only [List.length_append, toBE_length]; omega)

theorem nc_blsOutput2 (E : Env) (hD : 49152 ≤ D) (r : Option (Point3D (Fq2 BLS_P))) : NC D X (blsOutput2 E r) := by
  unfold blsOutput2
  split
  · exact nc_raiseHalt _
  · exact nc_setOutput (by simp only [fq2ToBytes, List.length_append, toBE_length]; omega)

theorem out_word (hD : 49152 ≤ D) (x : Word) : NC D X (setOutput (wordBytes x)) :=
  nc_setOutput (by rw [wordBytes_length]; omega)
theorem out_words (hD : 49152 ≤ D) (x y : Word) : NC D X (setOutput (wordBytes x ++ wordBytes y)) :=
  nc_setOutput (by rw [List.length_append, wordBytes_length, wordBytes_length]; omega)
theorem out_pad (hD : 49152 ≤ D) (b : Bytes) (hb : b.length ≤ 32) : NC D X (setOutput (leftPad b 32)) :=
  nc_setOutput (by rw [leftPad_length_le hb]; omega)
theorem out_be (n x : Nat) (hD : n ≤ D) : NC D X (setOutput (toBE n x)) :=
  nc_setOutput (by rw [toBE_length]; exact hD)
theorem out_be2 (n x k y : Nat) (hD : n + k ≤ D) : NC D X (setOutput (toBE n x ++ toBE k y)) :=
  nc_setOutput (by rw [List.length_append, toBE_length, toBE_length]; exact hD)
theorem out_modexp (hD : 49152 ≤ D) {data : Bytes} {b e n : Nat} (h : ¬ n > 1024) : NC D X (setOutput (modexpOutput data b e n)) :=
  nc_setOutput (Nat.le_trans (modexpOutput_length (by omega)) (by omega))

macro "ncpre" : tactic => `(tactic| repeat' (first
      | with_reducible ncprim
      | with_reducible exact nc_blsOutput1 _ (by assumption) _
      | with_reducible exact nc_blsOutput2 _ (by assumption) _
      | with_reducible exact out_word (by assumption) _
      | with_reducible exact out_words (by assumption) _ _
      | with_reducible exact out_pad (by assumption) _ (by simp [wordBytes_length, addressBytes_length])
      | with_reducible exact out_be _ _ (by omega)
      | with_reducible exact out_be2 _ _ _ _ (by omega)
      | with_reducible exact out_modexp (by assumption) (by assumption)
      | (with_reducible refine nc_getEvm_bind fun _ _ => ?_)
      | (with_reducible refine nc_bind ?_ fun _ => ?_)
      | (with_reducible refine nc_ite (fun _ => ?_) (fun _ => ?_))
      | dsimp only
      | split))

theorem nc_pEcrecover (E : Env) (hD : 49152 ≤ D) : NC D X (pEcrecover E) := by
  unfold pEcrecover; ncpre
theorem nc_pSha256 (E : Env) (hD : 49152 ≤ D) : NC D X (pSha256 E) := by
  unfold pSha256; ncpre
theorem nc_pRipemd160 (E : Env) (hD : 49152 ≤ D) : NC D X (pRipemd160 E) := by
  unfold pRipemd160; ncpre
theorem nc_pIdentity : NC D X pIdentity := by
  unfold pIdentity
  exact nc_getEvm_bind fun _ h => nc_bind (nc_chargeGas _) fun _ => nc_setOutput h.data
theorem nc_pModexp (hD : 49152 ≤ D) : NC D X pModexpOsaka := by
  unfold pModexpOsaka; ncpre
theorem nc_pBnAdd (E : Env) (f : Fork) (hD : 49152 ≤ D) : NC D X (pBnAdd E f) := by
  unfold pBnAdd; ncpre
theorem nc_pBnMul (E : Env) (f : Fork) (hD : 49152 ≤ D) : NC D X (pBnMul E f) := by
  unfold pBnMul; ncpre
theorem nc_pBnPairing (E : Env) (f : Fork) (hD : 49152 ≤ D) : NC D X (pBnPairing E f) := by
  unfold pBnPairing
  refine nc_getEvm_bind fun e _ => nc_bind (nc_chargeGas _) fun _ => nc_ite (fun _ => nc_raiseHalt _) (fun _ => ?_)
  refine nc_bind (nc_liftCrash (pairingLoop_ok (fun i => ⟨_, bnPair_eq _ _ i⟩) _ _ _)) fun _ => ?_
  ncpre
theorem nc_liftCrash_bind {α β : Type} {x : Except Crash α} {f : α → M β} (hx : ∃ a, x = .ok a)
    (hf : ∀ a, x = .ok a → NC D X (f a)) : NC D X (liftCrash x >>= f) := by
  obtain ⟨a, rfl⟩ := hx
  exact hf a rfl
theorem nc_pBlake2f (hD : 49152 ≤ D) : NC D X pBlake2f := by
  unfold pBlake2f
  refine nc_getEvm_bind fun e _ => ?_
  refine nc_ite (fun _ => nc_raiseHalt _) (fun _ => ?_)
  refine nc_bind (nc_chargeGas _) fun _ => ?_
  refine nc_ite (fun _ => nc_raiseHalt _) (fun _ => ?_)
  refine nc_liftCrash_bind ⟨_, blake2_params _ _⟩ fun out h => nc_setOutput ?_
  rw [compress_length h]; omega
theorem nc_pPointEvaluation (E : Env) (hD : 49152 ≤ D) : NC D X (pPointEvaluation E) := by
  unfold pPointEvaluation; ncpre
theorem nc_pBlsG1Add (E : Env) (hD : 49152 ≤ D) : NC D X (pBlsG1Add E) := by
  unfold pBlsG1Add; ncpre
theorem nc_pBlsG1Msm (E : Env) (hD : 49152 ≤ D) : NC D X (pBlsG1Msm E) := by
  unfold pBlsG1Msm; ncpre
theorem nc_pBlsG2Add (E : Env) (hD : 49152 ≤ D) : NC D X (pBlsG2Add E) := by
  unfold pBlsG2Add; ncpre
theorem nc_pBlsG2Msm (E : Env) (hD : 49152 ≤ D) : NC D X (pBlsG2Msm E) := by
  unfold pBlsG2Msm; ncpre
theorem nc_pBlsPairing (E : Env) (hD : 49152 ≤ D) : NC D X (pBlsPairing E) := by
  unfold pBlsPairing
  refine nc_getEvm_bind fun e _ => nc_ite (fun _ => nc_raiseHalt _) (fun _ => nc_bind (nc_chargeGas _) fun _ => ?_)
  refine nc_bind (nc_liftCrash (pairingLoop_ok (fun i => ⟨_, blsPair_eq _ _ i⟩) _ _ _)) fun _ => ?_
  ncpre
theorem nc_pBlsMapFpToG1 (E : Env) (hD : 49152 ≤ D) : NC D X (pBlsMapFpToG1 E) := by
  unfold pBlsMapFpToG1; ncpre
theorem nc_pBlsMapFp2ToG2 (E : Env) (hD : 49152 ≤ D) : NC D X (pBlsMapFp2ToG2 E) := by
  unfold pBlsMapFp2ToG2; ncpre
theorem nc_pP256verify (E : Env) (hD : 49152 ≤ D) : NC D X (pP256verify E) := by
  unfold pP256verify
  refine nc_getEvm_bind fun e _ => nc_bind (nc_chargeGas _) fun _ => nc_ite (fun _ => nc_pure _) (fun _ => ?_)
  refine nc_ite (fun _ => nc_pure _) (fun _ => nc_ite (fun _ => nc_pure _) (fun _ => nc_ite (fun _ => nc_pure _) (fun hx => ?_)))
  refine nc_ite (fun _ => nc_pure _) (fun hy => nc_ite (fun _ => nc_pure _) (fun hc => nc_ite (fun _ => nc_pure _) (fun _ => ?_)))
  refine nc_bind (nc_liftCrash (secp256r1Verify_ok _ hx hy hc _ _ _)) fun _ => ?_
  ncpre

/-- The codes of all accounts are bounded. -/
def CodesFit (D : Nat) (s : State) : Prop := ∀ a, (getAccount s a).code.length ≤ D

/-- The result of a frame: no internal error but the `OverflowError` of MODEXP before osaka, a bounded output and bounded codes. -/
def FitRes (f : Fork) (D : Nat) : Res Unit → Prop
  | .ok _ m' => m'.evm.output.length ≤ D ∧ CodesFit D m'.world.state
  | .err e m' => e.Tame f ∧ (Caught e → m'.evm.output.length ≤ D)

/-- The same without the codes. -/
def OutRes (f : Fork) (D : Nat) : Res Unit → Prop
  | .ok _ m' => m'.evm.output.length ≤ D
  | .err e m' => e.Tame f ∧ (Caught e → m'.evm.output.length ≤ D)

/-- A precompiled contract in a frame with bounded gas and data. -/
def PFits (f : Fork) (D : Nat) (p : M Unit) : Prop := ∀ m : Mach, Lens D m.evm → 32 * m.evm.gasLeft ≤ D → OutRes f D (p m)

theorem NC.pfits {f : Fork} {p : M Unit} (h : NC D (fun _ => True) p) : PFits f D p := by
  intro m hl _
  have := h m hl trivial
  match hr : p m with
  | .ok _ m' => rw [hr] at this; exact this.1.output
  | .err e m' => rw [hr] at this; exact ⟨this.1.tame, fun _ => this.2⟩

/-- The price of MODEXP before osaka bounds the length of its modulus. -/
theorem modexpCostOld_bound {f : Fork} {b n e h g : Nat} (hc : modexpGasCostOld f b n e h ≤ g) (hD : 49152 ≤ D) (hg : 32 * g ≤ D) :
    n ≤ D := by
  unfold modexpGasCostOld at hc
  split at hc
  · have hi : 1 ≤ modexpIterationsBerlin e h := by unfold modexpIterationsBerlin; exact Nat.le_max_right _ _
    have h1 : modexpComplexityBerlin b n * 1 ≤ modexpComplexityBerlin b n * modexpIterationsBerlin e h := Nat.mul_le_mul_left _ hi
    generalize modexpComplexityBerlin b n * modexpIterationsBerlin e h = x at h1 hc
    have h2 : (n + 7) / 8 ≤ modexpComplexityBerlin b n := by
      unfold modexpComplexityBerlin
      have : (n + 7) / 8 ≤ (max b n + 7) / 8 := by omega
      refine Nat.le_trans this ?_
      generalize (max b n + 7) / 8 = w
      rw [Nat.pow_two]
      cases w with
      | zero => omega
      | succ w => exact Nat.le_mul_of_pos_right _ (by omega)
    omega
  · have hi : 1 ≤ modexpIterationsByzantium e h := by unfold modexpIterationsByzantium; exact Nat.le_max_right _ _
    have h1 : modexpComplexityByzantium b n * 1 ≤ modexpComplexityByzantium b n * modexpIterationsByzantium e h := Nat.mul_le_mul_left _ hi
    generalize modexpComplexityByzantium b n * modexpIterationsByzantium e h = x at h1 hc
    by_cases hn : max b n ≤ 1024
    · omega
    · have h2 : 20 * n ≤ modexpComplexityByzantium b n := by
        unfold modexpComplexityByzantium
        simp only
        rw [if_neg (by omega), if_neg hn]
        have h3 : 1024 * max b n ≤ max b n ^ 2 := by rw [Nat.pow_two]; exact Nat.mul_le_mul_right _ (by omega)
        have h4 : n ≤ max b n := Nat.le_max_right _ _
        generalize max b n ^ 2 = y at *
        omega
      omega

theorem modexpOutput_le {data : Bytes} {b e n : Nat} (h : n ≤ D) : (modexpOutput data b e n).length ≤ D := by
  unfold modexpOutput
  split
  · exact Nat.zero_le _
  · simp only
    split
    · simpa using h
    · rw [toBE_length]; exact h

theorem tame_overflow {f : Fork} (hf : OldModexp f) : (Exn.crash .overflowError).Tame f := by
  intro c hc; cases hc; exact ⟨rfl, hf⟩

theorem pfits_modexpOld {f : Fork} (hD : 49152 ≤ D) (hf : OldModexp f) : PFits f D (pModexpOld f) := by
  intro m hl hg
  unfold pModexpOld
  simp only [bind_eq, getEvm]
  generalize fromBE (bufferRead m.evm.message.data 0 32) = b
  generalize fromBE (bufferRead m.evm.message.data 32 32) = e
  generalize fromBE (bufferRead m.evm.message.data 64 32) = n
  have hu : ∀ (k : Nat) (m : Mach), u256 k m = if k < 2 ^ 256 then .ok (BitVec.ofNat 256 k) m else .err (.crash .overflowError) m :=
    fun _ _ => rfl
  rw [hu]
  by_cases h1 : 96 + b < 2 ^ 256
  · simp only [h1, if_true]
    generalize fromBE (bufferRead m.evm.message.data _ (min 32 e)) = h
    unfold chargeGas
    by_cases h2 : m.evm.gasLeft < modexpGasCostOld f b n e h
    · simp only [h2, if_true]; exact ⟨(clean_halt _).tame, fun _ => hl.output⟩
    · simp only [h2, if_false]
      split
      · exact Nat.zero_le _
      · rw [bind_eq, hu]
        by_cases h3 : (BitVec.ofNat 256 (96 + b)).toNat + e < 2 ^ 256
        · rw [if_pos h3]; exact modexpOutput_le (modexpCostOld_bound (Nat.le_of_not_lt h2) hD hg)
        · rw [if_neg h3]; exact ⟨tame_overflow hf, fun h => absurd h (by simp [Caught])⟩
  · simp only [h1, if_false]
    exact ⟨tame_overflow hf, fun h => absurd h (by simp [Caught])⟩

theorem precompile_early {E : Env} {f : Fork} (hf : f.since .byzantium = false) {P : M Unit → Prop} (h0 : P (pEcrecover E))
    (h1 : P (pSha256 E)) (h2 : P (pRipemd160 E)) (h3 : P pIdentity) {a : Address} {p : M Unit} (h : precompile E f a = some p) : P p := by
  obtain ⟨hs, h⟩ := precompileFn_of h
  unfold precompileFn at h
  by_cases hc : a = 1
  · rw [if_pos hc] at h; cases h; exact h0
  rw [if_neg hc] at h
  by_cases hc : a = 2
  · rw [if_pos hc] at h; cases h; exact h1
  rw [if_neg hc] at h
  by_cases hc : a = 3
  · rw [if_pos hc] at h; cases h; exact h2
  rw [if_neg hc] at h
  by_cases hc : a = 4
  · rw [if_pos hc] at h; cases h; exact h3
  rw [if_neg hc] at h
  exfalso
  by_cases h4 : a ≤ 4
  · have : a = 0 := by
      simp only [BitVec.le_def, ← BitVec.toNat_inj] at *
      simp at *
      omega
    subst this
    simp at h
  · have : f.since .byzantium = true := by
      refine since_later hs ?_
      unfold precompileFirstFork
      rw [if_neg h4]
      split
      · rfl
      · split
        · rfl
        · split
          · rfl
          · split <;> rfl
    rw [this] at hf; cases hf

theorem precompile_fits {E : Env} {f : Fork} (hD : 49152 ≤ D) {a : Address} {p : M Unit} (h : precompile E f a = some p) : PFits f D p := by
  by_cases hb : f.since .byzantium = true
  · refine precompile_elim (nc_pEcrecover E hD).pfits (nc_pSha256 E hD).pfits (nc_pRipemd160 E hD).pfits nc_pIdentity.pfits ?_
      (nc_pBnAdd E _ hD).pfits (nc_pBnMul E _ hD).pfits (nc_pBnPairing E _ hD).pfits (nc_pBlake2f hD).pfits
      (nc_pPointEvaluation E hD).pfits (nc_pBlsG1Add E hD).pfits (nc_pBlsG1Msm E hD).pfits
      (nc_pBlsG2Add E hD).pfits (nc_pBlsG2Msm E hD).pfits (nc_pBlsPairing E hD).pfits (nc_pBlsMapFpToG1 E hD).pfits
      (nc_pBlsMapFp2ToG2 E hD).pfits (nc_pP256verify E hD).pfits h
    unfold pModexp
    split
    · exact (nc_pModexp hD).pfits
    · exact pfits_modexpOld hD ⟨hb, by simp_all⟩
  · exact precompile_early (by simpa using hb) (nc_pEcrecover E hD).pfits (nc_pSha256 E hD).pfits (nc_pRipemd160 E hD).pfits
      nc_pIdentity.pfits h

/-- Specification of the main loop. -/
def FitLoop (f : Fork) (D : Nat) (loop : Loop) : Prop := ∀ m, Fits f D m → FitRes f D (loop m)

/-- The outcome of a frame before it is committed or rolled back. -/
def ExecPost (f : Fork) (D : Nat) : Except (Exn × World) (Evm × World) → Prop
  | .ok (child, w') => child.output.length ≤ D ∧ (child.error.isSome = false → CodesFit D w'.state)
  | .error (e, _) => e.Tame f ∧ ¬ Caught e

theorem catchFrame_fits {f : Fork} {r : Res Unit} (h : FitRes f D r) : ExecPost f D (catchFrame r) := by
  match r with
  | .ok _ m' => exact ⟨h.1, fun _ => h.2⟩
  | .err (.halt x) m' =>
    refine ⟨?_, fun he => by simp at he⟩
    show (haltOutput m'.world.state.fork m'.evm.output).length ≤ D
    unfold haltOutput
    split
    · exact Nat.zero_le _
    · exact h.2 trivial
  | .err .revert m' => exact ⟨h.2 trivial, fun he => by simp at he⟩
  | .err (.crash c) m' => exact ⟨h.1, id⟩
  | .err .outOfFuel m' => exact ⟨h.1, id⟩

theorem executeCode_fits {E : Env} {f : Fork} (hD : 49152 ≤ D) {loop : Loop} (hl : FitLoop f D loop) {msg : Message} {w : World}
    (hm : Fits f D ⟨initEvm msg, w⟩) : ExecPost f D (executeCode E loop msg w) := by
  unfold executeCode
  simp only
  match hpre : precompileOf E w.state.fork msg with
  | some p =>
    simp only
    split
    · exact ⟨Nat.zero_le _, fun _ => hm.codes⟩
    · have hp : PFits f D p ∧ Pres p := by
        unfold precompileOf at hpre
        split at hpre
        · cases hpre
        · rw [show w.state.fork = f from hm.isFork] at hpre
          exact ⟨precompile_fits hD hpre, pres_precompile _ _ _ _ hpre⟩
      refine catchFrame_fits ?_
      have h1 := hp.1 ⟨initEvm msg, w⟩ hm.lens (by have := hm.space; omega)
      have h2 := hp.2.run ⟨initEvm msg, w⟩
      match hr : p ⟨initEvm msg, w⟩ with
      | .ok _ m' =>
        rw [hr] at h1 h2
        exact ⟨h1, by rw [show m'.world = w from h2.world]; exact hm.codes⟩
      | .err e m' => rw [hr] at h1; exact h1
  | none => exact catchFrame_fits (hl _ hm)

theorem messageStart_code {msg : Message} {w : World} {s : State} (h : messageStart msg w = .ok s) :
    s.fork = w.state.fork ∧ ∀ a, (getAccount s a).code = (getAccount w.state a).code := by
  unfold messageStart at h
  have hfork : (touchIn (beginTransaction w).state msg.currentTarget).fork = w.state.fork := touchIn_fork _ _
  have hacc : ∀ a, getAccount (touchIn (beginTransaction w).state msg.currentTarget) a = getAccount w.state a := fun a =>
    touchIn_account _ _ _
  generalize touchIn (beginTransaction w).state msg.currentTarget = s0 at h hfork hacc
  split at h
  · exact ⟨(moveEther_fork h).trans hfork, fun a => by rw [(moveEther_account h a).2, hacc]⟩
  · cases h; exact ⟨hfork, fun a => by rw [hacc]⟩

theorem messageStart_rel {R : State → State → Prop} (hR : StateClosed R) {msg : Message} {w : World} {s : State}
    (h : messageStart msg w = .ok s) : R w.state s := by
  have h0 : R w.state (touchIn (beginTransaction w).state msg.currentTarget) :=
    hR.trans _ (beginTransaction w).state _ (hR.contents _ _ rfl rfl rfl) (hR.touch _ _)
  unfold messageStart at h
  split at h
  · exact hR.trans _ _ _ h0 (hR.move _ _ _ _ _ h)
  · cases h; exact h0

theorem start_fits (E : Env) {f : Fork} (hD : 49152 ≤ D) {msg : Message} {w : World} (hp : f.since .spuriousDragon = true → PreMsg msg w) (hf : MsgFits f D msg w) :
    ∃ s, messageStart msg w = .ok s ∧ s.snapshots = (beginTransaction w).state.snapshots ∧
      Fits f D ⟨initEvm msg, { beginTransaction w with state := s }⟩ := by
  have hok : ∃ s, messageStart msg w = .ok s := by
    unfold messageStart
    split
    · rename_i hc
      refine moveEther_succeeds ?_ ?_ ?_
      · rw [touchIn_default]; exact hf.default
      · rw [supply_touchIn (show (beginTransaction w).state.mainTrie.default = none from hf.default)]
        exact Nat.lt_of_lt_of_le hf.supply (supplyLimit_le f)
      · rw [touchIn_account]; exact hf.funds hc.1
    · exact ⟨_, rfl⟩
  obtain ⟨s, hst⟩ := hok
  have hcode := messageStart_code hst
  have hsn : s.snapshots = (beginTransaction w).state.snapshots := by
    unfold messageStart at hst
    split at hst
    · exact (moveEther_snaps hst).1.trans (touchIn_snapshots _ _)
    · cases hst; exact touchIn_snapshots _ _
  have hmint := messageStart_rel noMint_state hst hf.default
  have hgood : f.since .spuriousDragon = true → GoodFrame ⟨initEvm msg, { beginTransaction w with state := s }⟩ :=
    fun h => (goodFrame_invariant E).start msg w s (hp h) hf.depth hst
  have hself : msg.code ≠ [] → getAccountOptional s msg.currentTarget ≠ none := by
    intro hne
    by_cases h : f.since .spuriousDragon = true
    · obtain ⟨acc, ha⟩ := existing_of_owned ((hgood h).alive hne)
      show getAccountOptional _ _ ≠ none
      rw [show getAccountOptional s msg.currentTarget = some acc from ha]; simp
    · have hp : w.state.fork.since .paris = false := by
        rw [hf.fork]; revert h; cases f <;> decide
      have h0 : getAccountOptional (touchIn (beginTransaction w).state msg.currentTarget) msg.currentTarget ≠ none :=
        touchIn_exists (s := (beginTransaction w).state) hp _
      unfold messageStart at hst
      split at hst
      · exact (stays_move hst).2 (by rw [touchIn_fork]; exact hp) _ h0
      · cases hst; exact h0
  refine ⟨s, hst, hsn, hmint.1, by rw [hsn]; simp [beginTransaction], Nat.zero_le _, rfl, hf.depth, hself, hgood,
    Nat.zero_le _, Nat.zero_le _, hf.code, hf.data, ?_, ?_, ?_, ?_⟩
  · simpa [initEvm] using hf.gas
  · exact fun a => by rw [hcode.2 a]; exact hf.codes a
  · exact Nat.lt_of_le_of_lt hmint.2 hf.supply
  · exact hcode.1.trans hf.fork

theorem processMessage_fits {E : Env} {f : Fork} (hD : 49152 ≤ D) {loop : Loop} (hl : FitLoop f D loop) (hs : SnapLoop loop) :
    SubFits f D (processMessage E loop) := by
  intro msg w hp hf
  obtain ⟨s, hst, hsn, hfit⟩ := start_fits E hD hp hf
  have hx := executeCode_fits (E := E) hD hl hfit
  have hst' := hst
  unfold messageStart at hst
  unfold processMessage
  rw [if_neg (show ¬ msg.depth > STACK_DEPTH_LIMIT from Nat.not_lt.mpr hf.depth)]
  simp only
  rw [hst]
  simp only
  match hxr : executeCode E loop msg { beginTransaction w with state := s } with
  | .error (e', w2) => rw [hxr] at hx; exact hx
  | .ok (evm, w2) =>
    rw [hxr] at hx
    have hsnap := executeCode_snap (hs _ (Nat.zero_le _)) hxr
    have hss : SameSnaps w2 (beginTransaction w) := ⟨hsnap.1.trans hsn, hsnap.2.1, hsnap.2.2.trans (messageStart_code hst').1⟩
    obtain ⟨w4, e4, hc4, -⟩ := rollback_ok hss
    obtain ⟨w5, e5, hc5, -⟩ := commit_ok hss
    simp only [e4, e5]
    by_cases he : evm.error.isSome = true
    · rw [if_pos he]
      exact ⟨hx.1, fun a => by rw [getAccount_congr hc4.1]; exact hf.codes a⟩
    · rw [if_neg he]
      exact ⟨hx.1, fun a => by rw [getAccount_congr hc5.1]; exact hx.2 (by simpa using he) a⟩

theorem processCreateMessage_fits {E : Env} {f : Fork} (hD : 49152 ≤ D) {loop : Loop} (hl : FitLoop f D loop) (hs : SnapLoop loop) :
    CreateFits f D (processCreateMessage E loop) := by
  intro msg w hp hf
  have hsn := createStart_snaps w msg.currentTarget
  have hpm : f.since .spuriousDragon = true → PreMsg msg (createStart w msg.currentTarget) := by
    intro h
    have hp := hp h
    obtain ⟨hcore, -, hcr, -, -, hown⟩ := createStart_ok hp.wf hp.fresh hp.fork
    exact ⟨hcore.wf hp.wf, fun _ => hown, hp.depth, fun _ _ => .inl ((hcr _).mpr (.inr rfl)),
      by rw [hcore.fork]; exact hp.fork, fun a ha => Doomable.mono hcore (fun x hx => (hcr x).mpr (.inl hx)) (hp.parents a ha)⟩
  have hacc : ∀ a, (getAccount (createStart w msg.currentTarget).state a).balance = (getAccount w.state a).balance ∧
      (getAccount (createStart w msg.currentTarget).state a).code = (getAccount w.state a).code := by
    intro a
    by_cases h : msg.currentTarget = a
    · subst h
      unfold createStart startNonce
      split
      · unfold incrementNonce
        simp only [getAccount_modifyState', if_true]; exact ⟨rfl, rfl⟩
      · exact ⟨rfl, rfl⟩
    · rw [createStart_account _ _ _ h]; exact ⟨rfl, rfl⟩
  have hmint := createStart_free noMint_state (fun s a => noMint_modify s a _ fun _ => rfl) w msg.currentTarget hf.default
  have hfork : (createStart w msg.currentTarget).state.fork = f := hsn.2.2.trans hf.fork
  have hx := processMessage_fits (E := E) hD hl hs msg _ hpm ⟨hmint.1, hf.depth, hf.gas, hf.code, hf.data,
    fun a => by rw [(hacc a).2]; exact hf.codes a, Nat.lt_of_le_of_lt hmint.2 hf.supply, hfork,
    fun ht => by rw [(hacc _).1]; exact hf.funds ht⟩
  unfold processCreateMessage
  match hr : processMessage E loop msg (createStart w msg.currentTarget) with
  | .error (e, w2) => rw [hr] at hx; exact hx
  | .ok (evm, w2) =>
    rw [hr] at hx
    have hout : evm.output.length ≤ D := hx.1
    have hss : SameSnaps w2 (beginTransaction w) := ((processMessage_snap' hs hr).1).trans hsn
    have hss3 : SameSnaps { w2 with state := setCode w2.state msg.currentTarget evm.output } (beginTransaction w) :=
      ⟨by simpa [setCode] using hss.1, hss.2.1, by simpa [setCode] using hss.2.2⟩
    obtain ⟨w4, e4, hc4, -⟩ := rollback_ok hss
    obtain ⟨w5, e5, hc5, -⟩ := commit_ok hss3
    obtain ⟨w6, e6, hc6, -⟩ := commit_ok hss
    simp only [e4, e5, e6]
    have hback : CodesFit D w4.state := fun a => by rw [getAccount_congr hc4.1]; exact hf.codes a
    split
    · exact ⟨hout, hback⟩
    · split
      · by_cases hfo : w2.state.fork.since .homestead = true
        · rw [if_pos hfo]
          refine ⟨?_, hback⟩
          show (haltOutput _ evm.output).length ≤ D
          unfold haltOutput
          split
          · exact Nat.zero_le _
          · exact hout
        · rw [if_neg hfo]
          exact ⟨Nat.zero_le _, fun a => by rw [getAccount_congr hc6.1]; exact hx.2 a⟩
      · refine ⟨hout, fun a => ?_⟩
        rw [getAccount_congr hc5.1]
        show (getAccount (setCode w2.state msg.currentTarget evm.output) a).code.length ≤ D
        unfold setCode
        rw [getAccount_modifyState']
        split
        · exact hout
        · exact hx.2 a

theorem run_fits {E : Env} {f : Fork} (hE : EnvFits f E) (hD : D < 2 ^ 256) (hD' : 49152 ≤ D) : ∀ n, FitLoop f D (run E n) := by
  intro n
  induction n with
  | zero => intro m _; exact ⟨clean_fuel.tame, fun h => absurd h id⟩
  | succ n ih =>
    intro m hm
    rw [run]; unfold loopBody
    by_cases hr : m.evm.running = true
    · simp only [hr, if_true]
      match hb : m.evm.code[m.evm.pc]? with
      | none => exact ⟨hm.output, hm.codes⟩
      | some b =>
        simp only
        have hc : m.evm.code ≠ [] := by intro h; simp [h] at hb
        have hpc : m.evm.pc < m.evm.code.length := (List.getElem?_eq_some_iff.mp hb).1
        match decodeOpIn m.world.state.fork b with
        | none => exact ⟨(clean_halt _).tame, fun _ => hm.output⟩
        | some op =>
          simp only
          have h := opStep_fits hD (processMessage_fits (E := E) hD' ih (run_snap E n))
            (processCreateMessage_fits (E := E) hD' ih (run_snap E n))
            (processMessage_gas (run_gas E n)) (processCreateMessage_gas (run_gas E n))
            (processMessage_uncaught E _) (processCreateMessage_uncaught E _) hm (by rw [hm.isFork]; exact hE) hpc op
          have hrel : ∀ {R : State → State → Prop}, StateClosed R → KeepsFork R → RPost R m
              (opStep E (processMessage E (run E n)) (processCreateMessage E (run E n)) op m) := fun hR hF =>
            step_rel hR (processMessage_rel hR hF (E := E) (run_snap E n) (run_rel hR hF E n))
              (processCreateMessage_rel hR hF (E := E) (run_snap E n) (run_rel hR hF E n))
              (processMessage_uncaught E _) (processCreateMessage_uncaught E _) (opStep_effect E _ _ op m hm.stack)
          have h2 := hrel noMint_state.withFork fun _ _ h => h.2
          have h3 := hrel stays_closed fun _ _ h => h.1
          have h4 := step_snap (processMessage_snap (E := E) (run_snap E n)) (processCreateMessage_snap (E := E) (run_snap E n))
            (processMessage_uncaught E _) (processCreateMessage_uncaught E _) (opStep_effect E _ _ op m hm.stack)
          match hs : opStep E (processMessage E (run E n)) (processCreateMessage E (run E n)) op m with
          | .err e m' => rw [hs] at h; exact h
          | .ok _ m' =>
            rw [hs] at h h2 h3 h4
            have hf := (opStep_effect E _ _ op m hm.stack).frameLoc hs
            have hmint := h2.1.1 hm.default
            have hgood : f.since .spuriousDragon = true → GoodFrame m' :=
              fun h => (goodFrame_invariant E).step n op m m' (hm.good h) hc hs
            have hself : m'.evm.code ≠ [] → getAccountOptional m'.world.state m'.self ≠ none := by
              intro hne
              by_cases h : f.since .spuriousDragon = true
              · obtain ⟨acc, ha⟩ := existing_of_owned ((hgood h).alive hne)
                rw [ha]; simp
              · rw [Mach.self, hf.message]
                exact h3.1.2 (by rw [hm.isFork]; revert h; cases f <;> decide) _ (hm.self (by rw [← hf.code]; exact hne))
            exact ih m' ⟨hmint.1, by rw [h4.1.1]; exact hm.snaps, hf.stack hm.stack, opStep_aligned E _ _ op m () m' hm.memory hs,
              by rw [hf.message]; exact hm.depth, hself, hgood, h.1, h.2.1,
              by rw [hf.code]; exact hm.code, by rw [hf.message]; exact hm.data, h.2.2.1,
              h.2.2.2, Nat.lt_of_le_of_lt hmint.2 hm.supply, h2.1.2.trans hm.isFork⟩
    · simp only [hr, if_false, Bool.false_eq_true]
      exact ⟨hm.output, hm.codes⟩

theorem exec_fits {E : Env} {f : Fork} (hE : EnvFits f E) (hD : D < 2 ^ 256) (hD' : 49152 ≤ D) : FitLoop f D (exec E) :=
  fun m hm => run_fits hE hD hD' _ m hm
end
end Verif
