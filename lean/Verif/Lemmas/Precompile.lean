import Verif.Lemmas.PureOps
/-! Precompiled contracts act only on their own frame. -/
namespace Verif

theorem pres_blsOutput1 (E : Env) (x : Option (Point3D (Fq BLS_P))) : Pres (blsOutput1 E x) := by
  cases x <;> unfold blsOutput1 <;> walk1
theorem pres_blsOutput2 (E : Env) (x : Option (Point3D (Fq2 BLS_P))) : Pres (blsOutput2 E x) := by
  cases x <;> unfold blsOutput2 <;> walk1
theorem pres_pEcrecover (E : Env) : Pres (pEcrecover E) := by
  unfold pEcrecover; walk1
theorem pres_pSha256 (E : Env) : Pres (pSha256 E) := by
  unfold pSha256; walk1
theorem pres_pRipemd160 (E : Env) : Pres (pRipemd160 E) := by
  unfold pRipemd160; walk1
theorem pres_pIdentity : Pres pIdentity := by
  unfold pIdentity; walk1
theorem pres_pModexp (f : Fork) : Pres (pModexp f) := by
  unfold pModexp
  split
  · unfold pModexpOsaka; walk1
  · unfold pModexpOld; walk1
theorem pres_pBnAdd (E : Env) (f : Fork) : Pres (pBnAdd E f) := by
  unfold pBnAdd; walk1
theorem pres_pBnMul (E : Env) (f : Fork) : Pres (pBnMul E f) := by
  unfold pBnMul; walk1
theorem pres_pBnPairing (E : Env) (f : Fork) : Pres (pBnPairing E f) := by
  unfold pBnPairing; walk1
theorem pres_pBlake2f : Pres pBlake2f := by
  unfold pBlake2f; walk1
theorem pres_pPointEvaluation (E : Env) : Pres (pPointEvaluation E) := by
  unfold pPointEvaluation; walk1
theorem pres_pBlsG1Add (E : Env) : Pres (pBlsG1Add E) := by
  unfold pBlsG1Add
  refine pres_bind pres_getEvm fun _ => ?_
  dsimp only
  split
  · exact pres_raiseHalt _
  · exact pres_bind (pres_chargeGas _) fun _ => by first | exact pres_blsOutput1 _ _ | exact pres_blsOutput2 _ _
theorem pres_pBlsG1Msm (E : Env) : Pres (pBlsG1Msm E) := by
  unfold pBlsG1Msm
  refine pres_bind pres_getEvm fun _ => ?_
  dsimp only
  split
  · exact pres_raiseHalt _
  · exact pres_bind (pres_chargeGas _) fun _ => by first | exact pres_blsOutput1 _ _ | exact pres_blsOutput2 _ _
theorem pres_pBlsG2Add (E : Env) : Pres (pBlsG2Add E) := by
  unfold pBlsG2Add
  refine pres_bind pres_getEvm fun _ => ?_
  dsimp only
  split
  · exact pres_raiseHalt _
  · exact pres_bind (pres_chargeGas _) fun _ => by first | exact pres_blsOutput1 _ _ | exact pres_blsOutput2 _ _
theorem pres_pBlsG2Msm (E : Env) : Pres (pBlsG2Msm E) := by
  unfold pBlsG2Msm
  refine pres_bind pres_getEvm fun _ => ?_
  dsimp only
  split
  · exact pres_raiseHalt _
  · exact pres_bind (pres_chargeGas _) fun _ => by first | exact pres_blsOutput1 _ _ | exact pres_blsOutput2 _ _
theorem pres_pBlsPairing (E : Env) : Pres (pBlsPairing E) := by
  unfold pBlsPairing; walk1
theorem pres_pBlsMapFpToG1 (E : Env) : Pres (pBlsMapFpToG1 E) := by
  unfold pBlsMapFpToG1
  refine pres_bind pres_getEvm fun _ => ?_
  dsimp only
  split
  · exact pres_raiseHalt _
  · exact pres_bind (pres_chargeGas _) fun _ => by first | exact pres_blsOutput1 _ _ | exact pres_blsOutput2 _ _
theorem pres_pBlsMapFp2ToG2 (E : Env) : Pres (pBlsMapFp2ToG2 E) := by
  unfold pBlsMapFp2ToG2
  refine pres_bind pres_getEvm fun _ => ?_
  dsimp only
  split
  · exact pres_raiseHalt _
  · exact pres_bind (pres_chargeGas _) fun _ => by first | exact pres_blsOutput1 _ _ | exact pres_blsOutput2 _ _
theorem pres_pP256verify (E : Env) : Pres (pP256verify E) := by
  unfold pP256verify; walk1

theorem precompileFn_of {E : Env} {f : Fork} {a : Address} {p : M Unit} (h : precompile E f a = some p) :
    f.since (precompileFirstFork a) = true ∧ precompileFn E f a = some p := by
  unfold precompile at h
  split at h
  · exact ⟨by assumption, h⟩
  · cases h

theorem pres_precompile (E : Env) (f : Fork) (a : Address) (p : M Unit) (h : precompile E f a = some p) : Pres p := by
  replace h := (precompileFn_of h).2
  unfold precompileFn at h
  by_cases h1 : a = 1
  · rw [if_pos h1] at h; cases h; exact pres_pEcrecover E
  rw [if_neg h1] at h; clear h1
  by_cases h1 : a = 2
  · rw [if_pos h1] at h; cases h; exact pres_pSha256 E
  rw [if_neg h1] at h; clear h1
  by_cases h1 : a = 3
  · rw [if_pos h1] at h; cases h; exact pres_pRipemd160 E
  rw [if_neg h1] at h; clear h1
  by_cases h1 : a = 4
  · rw [if_pos h1] at h; cases h; exact pres_pIdentity
  rw [if_neg h1] at h; clear h1
  by_cases h1 : a = 5
  · rw [if_pos h1] at h; cases h; exact pres_pModexp f
  rw [if_neg h1] at h; clear h1
  by_cases h1 : a = 6
  · rw [if_pos h1] at h; cases h; exact pres_pBnAdd E f
  rw [if_neg h1] at h; clear h1
  by_cases h1 : a = 7
  · rw [if_pos h1] at h; cases h; exact pres_pBnMul E f
  rw [if_neg h1] at h; clear h1
  by_cases h1 : a = 8
  · rw [if_pos h1] at h; cases h; exact pres_pBnPairing E f
  rw [if_neg h1] at h; clear h1
  by_cases h1 : a = 9
  · rw [if_pos h1] at h; cases h; exact pres_pBlake2f
  rw [if_neg h1] at h; clear h1
  by_cases h1 : a = 0x0a
  · rw [if_pos h1] at h; cases h; exact pres_pPointEvaluation E
  rw [if_neg h1] at h; clear h1
  by_cases h1 : a = 0x0b
  · rw [if_pos h1] at h; cases h; exact pres_pBlsG1Add E
  rw [if_neg h1] at h; clear h1
  by_cases h1 : a = 0x0c
  · rw [if_pos h1] at h; cases h; exact pres_pBlsG1Msm E
  rw [if_neg h1] at h; clear h1
  by_cases h1 : a = 0x0d
  · rw [if_pos h1] at h; cases h; exact pres_pBlsG2Add E
  rw [if_neg h1] at h; clear h1
  by_cases h1 : a = 0x0e
  · rw [if_pos h1] at h; cases h; exact pres_pBlsG2Msm E
  rw [if_neg h1] at h; clear h1
  by_cases h1 : a = 0x0f
  · rw [if_pos h1] at h; cases h; exact pres_pBlsPairing E
  rw [if_neg h1] at h; clear h1
  by_cases h1 : a = 0x10
  · rw [if_pos h1] at h; cases h; exact pres_pBlsMapFpToG1 E
  rw [if_neg h1] at h; clear h1
  by_cases h1 : a = 0x11
  · rw [if_pos h1] at h; cases h; exact pres_pBlsMapFp2ToG2 E
  rw [if_neg h1] at h; clear h1
  by_cases h1 : a = 0x100
  · rw [if_pos h1] at h; cases h; exact pres_pP256verify E
  rw [if_neg h1] at h; clear h1
  cases h

end Verif
