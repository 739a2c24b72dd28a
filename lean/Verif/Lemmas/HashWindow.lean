import Verif.Model.PowEvm
/-! Block hashes before the window of BLOCKHASH are never read. -/
namespace Verif

/-- The same environment with another list of block hashes. -/
def BlockEnv.withHashes (B : BlockEnv) (hs : List Word) : BlockEnv := { B with blockHashes := hs }

theorem blockHashVal_window {pre hs : List Word} {n : Nat} (hl : min 256 n ≤ hs.length) (k : Nat) :
    blockHashVal (pre ++ hs) n k = blockHashVal hs n k := by
  unfold blockHashVal
  dsimp only
  split
  · rfl
  · have h1 : n - k ≤ hs.length := by omega
    have h2 : n - k ≤ (pre ++ hs).length := by rw [List.length_append]; omega
    rw [if_pos h1, if_pos h2]
    have h3 : (pre ++ hs)[(pre ++ hs).length - (n - k)]? = hs[hs.length - (n - k)]? := by
      rw [List.length_append, List.getElem?_append_right (by omega)]
      congr 1; omega
    rw [h3]

variable {C : Crypto} {B : BlockEnv} {T : TxEnv} {hs pre : List Word}

theorem opStep_window (hB : B.blockHashes = pre ++ hs) (hl : min 256 B.number ≤ hs.length) (pm pcm : Sub) (op : Op) :
    opStep ⟨C, B.withHashes hs, T⟩ pm pcm op = opStep ⟨C, B, T⟩ pm pcm op := by
  cases op
  case blockhash =>
    show opBlockhash _ = opBlockhash _
    unfold opBlockhash
    have h : ∀ k, blockHashVal hs B.number k = blockHashVal B.blockHashes B.number k := fun k => by
      rw [hB]; exact (blockHashVal_window hl k).symm
    show (do
      let blockNumber ← pop
      chargeGas GAS_BLOCK_HASH
      let h ← liftCrash (blockHashVal hs B.number blockNumber.toNat)
      push h
      incPc 1) = _
    simp only [h]
  all_goals rfl

theorem precompile_window : precompile ⟨C, B.withHashes hs, T⟩ = precompile ⟨C, B, T⟩ := by
  have h1 : pEcrecover ⟨C, B.withHashes hs, T⟩ = pEcrecover ⟨C, B, T⟩ := by unfold pEcrecover; dsimp only [BlockEnv.withHashes]
  have h2 : pSha256 ⟨C, B.withHashes hs, T⟩ = pSha256 ⟨C, B, T⟩ := by unfold pSha256; rfl
  have h3 : pRipemd160 ⟨C, B.withHashes hs, T⟩ = pRipemd160 ⟨C, B, T⟩ := by unfold pRipemd160; rfl
  have h4 : pBnAdd ⟨C, B.withHashes hs, T⟩ = pBnAdd ⟨C, B, T⟩ := by unfold pBnAdd; rfl
  have h5 : pBnMul ⟨C, B.withHashes hs, T⟩ = pBnMul ⟨C, B, T⟩ := by unfold pBnMul; rfl
  have h6 : pBnPairing ⟨C, B.withHashes hs, T⟩ = pBnPairing ⟨C, B, T⟩ := by unfold pBnPairing; rfl
  have h7 : pPointEvaluation ⟨C, B.withHashes hs, T⟩ = pPointEvaluation ⟨C, B, T⟩ := by unfold pPointEvaluation; rfl
  have h8 : pBlsG1Add ⟨C, B.withHashes hs, T⟩ = pBlsG1Add ⟨C, B, T⟩ := by unfold pBlsG1Add; rfl
  have h9 : pBlsG1Msm ⟨C, B.withHashes hs, T⟩ = pBlsG1Msm ⟨C, B, T⟩ := by unfold pBlsG1Msm; rfl
  have h10 : pBlsG2Add ⟨C, B.withHashes hs, T⟩ = pBlsG2Add ⟨C, B, T⟩ := by unfold pBlsG2Add; rfl
  have h11 : pBlsG2Msm ⟨C, B.withHashes hs, T⟩ = pBlsG2Msm ⟨C, B, T⟩ := by unfold pBlsG2Msm; rfl
  have h12 : pBlsMapFpToG1 ⟨C, B.withHashes hs, T⟩ = pBlsMapFpToG1 ⟨C, B, T⟩ := by unfold pBlsMapFpToG1; rfl
  have h13 : pBlsMapFp2ToG2 ⟨C, B.withHashes hs, T⟩ = pBlsMapFp2ToG2 ⟨C, B, T⟩ := by unfold pBlsMapFp2ToG2; rfl
  have h14 : pBlsPairing ⟨C, B.withHashes hs, T⟩ = pBlsPairing ⟨C, B, T⟩ := by unfold pBlsPairing; rfl
  have h15 : pP256verify ⟨C, B.withHashes hs, T⟩ = pP256verify ⟨C, B, T⟩ := by unfold pP256verify; rfl
  funext f a
  unfold precompile precompileFn
  simp only [h1, h2, h3, h4, h5, h6, h7, h8, h9, h10, h11, h12, h13, h14, h15]

theorem processMessage_window (l : Loop) : processMessage ⟨C, B.withHashes hs, T⟩ l = processMessage ⟨C, B, T⟩ l := by
  have h : executeCode ⟨C, B.withHashes hs, T⟩ l = executeCode ⟨C, B, T⟩ l := by
    funext msg w
    unfold executeCode precompileOf
    rw [precompile_window]
  funext msg w
  unfold processMessage
  rw [h]

theorem processCreate_window (l : Loop) : processCreateMessage ⟨C, B.withHashes hs, T⟩ l = processCreateMessage ⟨C, B, T⟩ l := by
  funext msg w
  unfold processCreateMessage
  rw [processMessage_window]

theorem run_window (hB : B.blockHashes = pre ++ hs) (hl : min 256 B.number ≤ hs.length) :
    ∀ n, run ⟨C, B.withHashes hs, T⟩ n = run ⟨C, B, T⟩ n := by
  intro n
  induction n with
  | zero => rfl
  | succ n ih =>
    unfold run
    rw [ih]
    funext m
    unfold loopBody
    simp only [opStep_window hB hl, processMessage_window, processCreate_window]

theorem message_window (hB : B.blockHashes = pre ++ hs) (hl : min 256 B.number ≤ hs.length) :
    processMessageCall ⟨C, B.withHashes hs, T⟩ = processMessageCall ⟨C, B, T⟩ := by
  have he : exec ⟨C, B.withHashes hs, T⟩ = exec ⟨C, B, T⟩ := by
    funext m; unfold exec; rw [run_window hB hl]
  funext msg w
  unfold processMessageCall
  rw [he]
  have hd : setDelegation ⟨C, B.withHashes hs, T⟩ = setDelegation ⟨C, B, T⟩ := rfl
  unfold processMessageCallWith
  rw [processMessage_window, processCreate_window, hd]

theorem transaction_window (hB : B.blockHashes = pre ++ hs) (hl : min 256 B.number ≤ hs.length) :
    processTransaction C (B.withHashes hs) = processTransaction C B := by
  funext b tx i
  unfold processTransaction
  simp only [message_window hB hl]
  rfl

theorem transactions_window (hB : B.blockHashes = pre ++ hs) (hl : min 256 B.number ≤ hs.length) :
    ∀ txs b i, processTransactions C (B.withHashes hs) b i txs = processTransactions C B b i txs := by
  intro txs
  induction txs with
  | nil => intro b i; rfl
  | cons t r ih =>
    intro b i
    simp only [processTransactions, transaction_window hB hl, ih]

theorem system_window (hB : B.blockHashes = pre ++ hs) (hl : min 256 B.number ≤ hs.length) :
    processSystemTransaction C (B.withHashes hs) = processSystemTransaction C B := by
  funext s t c d
  unfold processSystemTransaction
  have e : systemTxEnv (B.withHashes hs) = systemTxEnv B := rfl
  rw [e, message_window hB hl]

theorem beacon_window (hB : B.blockHashes = pre ++ hs) (hl : min 256 B.number ≤ hs.length) :
    storeBeaconRoot C (B.withHashes hs) = storeBeaconRoot C B := by
  funext s
  unfold storeBeaconRoot processUncheckedSystemTransaction
  rw [system_window hB hl]
  rfl

theorem parentHash_window (hn : 1 ≤ B.number) (hB : B.blockHashes = pre ++ hs) (hl : min 256 B.number ≤ hs.length) :
    storeParentHash C (B.withHashes hs) = storeParentHash C B := by
  funext s
  have h : hs.getLast? = B.blockHashes.getLast? := by
    have hne : hs ≠ [] := fun h => by rw [h] at hl; simp at hl; omega
    rw [hB, List.getLast?_append]
    cases h : hs.getLast? with
    | none => exact absurd (List.getLast?_eq_none_iff.mp h) hne
    | some x => rfl
  unfold storeParentHash processUncheckedSystemTransaction
  rw [system_window hB hl, show (B.withHashes hs).blockHashes = hs from rfl, h]

theorem requests_window (hB : B.blockHashes = pre ++ hs) (hl : min 256 B.number ≤ hs.length) :
    processGeneralPurposeRequests C (B.withHashes hs) = processGeneralPurposeRequests C B := by
  funext b
  unfold processGeneralPurposeRequests processCheckedSystemTransaction
  rw [system_window hB hl]

theorem body_window (hn : 1 ≤ B.number) (hB : B.blockHashes = pre ++ hs) (hl : min 256 B.number ≤ hs.length) :
    applyBody C (B.withHashes hs) = applyBody C B := by
  funext s txs ws
  unfold applyBody
  simp only [beacon_window hB hl, parentHash_window hn hB hl, transactions_window hB hl, requests_window hB hl]

end Verif
