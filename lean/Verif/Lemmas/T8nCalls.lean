import Verif.Lemmas.T8nDrop
/-! Lemmas: system calls to contracts that do nothing. -/
namespace Verif.T8n
open Verif Spec

variable {C : Crypto} {B : BlockEnv}

/-- No code, or code that begins with STOP. -/
def Halts (code : Bytes) : Prop := code = [] ∨ ∃ r, code = 0 :: r

theorem halts_resolve {msg : Message} {s : State} (h : Halts msg.code) : resolveDelegation msg s = msg := by
  have : getDelegatedCodeAddress msg.code = none := by
    rcases h with h | ⟨r, h⟩
    · rw [h]; rfl
    · rw [h]
      unfold getDelegatedCodeAddress isValidDelegation
      rw [if_neg]
      simp [EOA_DELEGATION_MARKER, EOA_DELEGATION_MARKER_LENGTH]
  unfold resolveDelegation
  rw [this]
  split <;> rfl

/-- The main loop stops at once. -/
theorem halts_exec {E : Env} {msg : Message} {w : World} (h : Halts msg.code) : ∃ evm, exec E ⟨initEvm msg, w⟩ = .ok () ⟨evm, w⟩ ∧
    evm.error = none ∧ evm.refundCounter = 0 := by
  unfold exec
  show ∃ evm, run E (msg.gas + 2) ⟨initEvm msg, w⟩ = _ ∧ _
  rw [run]
  unfold loopBody
  rcases h with h | ⟨r, h⟩
  · have e : (initEvm msg).code[(initEvm msg).pc]? = none := by unfold initEvm; rw [h]; rfl
    rw [if_pos (show (initEvm msg).running = true from rfl)]
    dsimp only
    rw [e]
    exact ⟨_, rfl, rfl, rfl⟩
  · have e : (initEvm msg).code[(initEvm msg).pc]? = some 0 := by unfold initEvm; rw [h]; rfl
    rw [if_pos (show (initEvm msg).running = true from rfl)]
    dsimp only
    rw [e]
    dsimp only
    have d : decodeOpIn w.state.fork 0 = some .stop := by cases w.state.fork <;> rfl
    rw [d]
    dsimp only
    refine ⟨{ initEvm msg with pc := 1, running := false }, ?_, rfl, rfl⟩
    rfl

theorem halts_system {s : State} {target : Address} {code data : Bytes} (hf : s.fork.since .paris = true) (hs : Idle s) (h : Halts code)
    (hp : ∀ E, precompile E s.fork target = none) : ∃ o, processSystemTransaction C B s target code data = .ok (o, s) := by
  unfold processSystemTransaction processMessageCall processMessageCallWith
  have e1 : (systemMessage target code data).target = some target := rfl
  have e2 : ¬ ((⟨s, TransientStorage.empty⟩ : World).state.fork.since .prague = true ∧ (systemTxEnv B).authorizations ≠ []) := fun h => h.2 rfl
  rw [e1]
  dsimp only
  rw [if_neg e2]
  dsimp only
  rw [halts_resolve (msg := systemMessage target code data) h]
  unfold processMessage
  rw [if_neg (show ¬ (systemMessage target code data).depth > STACK_DEPTH_LIMIT by
    show ¬ (0 > STACK_DEPTH_LIMIT); decide)]
  dsimp only
  rw [if_neg (show ¬ ((systemMessage target code data).shouldTransferValue = true ∧ (systemMessage target code data).value ≠ 0) from fun h => h.2 rfl)]
  dsimp only
  have e3 : touchIn (beginTransaction ⟨s, TransientStorage.empty⟩).state (systemMessage target code data).currentTarget =
      (beginTransaction ⟨s, TransientStorage.empty⟩).state := by
    unfold touchIn
    rw [if_pos (show (beginTransaction ⟨s, TransientStorage.empty⟩).state.fork.since .paris = true from hf)]
  rw [e3]
  unfold executeCode
  have e4 : precompileOf ⟨C, B, systemTxEnv B⟩ (beginTransaction ⟨s, TransientStorage.empty⟩).state.fork (systemMessage target code data) = none :=
    hp _
  dsimp only
  rw [e4]
  obtain ⟨evm, h1, h2, h3⟩ := halts_exec (E := ⟨C, B, systemTxEnv B⟩) (msg := systemMessage target code data)
    (w := beginTransaction ⟨s, TransientStorage.empty⟩) h
  dsimp only
  rw [h1]
  dsimp only [catchFrame]
  rw [h2]
  have e5 : commitTransaction (beginTransaction ⟨s, TransientStorage.empty⟩) = .ok ⟨s, TransientStorage.empty⟩ := by
    obtain ⟨f, m, st, sn, cr⟩ := s
    have g1 : sn = [] := hs.snapshots
    have g2 : cr = [] := hs.created
    subst g1; subst g2
    rfl
  simp only [Option.isSome_none, Bool.false_eq_true, if_false]
  rw [e5]
  dsimp only
  have e6 : ∃ o, messageCallOutput 0 (touchTarget s target evm) = .ok o := by
    unfold messageCallOutput touchTarget
    rw [if_neg (by rw [show ({ evm with touchedAccounts := _ } : Evm).error = none from h2]; simp)]
    rw [show ({ evm with touchedAccounts := touchedIfEmpty s target evm.touchedAccounts } : Evm).refundCounter = 0 from h3]
    exact ⟨_, rfl⟩
  obtain ⟨o, e6⟩ := e6
  rw [e6]
  exact ⟨o, rfl⟩

/-- When both contracts do nothing, the order of the calls does not matter. -/
theorem halts_commute {s : State} (hf : s.fork.since .paris = true) (hs : Idle s) (h1 : Halts (getAccount s BEACON_ROOTS_ADDRESS).code)
    (h2 : Halts (getAccount s HISTORY_STORAGE_ADDRESS).code) : CallsCommute C B s := by
  have hp : ∀ (E : Env) (f : Fork), precompile E f BEACON_ROOTS_ADDRESS = none ∧ precompile E f HISTORY_STORAGE_ADDRESS = none := by
    intro E f
    constructor <;> (unfold precompile; cases f <;> rfl)
  obtain ⟨o1, e1⟩ := halts_system (C := C) (B := B) (data := wordBytes B.parentBeaconBlockRoot) hf hs h1 fun E => (hp E _).1
  have k1 : storeBeaconRoot C B s = .ok s := by
    unfold storeBeaconRoot processUncheckedSystemTransaction
    rw [e1]; split <;> rfl
  have k2 : storeParentHash C B s = .ok s ∨ ∃ e, storeParentHash C B s = .error e := by
    unfold storeParentHash processUncheckedSystemTransaction
    split
    · match B.blockHashes.getLast? with
      | none => exact .inr ⟨_, rfl⟩
      | some h =>
        obtain ⟨o2, e2⟩ := halts_system (C := C) (B := B) (data := wordBytes h) hf hs h2 fun E => (hp E _).2
        dsimp only
        rw [e2]; exact .inl rfl
    · exact .inl rfl
  intro s'
  rw [k1]
  constructor
  · rintro ⟨_, h, h'⟩
    cases h
    rcases k2 with k2 | ⟨e, k2⟩
    · rw [k2] at h' ⊢; cases h'; exact ⟨_, rfl, k1⟩
    · rw [k2] at h'; cases h'
  · rintro ⟨_, h, h'⟩
    rcases k2 with k2 | ⟨e, k2⟩
    · rw [k2] at h; cases h; rw [k1] at h'; cases h'; exact ⟨_, rfl, k2⟩
    · rw [k2] at h; cases h

/-- The blob gas of a block is that of its transactions. -/
theorem txs_blobs : ∀ (txs : List (LegacyTx ⊕ Bytes)) (b b' : BlockState) (i : Nat) (f : Fork), b.state.fork = f → processTransactions C B b i txs = .ok b' →
    b'.out.blobGasUsed = b.out.blobGasUsed + ((readTxs f i txs).map fun x => blobGas x.2).sum := by
  intro txs
  induction txs with
  | nil => intro b b' i f _ h; cases h; rfl
  | cons t r ih =>
    intro b b' i f hf h
    obtain ⟨tx, b1, hd, hp, hr⟩ := processTransactions_cons h
    obtain ⟨sender, msg, o, w, s1, s2, hran⟩ := processTransaction_ok.mp hp
    have e1 : b1.out.blobGasUsed = b.out.blobGasUsed + blobGas tx := by rw [hran.result]; rfl
    rw [ih b1 b' (i + 1) f ((ran_fork hran).trans hf) hr, e1, readTxs, ← hf, hd, List.map_cons, List.sum_cons, Nat.add_assoc]

theorem body_blobs {s : State} {txs : List (LegacyTx ⊕ Bytes)} {ws : List Withdrawal} {b' : BlockState} (hf : ∀ s1 s2, storeBeaconRoot C B s = .ok s1 →
    storeParentHash C B s1 = .ok s2 → s2.fork = s.fork) (h : applyBody C B s txs ws = .ok b') :
    b'.out.blobGasUsed = ((readTxs s.fork 0 txs).map fun x => blobGas x.2).sum := by
  obtain ⟨s1, s2, b3, b4, g⟩ := applyBody_ok h
  have h1 := txs_blobs txs _ _ 0 s.fork (hf s1 s2 g.roots g.history) g.transactions
  have h2 := finish_out (C := C) (B := B) (f := s.fork) (ws := ws) (b := b3)
  have h3 : finishBody C B s.fork ws b3 = .ok b' := by
    unfold finishBody
    rw [g.withdrawals]; exact g.requests
  rw [h3] at h2
  rw [h2.2.2.2, h1]
  exact Nat.zero_add _

/-- Before shanghai the withdrawals are not looked at. -/
theorem runTest_withdrawals {r : Option Int} {om : List Ommer} {ws ws' : List Withdrawal} {s : State} {txs : List (Nat × Transaction)}
    (h : s.fork.since .shanghai = true → ws = ws') : runBlockchainTest C B r om ws s txs = runBlockchainTest C B r om ws' s txs := by
  by_cases hs : s.fork.since .shanghai = true
  · rw [h hs]
  · unfold runBlockchainTest runBody
    simp only [if_neg hs]

/-- Before paris an ommer makes the tool fail, unless there is no reward. -/
theorem payReward_ommers {r : Option Int} {s : State} {cb : Address} {o : Ommer} {om : List Ommer} (hf : s.fork.since .paris = false) (hr : r ≠ some (-1)) :
    ∃ e s', payReward r s cb (o :: om) = .error (e, s') ∧ e ≠ .fork .invalidBlock := by
  have hp : ∀ v, ∃ e s', payBlockRewards v s cb (o :: om) = .error (e, s') ∧ e ≠ .fork .invalidBlock := by
    intro v
    unfold payBlockRewards
    split
    · exact ⟨_, _, rfl, fun h => by cases h⟩
    · split
      · exact ⟨_, _, rfl, fun h => by cases h⟩
      · exact ⟨_, _, rfl, fun h => by cases h⟩
  unfold payReward
  have : ∃ F, powFork s.fork = some F := by
    cases h : s.fork <;> first | exact ⟨_, rfl⟩ | (rw [h] at hf; cases hf)
  obtain ⟨F, hF⟩ := this
  rw [hF]
  match r, hr with
  | none, _ => exact hp _
  | some x, hr =>
    dsimp only
    rw [if_neg fun h => hr (by rw [h])]
    split
    · exact ⟨_, _, rfl, fun h => by cases h⟩
    · exact hp _

end Verif.T8n
