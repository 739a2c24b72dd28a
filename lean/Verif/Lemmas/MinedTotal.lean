import Verif.Spec.MinedSane
import Verif.Lemmas.ImportTotal
import Verif.Lemmas.PowEvm
import Verif.Props.C58
import Verif.Props.C68
import Verif.Props.C48
/-! No internal errors: importing a mined block. -/
namespace Verif
open Spec Verif.Props Pow Ethash

/-- What stays true from transaction to transaction, in every fork. -/
structure MinedInv (B : BlockEnv) (b : BlockState) : Prop where
  quiet : Quiet b.state
  fits : StateFits b.state
  within : Within b.state.fork B b.out
  stored : AllStored b.out

theorem mined_of_ran {C : Crypto} {B : BlockEnv} {b b' : BlockState} {tx : Transaction} {i : Nat} {sender : Address}
    {msg : Message} {o : MessageCallOutput} {w : World} {s1 s2 : State} (hB : BlockFits b.state.fork B)
    (hb : MinedInv B b) (h : Ran C B b tx i b' sender msg o w s1 s2) : MinedInv B b' ∧ supply b'.state ≤ supply b.state := by
  have hs := hb.quiet
  obtain ⟨q1, q2⟩ := supply_all hs h
  have htop := prepared_quiet h.message (prepaid_quiet hs)
  have hwf : World.WF ⟨prepaid B b.state tx sender, TransientStorage.empty⟩ := ⟨prepaid_wf hs.wf, TransientStorage.empty_wf⟩
  obtain ⟨b1, b2, b3, b4⟩ := h.includable.bounds hB
  have hrf := ran_fork h
  have hu := gasCharged_le o h.includable.valid.floor
  have e1 : b'.out.blockGasUsed = b.out.blockGasUsed + gasCharged b.state.fork tx o := by rw [h.result]; rfl
  have e2 : b'.out.blobGasUsed = b.out.blobGasUsed + blobGas tx := by rw [h.result]; rfl
  have r1 := h.includable.room
  have r2 := h.includable.blobRoom
  have hmg : msg.gas ≤ tx.gas := by
    rw [(prepareMessage_ok h.message).2.2.1]; exact Nat.sub_le _ _
  have hc := top_short hwf htop (sane_of_includable hs hB hb.fits h.includable h.message) (by omega) h.run
  refine ⟨⟨q1, ⟨by rw [hrf]; have := hb.fits.supply; omega, fun a => ?_⟩, ⟨by omega, by rw [hrf, e2]; exact r2⟩, ?_⟩, by omega⟩
  · have p1 := (refundSender_ok h.refund).2
    have p2 := (payCoinbase_ok h.pay).2
    have p3 := finalDeletions_ok s2 o
    have hres : b'.state = finalDeletions s2 o := by rw [h.result]
    by_cases ha : a ∈ o.accountsToDelete
    · have : getAccount b'.state a = emptyAccount := by rw [hres]; unfold getAccount; rw [(p3.gone a ha).1]
      rw [this]; exact (by decide : (0 : Nat) < 2 ^ 240)
    · have : getAccount b'.state a = getAccount s2 a := by rw [hres]; exact p3.keep a ha
      rw [this, (p2.rest a).2, (p1.rest a).2]
      exact hc a
  · rw [h.result]
    exact ⟨stored_set hb.stored.transactions _ _ (encodeTx_ne tx),
      stored_set hb.stored.receipts _ _ (by unfold makeReceipt; exact encodeReceipt_ne _ _), hb.stored.withdrawals⟩

theorem blobless {f : Fork} (hf : f.since .cancun = false) {t : LegacyTx ⊕ Bytes} {tx : Transaction} (h : decodeTransaction f t = .ok tx) :
    blobGas tx < 2 ^ 64 := by
  match t with
  | .inl t => cases h; exact (show (0 : Nat) < 2 ^ 64 by decide)
  | .inr [] => cases h
  | .inr (b :: r) =>
    simp only [decodeTransaction] at h
    by_cases h0 : ¬ f.since (txTypeFirstFork b) = true
    · rw [if_pos h0] at h; cases h
    rw [if_neg h0] at h
    by_cases h1 : b = 1
    · simp only [h1, if_true] at h
      cases h2 : (Rlp.decode r).bind Rlp.asAccessListTx <;> simp [h2] at h
      subst h; exact (show (0 : Nat) < 2 ^ 64 by decide)
    · by_cases h2 : b = 2
      · simp only [h2] at h
        cases h3 : (Rlp.decode r).bind Rlp.asFeeMarketTx <;> simp [h3] at h
        subst h; exact (show (0 : Nat) < 2 ^ 64 by decide)
      · by_cases h3 : b = 3
        · exfalso
          apply h0
          rw [h3]
          show ¬ f.since .cancun = true
          rw [hf]; exact fun h => by cases h
        · by_cases h4 : b = 4
          · simp only [h4] at h
            cases h5 : (Rlp.decode r).bind Rlp.asSetCodeTx <;> simp [h5] at h
            subst h; exact (show (0 : Nat) < 2 ^ 64 by decide)
          · simp only [h1, h2, h3, h4, if_false] at h
            cases h

theorem mined_transactions {C : Crypto} {B : BlockEnv} {f : Fork} (hB : BlockFits f B) (hf : f.since .cancun = false) :
    ∀ (txs : List (LegacyTx ⊕ Bytes)) (b : BlockState) (i : Nat), b.state.fork = f → MinedInv B b →
    match processTransactions C B b i txs with
    | .ok b' => MinedInv B b' ∧ supply b'.state ≤ supply b.state ∧ b'.state.fork = f
    | .error (e, _) => Refused e ∨ Tolerated f e := by
  intro txs
  induction txs with
  | nil => intro b i hf hb; exact ⟨hb, Nat.le_refl _, hf⟩
  | cons t r ih =>
    intro b i hbf hb
    rw [processTransactions]
    rw [hbf]
    match hd : decodeTransaction f t with
    | .error d => exact .inl (.inr ⟨d, rfl⟩)
    | .ok tx =>
      dsimp only
      match hp : processTransaction C B b tx i with
      | .error (e, b') =>
        rcases rejected hb.quiet (by rw [hbf]; exact hB) hb.fits hb.within (blobless hf hd) hp with h | h
        · exact .inl (.inl h.1)
        · exact .inr (hbf ▸ h.1)
      | .ok b1 =>
        dsimp only
        obtain ⟨sender, msg, o, w, s1, s2, hran⟩ := processTransaction_ok.mp hp
        obtain ⟨h1, h2⟩ := mined_of_ran (by rw [hbf]; exact hB) hb hran
        have := ih b1 (i + 1) ((ran_fork hran).trans hbf) h1
        match hq : processTransactions C B b1 (i + 1) r with
        | .ok b' => rw [hq] at this; exact ⟨this.1, by have := this.2.1; omega, this.2.2⟩
        | .error (e, b') => rw [hq] at this; exact this

theorem powHashes_length {T : Type} {K : Hashes} {blocks : List (PowBlock T)} {p : PowBlock T} (hp : blocks.getLast? = some p) :
    (lastBlockHashes K blocks).length = min 255 blocks.length + 1 := by
  unfold lastBlockHashes
  dsimp only
  have hne : blocks ≠ [] := fun h => by rw [h] at hp; cases hp
  have h1 : 0 < blocks.length := List.length_pos_iff.mpr hne
  have h2 := lastN_length 255 blocks
  split
  · rename_i heq
    have : lastN 255 blocks = [] := by simpa using heq
    rw [this] at h2; simp at h2; omega
  · rw [List.length_append, List.length_map, h2]; rfl

theorem pow_cancun (F : PowFork) : F.fork.since .cancun = false := by cases F <;> rfl
theorem pow_osaka (F : PowFork) : F.fork.since .osaka = false := by cases F <;> rfl

/-- Executing the transactions of a block that passed the checks of its header. -/
theorem run_total {C : Crypto} {K : Hashes} {F : PowFork} {c : PowChain Txs} {h : PowHeader} (txs : Txs) (hc : PowChainFits F c) (hh : MinedFits F h)
    (hn : ∃ p ∈ c.blocks, h.number = p.header.number + 1) :
    match (evmExec C K).run F c.chainId c.blocks h txs c.state with
    | .ok (s, _) => Quiet s ∧ StateFits s ∧ supply s ≤ supply c.state ∧ s.fork = F.fork
    | .error e => Refused e ∨ Tolerated F.fork e := by
  obtain ⟨p, hp, hl⟩ := hc.last
  obtain ⟨q, hq, hnum⟩ := hn
  have hle : q.header.number ≤ p.header.number := by
    obtain ⟨k, hk⟩ := hc.numbered
    obtain ⟨-, h2⟩ := numbered_last hk hp
    obtain ⟨j, hj⟩ := List.getElem?_of_mem hq
    have h3 := hk j q hj
    have h4 := (List.getElem?_eq_some_iff.mp hj).1
    omega
  have hlen := powHashes_length (K := K) hp
  have hashes : min 256 h.number ≤ (lastBlockHashes K c.blocks).length := by omega
  have hB : BlockFits F.fork (powEnvOf K c.chainId c.blocks h) := by
    refine ⟨?_, ?_, ?_, ?_, ?_, hh.difficulty⟩
    · show h.number < 2 ^ 256
      have := hh.number; omega
    · show h.gasLimit < gasLimitBound F.fork
      unfold gasLimitBound; rw [pow_osaka]; exact hh.gasLimit
    · show h.baseFeePerGas.getD 0 < 2 ^ 256
      cases hb : h.baseFeePerGas with
      | none => decide
      | some x => exact hh.baseFee x hb
    · show calculateBlobGasPrice F.fork 0 < 2 ^ 256
      cases F <;> decide +kernel
    · dsimp only [powEnvOf]; exact hashes
  have hs0 : ({ c.state with fork := F.fork } : State) = c.state := by rw [← hc.fork]
  have hinv : MinedInv (powEnvOf K c.chainId c.blocks h) ⟨c.state, BlockOutput.empty⟩ :=
    ⟨hc.quiet, hc.fits, ⟨Nat.zero_le _, fun _ => Nat.zero_le _⟩,
      ⟨fun k v hv => (by cases hv), fun k v hv => (by cases hv), fun k v hv => (by cases hv)⟩⟩
  have key := mined_transactions (C := C) hB (pow_cancun F) txs ⟨c.state, BlockOutput.empty⟩ 0 hc.fork hinv
  unfold evmExec
  dsimp only
  rw [hs0]
  match hr : processTransactions C (powEnvOf K c.chainId c.blocks h) ⟨c.state, BlockOutput.empty⟩ 0 txs with
  | .error (e, b') => rw [hr] at key; exact key
  | .ok b =>
    rw [hr] at key
    obtain ⟨i1, i2, i3⟩ := key
    dsimp only
    obtain ⟨r2, h2⟩ := indexRoot_total C _ _ i1.stored.transactions
    obtain ⟨r3, h3⟩ := indexRoot_total C _ _ i1.stored.receipts
    rw [h2, h3]
    exact ⟨i1.quiet, i1.fits, i2, i3⟩

/-- The checks of the ommers raise nothing but `InvalidBlock`. -/
theorem ommers_rejects {T : Type} (K : Hashes) (F : PowFork) (chain : List (PowBlock T)) (hl : Numbered chain) (hne : chain ≠ [])
    (h : PowHeader) (hh : h.number < 1950000000) (hts : F = .frontier → ∀ b ∈ chain, b.header.timestamp.toNat < 2 ^ 255) (ommers : List PowHeader)
    (hfee : ∀ o ∈ ommers, F = .london ∨ F = .arrowGlacier ∨ F = .grayGlacier → ∀ b ∈ chain, b.header.number + 1 = o.number →
      ¬ (F = .london ∧ o.number = 12965000) → b.header.baseFeePerGas ≠ none) (e : BlockExn)
    (he : validateOmmers K F ommers h chain = .error e) : e = .invalidBlock := by
  have step : ∀ (x y : Except BlockExn Unit), (∀ e, x = .error e → e = .invalidBlock) → (∀ e, y = .error e → e = .invalidBlock) →
      ∀ e, andThen x y = .error e → e = .invalidBlock := by
    intro x y hx hy e he
    cases x with
    | error e' => exact hx e (by rw [← he]; rfl)
    | ok u => exact hy e he
  have headers : ∀ l : List PowHeader, (∀ o ∈ l, o ∈ ommers) → ∀ e, validateOmmerHeaders K F chain h.number l = .error e → e = .invalidBlock := by
    intro l
    induction l with
    | nil => intro _ e he; cases he
    | cons o r ih =>
      intro hin e he
      unfold validateOmmerHeaders at he
      split at he
      · exact (Except.error.inj he).symm
      · rename_i ho
        exact step _ _ (fun e he => C58_rejects K F chain hl hne o (by omega) hts (hfee o (hin o List.mem_cons_self)) e he)
          (ih fun x hx => hin x (List.mem_cons_of_mem _ hx)) e he
  have places : ∀ (bh : Word) (can rec l : List _), (∀ o ∈ l, o.number < h.number) → ∀ e, validateOmmerPlaces K bh h can rec l = .error e → e = .invalidBlock := by
    intro bh can rec l
    induction l with
    | nil => intro _ e he; cases he
    | cons o r ih =>
      intro hin e he
      unfold validateOmmerPlaces at he
      dsimp only at he
      have ho := hin o List.mem_cons_self
      iterate 3
        split at he
        · exact (Except.error.inj he).symm
      rw [if_neg (by omega)] at he
      iterate 3
        split at he
        · exact (Except.error.inj he).symm
      exact ih (fun x hx => hin x (List.mem_cons_of_mem _ hx)) e he
  unfold validateOmmers at he
  dsimp only at he
  split at he
  · exact (Except.error.inj he).symm
  split at he
  · cases he
  match hv : validateOmmerHeaders K F chain h.number ommers with
  | .error e' =>
    rw [hv] at he
    have : e = e' := (Except.error.inj he).symm
    rw [this]
    exact headers ommers (fun _ h => h) e' hv
  | .ok () =>
    rw [hv] at he
    have hn := (validateOmmerHeaders_iff K F chain hl h.number ommers).mp hv
    simp only [andThen] at he
    split at he
    · exact (Except.error.inj he).symm
    split at he
    · exact (Except.error.inj he).symm
    exact places _ _ _ _ (fun o ho => (hn o ho).2.1) e he

end Verif
