import Verif.Lemmas.SparedTx
import Verif.Props.C69
import Verif.Props.C81
import Verif.Props.C48
/-!
Property C82: nobody but its owner can take anything from an account. As long as no transaction is signed by the key of the account
and no authorization is, its balance does not fall, and its nonce, code and storage stay as they are - whatever contracts others deploy
and call, whatever blocks are mined or imported, in every fork and across forks. This is for accounts whose code cannot act by itself
(`Passive`), first of all those without code; contracts can do what their code says.
-/
namespace Verif.Props
open Verif Verif.Spec Verif.Pow Ethash Dao

/-- **C82.** A transaction of somebody else, in every fork. -/
theorem C82_transaction {C : Crypto} {B : BlockEnv} {b b' : BlockState} {tx : Transaction} {i : Nat} {a : Address}
    (h : processTransaction C B b tx i = .ok b') (hs : Settled b.state a) (hf : Foreign C B.chainId a tx) :
    Kept a b.state b'.state ∧ Settled b'.state a := by
  obtain ⟨sender, msg, o, w, s1, s2, hran⟩ := processTransaction_ok.mp h
  have hk := kept_ran hran hs hf
  exact ⟨hk, hs.kept hk⟩

/-- **C82.** A call of the EVM by which no ether of the account is sent, as the system transactions are: whatever code it runs. -/
theorem C82_message {E : Env} {msg : Message} {w w' : World} {out : MessageCallOutput} {a : Address}
    (h : processMessageCall E msg w = .ok (out, w')) (hs : Settled w.state a)
    (hcall : ∀ t, msg.target = some t → msg.currentTarget = t ∧ msg.codeAddress = some t ∧ msg.code = (getAccount w.state t).code)
    (hpar : msg.parentsToDelete = []) (hc : msg.shouldTransferValue = true → msg.caller ≠ a)
    (hauth : ∀ auth ∈ E.tx.authorizations, recoverAuthority E.crypto auth ≠ some a) :
    Kept a w.state w'.state ∧ a ∉ out.accountsToDelete := keeps_top hcall hpar h hs hc hauth

/-- **C82.** A mined block, with its rewards. -/
theorem C82_mined_block {C : Crypto} {K : Hashes} {F : PowFork} {c c' : PowChain Txs} {b : PowBlock Txs} {a : Address}
    (hf : c.state.fork = F.fork) (h : Pow.stateTransition K (evmExec C K) F c b = .ok c') (hs : Settled c.state a)
    (ht : ForeignAll C c.chainId a b.transactions) : Kept a c.state c'.state ∧ Settled c'.state a :=
  have hk := kept_powImport hf h ht hs
  ⟨hk, hs.kept hk⟩

/-- **C82.** A proof-of-stake block, with its withdrawals and system calls. -/
theorem C82_import {C : Crypto} {c c' : BlockChain} {b : Block} {a : Address} (h : stateTransition C c b = .ok c') (hs : Settled c.state a)
    (ht : ForeignAll C c.chainId a b.transactions) : Kept a c.state c'.state ∧ Settled c'.state a := by
  obtain ⟨-, -, -, -, bst, k, hb, hst, -⟩ := stateTransition_ok h
  have hk : Kept a c.state c'.state := by rw [hst]; exact kept_body ht hs hb
  exact ⟨hk, hs.kept hk⟩

theorem foreign_append {C : Crypto} {id : U64} {a : Address} {t t' : Txs} :
    ForeignAll C id a (t ++ t') ↔ ForeignAll C id a t ∧ ForeignAll C id a t' :=
  ⟨fun h => ⟨fun x hx => h x (List.mem_append_left _ hx), fun x hx => h x (List.mem_append_right _ hx)⟩,
    fun h x hx => (List.mem_append.mp hx).elim (h.1 x) (h.2 x)⟩

/-- **C82.** Along a proof-of-work history, through all its forks. The DAO fork took the ether of the listed accounts. -/
theorem C82_mined {C : Crypto} {K : Hashes} {c c' : PowChain Txs} {bs : List (PowFork × PowBlock Txs)} {a : Address} (h : Mined C K c bs c')
    (hdao : a ∉ daoAccounts) (hs : Settled c.state a) (ht : ForeignAll C c.chainId a (minedTxs bs)) :
    Kept a c.state c'.state ∧ Settled c'.state a := by
  induction h with
  | nil c => exact ⟨.refl _, hs⟩
  | block hf h t ih =>
    obtain ⟨h1, h2⟩ := C82_mined_block hf h hs (foreign_append.mp ht).1
    obtain ⟨-, e1⟩ := block_lineage hf h
    obtain ⟨h3, h4⟩ := ih h2 (by rw [e1]; exact (foreign_append.mp ht).2)
    exact ⟨h1.trans h3, h4⟩
  | fork F hf h t ih =>
    rename_i c mid c' bs
    have h1 : Kept a c.state mid.state := kept_powFork (by rw [daoAccounts_eq]; exact hdao) h
    have e1 : mid.chainId = c.chainId := by
      unfold applyPowFork at h
      split at h
      · split at h <;> cases h
        rfl
      · cases h; rfl
    obtain ⟨h3, h4⟩ := ih (hs.kept h1) (by rw [e1]; exact ht)
    exact ⟨h1.trans h3, h4⟩

/-- **C82.** Along a proof-of-stake history. -/
theorem C82_imports {C : Crypto} {c c' : BlockChain} {bs : List ChainBlock} {a : Address} (h : Imports C c bs c') (hs : Settled c.state a)
    (ht : ForeignAll C c.chainId a (importedTxs bs)) : Kept a c.state c'.state ∧ Settled c'.state a := by
  induction h with
  | nil c => exact ⟨.refl _, hs⟩
  | cons h t ih =>
    obtain ⟨h1, h2⟩ := C82_import h hs (foreign_append.mp ht).1
    obtain ⟨-, -, e1, -⟩ := stateTransition_ok h
    obtain ⟨h3, h4⟩ := ih h2 (by rw [e1]; exact (foreign_append.mp ht).2)
    exact ⟨h1.trans h3, h4⟩
  | upgrade f hf t ih =>
    rename_i c c' r
    have h1 : Kept a c.state (applyFork f c).state := kept_same rfl rfl
    obtain ⟨h3, h4⟩ := ih (hs.kept h1) ht
    exact ⟨h1.trans h3, h4⟩

/-- **C82.** The two together: from any point of the proof-of-work chain, through the merge, to any later point. -/
theorem C82_whole {C : Crypto} {K : Hashes} {c c' : PowChain Txs} {bs : List (PowFork × PowBlock Txs)} {d : BlockChain} {bs' : List ChainBlock}
    {a : Address} (h : Mined C K c bs c') (h' : Imports C (merge c') bs' d) (hdao : a ∉ daoAccounts) (hs : Settled c.state a)
    (ht : ForeignAll C c.chainId a (minedTxs bs ++ importedTxs bs')) : Kept a c.state d.state ∧ Settled d.state a := by
  obtain ⟨t1, t2⟩ := foreign_append.mp ht
  obtain ⟨h1, h2⟩ := C82_mined h hdao hs t1
  have h3 : Kept a c'.state (merge c').state := kept_same rfl rfl
  obtain ⟨-, e1⟩ := mined_lineage h
  obtain ⟨h4, h5⟩ := C82_imports h' (h2.kept h3) (by rw [show (merge c').chainId = c.chainId from e1]; exact t2)
  exact ⟨(h1.trans h3).trans h4, h5⟩

/-! ### Examples -/

theorem foreign_sample {a : Address} (ha : a ≠ 77) (t : LegacyTx)
    (hsig : recoverSender sampleCrypto .osaka 1 (.legacy t) = .ok 77) : Foreign sampleCrypto 1 a (.legacy t) :=
  ⟨fun f h => ha (recover_agree h hsig), fun _ h => by cases h⟩

/-- An account without code that has sent five transactions, in osaka. -/
def quietOwner : State := setAccount (clearingState .osaka) 0xbb (some ⟨5, 9, []⟩)

/-- Another account sends it 3 wei: it is settled, the transaction is foreign and succeeds, the balance grows. -/
example : Settled quietOwner 0xbb ∧ Foreign sampleCrypto 1 0xbb (.legacy { clearingTx 0xbb with value := 3 }) ∧ sampleBlockEnv.chainId = 1 ∧
    (match processTransaction sampleCrypto sampleBlockEnv ⟨quietOwner, BlockOutput.empty⟩ (.legacy { clearingTx 0xbb with value := 3 }) 0 with
      | .ok b => decide ((getAccount b.state 0xbb).balance = 12 ∧ (getAccount b.state 0xbb).nonce = 5)
      | .error _ => false) = true := by
  refine ⟨⟨⟨?_, ?_⟩, ?_⟩, foreign_sample (by decide) _ (by decide +kernel), rfl, by decide +kernel⟩ <;> decide +kernel

/-- A contract with the code STOP through a mined block, the merge and cancun. -/
example : ∃ c' chain, Mined sampleCrypto sampleK powEvmChain [(.frontier, powEvmBlock)] c' ∧ Imports sampleCrypto (merge c') [] chain ∧
    BEACON_ROOTS_ADDRESS ∉ daoAccounts ∧ Settled powEvmChain.state BEACON_ROOTS_ADDRESS ∧
    ForeignAll sampleCrypto powEvmChain.chainId BEACON_ROOTS_ADDRESS (minedTxs [(.frontier, powEvmBlock)] ++ importedTxs []) := by
  obtain ⟨c', h, -, -⟩ := powEvm_mined_to .grayGlacier (by decide)
  refine ⟨_, _, h.1, .upgrade .cancun rfl (.nil _), by decide +kernel, ⟨⟨?_, ?_⟩, ?_⟩, ?_⟩
  · decide +kernel
  · decide +kernel
  · decide +kernel
  · intro t ht tx hd
    have : t = .inl sampleTx := by simpa [minedTxs, importedTxs, powEvmBlock] using ht
    subst this
    cases hd
    exact foreign_sample (by decide) _ (by decide +kernel)

/-- A proof-of-stake block with system calls and a withdrawal. -/
example : ∃ c, stateTransition sampleCrypto sampleChain sampleBlock = .ok c ∧ Settled sampleChain.state HISTORY_STORAGE_ADDRESS ∧
    ForeignAll sampleCrypto sampleChain.chainId HISTORY_STORAGE_ADDRESS sampleBlock.transactions := by
  have h := sample_runs
  match hs : stateTransition sampleCrypto sampleChain sampleBlock with
  | .error e => rw [hs] at h; cases h
  | .ok c =>
    refine ⟨c, rfl, ⟨⟨?_, ?_⟩, ?_⟩, ?_⟩
    · decide +kernel
    · decide +kernel
    · decide +kernel
    · intro t ht tx hd
      have : t = .inl sampleTx := by simpa [sampleBlock] using ht
      subst this
      cases hd
      exact foreign_sample (by decide) _ (by decide +kernel)

/-- The hypothesis on the code is needed: the code of 88 has an SSTORE, and somebody else's transaction changes its storage. -/
example : ∃ c, stateTransition sampleCrypto sampleChain sampleBlock = .ok c ∧ ForeignAll sampleCrypto sampleChain.chainId 88 sampleBlock.transactions ∧
    ¬ Kept 88 sampleChain.state c.state := by
  have h := sample_runs
  match hs : stateTransition sampleCrypto sampleChain sampleBlock with
  | .error e => rw [hs] at h; cases h
  | .ok c =>
    rw [hs] at h
    simp only [sampleOutcome, Bool.and_eq_true, beq_iff_eq] at h
    refine ⟨c, rfl, ?_, fun hk => ?_⟩
    · intro t ht tx hd
      have : t = .inl sampleTx := by simpa [sampleBlock] using ht
      subst this
      cases hd
      exact foreign_sample (by decide) _ (by decide +kernel)
    · have := hk.storage 1
      rw [h.1.1] at this
      revert this; decide +kernel

end Verif.Props
