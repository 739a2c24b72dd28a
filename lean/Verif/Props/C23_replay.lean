import Verif.Lemmas.Body
import Verif.Lemmas.Header
import Verif.Lemmas.SampleTx
/-!
Property C23, for transactions, blocks and chains: including a transaction raises its sender's nonce above the nonce of the
transaction, nonces of senders never decrease, so the nonces of the transactions of a sender increase along every chain, and no
transaction is included twice.
-/
namespace Verif.Props
open Verif Verif.Spec

theorem nonce_le {s s' : State} (h : ∀ a, NonceSafe s a → (getAccount s a).nonce ≤ (getAccount s' a).nonce ∧ NonceSafe s' a) (a : Address)
    (ha : s.fork.since .cancun = true ∨ (getAccount s a).code = []) : (getAccount s a).nonce ≤ (getAccount s' a).nonce := by
  by_cases h0 : (getAccount s a).nonce = 0
  · omega
  · exact (h a (ha.imp id fun hc => ⟨hc, h0⟩)).1

/-- **C23**, for an included transaction. Before cancun an account with code may destroy itself and start again with nonce 0; the
nonces of accounts without code, which are those that can send transactions, never fall. -/
theorem C23_transaction {C : Crypto} {B : BlockEnv} {b b' : BlockState} {tx : Transaction} {i : Nat} (hs : Idle b.state)
    (h : processTransaction C B b tx i = .ok b') :
    (∀ a, b.state.fork.since .cancun = true ∨ (getAccount b.state a).code = [] →
      (getAccount b.state a).nonce ≤ (getAccount b'.state a).nonce) ∧
    ∃ sender, recoverSender C b.state.fork B.chainId tx = .ok sender ∧ (getAccount b.state sender).nonce = tx.nonce.toNat ∧
      tx.nonce.toNat < (getAccount b'.state sender).nonce := by
  obtain ⟨sender, msg, o, w, s1, s2, hr⟩ := processTransaction_ok.mp h
  obtain ⟨h1, h2⟩ := nonces_of_ran hs hr
  exact ⟨nonce_le h1, sender, hr.includable.signed, hr.includable.nonce, h2.1⟩

/-- **C23.** A transaction means the same in every fork that knows its type: what one fork decodes, the latest decodes to the same. -/
theorem C23_decode {f : Fork} {t : LegacyTx ⊕ Bytes} {tx : Transaction} (h : decodeTransaction f t = .ok tx) :
    decodeTransaction .osaka t = .ok tx := decode_later h

/-- **C23**, for blocks. -/
theorem C23_block {C : Crypto} {B : BlockEnv} {s : State} {txs : List (LegacyTx ⊕ Bytes)} {ws : List Withdrawal} {b' : BlockState}
    (hs : Idle s) (h : applyBody C B s txs ws = .ok b') :
    Idle b'.state ∧ (∀ a, s.fork.since .cancun = true ∨ (getAccount s a).code = [] → (getAccount s a).nonce ≤ (getAccount b'.state a).nonce) ∧
    ∀ t ∈ txs, ∃ tx sender, decodeTransaction .osaka t = .ok tx ∧ recoverSender C .osaka B.chainId tx = .ok sender ∧
      tx.nonce.toNat < (getAccount b'.state sender).nonce := by
  have hh := body_history h
  refine ⟨hh.idle hs, nonce_le (hh.mono hs), fun t ht => ?_⟩
  obtain ⟨tx, a, h1, h2, -, h4, -⟩ := hh.each hs t ht
  exact ⟨tx, a, h1, h2, h4⟩

theorem chain_history {C : Crypto} {chain chain' : BlockChain} {bs : List ChainBlock} (h : Imports C chain bs chain') :
    History C chain.chainId chain.state chain'.state (bs.flatMap fun b => b.block.transactions) ∧ chain'.chainId = chain.chainId := by
  induction h with
  | nil c => exact ⟨history_nil id fun _ _ h => ⟨Nat.le_refl _, h⟩, rfl⟩
  | cons hst t ih =>
    rename_i c mid c' b r
    obtain ⟨-, -, hid, -, bst, k, hb, hst', -⟩ := stateTransition_ok hst
    have h1 := body_history hb
    rw [← hst'] at h1
    have h2 := ih.1
    rw [hid] at h2
    rw [List.flatMap_cons]
    exact ⟨h1.append h2, ih.2.trans hid⟩
  | upgrade f hf t ih =>
    rename_i c c' r
    refine ⟨(history_nil (fun hi => applyFork_idle (since_later hf hi.fork) hi) fun _ a hs => ⟨Nat.le_refl _, ?_⟩ : History C c.chainId c.state (applyFork f c).state []).append ih.1, ih.2⟩
    exact hs.imp (fun h => since_later hf h) id

/-- **C23**, for chains: whatever blocks are imported, and whatever forks are activated in between, no such nonce decreases. -/
theorem C23_chain {C : Crypto} {chain chain' : BlockChain} {bs : List ChainBlock} (hs : Idle chain.state) (h : Imports C chain bs chain') :
    Idle chain'.state ∧ ∀ a, chain.state.fork.since .cancun = true ∨ (getAccount chain.state a).code = [] →
      (getAccount chain.state a).nonce ≤ (getAccount chain'.state a).nonce :=
  ⟨(chain_history h).1.idle hs, nonce_le ((chain_history h).1.mono hs)⟩

/-- **C23.** In every chain of blocks, of two transactions with the same sender the later one has the higher nonce. -/
theorem C23_order {C : Crypto} {chain chain' : BlockChain} {bs : List ChainBlock} (hs : Idle chain.state) (h : Imports C chain bs chain') :
    (bs.flatMap fun b => b.block.transactions).Pairwise fun t t' => ∀ tx tx' sender, decodeTransaction .osaka t = .ok tx → decodeTransaction .osaka t' = .ok tx' →
      recoverSender C .osaka chain.chainId tx = .ok sender → recoverSender C .osaka chain.chainId tx' = .ok sender →
      tx.nonce.toNat < tx'.nonce.toNat := (chain_history h).1.order hs

/-- **C23.** No transaction occurs twice in a chain of blocks, in the same block or in different ones. -/
theorem C23_no_replay {C : Crypto} {chain chain' : BlockChain} {bs : List ChainBlock} (hs : Idle chain.state) (h : Imports C chain bs chain') :
    (bs.flatMap fun b => b.block.transactions).Nodup := by
  have h1 := (chain_history h).1
  have hord := h1.order hs
  have heach := h1.each hs
  rw [List.Nodup]
  refine List.Pairwise.imp_of_mem ?_ hord
  intro t t' ht _ hlt he
  subst he
  obtain ⟨tx, a, e1, e2, -, -⟩ := heach t ht
  exact absurd (hlt tx tx a e1 e1 e2 e2) (Nat.lt_irrefl _)

/-- **C23.** A transaction that was included is rejected ever after, and the attempt changes no account. -/
theorem C23_rejected {C : Crypto} {chain chain' : BlockChain} {bs : List ChainBlock} (hs : Idle chain.state) (h : Imports C chain bs chain')
    {t : LegacyTx ⊕ Bytes} (ht : t ∈ bs.flatMap fun b => b.block.transactions) {tx : Transaction} (hd : decodeTransaction .osaka t = .ok tx)
    (B : BlockEnv) (hB : B.chainId = chain.chainId) (out : BlockOutput) (i : Nat) :
    ∃ e b', processTransaction C B ⟨chain'.state, out⟩ tx i = .error (e, b') ∧ b'.state = chain'.state := by
  obtain ⟨u, a, e1, e2, -, e4, -⟩ := (chain_history h).1.each hs t ht
  rw [hd] at e1; cases e1
  match hb : beginTx C B ⟨chain'.state, out⟩ tx i with
  | .error (e, b') =>
    refine ⟨e, b', ?_, ?_⟩
    · unfold processTransaction; rw [hb]
    · rw [(beginTx_rejects hb).1]
  | .ok (p, b1) =>
    obtain ⟨sender, hi, -⟩ := beginTx_iff hb
    have := hi.signed
    rw [recover_later ((chain_history h).1.idle hs).fork, hB, e2] at this
    cases this
    have := hi.nonce
    simp only at this
    omega

/-- The sample block is imported into the sample chain, whose state is between transactions. -/
example : Idle sampleChain.state ∧ ∃ chain', Imports sampleCrypto sampleChain [⟨.osaka, sampleBlock⟩] chain' ∧
    Sum.inl sampleTx ∈ [(⟨.osaka, sampleBlock⟩ : ChainBlock)].flatMap fun b => b.block.transactions :=
  ⟨sample_idle, sample_imports.elim fun c h => ⟨c, h.1, by simp [sampleBlock]⟩⟩

end Verif.Props
