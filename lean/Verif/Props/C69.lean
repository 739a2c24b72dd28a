import Verif.Lemmas.Lineage
import Verif.Lemmas.SamplePowEvm
import Verif.Props.C68
/-!
Property C69: nonces and replay along proof-of-work chains, from frontier on, and through the change to proof of stake. A chain is
mined from `c` to `c'`, then it changes to proof of stake (`merge`) and goes on to `chain`.
-/
namespace Verif.Props
open Verif Verif.Spec Pow Ethash Dao

/-- The transactions of a proof-of-work history, in order. -/
def minedTxs (bs : List (PowFork × PowBlock Txs)) : Txs := bs.flatMap fun b => b.2.transactions

/-- The transactions of a proof-of-stake history, in order. -/
def importedTxs (bs : List ChainBlock) : Txs := bs.flatMap fun b => b.block.transactions

theorem block_lineage {C : Crypto} {K : Hashes} {F : PowFork} {c c' : PowChain Txs} {b : PowBlock Txs} (hf : c.state.fork = F.fork)
    (h : Pow.stateTransition K (evmExec C K) F c b = .ok c') :
    Lineage C c.chainId c.state c'.state b.transactions ∧ c'.chainId = c.chainId := by
  obtain ⟨-, -, s, r, hrun, hpay, -, -, -, -, -, -, hc⟩ := powTransition_ok h
  obtain ⟨b1, hb, rfl, -⟩ := evmExec_ok hrun
  have h1 := transactions_lineage _ hb
  obtain ⟨m, -⟩ := payRewards_paid hpay
  have h2 : Lineage C c.chainId b1.state c'.state [] :=
    lineage_same (moved_quiet m) (by rw [m.fork]; cases b1.state.fork <;> rfl) fun _ => m.account
  have h3 := h1.append h2
  rw [List.append_nil] at h3
  have e : { c.state with fork := F.fork } = c.state := by rw [← hf]
  dsimp only at h3
  rw [e] at h3
  exact ⟨h3, hc⟩

theorem mined_lineage {C : Crypto} {K : Hashes} {c c' : PowChain Txs} {bs : List (PowFork × PowBlock Txs)} (h : Mined C K c bs c') :
    Lineage C c.chainId c.state c'.state (minedTxs bs) ∧ c'.chainId = c.chainId := by
  induction h with
  | nil c => exact ⟨lineage_nil id fun _ _ h => ⟨Nat.le_refl _, h⟩, rfl⟩
  | block hf h t ih =>
    obtain ⟨h1, e1⟩ := block_lineage hf h
    obtain ⟨h2, e2⟩ := ih
    rw [e1] at h2
    exact ⟨h1.append h2, e2.trans e1⟩
  | fork F hf h t ih =>
    rename_i c mid c' bs
    obtain ⟨h2, e2⟩ := ih
    have e1 : mid.chainId = c.chainId ∧ mid.state.fork = F.fork := by
      unfold applyPowFork at h
      split at h
      · split at h <;> cases h
        exact ⟨rfl, rfl⟩
      · cases h; exact ⟨rfl, rfl⟩
    have h1 : Lineage C c.chainId c.state mid.state [] :=
      lineage_same (fun hq => (applyPowFork_quiet hq h).1) (by rw [e1.2]; exact hf) fun hq => (applyPowFork_quiet hq h).2.2.2.1
    rw [e1.1] at h2
    exact ⟨h1.append h2, e2.trans e1.1⟩

theorem whole_lineage {C : Crypto} {K : Hashes} {c c' : PowChain Txs} {bs : List (PowFork × PowBlock Txs)} {chain : BlockChain}
    {bs' : List ChainBlock} (h : Mined C K c bs c') (hf : Fork.since .paris c'.state.fork = true) (h' : Imports C (merge c') bs' chain) :
    Lineage C c.chainId c.state chain.state (minedTxs bs ++ importedTxs bs') ∧ chain.chainId = c.chainId := by
  obtain ⟨h1, e1⟩ := mined_lineage h
  have h2 : Lineage C c.chainId c'.state (merge c').state [] :=
    lineage_same (fun hq => setFork_quiet .paris hq) hf fun _ _ => ⟨rfl, rfl⟩
  obtain ⟨h3, e3⟩ := chain_history h'
  have h3 := h3.lineage rfl
  rw [show (merge c').chainId = c.chainId from e1] at h3 e3
  have := (h1.append h2).append h3
  rw [List.append_nil] at this
  exact ⟨this, e3⟩

/-- **C69.** The nonce of an account without code never falls along a proof-of-work history. -/
theorem C69_nonces {C : Crypto} {K : Hashes} {c c' : PowChain Txs} {bs : List (PowFork × PowBlock Txs)} (hq : Quiet c.state)
    (h : Mined C K c bs c') (a : Address) (ha : (getAccount c.state a).code = []) :
    (getAccount c.state a).nonce ≤ (getAccount c'.state a).nonce :=
  nonce_le ((mined_lineage h).1.mono hq) a (.inr ha)

/-- **C69.** Of two transactions with the same sender, the later one in the whole history has the higher nonce, by whatever forks
they were included and their senders are recovered. -/
theorem C69_order {C : Crypto} {K : Hashes} {c c' : PowChain Txs} {bs : List (PowFork × PowBlock Txs)} {chain : BlockChain}
    {bs' : List ChainBlock} (hq : Quiet c.state) (h : Mined C K c bs c') (hf : Fork.since .paris c'.state.fork = true)
    (h' : Imports C (merge c') bs' chain) :
    (minedTxs bs ++ importedTxs bs').Pairwise fun t t' => ∀ f f' tx tx' sender, decodeTransaction .osaka t = .ok tx →
      decodeTransaction .osaka t' = .ok tx' → recoverSender C f c.chainId tx = .ok sender → recoverSender C f' c.chainId tx' = .ok sender →
      tx.nonce.toNat < tx'.nonce.toNat := (whole_lineage h hf h').1.order hq

/-- **C69.** No transaction is included twice, from frontier to osaka. -/
theorem C69_no_replay {C : Crypto} {K : Hashes} {c c' : PowChain Txs} {bs : List (PowFork × PowBlock Txs)} {chain : BlockChain}
    {bs' : List ChainBlock} (hq : Quiet c.state) (h : Mined C K c bs c') (hf : Fork.since .paris c'.state.fork = true)
    (h' : Imports C (merge c') bs' chain) : (minedTxs bs ++ importedTxs bs').Nodup := by
  have hl := (whole_lineage h hf h').1
  rw [List.Nodup]
  refine List.Pairwise.imp_of_mem ?_ (hl.order hq)
  intro t t' ht _ hlt he
  subst he
  obtain ⟨f, tx, a, e1, e2, -⟩ := hl.each hq t ht
  exact absurd (hlt f f tx tx a e1 e1 e2 e2) (Nat.lt_irrefl _)

/-- **C69.** A transaction that was included is rejected ever after, in whatever fork, and the attempt changes no account. -/
theorem C69_rejected {C : Crypto} {K : Hashes} {c c' : PowChain Txs} {bs : List (PowFork × PowBlock Txs)} {chain : BlockChain}
    {bs' : List ChainBlock} (hq : Quiet c.state) (h : Mined C K c bs c') (hf : Fork.since .paris c'.state.fork = true)
    (h' : Imports C (merge c') bs' chain) {t : LegacyTx ⊕ Bytes} (ht : t ∈ minedTxs bs ++ importedTxs bs') {tx : Transaction}
    (hd : decodeTransaction .osaka t = .ok tx) (B : BlockEnv) (hB : B.chainId = c.chainId) (out : BlockOutput) (i : Nat) :
    ∃ e b', processTransaction C B ⟨chain.state, out⟩ tx i = .error (e, b') ∧ b'.state = chain.state := by
  obtain ⟨f, u, a, e1, e2, -, e4, -⟩ := (whole_lineage h hf h').1.each hq t ht
  rw [hd] at e1; cases e1
  match hb : beginTx C B ⟨chain.state, out⟩ tx i with
  | .error (e, b') =>
    refine ⟨e, b', ?_, ?_⟩
    · unfold processTransaction; rw [hb]
    · rw [(beginTx_rejects hb).1]
  | .ok (p, b1) =>
    obtain ⟨sender, hi, -⟩ := beginTx_iff hb
    have hs := hi.signed
    rw [hB] at hs
    cases recover_agree hs e2
    have := hi.nonce
    simp only at this
    omega

/-- **C69.** The same within a proof-of-work history, in a block of any fork. -/
theorem C69_rejected_mining {C : Crypto} {K : Hashes} {c c' : PowChain Txs} {bs : List (PowFork × PowBlock Txs)} (hq : Quiet c.state)
    (h : Mined C K c bs c') {t : LegacyTx ⊕ Bytes} (ht : t ∈ minedTxs bs) {tx : Transaction} (hd : decodeTransaction .osaka t = .ok tx)
    (B : BlockEnv) (hB : B.chainId = c.chainId) (out : BlockOutput) (i : Nat) :
    ∃ e b', processTransaction C B ⟨c'.state, out⟩ tx i = .error (e, b') ∧ b'.state = c'.state := by
  obtain ⟨f, u, a, e1, e2, -, e4, -⟩ := (mined_lineage h).1.each hq t ht
  rw [hd] at e1; cases e1
  match hb : beginTx C B ⟨c'.state, out⟩ tx i with
  | .error (e, b') =>
    refine ⟨e, b', ?_, ?_⟩
    · unfold processTransaction; rw [hb]
    · rw [(beginTx_rejects hb).1]
  | .ok (p, b1) =>
    obtain ⟨sender, hi, -⟩ := beginTx_iff hb
    have hs := hi.signed
    rw [hB] at hs
    cases recover_agree hs e2
    have := hi.nonce
    simp only at this
    omega

/-- The sample block: its transaction raises the nonce of its sender, and the history goes on to gray_glacier, through the merge and
to cancun. -/
example : Quiet powEvmChain.state ∧ ∃ c' chain, Mined sampleCrypto sampleK powEvmChain [(.frontier, powEvmBlock)] c' ∧
    Fork.since .paris c'.state.fork = true ∧ Imports sampleCrypto (merge c') [] chain ∧ chain.state.fork = .cancun ∧
    (getAccount chain.state 77).nonce = 1 ∧ Sum.inl sampleTx ∈ minedTxs [(.frontier, powEvmBlock)] := by
  obtain ⟨c', h, -, hn⟩ := powEvm_mined_to .grayGlacier (by decide)
  exact ⟨powEvm_quiet, _, _, h.1, by rw [h.2]; rfl, .upgrade .cancun rfl (.nil _), rfl, hn, List.mem_cons_self⟩

end Verif.Props
