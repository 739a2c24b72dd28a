import Verif.Lemmas.ImportTotal
import Verif.Lemmas.SampleTx
import Verif.Props.C50
import Verif.Lemmas.SamplePowEvm
/-!
Property C26: rejected transactions leave no trace, and neither transactions nor blocks fail in any other way.

`Declared`, `Refused`, `BlockFits`, `StateFits`, `HeaderFits`, `ChainFits` and `Within` are in `Verif/Spec/TxSane.lean`,
`Includable` in `Verif/Spec/TxRules.lean`.
-/
namespace Verif.Props
open Verif Verif.Spec

/-- **C26.** In every fork: if processing a transaction fails, then with one of the declared exceptions, before any account, storage
slot, counter, log or receipt was touched. (The trie of transactions of the block has got its entry already.) The one
exception, from byzantium to prague, is the overflow of the precompile MODEXP in the course of a transaction that may be
included (C65). -/
theorem C26_rejected {C : Crypto} {B : BlockEnv} {b b' : BlockState} {tx : Transaction} {i : Nat} {e : BlockExn} (hs : Quiet b.state)
    (hB : BlockFits b.state.fork B) (hS : StateFits b.state) (hw : Within b.state.fork B b.out) (hb : blobGas tx < 2 ^ 64)
    (h : processTransaction C B b tx i = .error (e, b')) :
    ((e = .invalidBlock ∨ ∃ x, e = .invalidTx x) ∧ b'.state = b.state ∧
      b'.out = { b.out with transactionsTrie := b'.out.transactionsTrie }) ∨
    (b.state.fork.since .byzantium = true ∧ b.state.fork.since .osaka = false ∧ e = .exn (.crash .overflowError) ∧
      ∃ sender, Includable C B b.state b.out.blockGasUsed b.out.blobGasUsed tx sender) := by
  rcases rejected hs hB hS hw hb h with ⟨h1, rfl, -⟩ | ⟨⟨⟨h1, h2⟩, h3⟩, h4⟩
  · exact .inl ⟨h1, rfl, rfl⟩
  · exact .inr ⟨h1, h2, h3, h4⟩

/-- **C26.** Before byzantium, when there was no MODEXP, and in osaka there is no exception to that. -/
theorem C26_rejected_always {C : Crypto} {B : BlockEnv} {b b' : BlockState} {tx : Transaction} {i : Nat} {e : BlockExn} (hs : Quiet b.state)
    (hf : b.state.fork.since .byzantium = false ∨ b.state.fork = .osaka)
    (hB : BlockFits b.state.fork B) (hS : StateFits b.state) (hw : Within b.state.fork B b.out) (hb : blobGas tx < 2 ^ 64)
    (h : processTransaction C B b tx i = .error (e, b')) :
    (e = .invalidBlock ∨ ∃ x, e = .invalidTx x) ∧ b'.state = b.state ∧
      b'.out = { b.out with transactionsTrie := b'.out.transactionsTrie } := by
  rcases C26_rejected hs hB hS hw hb h with h | ⟨h1, h2, -⟩
  · exact h
  · rcases hf with hf | hf
    · rw [hf] at h1; cases h1
    · rw [hf] at h2; exact absurd h2 (by decide)

/-- **C26.** In every fork, a transaction that keeps the rules of inclusion is included: nothing that happens while it runs or is settled
makes it fail, but for the overflow of MODEXP from byzantium to prague. -/
theorem C26_included {C : Crypto} {B : BlockEnv} {b : BlockState} {tx : Transaction} {i : Nat} {sender : Address} (hs : Quiet b.state)
    (hB : BlockFits b.state.fork B) (hS : StateFits b.state)
    (h : Includable C B b.state b.out.blockGasUsed b.out.blobGasUsed tx sender) :
    (∃ b', processTransaction C B b tx i = .ok b') ∨
    (b.state.fork.since .byzantium = true ∧ b.state.fork.since .osaka = false ∧
      ∃ b', processTransaction C B b tx i = .error (.exn (.crash .overflowError), b')) := by
  rcases includable_runs i hs hB hS h with ⟨⟨h1, h2⟩, h3⟩ | h
  · exact .inr ⟨h1, h2, h3⟩
  · exact .inl h

/-- **C26.** Before byzantium and in osaka a transaction fails exactly when the rules of inclusion are broken. -/
theorem C26_included_iff {C : Crypto} {B : BlockEnv} {b : BlockState} {tx : Transaction} {i : Nat} (hs : Quiet b.state)
    (hf : b.state.fork.since .byzantium = false ∨ b.state.fork = .osaka) (hB : BlockFits b.state.fork B) (hS : StateFits b.state) :
    (∃ b', processTransaction C B b tx i = .ok b') ↔
      ∃ sender, Includable C B b.state b.out.blockGasUsed b.out.blobGasUsed tx sender :=
  ⟨fun ⟨_, h⟩ => (processTransaction_ok.mp h).elim fun sender h => ⟨sender, by
    obtain ⟨_, _, _, _, _, hran⟩ := h; exact hran.includable⟩, fun ⟨_, h⟩ => by
    rcases C26_included (i := i) hs hB hS h with h | ⟨h1, h2, -⟩
    · exact h
    · rcases hf with hf | hf
      · rw [hf] at h1; cases h1
      · rw [hf] at h2; exact absurd h2 (by decide)⟩

/-- **C26**, why the number of blobs is bounded there: with 2^47 blob hashes the blob gas overflows before the number of
blobs is looked at, and an arithmetic error escapes. (Since osaka no block that size passes the size check: see `C26_import`.) -/
theorem C26_blob_overflow {C : Crypto} {B : BlockEnv} {b : BlockState} {tx : Transaction} {i : Nat} (hw : Within b.state.fork B b.out)
    (hv : ValidTx b.state.fork tx) (hg : b.out.blockGasUsed + tx.gas ≤ B.blockGasLimit) (hb : 2 ^ 64 ≤ blobGas tx) :
    ∃ b', processTransaction C B b tx i = .error (.exn (.crash .overflowError), b') := by
  have hc : checkTransaction C B b.state (recorded b.out tx i) tx = .error (.exn (.crash .overflowError)) := by
    have h1 : usub B.blockGasLimit (recorded b.out tx i).blockGasUsed = .ok (B.blockGasLimit - b.out.blockGasUsed) := by
      unfold usub; exact if_pos hw.gas
    obtain ⟨avail, h2⟩ := blobAvailable_total (out := recorded b.out tx i) (B := B) ⟨hw.gas, hw.blobGas⟩
    have h3 : calculateTotalBlobGas tx = .error .overflowError := by
      unfold calculateTotalBlobGas
      have e2 : GAS_PER_BLOB = 131072 := rfl
      cases tx with
      | blob t =>
        have : 2 ^ 64 ≤ 131072 * t.blobVersionedHashes.length := hb
        dsimp only
        unfold toU64
        rw [e2, if_neg (by omega)]
      | _ => simp [blobGas, Transaction.blobHashes] at hb
    have h4 : ¬ tx.gas > B.blockGasLimit - b.out.blockGasUsed := by omega
    unfold checkTransaction
    rw [h1, h2, h3]
    simp only [pyErr, bind, Except.bind, h4, if_false]
  refine ⟨⟨b.state, recorded b.out tx i⟩, ?_⟩
  unfold processTransaction beginTx
  dsimp only
  rw [(C45_accepts_iff b.state.fork tx _).mpr ⟨hv, rfl⟩]
  dsimp only
  unfold recorded at hc
  rw [hc]
  rfl

/-- **C26**, for blocks. An import fails with a declared exception or because a transaction cannot be decoded, never by
an arithmetic, index or assertion error - except, before osaka, the overflow of MODEXP - and leaves the list of blocks
alone; and after a successful import the chain is again as assumed here. For every fork with proof of stake. -/
theorem C26_import {C : Crypto} {chain : BlockChain} {b : Block} (hc : ChainFits chain) (hh : HeaderFits chain.state.fork b.header)
    (hz : chain.state.fork.since .osaka = false → (Rlp.encode (.ofBlock chain.state.fork b)).length < 2 ^ 47)
    (hsup : supply chain.state + withdrawn chain.state.fork b.withdrawals < supplyLimit chain.state.fork) :
    (∀ chain', stateTransition C chain b = .ok chain' → ChainFits chain') ∧
    ∀ e chain', stateTransition C chain b = .error (e, chain') →
      (e = .invalidBlock ∨ (∃ x, e = .invalidTx x) ∨ (∃ d, e = .decode d) ∨
        chain.state.fork.since .osaka = false ∧ e = .exn (.crash .overflowError)) ∧ chain'.blocks = chain.blocks := by
  have h := import_total (C := C) hc hh hz hsup
  refine ⟨fun _ hc => (h.ok _ hc).1, fun e c he => ?_⟩
  obtain ⟨h1, h2⟩ := h.error e c he
  exact ⟨by rcases h1 with ((h1 | h1) | h1) | ⟨h1, h3⟩ <;> simp_all [OldModexp], h2⟩

/-- **C26**, for chains: whatever was imported, through all forks with proof of stake, the assumptions of `C26_import` hold
again. -/
theorem C26_history {C : Crypto} {chain chain' : BlockChain} {bs : List ChainBlock} (h : Imports C chain bs chain') (hc : ChainFits chain)
    (hh : ∀ b ∈ bs, HeaderFits b.fork b.block.header)
    (hz : ∀ b ∈ bs, b.fork.since .osaka = false → (Rlp.encode (.ofBlock b.fork b.block)).length < 2 ^ 47)
    (hsup : supply chain.state + (bs.map fun b => withdrawn b.fork b.block.withdrawals).sum < supplyLimit chain.state.fork) :
    ChainFits chain' ∧ supply chain'.state ≤ supply chain.state + (bs.map fun b => withdrawn b.fork b.block.withdrawals).sum := by
  induction h with
  | nil c => exact ⟨hc, Nat.le_add_right _ _⟩
  | cons hst t ih =>
    rename_i c mid c' b r
    rw [List.map_cons, List.sum_cons] at hsup ⊢
    have hsup : supply c.state + (withdrawn c.state.fork b.withdrawals + (r.map fun b => withdrawn b.fork b.block.withdrawals).sum) <
      supplyLimit c.state.fork := hsup
    show _ ∧ _ ≤ _ + (withdrawn c.state.fork b.withdrawals + _)
    obtain ⟨hmid, hfk⟩ := (import_total hc (hh ⟨_, b⟩ List.mem_cons_self) (hz ⟨_, b⟩ List.mem_cons_self)
      (show supply c.state + withdrawn c.state.fork b.withdrawals < _ by omega)).ok _ hst
    obtain ⟨-, -, -, -, bst, k, hb, hst', -⟩ := stateTransition_ok hst
    have hs1 := C50_bound hc.idle hb
    rw [← hst'] at hs1
    obtain ⟨h1, h2⟩ := ih hmid (fun x hx => hh x (List.mem_cons_of_mem _ hx)) (fun x hx => hz x (List.mem_cons_of_mem _ hx)) (by rw [hfk]; omega)
    exact ⟨h1, by omega⟩
  | upgrade f hf t ih =>
    rename_i c c' r
    have hm : supplyLimit c.state.fork ≤ supplyLimit f := by
      unfold supplyLimit
      by_cases h : c.state.fork.since .cancun = true
      · rw [if_pos h, if_pos (since_later hf h)]
      · rw [if_neg h]; split <;> decide
    have hsup' := Nat.lt_of_lt_of_le hsup hm
    exact ih ⟨hc.last, since_later hf hc.fork, applyFork_idle (since_later hf hc.idle.fork) hc.idle,
      ⟨Nat.lt_of_le_of_lt (Nat.le_add_right _ _) hsup', hc.fits.codes⟩⟩ hh hz hsup'

/-! The sample block meets the hypotheses. -/

theorem sample_codes (a : Address) : (getAccount sampleState a).code.length ≤ 6 := by
  have h : ∀ (l : List (Address × Account)) (s : State), (∀ a, (getAccount s a).code.length ≤ 6) → (∀ p ∈ l, p.2.code.length ≤ 6) →
      ∀ a, (getAccount (l.foldl (fun s p => setAccount s p.1 (some p.2)) s) a).code.length ≤ 6 := by
    intro l
    induction l with
    | nil => intro s hs _ a; exact hs a
    | cons p r ih =>
      intro s hs hl
      refine ih _ (fun a => ?_) fun q hq => hl q (List.mem_cons_of_mem _ hq)
      have := hl p List.mem_cons_self
      by_cases ha : p.1 = a
      · unfold getAccount; rw [getAccountOptional_setAccount, if_pos ha]; exact this
      · unfold getAccount; rw [getAccountOptional_setAccount, if_neg ha]; exact hs a
  exact h _ _ (fun a => Nat.zero_le _) (by decide) a

theorem sample_stateFits : StateFits sampleState :=
  ⟨by decide +kernel, fun a => Nat.lt_of_le_of_lt (sample_codes a) (by decide)⟩

example : ChainFits sampleChain ∧ HeaderFits .osaka sampleBlock.header ∧
    supply sampleChain.state + withdrawn .osaka sampleBlock.withdrawals < supplyLimit .osaka :=
  ⟨⟨⟨_, rfl, fun _ => by unfold BlobGasInRange; decide, .inl (by decide)⟩, rfl, sample_idle, sample_stateFits⟩,
    ⟨by decide, by decide, by decide, by decide +kernel⟩, by decide +kernel⟩

/-- The same chain in shanghai. -/
def sampleShanghai : BlockChain := applyFork .shanghai sampleChain

example : ChainFits sampleShanghai ∧ HeaderFits .shanghai sampleBlock.header ∧
    supply sampleShanghai.state + withdrawn .shanghai sampleBlock.withdrawals < supplyLimit .shanghai ∧
    (Rlp.encode (.ofBlock .shanghai sampleBlock)).length < 2 ^ 47 :=
  ⟨⟨⟨_, rfl, fun _ => by unfold BlobGasInRange; decide, .inl (by decide)⟩, rfl, applyFork_idle rfl sample_idle,
    ⟨(by decide +kernel : supply sampleState < supplyLimit .shanghai), sample_stateFits.codes⟩⟩,
    ⟨by decide, by decide, by decide, by decide +kernel⟩, (by decide +kernel : supply sampleState + _ < _), by decide +kernel⟩

example : BlockFits .osaka sampleBlockEnv :=
  ⟨by decide, by decide, by decide, by decide +kernel, by decide +kernel, by decide⟩

/-- In frontier. -/
example : Quiet Pow.powEvmState ∧ Pow.powEvmState.fork.since .byzantium = false ∧ BlockFits .frontier sampleBlockEnv ∧ StateFits Pow.powEvmState ∧
    (match processTransaction sampleCrypto sampleBlockEnv ⟨Pow.powEvmState, BlockOutput.empty⟩ (.legacy sampleTx) 0 with
    | .ok _ => true
    | .error _ => false) = true ∧
    (match processTransaction sampleCrypto sampleBlockEnv ⟨Pow.powEvmState, BlockOutput.empty⟩ (.legacy { sampleTx with nonce := 1 }) 0 with
    | .ok _ => false
    | .error (e, _) => e == .invalidTx .nonceMismatch) = true :=
  ⟨Pow.powEvm_quiet, rfl, ⟨by decide, by decide, by decide, by decide +kernel, by decide +kernel, by decide⟩,
    ⟨by decide +kernel, sample_stateFits.codes⟩, by decide +kernel, by decide +kernel⟩

/-- A transaction with the wrong nonce is rejected. -/
example : (match processTransaction sampleCrypto sampleBlockEnv ⟨sampleState, BlockOutput.empty⟩ (.legacy { sampleTx with nonce := 1 }) 0 with
    | .ok _ => false
    | .error (e, _) => e == .invalidTx .nonceMismatch) = true := by decide +kernel

/-- A block with a wrong state root fails. -/
example : (match stateTransition sampleCrypto sampleChain
      { sampleBlock with header := { sampleBlock.header with stateRoot := 5 } } with
    | .ok _ => false
    | .error (e, _) => e == .invalidBlock) = true := by decide +kernel

end Verif.Props
