import Verif.Lemmas.HollowTx
import Verif.Props.C78
/-!
Property C79: since spurious dragon (EIP-161) no transaction and no block leaves behind an account that exists although it is empty.

`Hollow` is in `Verif/Spec/StateClearing.lean`.
-/
namespace Verif.Props
open Verif Verif.Spec Pow Ethash

/-- **C79.** Since spurious dragon an account that is hollow after an included transaction was hollow before it. The sender and the producer
of the block are never hollow afterwards. -/
theorem C79_transaction {C : Crypto} {B : BlockEnv} {b b' : BlockState} {tx : Transaction} {i : Nat} (hq : Quiet b.state)
    (hf : b.state.fork.since .spuriousDragon = true) (h : processTransaction C B b tx i = .ok b') :
    (∀ a, Hollow b'.state a → Hollow b.state a) ∧ ¬ Hollow b'.state B.coinbase ∧
    ∀ sender, recoverSender C b.state.fork B.chainId tx = .ok sender → ¬ Hollow b'.state sender := by
  obtain ⟨sender, msg, o, w, s1, s2, hr⟩ := processTransaction_ok.mp h
  obtain ⟨h1, h2, h3, -⟩ := ran_hollow hq hf hr
  refine ⟨h1, h2, fun s hs => ?_⟩
  have := (executed_of_ran hq hr).signed
  rw [hs] at this
  cases this
  exact h3

/-- **C79**, up to gray glacier: a call that succeeds also removes its target if that is empty in the end. -/
theorem C79_target {C : Crypto} {B : BlockEnv} {b b' : BlockState} {tx : Transaction} {i : Nat} (hq : Quiet b.state)
    (hf : b.state.fork.since .spuriousDragon = true) (hp : b.state.fork.since .paris = false) (h : processTransaction C B b tx i = .ok b') :
    ∃ sender env msg start out finish, Executed C B b.state tx sender env msg start out finish ∧
      (out.error = none → ∀ t, tx.to = some t → ¬ Hollow b'.state t) := by
  obtain ⟨sender, msg, o, w, s1, s2, hr⟩ := processTransaction_ok.mp h
  exact ⟨_, _, _, _, _, _, executed_of_ran hq hr, (ran_hollow hq hf hr).2.2.2 hp⟩

/-- **C79.** Importing a mined block of spurious dragon or a later fork makes no account hollow; the miner and the miners of the ommers are not
hollow afterwards. -/
theorem C79_mined {C : Crypto} {K : Hashes} {F : PowFork} {c c' : PowChain Txs} {b : PowBlock Txs} (hq : Quiet c.state)
    (hf : F.fork.since .spuriousDragon = true) (h : Pow.stateTransition K (evmExec C K) F c b = .ok c') (a : Address) (ha : Hollow c'.state a) :
    Hollow c.state a ∧ a ≠ b.header.coinbase ∧ ∀ o ∈ b.ommers, a ≠ o.coinbase :=
  mined_hollow hq hf h ha

/-- **C79.** Importing a block of a proof-of-stake fork, with its system calls, withdrawals and requests, makes no account hollow. -/
theorem C79_import {C : Crypto} {chain chain' : BlockChain} {b : Block} (hf : chain.state.fork.since .paris = true)
    (h : stateTransition C chain b = .ok chain') (a : Address) (ha : Hollow chain'.state a) : Hollow chain.state a :=
  (import_rel hollow_closed h hf).2 a ha

/-- **C79**, histories of mined blocks, with changes of fork. -/
theorem C79_history {C : Crypto} {K : Hashes} {c c' : PowChain Txs} {bs : List (PowFork × PowBlock Txs)} (h : Mined C K c bs c')
    (hq : Quiet c.state) (hf : c.state.fork.since .spuriousDragon = true) (a : Address) (ha : Hollow c'.state a) : Hollow c.state a := by
  induction h with
  | nil c => exact ha
  | @block c mid c' G b bs hg h t ih =>
    have q1 := (C68_block hq h).1
    have hG : G.fork.since .spuriousDragon = true := by rw [← hg]; exact hf
    have f1 : mid.state.fork = G.fork := by
      obtain ⟨-, -, s, r, hrun, hpay, -⟩ := powTransition_ok h
      obtain ⟨bs, hb, rfl, -⟩ := evmExec_ok hrun
      rw [(payRewards_paid hpay).1.fork]
      exact transactions_fork _ hb
    exact (C79_mined hq hG h a (ih q1 (by rw [f1]; exact hG) ha)).1
  | @fork c mid c' bs F hs h t ih =>
    have hd : F ≠ .daoFork := by
      rintro rfl
      revert hs hf; cases c.state.fork <;> decide
    unfold applyPowFork at h
    rw [if_neg hd] at h
    cases h
    refine (ih (setFork_quiet F.fork hq) (since_later hs hf) ha).congr rfl

/-- **C79**, histories across the change to proof of stake: the hollow accounts of the last state are among those at the beginning. If there
were none there are none. -/
theorem C79_onwards {C : Crypto} {K : Hashes} {c c' : PowChain Txs} {bs : List (PowFork × PowBlock Txs)} {bs' : List ChainBlock} {d : BlockChain}
    (h : Mined C K c bs c') (hq : Quiet c.state) (hf : c.state.fork.since .spuriousDragon = true) (hi : Imports C (merge c') bs' d)
    (a : Address) (ha : Hollow d.state a) : Hollow c.state a := by
  have key : ∀ {x d : BlockChain} {bs' : List ChainBlock}, Imports C x bs' d → x.state.fork.since .paris = true →
      ∀ a, Hollow d.state a → Hollow x.state a := by
    intro x d bs' hi
    induction hi with
    | nil => exact fun _ _ h => h
    | cons h t ih =>
      intro hp a ha
      obtain ⟨e1, e2⟩ := import_rel hollow_closed h hp
      exact e2 a (ih (by rw [e1]; exact hp) a ha)
    | upgrade f hs t ih => exact fun hp a ha => (ih (since_later hs hp) a ha).congr rfl
  exact C79_history h hq hf a ((key hi rfl a ha).congr rfl)

/-! ### Examples, and the forks before -/

/-- Calls 0xbb without value. -/
def clearingCode : Bytes := [0x60, 0, 0x60, 0, 0x60, 0, 0x60, 0, 0x60, 0, 0x60, 0xbb, 0x61, 0x27, 0x10, 0xf1, 0x00]

/-- A state with a sender, a contract, and a hollow account 0xcc. -/
def clearingState (f : Fork) : State :=
  { [((77 : Address), (⟨0, 1000000, []⟩ : Account)), (88, ⟨1, 5, clearingCode⟩), (0xcc, ⟨0, 0, []⟩)].foldl
    (fun s p => setAccount s p.1 (some p.2)) State.empty with fork := f }

def clearingTx (dst : Address) : LegacyTx := { sampleTx with «to» := some dst, value := 0 }

def clearingRun (f : Fork) (dst : Address) (p : State → Bool) : Bool :=
  match processTransaction sampleCrypto sampleBlockEnv ⟨clearingState f, BlockOutput.empty⟩ (.legacy (clearingTx dst)) 0 with
  | .ok b => p b.state
  | .error _ => false

theorem clearing_quiet (f : Fork) : Quiet (clearingState f) := by
  have h : ∀ (l : List (Address × Account)) (s : State), Quiet s → Quiet (l.foldl (fun s p => setAccount s p.1 (some p.2)) s) := by
    intro l
    induction l with
    | nil => intro s hs; exact hs
    | cons p r ih => intro s hs; exact ih _ ⟨hs.wf.setAccount _ _, hs.snapshots, hs.created⟩
  exact setFork_quiet f (h _ _ ⟨State.empty_wf, rfl, rfl⟩)

/-- **C79**, before spurious dragon it is false: in each of these forks there is a transaction that leaves a new hollow account. -/
theorem C79_before (f : Fork) (hf : f.since .spuriousDragon = false) :
    ∃ C B b b' tx a, Quiet b.state ∧ b.state.fork = f ∧ processTransaction C B b tx 0 = .ok b' ∧ Hollow b'.state a ∧ ¬ Hollow b.state a := by
  have h : clearingRun f 88 (fun s => accountExistsAndIsEmpty s 0xbb) = true := by
    revert hf; cases f <;> first | (intro h; cases h; done) | (intro _; decide +kernel)
  unfold clearingRun at h
  split at h
  · rename_i b hb
    refine ⟨_, _, _, b, _, 0xbb, clearing_quiet f, rfl, hb, hollow_iff.mp h, fun hn => ?_⟩
    have : accountExistsAndIsEmpty (clearingState .frontier) 0xbb = true := hollow_iff.mpr (hn.congr rfl)
    revert this; decide +kernel
  · cases h

/-- The same transaction in spurious dragon, london and osaka: the account it calls does not exist afterwards. A hollow account is removed
by a call up to gray glacier, and stays if it is not touched. -/
example : (∀ f ∈ [Fork.spuriousDragon, .london, .osaka], clearingRun f 88 (fun s => !accountExistsAndIsEmpty s 0xbb && accountExistsAndIsEmpty s 0xcc)) ∧
    (∀ f ∈ [Fork.spuriousDragon, .london], clearingRun f 0xcc (fun s => !accountExistsAndIsEmpty s 0xcc)) ∧
    clearingRun .osaka 0xcc (fun s => accountExistsAndIsEmpty s 0xcc) := by
  refine ⟨?_, ?_, ?_⟩ <;> decide +kernel

def lateGenesis : PowHeader := { mkHeader 0 12964998 0 1000000000 0 0 0 with gasLimit := 100000 }
def lateHead : PowHeader :=
  { mkHeader (powHash sampleK lateGenesis) 12964999 10 138438953472 1 0 0xa with
    gasLimit := 100000, gasUsed := 23653, stateRoot := 2155905152
    transactionsRoot := 0xa82ea60940000000000000000000000000000000000000058808201021b4d01, receiptRoot := 192 }
def lateChain : PowChain Txs := ⟨[⟨lateGenesis, [], []⟩], clearingState .berlin, 1⟩

theorem late_runs : outcomeIs sampleCrypto lateHead (fun s => payRewards .berlin s 12964999 0xa [])
    ((evmExec sampleCrypto sampleK).run .berlin 1 [⟨lateGenesis, [], []⟩] lateHead [.inl (clearingTx 88)] (clearingState .berlin))
    (fun s => accountExistsAndIsEmpty s 0xcc && !accountExistsAndIsEmpty s 0xbb) = true := by
  decide +kernel

theorem late_fields : lateHead.number = 12964999 ∧ lateHead.coinbase = 0xa ∧ lateHead.ommersHash = 0 := by
  simp only [lateHead, mkHeader, and_self]

theorem late_rules : PowRules sampleK .berlin lateGenesis (sealHeader sampleK lateHead) :=
  eve_rules (.inl rfl) lateGenesis lateHead (by simp only [lateHead, lateGenesis, mkHeader]) (by simp only [lateHead, mkHeader])
    (by simp only [lateHead, lateGenesis, mkHeader]; decide) (by simp only [lateHead, mkHeader]; omega) (by simp only [lateGenesis, mkHeader])
    (by simp only [lateGenesis, mkHeader]; omega) (by simp only [lateHead, lateGenesis]; unfold GasLimitOK; omega)
    (fun h => by cases h) (by simp only [lateHead, mkHeader]; simp) (by simp only [lateHead, lateGenesis, mkHeader]; decide +kernel)

/-- A history: the block with this transaction is mined in berlin; 0xcc is hollow before and afterwards, 0xbb never. -/
example : ∃ c', Mined sampleCrypto sampleK lateChain [(.berlin, ⟨sealHeader sampleK lateHead, [.inl (clearingTx 88)], []⟩)] c' ∧
    Quiet lateChain.state ∧ lateChain.state.fork.since .spuriousDragon = true ∧ Hollow c'.state 0xcc ∧ ¬ Hollow c'.state 0xbb := by
  obtain ⟨s', h1, h2⟩ := seal_accepts (C := sampleCrypto) (F := .berlin) (g := lateGenesis) (h := lateHead) (txs := [.inl (clearingTx 88)])
    (st := clearingState .berlin) late_fields.1 late_fields.2.1 late_rules (by rw [late_fields.2.2]; decide +kernel) late_runs
  simp only [Bool.and_eq_true, Bool.not_eq_true'] at h2
  exact ⟨_, .block rfl h1 (.nil _), clearing_quiet _, rfl, hollow_iff.mp h2.1, fun h => by
    have := hollow_iff.mpr h
    rw [h2.2] at this
    cases this⟩

/-- A proof-of-stake block. -/
example : sampleChain.state.fork.since .paris = true ∧ ∃ c, stateTransition sampleCrypto sampleChain sampleBlock = .ok c := by
  refine ⟨rfl, ?_⟩
  have h := sample_runs
  match hs : stateTransition sampleCrypto sampleChain sampleBlock with
  | .error e => rw [hs] at h; cases h
  | .ok c => exact ⟨c, rfl⟩

end Verif.Props
