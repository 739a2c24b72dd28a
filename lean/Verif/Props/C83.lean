import Verif.Spec.Announced
import Verif.Lemmas.MinedHashes
import Verif.Props.C50
import Verif.Props.C68
import Verif.Props.C71
import Verif.Props.C78
/-!
Property C83: what code reads about its block is what the header of that block says, in proof of stake and in proof of work; the system
calls get the roots of the header; and BLOCKHASH in a mined chain gives the hashes of the blocks before. `reading` (C71) is the value an
instruction pushes in a given environment, `Executed` (C24) what the environment says about the transaction.
-/
namespace Verif.Props
open Verif Verif.Spec Verif.Pow Ethash Dao

/-- **C83.** Import of a proof-of-stake block: there is an environment `B` in which all its system calls and transactions are executed;
what the instructions report in it is what the header says; the beacon root and the parent hash given to the system contracts are those
of the header. -/
theorem C83_import {C : Crypto} {c c' : BlockChain} {b : Block} (h : stateTransition C c b = .ok c') (hs : Idle c.state)
    (hf : c.state.fork.since .paris = true) :
    ∃ B system outs, BlockTrace C B c.state b.transactions b.withdrawals c'.state system outs ∧
      B.parentBeaconBlockRoot = b.header.parentBeaconBlockRoot ∧ B.blockHashes.getLast? = some b.header.parentHash ∧
      ∀ (E : Env) (m : Mach) op n, E.block = B → m.world.state.fork = c.state.fork → announced c.chainId c.state.fork b.header op = some n →
        reading E m op = some (2, n) := by
  obtain ⟨hv, -, -, -, bst, k, hb, hst, -⟩ := stateTransition_ok h
  obtain ⟨system, outs, ht, -⟩ := body_trace hs hb
  rw [← hst] at ht
  refine ⟨_, system, outs, ht, rfl, ?_, ?_⟩
  · obtain ⟨p, hp, v⟩ := validateHeader_ok hv
    rw [v.parentHash]
    dsimp only [blockEnvOf]
    unfold getLast256BlockHashes
    have hlast : (lastN 255 c.blocks).getLast? = some p := by
      unfold lastN
      rw [List.getLast?_drop]
      have : c.blocks ≠ [] := fun e => by rw [e] at hp; cases hp
      have : 0 < c.blocks.length := List.length_pos_iff.mpr this
      rw [if_neg (by omega)]; exact hp
    dsimp only
    rw [hlast]
    simp
  · intro E m op n hE hfork hn
    cases op <;> simp only [announced, reduceCtorEq, Option.some.injEq] at hn <;> subst hn <;>
      simp only [reading, hE, hfork, blockEnvOf, hf, if_true]

/-- The transactions of a list are executed one after the other, each with its own sender and price. -/
theorem outputs_of {C : Crypto} {B : BlockEnv} (txs : Txs) : ∀ {b b' : BlockState} {i : Nat}, Quiet b.state →
    processTransactions C B b i txs = .ok b' → ∃ outs, TxOutputs C B b i txs b' outs := by
  induction txs with
  | nil => intro b b' i _ h; cases h; exact ⟨[], .nil b i⟩
  | cons t r ih =>
    intro b b' i hs h
    obtain ⟨tx, b1, hdec, hp, hr⟩ := processTransactions_cons h
    obtain ⟨sender, msg, o, w, s1, s2, hran⟩ := processTransaction_ok.mp hp
    obtain ⟨outs, ho⟩ := ih (supply_all hs hran).1 hr
    exact ⟨o :: outs, .cons hdec hp (executed_of_ran hs hran) ho⟩

/-- **C83.** Import of a mined block, in any of the proof-of-work forks: its transactions are executed in an environment `B` in which the
instructions report what the header says; the rewards are paid afterwards. -/
theorem C83_mined {C : Crypto} {K : Hashes} {F : PowFork} {c c' : PowChain Txs} {b : PowBlock Txs} (hq : Quiet c.state) (hF : c.state.fork = F.fork)
    (h : Pow.stateTransition K (evmExec C K) F c b = .ok c') :
    ∃ B after outs, TxOutputs C B ⟨c.state, BlockOutput.empty⟩ 0 b.transactions after outs ∧
      payRewards F after.state b.header.number b.header.coinbase b.ommers = .ok c'.state ∧
      ∀ (E : Env) (m : Mach) op n, E.block = B → m.world.state.fork = F.fork → announcedPow c.chainId b.header op = some n →
        reading E m op = some (2, n) := by
  obtain ⟨-, -, s, r, hrun, hpay, -⟩ := powTransition_ok h
  obtain ⟨b1, hb, rfl, -⟩ := evmExec_ok hrun
  have e : { c.state with fork := F.fork } = c.state := by rw [← hF]
  obtain ⟨outs, ho⟩ := outputs_of _ (setFork_quiet F.fork hq) hb
  rw [e] at ho
  refine ⟨_, b1, outs, ho, hpay, ?_⟩
  intro E m op n hE hfork hn
  have hnp : ¬ F.fork.since .paris = true := by cases F <;> decide
  cases op <;> simp only [announcedPow, reduceCtorEq, Option.some.injEq] at hn <;> try subst hn
  all_goals simp only [reading, hE, hfork, powEnvOf, if_neg hnp]
  rw [hn]; rfl

/-- **C83.** BLOCKHASH in a block mined after a history: for the number of a block of the history at most 256 back it gives the hash of that
block; for the number of the block itself, a later one, or one more than 256 back it gives 0. -/
theorem C83_blockhash {C : Crypto} {K : Hashes} {c c' : PowChain Txs} {bs : List (PowFork × PowBlock Txs)} (h : Mined C K c bs c')
    (hl : PowLinked K c.blocks) (hlen : c.blocks.length ≤ 255) (hn : Numbered (c.blocks ++ bs.map Prod.snd)) (last : PowBlock Txs)
    (hlast : (c.blocks ++ bs.map Prod.snd).getLast? = some last) (next : PowHeader) (hnext : next.number = last.header.number + 1) (n : Nat) :
    (∀ b ∈ c.blocks ++ bs.map Prod.snd, b.header.number = n → next.number ≤ n + 256 →
      ancestorHash (powEnvOf K c'.chainId c'.blocks next).blockHashes next.number n = some (powHash K b.header)) ∧
    (next.number ≤ n ∨ n + 256 < next.number →
      ancestorHash (powEnvOf K c'.chainId c'.blocks next).blockHashes next.number n = some 0) := by
  obtain ⟨hL, hB⟩ := mined_blocks h c.blocks (lastN_eq hlen).symm hl hn
  have e1 : (powEnvOf K c'.chainId c'.blocks next).blockHashes = lastBlockHashes K c'.blocks := by simp only [powEnvOf]
  rw [e1]
  clear hl hlen h e1
  generalize c.blocks ++ bs.map Prod.snd = full at *
  unfold ancestorHash
  constructor
  · intro b hb hnum hwin
    obtain ⟨i, hi⟩ := List.mem_iff_getElem?.mp hb
    have hi' : i < full.length := (List.getElem?_eq_some_iff.mp hi).1
    rw [List.getLast?_eq_getElem?] at hlast
    obtain ⟨k, hk⟩ := hn
    have n1 := hk i b hi
    have n2 := hk _ last hlast
    obtain ⟨h1, h2⟩ := lastBlockHashes_getElem hL hB (full.length - i) (by omega) (by omega) b
      (by rw [show full.length - (full.length - i) = i by omega]; exact hi) (by omega)
    rw [if_pos (by omega), List.getElem?_reverse (by omega), ← h2]
    exact congrArg (fun j => (lastBlockHashes K c'.blocks)[j]?) (by omega)
  · intro hw
    rw [if_neg (by omega)]

/-- **C48.** The DAO fork is the only one that changes accounts when it is activated: every other keeps the state as it is. -/
theorem C48_only {F : PowFork} {c c' : PowChain Txs} (h : applyPowFork F c = .ok c') :
    c'.blocks = c.blocks ∧ c'.chainId = c.chainId ∧ c'.state.fork = F.fork ∧
    (F ≠ .daoFork → ∀ a, getAccountOptional c'.state a = getAccountOptional c.state a ∧ ∀ k, getStorage c'.state a k = getStorage c.state a k) ∧
    (F = .daoFork → ∃ s, applyDao c.state = .ok s ∧ ∀ a, getAccountOptional c'.state a = getAccountOptional s a ∧ ∀ k, getStorage c'.state a k = getStorage s a k) := by
  unfold applyPowFork at h
  split at h
  · rename_i hF
    split at h
    · cases h
    · rename_i s hs
      cases h
      exact ⟨rfl, rfl, rfl, fun hn => absurd hF hn, fun _ => ⟨s, hs, fun a => ⟨rfl, fun _ => rfl⟩⟩⟩
  · rename_i hF
    cases h
    exact ⟨rfl, rfl, rfl, fun _ a => ⟨rfl, fun _ => rfl⟩, fun hn => absurd hn hF⟩

/-! ### Examples -/

/-- The sample block of osaka: time 12, number 1, coinbase 99. -/
example : (∃ c', stateTransition sampleCrypto sampleChain sampleBlock = .ok c') ∧ Idle sampleChain.state ∧
    sampleChain.state.fork.since .paris = true ∧ announced 1 .osaka sampleBlock.header .timestamp = some 12 ∧
    announced 1 .osaka sampleBlock.header .coinbase = some 99 ∧ announced 1 .osaka sampleBlock.header .basefee = some 7 := by
  refine ⟨?_, sample_idle, rfl, rfl, rfl, rfl⟩
  have h := sample_runs
  match hs : stateTransition sampleCrypto sampleChain sampleBlock with
  | .error e => rw [hs] at h; cases h
  | .ok c => exact ⟨c, rfl⟩

/-- The mined sample block, and the hashes of both blocks in the next. -/
example : ∃ c', Mined sampleCrypto sampleK powEvmChain [(.frontier, powEvmBlock)] c' ∧ Quiet powEvmChain.state ∧
    PowLinked sampleK powEvmChain.blocks ∧ powEvmChain.blocks.length ≤ 255 ∧
    Numbered (powEvmChain.blocks ++ [(PowFork.frontier, powEvmBlock)].map Prod.snd) ∧ announcedPow 1 powEvmBlock.header .timestamp = some 10 ∧
    announcedPow 1 powEvmBlock.header .prevrandao = some 131136 ∧ announcedPow 1 powEvmBlock.header .basefee = none := by
  obtain ⟨c', h, -⟩ := powEvm_mined
  refine ⟨c', h, powEvm_quiet, ⟨numbered_prefix powEvm_numbered, fun i a b _ hb => ?_⟩, by decide, powEvm_numbered, ?_, ?_, ?_⟩
  · match i, hb with
    | i, hb => cases hb
  all_goals simp only [announcedPow, powEvmBlock, sealHeader, powEvmHead, mkHeader]
  all_goals rfl

end Verif.Props
