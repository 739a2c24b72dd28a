import Verif.Lemmas.EnvJson
import Verif.Props.C80
/-!
C98: the environment given to the transition tool in JSON. The tool reads exactly the environment that the object describes, in every fork; every environment
can be written, and what the tool reads back makes the same block; so a block that can be imported can be handed to the tool in JSON (with C80).
-/
namespace Verif.Props
open Verif Pow Ethash T8n EnvJson Spec

/-- C98: an environment is read exactly if the object describes it. -/
theorem C98_read (f : Fork) (d : EnvJson.EnvJson) (e : EnvData) : readEnv f d = some e ↔ DescribesEnv f d e := readEnv_iff f d e

/-- C98: an object describes at most one environment of a fork. -/
theorem C98_unique (f : Fork) (d : EnvJson.EnvJson) (e e' : EnvData) (h : DescribesEnv f d e) (h' : DescribesEnv f d e') : e = e' := by
  rw [← readEnv_iff] at h h'
  rw [h] at h'; exact Option.some.inj h'

/-- C98: every environment can be written; the tool reads what a block of the fork looks at. -/
theorem C98_written (f : Fork) (e : EnvData) : readEnv f (writtenEnv e) = some (seen f e) := (readEnv_iff _ _ _).mpr (writtenEnv_describes f e)

/-- C98: what the tool reads makes the same block environment, or the same error. -/
theorem C98_seen (C : Crypto) (f : Fork) (chainId : U64) (e : EnvData) :
    blockEnvironment C f chainId (seen f e) = blockEnvironment C f chainId e ∧ (seen f e).ommers = e.ommers ∧
      (f.since .shanghai = true → (seen f e).withdrawals = e.withdrawals) :=
  ⟨seen_environment C f chainId e, rfl, fun h => if_pos h⟩

theorem describes_seen {C : Crypto} {chain : BlockChain} {b : Block} {d : EnvData} (hp : chain.state.fork.since .paris = true) (h : Describes C chain b d) :
    Describes C chain b (seen chain.state.fork d) := by
  have hl : chain.state.fork.since .london = true := since_later hp rfl
  exact {
    coinbase := h.coinbase
    gasLimit := h.gasLimit
    number := h.number
    timestamp := h.timestamp
    random := (if_pos hp).trans h.random
    hashes := fun i hi => by
      rw [← h.hashes i hi]
      have := h.number
      show (if d.currentNumber - min 256 d.currentNumber ≤ b.header.number - 1 - i ∧ b.header.number - 1 - i < d.currentNumber then _ else none) = _
      rw [if_pos (by omega)]
    baseFee := by
      have e1 : (seen chain.state.fork d).currentBaseFee = d.currentBaseFee := if_pos hl
      have e2 : (seen chain.state.fork d).parentGasLimit = d.parentGasLimit := if_pos hl
      have e3 : (seen chain.state.fork d).parentGasUsed = d.parentGasUsed := if_pos hl
      have e4 : (seen chain.state.fork d).parentBaseFee = d.parentBaseFee := if_pos hl
      rw [e1, e2, e3, e4]; exact h.baseFee
    withdrawals := fun hs => (if_pos hs).trans (h.withdrawals hs)
    beacon := fun hc => (if_pos hc).trans (h.beacon hc)
    excess := fun hc => by
      have e1 : (seen chain.state.fork d).currentExcessBlobGas = d.currentExcessBlobGas := if_pos hc
      have e2 : (seen chain.state.fork d).parentExcessBlobGas = d.parentExcessBlobGas := if_pos hc
      have e3 : (seen chain.state.fork d).parentBlobGasUsed = d.parentBlobGasUsed := if_pos hc
      have e4 : (seen chain.state.fork d).parentBaseFee = d.parentBaseFee := if_pos hl
      rw [e1, e2, e3, e4]; exact h.excess hc
    absent := h.absent }

theorem describesMined_seen {T : Type} {C : Crypto} {K : Hashes} {F : PowFork} {c : PowChain T} {p h : PowHeader} {d : EnvData}
    (hd : DescribesMined C K F c p h d) : DescribesMined C K F c p h (seen F.fork d) := by
  have hp : ¬ F.fork.since .paris = true := by cases F <;> decide
  exact {
    parent := hd.parent
    next := hd.next
    coinbase := hd.coinbase
    gasLimit := hd.gasLimit
    number := hd.number
    timestamp := hd.timestamp
    hashes := fun i hi => by
      rw [← hd.hashes i hi]
      have := hd.number
      show (if d.currentNumber - min 256 d.currentNumber ≤ h.number - 1 - i ∧ h.number - 1 - i < d.currentNumber then _ else none) = _
      rw [if_pos (by omega)]
    difficulty := by
      have e1 : (seen F.fork d).currentDifficulty = d.currentDifficulty := if_neg hp
      rcases hd.difficulty with h1 | ⟨h1, h2, h3, h4⟩
      · exact .inl (e1.trans h1)
      · have hn : ¬ (F.fork.since .paris = true ∨ d.currentDifficulty ≠ none) := by simp [hp, h1]
        refine .inr ⟨e1.trans h1, (if_neg hn).trans h2, (if_neg hn).trans h3, fun hb => ?_⟩
        have e2 : (seen F.fork d).parentUncleHash = d.parentUncleHash := if_neg (by simp [hp, h1, hb])
        rw [e2]; exact h4 hb
    baseFee := fun hl => by
      have e1 : (seen F.fork d).currentBaseFee = d.currentBaseFee := if_pos hl
      have e2 : (seen F.fork d).parentGasLimit = d.parentGasLimit := if_pos hl
      have e3 : (seen F.fork d).parentGasUsed = d.parentGasUsed := if_pos hl
      have e4 : (seen F.fork d).parentBaseFee = d.parentBaseFee := if_pos hl
      rw [e1, e2, e3, e4]; exact hd.baseFee hl
    absent := hd.absent }

/-- **C98.** A block that can be imported can be handed to the tool in JSON: from the environment of the block, written, it reads an environment with which it
accepts all transactions of the block, arrives at the same state and reports what the header says. (The hypotheses are those of `C80_import`.) -/
theorem C98_import {C : Crypto} {chain chain' : BlockChain} {b : Block} {d : EnvData} (hc : ChainFits chain) (hh : HeaderFits chain.state.fork b.header)
    (hz : chain.state.fork.since .osaka = false → (Rlp.encode (.ofBlock chain.state.fork b)).length < 2 ^ 47)
    (hd : Describes C chain b d)
    (ho : chain.state.fork.since .prague = true → CallsCommute C (blockEnvOf C chain b.header) chain.state)
    (h : stateTransition C chain b = .ok chain') :
    ∃ e B r, readEnv chain.state.fork (writtenEnv d) = some e ∧ blockEnvironment C chain.state.fork chain.chainId e = .ok (some B) ∧
      (∀ reward, runBlockchainTest C B reward e.ommers e.withdrawals chain.state (readTxs chain.state.fork 0 b.transactions) = .ok (chain'.state, r)) ∧
      Reports chain.state.fork r b.header ∧ AllAccepted r := by
  obtain ⟨B, r, h1, -, h2, h3, h4⟩ := C80_import hc hh hz (describes_seen hc.fork hd) ho h
  exact ⟨_, B, r, C98_written _ d, h1, h2, h3, h4⟩

/-- **C98**, for mined blocks without ommers. (The hypotheses are those of `C80_mined`.) -/
theorem C98_mined {C : Crypto} {K : Hashes} {F : PowFork} {c c' : PowChain Txs} {b : PowBlock Txs} {p : PowHeader} {d : EnvData}
    (hK : F.fork.since .byzantium = true → C.keccak256 (Rlp.encode (.list [])) = K.keccak256 (Rlp.encode (.list [])))
    (hc : PowChainFits F c) (hh : MinedFits F b.header) (hd : DescribesMined C K F c p b.header d) (ho : b.ommers = []) (hdo : d.ommers = [])
    (h : Pow.stateTransition K (evmExec C K) F c b = .ok c') :
    ∃ e B r, readEnv F.fork (writtenEnv d) = some e ∧ blockEnvironment C F.fork c.chainId e = .ok (some B) ∧
      runBlockchainTest C B none e.ommers e.withdrawals c.state (readTxs F.fork 0 b.transactions) = .ok (c'.state, r) ∧
      ReportsMined F r b.header ∧ AllAccepted r := by
  obtain ⟨B, r, h1, -, h2, h3, h4⟩ := C80_mined hK hc hh (describesMined_seen hd) ho hdo h
  exact ⟨_, B, r, C98_written _ d, h1, h2, h3, h4⟩

/-! ### Examples -/

/-- The sample block of osaka is handed to the tool in JSON; the hypotheses of `C98_import` are met. -/
example : ∃ chain' e B r, stateTransition sampleCrypto sampleChain sampleBlock = .ok chain' ∧ readEnv .osaka (writtenEnv sampleInput) = some e ∧
    blockEnvironment sampleCrypto .osaka 1 e = .ok (some B) ∧ Reports .osaka r sampleBlock.header ∧ AllAccepted r := by
  have h := sample_runs
  match hs : stateTransition sampleCrypto sampleChain sampleBlock with
  | .error e => rw [hs] at h; cases h
  | .ok c =>
    obtain ⟨e, B, r, h1, h2, -, h3, h4⟩ := C98_import sample_chainFits ⟨by decide, by decide, by decide, by decide +kernel⟩ (fun h => by cases h) sample_describes
      (fun _ => sample_commute _) hs
    exact ⟨c, e, B, r, rfl, h1, h2, h3, h4⟩

/-- An environment with decimal and hexadecimal numbers, a random value of an odd number of digits and two hashes for block 1. -/
private def mixedEnv : EnvJson.EnvJson where
  currentCoinbase := some "0x0a".toList
  currentGasLimit := some (.inl "30000000".toList)
  currentNumber := some (.inl "0x2".toList)
  currentTimestamp := some (.inr 12)
  currentBaseFee := some (.inr 7)
  currentRandom := some "0xabc".toList
  blockHashes := some [("1".toList, writtenBytes (wordBytes 5)), ("0x01".toList, writtenBytes (wordBytes 6))]
  ommers := some [{ delta := some (.inr 1), address := some "0x5".toList }]
  currentDifficulty := some (.inl "not a number".toList)

/-- It is read in paris; the last hash given for a block counts. -/
example : ((readEnv .paris mixedEnv).map fun e => (e.currentGasLimit, e.currentNumber, e.currentTimestamp)) = some (30000000, 2, 12) ∧
    ((readEnv .paris mixedEnv).map fun e => (e.currentRandom, e.blockHashes 1)) = some (0xabc, some 6) ∧
    ((readEnv .paris mixedEnv).map fun e => (e.ommers, e.currentDifficulty)) = some ([⟨5⟩], none) := by
  refine ⟨?_, ?_, ?_⟩ <;> decide +kernel

/-- In london it is refused: there the difficulty is read. So is, in paris, a timestamp that does not fit, and an ommer without `delta`. -/
example : (readEnv .london mixedEnv).isNone = true ∧ (readEnv .paris { mixedEnv with currentTimestamp := some (.inr (2 ^ 256)) }).isNone = true ∧
    (readEnv .paris { mixedEnv with ommers := some [{ address := some "0x5".toList }] }).isNone = true := by
  refine ⟨?_, ?_, ?_⟩ <;> decide +kernel

end Verif.Props
