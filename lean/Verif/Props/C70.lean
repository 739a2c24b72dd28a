import Verif.Lemmas.SamplePowEvm
import Verif.Props.C28_C31
/-!
Property C70: the first proof-of-stake block continues the mined chain: it names the hash by which proof of work knows the last mined
block, and the window of block hashes does not change.
-/
namespace Verif.Props
open Verif Verif.Spec Pow Ethash

/-- The code of paris computes the same hash of a mined header (with a base fee) as the code that mined it. -/
theorem C70_hash (C : Crypto) (K : Hashes) (hK : K.keccak256 = C.keccak256) (h : PowHeader) (hb : h.baseFeePerGas ≠ none) :
    headerHash C .grayGlacier h.toHeader = powHash K h := by
  obtain ⟨v, hv⟩ := Option.ne_none_iff_exists'.mp hb
  unfold headerHash powHash
  rw [hK]
  unfold Rlp.ofHeader ofPowHeader headFields feeField PowHeader.toHeader
  rw [hv]
  rfl

/-- Without a base fee (a header older than london) the encoding would differ. -/
theorem C70_hash_needs : ∃ (K : Hashes) (C : Crypto) (h : PowHeader), K.keccak256 = C.keccak256 ∧ h.baseFeePerGas = none ∧
    headerHash C .grayGlacier h.toHeader ≠ powHash K h :=
  ⟨{ sampleK with keccak256 := fun l => BitVec.ofNat 256 l.length }, { sampleCrypto with keccak256 := fun l => BitVec.ofNat 256 l.length },
    powEvmGenesis, rfl, rfl, by decide +kernel⟩

/-- **C70.** BLOCKHASH sees the same window of hashes before and after the change. -/
theorem C70_window (C : Crypto) (K : Hashes) (hK : K.keccak256 = C.keccak256) (c : PowChain Txs)
    (hb : ∀ z, c.blocks.getLast? = some z → z.header.baseFeePerGas ≠ none) :
    getLast256BlockHashes C (merge c) = lastBlockHashes K c.blocks := by
  have e : lastN 255 (merge c).blocks = (lastN 255 c.blocks).map PowBlock.toChainBlock := by
    show lastN 255 (c.blocks.map PowBlock.toChainBlock) = _
    unfold lastN
    rw [List.length_map, List.map_drop]
  unfold getLast256BlockHashes lastBlockHashes
  simp only [e, List.getLast?_map]
  match hz : (lastN 255 c.blocks).getLast? with
  | none => rfl
  | some z =>
    have hz' : c.blocks.getLast? = some z := by
      unfold lastN at hz
      rw [List.getLast?_drop] at hz
      split at hz
      · cases hz
      · exact hz
    simp only [Option.map_some, List.map_map]
    rw [show headerHash C z.toChainBlock.fork z.toChainBlock.block.header = powHash K z.header from C70_hash C K hK _ (hb z hz')]
    rfl

theorem imports_first {C : Crypto} {chain chain' : BlockChain} {b : ChainBlock} {bs : List ChainBlock} (h : Imports C chain (b :: bs) chain') :
    ∃ p, chain.blocks.getLast? = some p ∧ ValidHeader C b.fork p.fork p.block.header b.block.header ∧ b.block.ommers = [] := by
  generalize hl : b :: bs = l at h
  induction h with
  | nil => cases hl
  | cons h t =>
    cases hl
    obtain ⟨h1, -, -, h2, -⟩ := stateTransition_ok h
    obtain ⟨p, hp, hv⟩ := validateHeader_ok h1
    exact ⟨p, hp, hv, h2⟩
  | upgrade f hf t ih => exact ih hl

/-- **C70.** The first block after the change is the child of the last mined block. -/
theorem C70_first {C : Crypto} {K : Hashes} (hK : K.keccak256 = C.keccak256) {c : PowChain Txs} {b : ChainBlock} {bs : List ChainBlock}
    {chain : BlockChain} (h : Imports C (merge c) (b :: bs) chain) :
    ∃ z, c.blocks.getLast? = some z ∧ ∀ fee, z.header.baseFeePerGas = some fee →
      b.block.header.parentHash = powHash K z.header ∧ b.block.header.number = z.header.number + 1 ∧
      z.header.timestamp.toNat < b.block.header.timestamp.toNat ∧
      b.block.header.baseFeePerGas = nextBaseFee z.header.gasLimit z.header.gasUsed fee ∧
      GasLimitOK b.block.header.gasLimit z.header.gasLimit ∧
      b.block.header.difficulty = 0 ∧ b.block.header.nonce = 0 ∧ b.block.ommers = [] := by
  obtain ⟨p, hp, v, ho⟩ := imports_first h
  rw [show (merge c).blocks = c.blocks.map PowBlock.toChainBlock from rfl, List.getLast?_map, Option.map_eq_some_iff] at hp
  obtain ⟨z, hz, rfl⟩ := hp
  refine ⟨z, hz, fun fee hfee => ?_⟩
  have hn : z.header.baseFeePerGas ≠ none := by rw [hfee]; simp
  have e : (z.toChainBlock.block.header).baseFeePerGas = fee := by
    show z.header.baseFeePerGas.getD 0 = fee
    rw [hfee]; rfl
  have := v.baseFee
  rw [e] at this
  exact ⟨v.parentHash.trans (C70_hash C K hK _ hn), v.number, v.timestamp, this, v.gasLimit, v.difficulty, v.nonce, ho⟩

def mergeHeader : PowHeader :=
  { mkHeader 0 0 0 131072 0 0 0 with gasLimit := 30000000, gasUsed := 15000000, baseFeePerGas := some 7 }
def mergeChain : PowChain Txs := ⟨[⟨mergeHeader, [], []⟩], { sampleState with fork := .grayGlacier }, 1⟩
def mergeBlock : Block := ⟨{ sampleBlock.header with parentHash := 642241841670271749062663 }, [.inl sampleTx], [], []⟩
def mergeOutcome (r : Except (BlockExn × BlockChain) BlockChain) : Bool :=
  match r with
  | .ok c => getStorage c.state 88 1 == 7
  | .error _ => false

/-- A chain with one mined block and, on it, a proof-of-stake block with a transaction. -/
theorem merge_sample : ∃ chain, Imports sampleCrypto (merge mergeChain) [⟨.paris, mergeBlock⟩] chain ∧ getStorage chain.state 88 1 = 7 := by
  have h : mergeOutcome (stateTransition sampleCrypto (merge mergeChain) mergeBlock) = true := by decide +kernel
  match hs : stateTransition sampleCrypto (merge mergeChain) mergeBlock with
  | .ok c =>
    rw [hs] at h
    exact ⟨c, .cons hs (.nil c), beq_iff_eq.mp h⟩
  | .error e => rw [hs] at h; cases h

example : ∃ (K : Hashes) (chain : BlockChain), K.keccak256 = sampleCrypto.keccak256 ∧ mergeHeader.baseFeePerGas ≠ none ∧
    Imports sampleCrypto (merge mergeChain) [⟨.paris, mergeBlock⟩] chain :=
  ⟨{ sampleK with keccak256 := sampleCrypto.keccak256 }, _, rfl, by decide, merge_sample.choose_spec.1⟩

end Verif.Props
