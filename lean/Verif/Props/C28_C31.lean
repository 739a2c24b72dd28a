import Verif.Lemmas.Header
import Verif.Lemmas.SampleBlock
/-!
C28: the base fee. C29: the gas limit. C30: header validation. C31: retained blocks and BLOCKHASH.
-/
namespace Verif
open Spec

/-! ### C28

One often reads that the base fee "rises when above and falls when below, changes by at most parent/8 (or 1 when
rising)". Two parts of that are false of the code, see `C28_rise_can_exceed` and `C28_may_not_fall`; what holds is
`C28_baseFee`. -/

/-- C28, what holds: with an accepted gas limit no error occurs and the fee is the one of EIP-1559. It is unchanged at
the target, strictly higher above it, not higher below it, and strictly lower as soon as a unit of the rounding is
reached. A fall is at most an eighth; so is a rise (or 1) if the usage is at most twice the target, as it is for every
even gas limit; in general a rise is at most an eighth of `fee + fee / target` (or 1). -/
theorem C28_baseFee (limit parentLimit used fee : Nat) (h : GasLimitOK limit parentLimit) :
    ∃ fee', calculateBaseFeePerGas limit parentLimit used fee = .ok fee' ∧
      fee' = nextBaseFee parentLimit used fee ∧
      (used = parentLimit / 2 → fee' = fee) ∧
      (parentLimit / 2 < used → fee < fee') ∧
      (used < parentLimit / 2 → fee' ≤ fee ∧ (8 * (parentLimit / 2) ≤ fee * (parentLimit / 2 - used) → fee' < fee)) ∧
      fee - fee' ≤ fee / 8 ∧
      (used ≤ 2 * (parentLimit / 2) → fee' ≤ fee + max 1 (fee / 8)) ∧
      (used ≤ parentLimit → fee' ≤ fee + max 1 ((fee + fee / (parentLimit / 2)) / 8)) := by
  have hp := gasLimitOK_parent h
  have ht : 0 < parentLimit / 2 := by omega
  refine ⟨_, calculateBaseFee_eq h, rfl, ?_⟩
  unfold nextBaseFee
  dsimp only
  generalize htg : parentLimit / 2 = target at *
  by_cases h1 : used = target
  · rw [if_pos h1]; omega
  · rw [if_neg h1]
    by_cases h2 : target < used
    · rw [if_pos h2]
      refine ⟨fun h' => absurd h' h1, fun _ => by omega, fun h' => by omega, by omega, ?_, ?_⟩
      · intro h3
        have := baseFee_fall (fee := fee) ht (show used - target ≤ target by omega)
        omega
      · intro h3
        have h4 : fee * (used - target) / target ≤ fee + fee / target := by
          calc fee * (used - target) / target ≤ fee * (target + 1) / target :=
                Nat.div_le_div_right (Nat.mul_le_mul_left _ (by omega))
            _ = fee + fee / target := by
                rw [Nat.mul_add, Nat.mul_one, Nat.mul_comm fee target, Nat.mul_add_div ht]
        have := Nat.div_le_div_right (c := 8) h4
        omega
    · rw [if_neg h2]
      have h5 := baseFee_fall (fee := fee) ht (show target - used ≤ target by omega)
      refine ⟨fun h' => absurd h' h1, fun h' => absurd h' h2, fun _ => ⟨Nat.sub_le _ _, ?_⟩, ?_, fun _ => ?_, fun _ => ?_⟩
      rotate_left
      · generalize fee * (target - used) / target / 8 = d at *; omega
      · exact Nat.le_trans (Nat.sub_le _ _) (Nat.le_add_right _ _)
      · exact Nat.le_trans (Nat.sub_le _ _) (Nat.le_add_right _ _)
      intro h6
      have h7 : 8 ≤ fee * (target - used) / target := (Nat.le_div_iff_mul_le ht).mpr h6
      have h8 : 1 ≤ fee * (target - used) / target / 8 := by omega
      have h9 : 0 < fee := Nat.pos_of_ne_zero fun h0 => by subst h0; simp at h7
      generalize fee * (target - used) / target / 8 = d at *; omega

example : GasLimitOK 30029000 30000000 := by unfold GasLimitOK; omega

/-- C28, the bound of one eighth fails: a full block with an odd gas limit (5001, half of it being 2500) and fee 20000
raises the fee by 2501, more than an eighth of 20000. -/
theorem C28_rise_can_exceed : ∃ limit parentLimit used fee fee', GasLimitOK limit parentLimit ∧ used ≤ parentLimit ∧
    calculateBaseFeePerGas limit parentLimit used fee = .ok fee' ∧ fee + max 1 (fee / 8) < fee' :=
  ⟨5001, 5001, 5001, 20000, 22501, by unfold GasLimitOK; omega, by omega, rfl, by omega⟩

/-- C28, the fee need not fall below the target: with an empty parent block a fee of 7 stays 7. -/
theorem C28_may_not_fall : ∃ limit parentLimit used fee, GasLimitOK limit parentLimit ∧ used < parentLimit / 2 ∧ 0 < fee ∧
    calculateBaseFeePerGas limit parentLimit used fee = .ok fee :=
  ⟨30000000, 30000000, 0, 7, by unfold GasLimitOK; omega, by omega, by omega, rfl⟩

/-- C28: with a refused gas limit the block is invalid. -/
theorem C28_refused (limit parentLimit used fee : Nat) (h : ¬ GasLimitOK limit parentLimit) :
    calculateBaseFeePerGas limit parentLimit used fee = .error .invalidBlock := calculateBaseFee_bad h

example : ¬ GasLimitOK 31000000 30000000 := by unfold GasLimitOK; omega

/-! ### C29 -/

/-- C29: the gas limits accepted after a parent. -/
theorem C29_accepts_iff (limit parentLimit : Nat) : checkGasLimit limit parentLimit = true ↔
    ((limit : Int) - parentLimit).natAbs < parentLimit / 1024 ∧ 5000 ≤ limit := checkGasLimit_iff limit parentLimit

/-- C29: along any sequence of gas limits each accepted after the one before, every limit but the first is at least
5000, and the first is at least 1024 if it has a successor. -/
theorem C29_sequence (g : Nat → Nat) (n : Nat) (h : ∀ i < n, checkGasLimit (g (i + 1)) (g i) = true) :
    (∀ i < n, 5000 ≤ g (i + 1)) ∧ (0 < n → 1024 ≤ g 0) :=
  ⟨fun i hi => ((checkGasLimit_iff _ _).mp (h i hi)).2, fun hn => gasLimitOK_parent ((checkGasLimit_iff _ _).mp (h 0 hn))⟩

example : ∀ i < 5, checkGasLimit (5000 + (i + 1)) (5000 + i) = true := by decide

/-- C29: every imported block has a gas limit of at least 5000, less than 1/1024 away from its parent's. -/
theorem C29_chain {C : Crypto} {chain chain' : BlockChain} {bs : List ChainBlock} (h : Imports C chain bs chain')
    (b : ChainBlock) (hb : b ∈ bs) : 5000 ≤ b.block.header.gasLimit ∧ ∃ (f : Fork) (parent : Header),
      b.block.header.parentHash = headerHash C f parent ∧
      ((b.block.header.gasLimit : Int) - parent.gasLimit).natAbs < parent.gasLimit / 1024 := by
  induction h with
  | nil => cases hb
  | cons h t ih =>
    rcases List.mem_cons.mp hb with e | e
    · subst e
      obtain ⟨p, _, v⟩ := validateHeader_ok (stateTransition_ok h).1
      exact ⟨v.gasLimit.2, p.fork, p.block.header, v.parentHash, v.gasLimit.1⟩
    · exact ih e
  | upgrade f hf t ih => exact ih hb

/-- Such a history exists: the sample block can be imported. -/
example : ∃ chain', Imports sampleCrypto sampleChain [⟨.osaka, sampleBlock⟩] chain' ∧ (⟨.osaka, sampleBlock⟩ : ChainBlock) ∈ [(⟨.osaka, sampleBlock⟩ : ChainBlock)] :=
  sample_imports.imp fun _ h => ⟨h.1, .head _⟩

/-! ### C30 -/

/-- C30: a header is accepted after the last block of a chain exactly if it obeys the rules. -/
theorem C30_accepts_iff (C : Crypto) (chain : BlockChain) (parent : ChainBlock) (h : Header)
    (hp : chain.blocks.getLast? = some parent) (hr : parent.fork.since .cancun = true → BlobGasInRange parent.block.header) :
    validateHeader C chain h = .ok () ↔ ValidHeader C chain.state.fork parent.fork parent.block.header h := by
  constructor
  · intro hv
    obtain ⟨p, hp', v⟩ := validateHeader_ok hv
    rw [hp] at hp'
    have := Option.some.inj hp'
    subst this; exact v
  · exact validateHeader_of_valid hp hr

/-- C30: a header that does not is refused as an invalid block, never by another exception. -/
theorem C30_refuses (C : Crypto) (chain : BlockChain) (parent : ChainBlock) (h : Header)
    (hp : chain.blocks.getLast? = some parent) (hr : parent.fork.since .cancun = true → BlobGasInRange parent.block.header)
    (hn : ¬ ValidHeader C chain.state.fork parent.fork parent.block.header h) : validateHeader C chain h = .error .invalidBlock := by
  match hv : validateHeader C chain h with
  | .ok () => exact absurd ((C30_accepts_iff C chain parent h hp hr).mp hv) hn
  | .error e => rw [validateHeader_error hp hr hv]

/-- C30: whatever the parent (also if its blob gas is out of range), an accepted header obeys the rules. -/
theorem C30_sound (C : Crypto) (chain : BlockChain) (h : Header) (hv : validateHeader C chain h = .ok ()) :
    ∃ parent, chain.blocks.getLast? = some parent ∧ ValidHeader C chain.state.fork parent.fork parent.block.header h := validateHeader_ok hv

example : sampleChain.blocks.getLast? = some ⟨.osaka, ⟨sampleParent, [], [], []⟩⟩ ∧ BlobGasInRange sampleParent := by
  refine ⟨rfl, ?_⟩; unfold BlobGasInRange; decide

/-- C30: on a chain without blocks validation ends with an IndexError instead of InvalidBlock. -/
theorem C30_empty_chain (C : Crypto) (chain : BlockChain) (h : Header) (hb : chain.blocks = []) (hn : 1 ≤ h.number) :
    validateHeader C chain h = .error (.exn (.crash .indexError)) := by
  unfold validateHeader
  rw [if_neg (by omega), hb]; rfl

/-- C30: in every history, all blocks ever imported (also those no longer retained) follow their parents: the numbers
are consecutive, the times increase, the hashes link. -/
theorem C30_history {C : Crypto} {chain chain' : BlockChain} {bs : List ChainBlock} (h : Imports C chain bs chain')
    (hl : Linked C chain.blocks) (hn : chain.blocks.length ≤ 255) (i : Nat) (a b : ChainBlock)
    (ha : (chain.blocks ++ bs)[i]? = some a)
    (hb : (chain.blocks ++ bs)[i + 1]? = some b) :
    b.block.header.number = a.block.header.number + 1 ∧
      a.block.header.timestamp.toNat < b.block.header.timestamp.toNat ∧
      b.block.header.parentHash = headerHash C a.fork a.block.header :=
  have v := (imports_history h chain.blocks hl (lastN_eq hn).symm).1 i a b ha hb
  ⟨v.number, v.timestamp, v.parentHash⟩

example : ∃ chain', Imports sampleCrypto sampleChain [⟨.osaka, sampleBlock⟩] chain' ∧ Linked sampleCrypto sampleChain.blocks ∧
    sampleChain.blocks.length ≤ 255 ∧ (sampleChain.blocks ++ [⟨.osaka, sampleBlock⟩])[0 + 1]? = some ⟨.osaka, sampleBlock⟩ :=
  sample_imports.imp fun _ h => ⟨h.1, sample_linked, by decide, rfl⟩

/-! ### C31 -/

/-- C31: after any imports the chain holds the last 255 blocks, in order. -/
theorem C31_retention {C : Crypto} {chain chain' : BlockChain} {bs : List ChainBlock} (h : Imports C chain bs chain')
    (hn : chain.blocks.length ≤ 255) :
    chain'.blocks = (chain.blocks ++ bs).drop (chain.blocks.length + bs.length - 255) := by
  rw [imports_blocks h hn]
  unfold lastN
  rw [List.length_append]

/-- C31: BLOCKHASH in the block after a history. For the number of a block of the history at most 256 back it gives
that block's hash; for the number of the executing block, a later one, or one more than 256 back it gives 0. -/
theorem C31_blockhash {C : Crypto} {chain chain' : BlockChain} {bs : List ChainBlock} (h : Imports C chain bs chain')
    (hl : Linked C chain.blocks) (hn : chain.blocks.length ≤ 255) (last : ChainBlock) (next : Header)
    (hlast : (chain.blocks ++ bs).getLast? = some last)
    (hnext : next.number = last.block.header.number + 1) (n : Nat) :
    (∀ b ∈ chain.blocks ++ bs, b.block.header.number = n → next.number ≤ n + 256 →
      blockHashVal (blockEnvOf C chain' next).blockHashes (blockEnvOf C chain' next).number n = .ok (headerHash C b.fork b.block.header)) ∧
    (next.number ≤ n ∨ n + 256 < next.number →
      blockHashVal (blockEnvOf C chain' next).blockHashes (blockEnvOf C chain' next).number n = .ok 0) := by
  obtain ⟨hL, hB⟩ := imports_history h chain.blocks hl (lastN_eq hn).symm
  clear hl hn h
  generalize chain.blocks ++ bs = full at *
  have e1 : (blockEnvOf C chain' next).blockHashes = getLast256BlockHashes C chain' := by simp only [blockEnvOf]
  have e2 : (blockEnvOf C chain' next).number = next.number := by simp only [blockEnvOf]
  rw [e1, e2]
  unfold blockHashVal
  dsimp only
  constructor
  · intro b hb hnum hwin
    obtain ⟨i, hi⟩ := List.mem_iff_getElem?.mp hb
    have hi' : i < full.length := (List.getElem?_eq_some_iff.mp hi).1
    rw [List.getLast?_eq_getElem?] at hlast
    have hd := linked_number hL i (full.length - 1 - i) b last hi
      (by rw [← hlast]; exact congrArg (fun j => full[j]?) (by omega))
    have hback : next.number - n = full.length - i := by omega
    rw [if_neg (by omega), hback]
    obtain ⟨h1, h2⟩ := getLast256_getElem hL hB (full.length - i) (by omega) (by omega) b
      (by rw [show full.length - (full.length - i) = i by omega]; exact hi) (by omega)
    rw [if_pos h1, h2]
  · intro hw
    rw [if_pos (by omega)]

/-- The hypotheses are met by the sample history: in block 2, blocks 0 and 1 are inside the window. -/
example : ∃ chain', Imports sampleCrypto sampleChain [⟨.osaka, sampleBlock⟩] chain' ∧ Linked sampleCrypto sampleChain.blocks ∧
    (sampleChain.blocks ++ [(⟨.osaka, sampleBlock⟩ : ChainBlock)]).getLast? = some ⟨.osaka, sampleBlock⟩ ∧
    sampleBlock.header.number = 1 ∧ sampleParent.number = 0 :=
  sample_imports.imp fun _ h => ⟨h.1, sample_linked, rfl, rfl, rfl⟩

/-- C31: a history shorter than the distance: inside the window but before the parent of the oldest block, BLOCKHASH ends
with an IndexError. (It cannot happen on a chain that starts at block 0.) -/
theorem C31_short_history (hashes : List Word) (current n : Nat) (h1 : n < current) (h2 : current ≤ n + 256)
    (h3 : hashes.length < current - n) : blockHashVal hashes current n = .error .indexError := by
  unfold blockHashVal
  dsimp only
  rw [if_neg (by omega), if_neg (by omega)]

end Verif
