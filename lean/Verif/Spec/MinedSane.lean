import Verif.Spec.PowHistory
import Verif.Spec.TxSane
/-! What is assumed of a proof-of-work chain and a block when an import may fail in no other way than by refusing the block (C78). -/
namespace Verif.Spec
open Pow Ethash

/-- The numbers of a mined header: below block 1 950 000 000 (to which the proof of work is defined), gas limit below 2^60, base fee
and difficulty fit 256-bit words; in frontier the time stamp, to which 13 is added, is below 2^255. -/
structure MinedFits (F : PowFork) (h : PowHeader) : Prop where
  number : h.number < 1950000000
  gasLimit : h.gasLimit < 2 ^ 60
  baseFee : ∀ fee, h.baseFeePerGas = some fee → fee < 2 ^ 256
  difficulty : h.difficulty < 2 ^ 256
  time : F = .frontier → h.timestamp.toNat < 2 ^ 255

/-- A header under the rules of london or later is not older than the first block of london. -/
def AfterLondon (F : PowFork) (h : PowHeader) : Prop :=
  (F = .london → 12965000 ≤ h.number) ∧ (F = .arrowGlacier ∨ F = .grayGlacier → 12965000 < h.number)

/-- Moreover london is activated at that block: the headers of earlier forks are older. -/
def OnSchedule (F : PowFork) (h : PowHeader) : Prop := AfterLondon F h ∧ (F.fork.since .london = false → h.number < 12965000)

/-- A proof-of-work chain between two imports: the blocks have consecutive numbers and reach back to the first one or are 255,
those from block 12 965 000 on have a base fee, and the state is in order. -/
structure PowChainFits (F : PowFork) (c : PowChain Txs) : Prop where
  fork : c.state.fork = F.fork
  numbered : Numbered c.blocks
  last : ∃ p, c.blocks.getLast? = some p ∧ (p.header.number ≤ c.blocks.length ∨ 255 ≤ c.blocks.length)
  times : F = .frontier → ∀ b ∈ c.blocks, b.header.timestamp.toNat < 2 ^ 255
  fees : ∀ b ∈ c.blocks, 12965000 ≤ b.header.number → b.header.baseFeePerGas ≠ none
  quiet : Quiet c.state
  fits : StateFits c.state

end Verif.Spec
