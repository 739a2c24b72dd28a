import Verif.Model.PowEvm
import Verif.Spec.PowRules
/-! Histories of proof-of-work chains whose transactions run in the model of the EVM. -/
namespace Verif.Spec
open Pow Ethash

/-- A proof-of-work history: `c'` results from importing the blocks one after the other into `c`, each by the rules of the fork in
force. Between two blocks the chain may move on to a later fork. -/
inductive Mined (C : Crypto) (K : Hashes) : PowChain Txs → List (PowFork × PowBlock Txs) → PowChain Txs → Prop where
  | nil (c : PowChain Txs) : Mined C K c [] c
  | block {c mid c' : PowChain Txs} {F : PowFork} {b : PowBlock Txs} {bs : List (PowFork × PowBlock Txs)}
      (hf : c.state.fork = F.fork) (h : Pow.stateTransition K (evmExec C K) F c b = .ok mid) (t : Mined C K mid bs c') :
      Mined C K c ((F, b) :: bs) c'
  | fork {c mid c' : PowChain Txs} {bs : List (PowFork × PowBlock Txs)} (F : PowFork) (hf : F.fork.since c.state.fork = true)
      (h : applyPowFork F c = .ok mid) (t : Mined C K mid bs c') : Mined C K c bs c'

/-- The rewards a block issues: for its miner and for the miners of its ommers. -/
def issued {T : Type} (F : PowFork) (b : PowBlock T) : Nat :=
  minerReward (blockRewards F) b.ommers.length + (b.ommers.map fun o => ommerReward (blockRewards F) (b.header.number - o.number)).sum

/-- The base fee of the gas used in a block; there is none before london. -/
def burnt {T : Type} (b : PowBlock T) : Nat := b.header.gasUsed * b.header.baseFeePerGas.getD 0

end Verif.Spec
