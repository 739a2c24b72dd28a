import Verif.Model.SyncNode
import Verif.Spec.Sync
/-! What an uninterrupted synchronisation computes, and the histories of a node that is stopped and started. -/
namespace Verif.Spec
open Verif Pow Sync Props

/-- Where a node that was never stopped is after the first `n` blocks: its place among the forks and its chain. `none` if one of the blocks is invalid. -/
def syncTo (C : Crypto) (K : Ethash.Hashes) (W : Sync.World) : Nat → Option (ForkTracking × NodeChain)
  | 0 => some ((⟨W.forks, 0, 0⟩ : ForkTracking).setBlock 0 W.genesisTime, W.genesis)
  | n + 1 =>
    match syncTo C K W n, W.blocks[n]? with
    | some (t, c), some b => processBlock C K W t c b
    | _, _ => none

/-- The chain begins with a genesis block, with number 0, and timestamps do not decrease. -/
structure Sound (W : Sync.World) (g : BlockObj) : Prop where
  genesis : W.genesis.blocks = [g]
  zero : g.number = 0
  times : (W.genesisTime :: W.blocks.map BlockObj.time).Pairwise fun a b => a.toNat ≤ b.toNat

/-- What is to be found in the database of a node that has committed after block `n`: the state after the first `n` blocks, and the number and time of the block `n`. -/
def SavedAt (C : Crypto) (K : Ethash.Hashes) (W : Sync.World) (n : Nat) (s : Saved) : Prop :=
  ∃ t c b, syncTo C K W n = some (t, c) ∧ 0 < n ∧ W.blocks[n - 1]? = some b ∧ s = ⟨c.state, ⟨some n, some b.time, some c.chainId⟩⟩

/-- Nothing was committed before block 255. -/
def Late (m : Machine) : Prop := ∀ s n, m.disk = some s → s.metadata.number = some n → 255 ≤ n

/-- The machines that a node can become, beginning with an empty database, with any number of stops and starts, and commits after any of the blocks from the 255th on. -/
inductive Reaches (C : Crypto) (K : Ethash.Hashes) (W : Sync.World) (m : Machine) : Machine → Prop
  | refl : Reaches C K W m m
  | step {m' m'' : Machine} : Reaches C K W m m' → Step C K W m' m'' → Late m'' → Reaches C K W m m''

/-- The node before its first start. -/
def blank : Machine := ⟨none, none⟩

end Verif.Spec
