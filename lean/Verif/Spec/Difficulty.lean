/-!
Specification of the block difficulty (yellow paper, EIP-2, EIP-100 and the bomb delays), independent of the model.
A difficulty moves in steps of a 2048th of the parent's (rounded down).
-/
namespace Verif.Spec

/-- The three difficulty rules: the original one, that of EIP-2 and that of EIP-100. -/
inductive DifficultyRule where
  | original | eip2 | eip100
  deriving DecidableEq

/-- How many steps the difficulty moves, given the seconds since the parent and whether the parent has ommers.
`original`: one up if less than 13 seconds passed, one down otherwise.
`eip2`: one up within the first 10 seconds, and one step less for every full 10 seconds, but at most 99 down.
`eip100`: one up (two if the parent has ommers) within the first 9 seconds, one step less for every full 9 seconds, at most 99
down. -/
def steps (rule : DifficultyRule) (seconds : Nat) (ommers : Bool) (k : Int) : Prop :=
  match rule with
  | .original => (seconds < 13 → k = 1) ∧ (13 ≤ seconds → k = -1)
  | .eip2 => ∀ periods : Nat, 10 * periods ≤ seconds → seconds < 10 * periods + 10 →
      (periods ≤ 100 → k = 1 - periods) ∧ (100 ≤ periods → k = -99)
  | .eip100 => ∀ periods : Nat, 9 * periods ≤ seconds → seconds < 9 * periods + 9 →
      let start : Nat := if ommers then 2 else 1
      (periods ≤ start + 99 → k = start - periods) ∧ (start + 99 ≤ periods → k = -99)

/-- The bomb at a block: with `delay` the number of blocks it has been delayed by, nothing before block `delay + 200000`, then
1, doubling every 100000 blocks. -/
def bomb (delay : Nat) (number : Nat) (b : Nat) : Prop :=
  (number < delay + 200000 → b = 0) ∧
  ∀ periods : Nat, delay + 200000 + 100000 * periods ≤ number → number < delay + 200000 + 100000 * periods + 100000 → b = 2 ^ periods

end Verif.Spec
