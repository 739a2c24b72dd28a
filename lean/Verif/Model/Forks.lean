import Verif.Model.Base
/-!
Fork activation: fork_criteria.py and the fork tracking of ethereum_spec_tools/forks.py and sync.py.
-/
namespace Verif

/-- fork_criteria.py:124-205: the three subclasses of `ForkCriteria`. The constructors' argument checks (`Uint`, `U256`) are
the types of the fields. -/
inductive ForkCriteria where
  | byBlockNumber (blockNumber : Nat)
  | byTimestamp (timestamp : Word)
  | unscheduled
  deriving DecidableEq, Repr

namespace ForkCriteria

/-- fork_criteria.py:137,169,195: `_internal`. -/
def internal : ForkCriteria → Nat × Nat
  | byBlockNumber n => (0, n)
  | byTimestamp t => (1, t.toNat)
  | unscheduled => (2, 0)

/-- fork_criteria.py:72-78 `__eq__` (for two criteria). -/
def eq (a b : ForkCriteria) : Bool := a.internal == b.internal

/-- fork_criteria.py:80-94 `__lt__`: comparison of tuples, first component first. -/
def lt (a b : ForkCriteria) : Bool :=
  if a.internal.1 = b.internal.1 then a.internal.2 < b.internal.2 else a.internal.1 < b.internal.1

/-- `__le__` as `functools.total_ordering` defines it from `__lt__` and `__eq__` (fork_criteria.py:35). -/
def le (a b : ForkCriteria) : Bool := a.lt b || a.eq b

/-- fork_criteria.py:141-149,173-181,198-202 `check`. -/
def check (c : ForkCriteria) (blockNumber : Nat) (timestamp : Word) : Bool :=
  match c with
  | byBlockNumber n => n ≤ blockNumber
  | byTimestamp t => t ≤ timestamp
  | unscheduled => false

end ForkCriteria

/-- Insertion before the first fork that is not smaller. -/
def insertFork (f : String × ForkCriteria) : List (String × ForkCriteria) → List (String × ForkCriteria)
  | [] => [f]
  | g :: r => if f.2.le g.2 then f :: g :: r else g :: insertFork f r

/-- forks.py:118 `forks.sort(key=lambda fork: fork.criteria)`, the only step of `Hardfork.discover` that is modelled; a fork
is its name and its criterion. Python's sort is stable, and so is this insertion sort. -/
def sortForks (forks : List (String × ForkCriteria)) : List (String × ForkCriteria) := forks.foldr insertFork []

/-- sync.py:49-63 `ForkTracking`; a fork is represented by its criterion. -/
structure ForkTracking where
  forks : List ForkCriteria
  blockNumber : Nat
  activeForkIndex : Nat
  deriving DecidableEq, Repr

namespace ForkTracking

/-- sync.py:71-79 `next_fork`. -/
def nextFork (t : ForkTracking) : Option ForkCriteria := t.forks[t.activeForkIndex + 1]?

/-- The loop of sync.py:91-94 and 100-104: `steps` is a bound on the number of iterations (theorem `C56_bound` shows that
the length of the list is always enough); returns the index and whether it was changed. -/
def climb (forks : List ForkCriteria) (blockNumber : Nat) (timestamp : Word) : Nat → Nat → Nat × Bool
  | 0, i => (i, false)
  | steps + 1, i =>
    match forks[i + 1]? with
    | none => (i, false)
    | some c => if c.check blockNumber timestamp then ((climb forks blockNumber timestamp steps (i + 1)).1, true) else (i, false)

/-- sync.py:87-94 `set_block`. -/
def setBlock (t : ForkTracking) (blockNumber : Nat) (timestamp : Word) : ForkTracking :=
  { t with blockNumber := blockNumber, activeForkIndex := (climb t.forks blockNumber timestamp t.forks.length 0).1 }

/-- sync.py:96-105 `advance_block`. -/
def advanceBlock (t : ForkTracking) (timestamp : Word) : ForkTracking × Bool :=
  let r := climb t.forks (t.blockNumber + 1) timestamp t.forks.length t.activeForkIndex
  ({ t with blockNumber := t.blockNumber + 1, activeForkIndex := r.1 }, r.2)

end ForkTracking
end Verif
