import Verif.Model.Lint
/-! What the lint for imports is about, for C101. -/
namespace Verif.Spec
open Verif Lint Hex

/-- The statement is in the source, at any depth. -/
inductive Inside : Node → Node → Prop
  | self (n : Node) : Inside n n
  | child {n c : Node} {l : List Node} (hc : c ∈ l) (h : Inside n c) : Inside n (.other l)

/-- The source says `import item, ...` or `from item import ...` somewhere. -/
def ImportsName (source : Node) (item : Str) : Prop :=
  (∃ r, Inside (.importNames (item :: r)) source) ∨ ∃ level names, Inside (.importFrom (some item) level names) source

/-- The module is one of the fork with the given place in the list. -/
def FromFork (forks : List Str) (i : Nat) (item : Str) : Prop := ∃ f, forks[i]? = some f ∧ f <+: item

/-- No fork has a name that begins with the name of another. -/
def Apart (forks : List Str) : Prop := ∀ (i j : Nat) (f g : Str), forks[i]? = some f → forks[j]? = some g → f <+: g → i = j

/-- What is wrong with the import of a module of fork `i` in fork `position`. Only the fork just before may be imported. -/
def problemOf (position i : Nat) : Option Problem :=
  if i = position then some .current else if i > position then some .future else if i + 1 = position then none else some .older

end Verif.Spec
