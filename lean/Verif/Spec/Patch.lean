import Verif.Model.Patch
/-! The order of names, for C103. -/
namespace Verif.Spec
open Verif Hex

/-- In the list, `a` comes before `b`. -/
def Precedes (l : List Str) (a b : Str) : Prop := ∃ i j : Nat, i < j ∧ l[i]? = some a ∧ l[j]? = some b

/-- Something that followed the name in the old list comes before it in the new one. -/
def Overtaken (previous current : List Str) (x : Str) : Prop := ∃ y, Precedes previous x y ∧ Precedes current y x

open Patch in
/-- The node, which lies in the classes `path` and, if `target`, in the target of an assignment, defines the name: a function, a class or the target of an assignment, with the
classes around it; what is inside of functions does not count. -/
inductive Defines : List Str → Bool → Node → Str → Prop
  | function (path t n) : Defines path t (.function n) ((".".toList).intercalate (path ++ [n]))
  | klass (path t n l) : Defines path t (.klass n l) ((".".toList).intercalate (path ++ [n]))
  | member {path t n l c x} (hc : c ∈ l) (h : Defines (path ++ [n]) t c x) : Defines path t (.klass n l) x
  | target {path t a r c x} (hc : c ∈ a) (h : Defines path true c x) : Defines path t (.assign a r) x
  | rest {path t a r c x} (hc : c ∈ r) (h : Defines path t c x) : Defines path t (.assign a r) x
  | name (path n) : Defines path true (.name n) ((".".toList).intercalate (path ++ [n]))
  | child {path t l c x} (hc : c ∈ l) (h : Defines path t c x) : Defines path t (.other l) x

open Patch in
mutual
/-- The definitions of the source in their order: a class before its members, the targets of an assignment before the rest. -/
def definitions (path : List Str) (target : Bool) : Node → List Str
  | .function n => [(".".toList).intercalate (path ++ [n])]
  | .klass n l => (".".toList).intercalate (path ++ [n]) :: definitionsAll (path ++ [n]) target l
  | .assign a r => definitionsAll path true a ++ definitionsAll path target r
  | .name n => if target then [(".".toList).intercalate (path ++ [n])] else []
  | .other l => definitionsAll path target l
/-- One node after the other. -/
def definitionsAll (path : List Str) (target : Bool) : List Node → List Str
  | [] => []
  | n :: r => definitions path target n ++ definitionsAll path target r
end

/-- The list names what the source defines, each name once. -/
def NamesOf (source : Patch.Node) (l : List Str) : Prop := l.Nodup ∧ ∀ x, x ∈ l ↔ Defines [] false source x

end Verif.Spec
