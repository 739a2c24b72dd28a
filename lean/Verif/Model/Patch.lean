import Verif.Model.Hex
/-!
The lint that compares the order of the definitions of two forks: ethereum_spec_tools/lint/lints/patch_hygiene.py. A source is the list of the names that the visitor finds
in it; a name that is found twice is an error there (patch_hygiene.py:98-102), so that the names of a list are distinct.
-/
namespace Verif.Patch
open Verif Verif.Hex

/-- patch_hygiene.py:54-59 `previous_nodes`: the position of a name in the old source. -/
def position : List Str → Str → Option Nat
  | [], _ => none
  | a :: r, x => if a == x then some 0 else (position r x).map (· + 1)

/-- patch_hygiene.py:61-80: the loop over the names of the new source, with `maximum`; the names for which there is a message. -/
def loop (previous : List Str) : Option Nat → List Str → List Str
  | _, [] => []
  | maximum, item :: r =>
    match position previous item with
    | none => loop previous maximum r
    | some p =>
      match maximum with
      | none => loop previous (some p) r
      | some m => if p > m then loop previous (some p) r else item :: loop previous maximum r

/-- patch_hygiene.py:42-80 `PatchHygiene.compare`, after the visitor. -/
def comparePatch (current : List Str) : Option (List Str) → List Str
  | none => []
  | some previous => loop previous none current

/-- patch_hygiene.py:19-40 `PatchHygiene.lint`: the files of the fork, with those of the one before; for each file the names reported. `none` is the first fork. -/
def lintPatch (current : List (Str × List Str)) : Option (Str → Option (List Str)) → List (Str × Str)
  | none => []
  | some previous => current.flatMap (fun f => (comparePatch f.2 (previous f.1)).map (fun item => (f.1, item)))

/-- A node of a syntax tree, as the visitor tells them apart: a function (asynchronous or not), a class with its children, an assignment with its targets and what else is
visited in it (the annotation and the value), a name, or any other node with its children. -/
inductive Node where
  | function (name : Str)
  | klass (name : Str) (children : List Node)
  | assign (targets rest : List Node)
  | name (id : Str)
  | other (children : List Node)

/-- patch_hygiene.py:98-102 `_insert`; `none` is the `ValueError`. -/
def insert (path : List Str) (name : Str) (items : List Str) : Option (List Str) :=
  let item := (".".toList).intercalate (path ++ [name])
  if items.contains item then none else some (items ++ [item])

mutual
/-- patch_hygiene.py:111-161: the visitor, with `path` and `in_assign`. -/
def visit (path : List Str) (inAssign : Nat) : Node → List Str → Option (List Str)
  | .function n, items => insert path n items
  | .klass n children, items => do visitAll (path ++ [n]) inAssign children (← insert path n items)
  | .assign targets rest, items => do visitAll path inAssign rest (← visitAll path (inAssign + 1) targets items)
  | .name id, items => if inAssign > 0 then insert path id items else some items
  | .other children, items => visitAll path inAssign children items
/-- One after the other. -/
def visitAll (path : List Str) (inAssign : Nat) : List Node → List Str → Option (List Str)
  | [], items => some items
  | n :: r, items => do visitAll path inAssign r (← visit path inAssign n items)
end

/-- patch_hygiene.py:42-80 `PatchHygiene.compare`, with the sources as trees; `none` if a name is found twice. -/
def compareSources (current : Node) : Option Node → Option (List Str)
  | none => some []
  | some previous => do
    let new ← visit [] 0 current []
    let old ← visit [] 0 previous []
    pure (comparePatch new (some old))

end Verif.Patch
