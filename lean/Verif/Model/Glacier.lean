import Verif.Model.AstCompare
/-!
The lint for glacier forks: ethereum_spec_tools/lint/lints/glacier_forks_hygiene.py, around the comparison of items (Model/AstCompare.lean). Sources are given as lists of
statements (`ast.parse` is not modelled), which are told apart as the visitor does. The text of the messages is left out.
-/
namespace Verif.Glacier
open Verif Verif.Hex AstCompare

/-- A statement: one that is ignored (an import, an expression, an assignment to something other than a name), one that defines a name (a function, a class or an assignment to
a name), an `if` with its two branches, or one for which the visitor has no function. -/
inductive Stmt where
  | ignored
  | defines (name : Str) (tree : Ast)
  | cond (body orelse : List Stmt)
  | unknown

/-- glacier_forks_hygiene.py:178-182 `_insert`; `none` is the `ValueError`. (`path` is always empty.) -/
def insert (name : Str) (tree : Ast) (items : List (Str × Ast)) : Option (List (Str × Ast)) :=
  if (items.map Prod.fst).contains name then Option.none else some (items ++ [(name, tree)])

mutual
/-- glacier_forks_hygiene.py:169-274 `_Visitor`; `none` is an error, or `sys.exit` for a statement without a function. -/
def visit : Stmt → List (Str × Ast) → Option (List (Str × Ast))
  | .ignored, items => some items
  | .defines name tree, items => insert name tree items
  | .cond body orelse, items => do visitAll orelse (← visitAll body items)
  | .unknown, _ => Option.none
/-- One after the other. -/
def visitAll : List Stmt → List (Str × Ast) → Option (List (Str × Ast))
  | [], items => some items
  | s :: r, items => do visitAll r (← visit s items)
end

/-- `dict.get` and `dict[...]`. -/
def find (items : List (Str × Ast)) (name : Str) : Option Ast := (items.find? (fun i => i.1 == name)).map Prod.snd

/-- What is reported of a file. -/
inductive Report where
  | fileAdded | fileDeleted
  | item (name : Str) (change : Change)
  deriving DecidableEq

/-- glacier_forks_hygiene.py:20-22 `EXCEPTIONAL_FILES`. -/
def exceptionalFiles : List (Str × Str) := [("dao_fork".toList, ".dao".toList)]

/-- glacier_forks_hygiene.py:78-105: one file. The union of the names is taken in the order of the old file, then the new one (it is a set in the code, of which the order is
not fixed). -/
def lintFile (fork file : Str) (previous current : Str → Option (List Stmt)) : Option (List Report) :=
  if exceptionalFiles.contains (fork, file) then some [] else
  match previous file, current file with
  | Option.none, _ => some [.fileAdded]
  | some _, Option.none => some [.fileDeleted]
  | some p, some c => do
    let new ← visitAll c []
    let old ← visitAll p []
    let ds ← compareFile fork file (find new) (find old) (old.map Prod.fst ++ (new.map Prod.fst).filter (fun n => !(old.map Prod.fst).contains n))
    pure (ds.map (fun d => .item d.1 d.2))

/-- glacier_forks_hygiene.py:78: the loop over the files. -/
def lintFiles (fork : Str) (previous current : Str → Option (List Stmt)) : List Str → Option (List (Str × Report))
  | [] => some []
  | file :: r => do
    let ds ← lintFile fork file previous current
    let rest ← lintFiles fork previous current r
    pure (ds.map (fun d => (file, d)) ++ rest)

/-- glacier_forks_hygiene.py:57-107 `lint`: the fork with the short name `fork`; `previous` is missing for the first one. -/
def lintGlacier (fork : Str) (previous : Option (Str → Option (List Stmt))) (current : Str → Option (List Stmt)) (files : List Str) : Option (List (Str × Report)) :=
  match previous with
  | Option.none => some []
  | some previous =>
    if fork != "dao_fork".toList && !("_glacier".toList).isSuffixOf fork then some [] else lintFiles fork previous current files

end Verif.Glacier
