import Verif.Model.Hex
/-!
The comparison of syntax trees by which the lint for glacier forks decides what has changed: ethereum_spec_tools/lint/__init__.py:20-56 `compare_ast`.
-/
namespace Verif.AstCompare
open Verif Verif.Hex

/-- What `compare_ast` is applied to: a node with its fields, a list, or a value with the name of its type (`None` is a value). The fields `lineno`, `end_lineno`,
`col_offset`, `end_col_offset` and `ctx`, which are always skipped, are left out; the others are in the order of the class, which is the same for all nodes of a kind.
Values of one type are equal if they are written alike (this leaves out that `0.0 == -0.0`). -/
inductive Ast where
  | node (kind : Str) (fields : List Ast)
  | list (items : List Ast)
  | value (type : Str) (text : Str)

/-- `None`, which `zip_longest` puts at the end of the shorter list. -/
def none : Ast := .value "NoneType".toList "None".toList

/-- Is it `None`? -/
def isNone : Ast → Bool
  | .value t v => t == "NoneType".toList && v == "None".toList
  | _ => false

/-- lint/__init__.py:28-34: an expression statement that is a text, as `ast.Expr(value=ast.Constant(value=<str>))`. -/
def isText (kind : Str) (fields : List Ast) : Bool :=
  kind == "Expr".toList && match fields with
    | .node k (.value t _ :: _) :: _ => k == "Constant".toList && t == "str".toList
    | _ => false

mutual
/-- lint/__init__.py:20-56 `compare_ast`. -/
def compareAst : Ast → Ast → Bool
  | .node k fs, .node k' fs' => k == k' && (isText k fs || compareFields fs fs')
  | .list l, .list l' => compareItems l l'
  | .value t v, .value t' v' => t == t' && v == v'
  | _, _ => false
/-- lint/__init__.py:37-48: the fields of the old node. (A field that the new node does not have would be an `AttributeError`; nodes of a kind have the same.) -/
def compareFields : List Ast → List Ast → Bool
  | [], _ => true
  | _ :: _, [] => false
  | a :: r, b :: s => compareAst a b && compareFields r s
/-- lint/__init__.py:50-54: the items of two lists, the shorter filled up with `None`. -/
def compareItems : List Ast → List Ast → Bool
  | [], l => l.all isNone
  | a :: r, [] => isNone a && compareItems r []
  | a :: r, b :: s => compareAst a b && compareItems r s
end

/-- What the glacier lint says of an item (lints/glacier_forks_hygiene.py:120-151). -/
inductive Change where
  | added | deleted | changed
  deriving DecidableEq

/-- lints/glacier_forks_hygiene.py:24-34 `EXCEPTIONAL_DIFFS`. -/
def exceptional : List (Str × Str × Str) :=
  [("dao_fork".toList, ".fork".toList, "apply_fork".toList), ("dao_fork".toList, ".fork".toList, "validate_header".toList),
   ("arrow_glacier".toList, ".fork".toList, "calculate_base_fee_per_gas".toList), ("arrow_glacier".toList, ".fork".toList, "validate_header".toList),
   ("arrow_glacier".toList, ".fork".toList, "INITIAL_BASE_FEE".toList)]

/-- lints/glacier_forks_hygiene.py:51-55 `delay_blocks`, the numbers as they are written. -/
def delayBlocks : List (Str × Str) :=
  [("muir_glacier".toList, "9000000".toList), ("arrow_glacier".toList, "10700000".toList), ("gray_glacier".toList, "11400000".toList)]

/-- lints/glacier_forks_hygiene.py:143-144: the delay is put in the place of the old one, in `NAME = <constant>`; `none` for an exception, for a fork without a delay.
Simplified: other forms of assignment, for which the attribute is set on another node or cannot be set, are `none` as well. -/
def withDelay (fork : Str) : Ast → Option Ast
  | .node k (targets :: .node c (_ :: r) :: s) =>
    if k == "Assign".toList && c == "Constant".toList then
      (delayBlocks.find? (fun d => d.1 == fork)).map (fun d => .node k (targets :: .node c (.value "int".toList d.2 :: r) :: s))
    else Option.none
  | _ => Option.none

/-- lints/glacier_forks_hygiene.py:120-151: one item of a file; the outer `none` is an exception. -/
def compareItem (fork file : Str) (current previous : Str → Option Ast) (item : Str) : Option (Option Change) :=
  if exceptional.contains (fork, file, item) then some Option.none else
  match previous item, current item with
  | Option.none, _ => some (some .added)
  | some _, Option.none => some (some .deleted)
  | some p, some c =>
    (if item == "BOMB_DELAY_BLOCKS".toList then withDelay fork p else some p).map (fun p => if compareAst p c then Option.none else some .changed)

/-- lints/glacier_forks_hygiene.py:109-153 `GlacierForksHygiene.compare`, with the items in the order in which the set gives them. -/
def compareFile (fork file : Str) (current previous : Str → Option Ast) : List Str → Option (List (Str × Change))
  | [] => some []
  | item :: r => do
    let d ← compareItem fork file current previous item
    let ds ← compareFile fork file current previous r
    pure ((d.map (fun c => (item, c))).toList ++ ds)

end Verif.AstCompare
