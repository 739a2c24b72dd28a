import Verif.Model.Glacier
import Verif.Spec.AstCompare
/-! What the lint for glacier forks is about, for C102. -/
namespace Verif.Spec
open Verif Hex AstCompare Glacier

mutual
/-- The definitions of a statement, in order, with those of both branches of an `if`. -/
def defined : Stmt → List (Str × Ast)
  | .defines name tree => [(name, tree)]
  | .cond body orelse => definedAll body ++ definedAll orelse
  | _ => []
/-- Of a source. -/
def definedAll : List Stmt → List (Str × Ast)
  | [] => []
  | s :: r => defined s ++ definedAll r
end

mutual
/-- There is a function of the visitor for every statement. -/
def Visited : Stmt → Prop
  | .unknown => False
  | .cond body orelse => VisitedAll body ∧ VisitedAll orelse
  | _ => True
/-- In a source. -/
def VisitedAll : List Stmt → Prop
  | [] => True
  | s :: r => Visited s ∧ VisitedAll r
end

/-- A source that can be read: every statement has a function of the visitor, no name is defined twice. -/
def Readable (l : List Stmt) : Prop := VisitedAll l ∧ ((definedAll l).map Prod.fst).Nodup

/-- The source defines the name as this tree, if it defines it at all. -/
def DefinedAs (l : List Stmt) (name : Str) : Option Ast → Prop
  | some t => (name, t) ∈ definedAll l
  | Option.none => ∀ t, (name, t) ∉ definedAll l

/-- What is to be reported of a file of a fork: the file itself, or an item that is wrong. -/
inductive ToReport (fork file : Str) : Option (List Stmt) → Option (List Stmt) → Report → Prop
  | added (c : List Stmt) : ToReport fork file Option.none (some c) .fileAdded
  | deleted (p : List Stmt) : ToReport fork file (some p) Option.none .fileDeleted
  | item {p c : List Stmt} {name : Str} {old expected new : Option Ast} {change : Change} (hx : ¬ Excepted fork file name)
      (ho : DefinedAs p name old) (hn : DefinedAs c name new) (he : Expected fork name old expected) (hw : Wrong expected new change) :
      ToReport fork file (some p) (some c) (.item name change)

/-- Fit to be compared: readable sources of the same language, and a delay of the difficulty bomb, where there is one, that is a number assigned to the name, in a fork that
has a delay. -/
def Comparable (arity : Str → Nat) (fork : Str) (p c : List Stmt) : Prop :=
  Readable p ∧ Readable c ∧ (∀ d ∈ definedAll p ++ definedAll c, Formed arity d.2) ∧
    ∀ t, ("BOMB_DELAY_BLOCKS".toList, t) ∈ definedAll p → ∃ e, Expected fork "BOMB_DELAY_BLOCKS".toList (some t) (some e)

end Verif.Spec
