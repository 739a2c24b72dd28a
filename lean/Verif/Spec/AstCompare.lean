import Verif.Model.AstCompare
/-! When two syntax trees say the same, for C102. -/
namespace Verif.Spec
open Verif AstCompare Hex

/-- An expression statement that is a text: a docstring or a comment. -/
def TextStatement (t : Ast) : Prop := ∃ v r s, t = .node "Expr".toList (.node "Constant".toList (.value "str".toList v :: r) :: s)

mutual
/-- The trees are the same, up to the contents of text statements and to `None`s at the end of lists. -/
inductive SameCode : Ast → Ast → Prop
  | text {a b : Ast} (ha : TextStatement a) (hb : TextStatement b) : SameCode a b
  | node (k : Str) {l m : List Ast} (h : SameAll l m) : SameCode (.node k l) (.node k m)
  | list {l m : List Ast} (h : SamePadded l m) : SameCode (.list l) (.list m)
  | value (t v : Str) : SameCode (.value t v) (.value t v)
/-- One by one. -/
inductive SameAll : List Ast → List Ast → Prop
  | nil : SameAll [] []
  | cons {a b : Ast} {l m : List Ast} (h : SameCode a b) (r : SameAll l m) : SameAll (a :: l) (b :: m)
/-- One by one, up to `None`s at the end. -/
inductive SamePadded : List Ast → List Ast → Prop
  | nil : SamePadded [] []
  | left {l : List Ast} (r : SamePadded l []) : SamePadded (AstCompare.none :: l) []
  | right {m : List Ast} (r : SamePadded [] m) : SamePadded [] (AstCompare.none :: m)
  | cons {a b : Ast} {l m : List Ast} (h : SameCode a b) (r : SamePadded l m) : SamePadded (a :: l) (b :: m)
end

mutual
/-- The change from the first tree to the second is one that the lint lets pass: as `SameCode`, but any expression statement may take the place of a text statement. -/
inductive Unnoticed : Ast → Ast → Prop
  | text {a : Ast} (ha : TextStatement a) (l : List Ast) : Unnoticed a (.node "Expr".toList l)
  | node (k : Str) {l m : List Ast} (h : UnnoticedAll l m) : Unnoticed (.node k l) (.node k m)
  | list {l m : List Ast} (h : UnnoticedPadded l m) : Unnoticed (.list l) (.list m)
  | value (t v : Str) : Unnoticed (.value t v) (.value t v)
/-- One by one. -/
inductive UnnoticedAll : List Ast → List Ast → Prop
  | nil : UnnoticedAll [] []
  | cons {a b : Ast} {l m : List Ast} (h : Unnoticed a b) (r : UnnoticedAll l m) : UnnoticedAll (a :: l) (b :: m)
/-- One by one, up to `None`s at the end. -/
inductive UnnoticedPadded : List Ast → List Ast → Prop
  | nil : UnnoticedPadded [] []
  | left {l : List Ast} (r : UnnoticedPadded l []) : UnnoticedPadded (AstCompare.none :: l) []
  | right {m : List Ast} (r : UnnoticedPadded [] m) : UnnoticedPadded [] (AstCompare.none :: m)
  | cons {a b : Ast} {l m : List Ast} (h : Unnoticed a b) (r : UnnoticedPadded l m) : UnnoticedPadded (a :: l) (b :: m)
end

mutual
/-- All nodes of a kind have the same number of fields. -/
def Formed (arity : Str → Nat) : Ast → Prop
  | .node k fs => fs.length = arity k ∧ FormedAll arity fs
  | .list l => FormedAll arity l
  | .value _ _ => True
/-- For all trees of a list. -/
def FormedAll (arity : Str → Nat) : List Ast → Prop
  | [] => True
  | a :: r => Formed arity a ∧ FormedAll arity r
end

/-- The tree is in the other one. -/
inductive PartOf : Ast → Ast → Prop
  | self (a : Ast) : PartOf a a
  | field {a b : Ast} {k : Str} {l : List Ast} (hb : b ∈ l) (h : PartOf a b) : PartOf a (.node k l)
  | item {a b : Ast} {l : List Ast} (hb : b ∈ l) (h : PartOf a b) : PartOf a (.list l)

/-- What is wrong with an item of a glacier fork, when `expected` is what it was before, with the delay of the difficulty bomb of this fork. -/
inductive Wrong (expected current : Option Ast) : Change → Prop
  | added (h : expected = Option.none) (hc : current ≠ Option.none) : Wrong expected current .added
  | deleted (h : expected ≠ Option.none) (hc : current = Option.none) : Wrong expected current .deleted
  | changed {p c : Ast} (h : expected = some p) (hc : current = some c) (hd : ¬ Unnoticed p c) : Wrong expected current .changed

/-- The exceptions: how the DAO fork and the Arrow Glacier fork differ otherwise. -/
def Excepted (fork file item : Str) : Prop :=
  file = ".fork".toList ∧
    (fork = "dao_fork".toList ∧ (item = "apply_fork".toList ∨ item = "validate_header".toList) ∨
     fork = "arrow_glacier".toList ∧ (item = "calculate_base_fee_per_gas".toList ∨ item = "validate_header".toList ∨ item = "INITIAL_BASE_FEE".toList))

/-- The delays of the difficulty bomb. -/
inductive DelayOf : Str → Str → Prop
  | muir : DelayOf "muir_glacier".toList "9000000".toList
  | arrow : DelayOf "arrow_glacier".toList "10700000".toList
  | gray : DelayOf "gray_glacier".toList "11400000".toList

/-- The item as it should be now: as before, but with the delay of this fork. -/
inductive Expected (fork item : Str) : Option Ast → Option Ast → Prop
  | absent : Expected fork item Option.none Option.none
  | other {p : Ast} (h : item ≠ "BOMB_DELAY_BLOCKS".toList) : Expected fork item (some p) (some p)
  | delay {targets old : Ast} {r s : List Ast} {d : Str} (h : item = "BOMB_DELAY_BLOCKS".toList) (hd : DelayOf fork d) :
      Expected fork item (some (.node "Assign".toList (targets :: .node "Constant".toList (old :: r) :: s)))
        (some (.node "Assign".toList (targets :: .node "Constant".toList (.value "int".toList d :: r) :: s)))

end Verif.Spec
