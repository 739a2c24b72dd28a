import Verif.Model.StateTest
/-!
The lint for imports: ethereum_spec_tools/lint/lints/import_hygiene.py, with the loops of lint/__init__.py. Sources are given as syntax trees (`ast.parse` is not
modelled), of which only the import statements are told apart. The text of the messages is left out: a diagnostic is the import and what is wrong with it.
-/
namespace Verif.Lint
open Verif Verif.Hex

/-- A node of a syntax tree: `import a, b`, `from ..m import a, b` (the module `m` may be missing, and the level is the number of dots), or any other node with
its children in order. -/
inductive Node where
  | importNames (names : List Str)
  | importFrom (module : Option Str) (level : Nat) (names : List Str)
  | other (children : List Node)

mutual
/-- lint/lints/import_hygiene.py:93-114 `_Visitor`: only the first name of `import`, and the module of `from`, as `str(mod.module)`, without the level. Other nodes
are visited by `ast.NodeVisitor.generic_visit`. (`names[0]` of an empty list does not come up: the parser makes none.) -/
def visit : Node → List Str
  | .importNames names => names.take 1
  | .importFrom m _ _ => [m.getD "None".toList]
  | .other children => visitAll children
/-- The children, one after the other. -/
def visitAll : List Node → List Str
  | [] => []
  | n :: r => visit n ++ visitAll r
end

/-- The three messages. -/
inductive Problem where
  | current | future | older
  deriving DecidableEq, Repr

/-- lint/lints/import_hygiene.py:60-88: one import. `str.startswith` of a tuple: any of them. (`item is None` is never the case.) -/
def checkItem (active : Str) (future ancient : List Str) (item : Str) : Option Problem :=
  if active.isPrefixOf item then some .current
  else if future.any fun f => f.isPrefixOf item then some .future
  else if ancient.any fun f => f.isPrefixOf item then some .older
  else none

/-- lint/lints/import_hygiene.py:41-90 `check_import`. `forks` are the names of the forks, and `active` is the one at `position`. -/
def checkImport (forks : List Str) (position : Nat) (active : Str) (source : Node) : List (Str × Problem) :=
  let future := forks.drop (position + 1)
  let ancient := if position > 1 then forks.take (position - 1) else []
  (visit source).filterMap fun item => (checkItem active future ancient item).map fun p => (item, p)

/-- A fork: its name, and the files that `walk_sources` finds for it, with their names. -/
structure ForkSources where
  name : Str
  files : List (Str × Node)

/-- lint/lints/import_hygiene.py:28-39 `lint`: the diagnostics of all the files of the fork at `position`, with the name of the file. -/
def lintFork (forks : List ForkSources) (position : Nat) (fork : ForkSources) : List (Str × Str × Problem) :=
  fork.files.flatMap fun file => (checkImport (forks.map ForkSources.name) position fork.name file.2).map fun d => (file.1, d)

/-- lint/__init__.py:159-185: the forks from `position` on; how many diagnostics there are. -/
def countFrom (forks : List ForkSources) (position : Nat) : List ForkSources → Nat
  | [] => 0
  | fork :: r => (lintFork forks position fork).length + countFrom forks (position + 1) r

/-- lint/__init__.py:159-185 `Linter.run`, with this lint only: the exit code. -/
def runLint (forks : List ForkSources) : Nat := if countFrom forks 0 forks > 0 then 1 else 0

/-- ethereum_spec_tools/forks.py:247-252 `name`: of the forks of the repository, in order. -/
def forkModules : List Str := StateTest.modules.map fun m => "ethereum.".toList ++ m.2

end Verif.Lint
