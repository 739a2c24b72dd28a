import Verif.Model.EnvJson
/-!
State tests: ethereum_spec_tools/evm_tools/statetest/__init__.py, and how the tools choose a fork from its name (evm_tools/utils.py:28-146). A JSON object is the
record of its members; a member that is missing is `none`. `none` as a result stands for an exception of Python, `SystemExit` included: it ends the run.

Simplifications: the text of the error in a verdict, the copies on stderr and the trace options are left out. Names are compared without case by the letters a to z.
Indexes are not negative. The object `transaction` has no members `input` and `gas` besides `data` and `gasLimit`, and no `null` but in `accessLists`.
-/
namespace Verif.StateTest
open Verif Hex B11r TxJson EnvJson T8n Genesis

/-! ### Names of forks -/

/-- The forks in the order of `Hardfork.discover` (ethereum_spec_tools/forks.py:106-128), with the names of their modules (the directories of src/ethereum). -/
def modules : List (Fork × Str) :=
  [(.frontier, "frontier".toList), (.homestead, "homestead".toList), (.daoFork, "dao_fork".toList), (.tangerineWhistle, "tangerine_whistle".toList),
   (.spuriousDragon, "spurious_dragon".toList), (.byzantium, "byzantium".toList), (.constantinople, "constantinople".toList), (.istanbul, "istanbul".toList),
   (.muirGlacier, "muir_glacier".toList), (.berlin, "berlin".toList), (.london, "london".toList), (.arrowGlacier, "arrow_glacier".toList),
   (.grayGlacier, "gray_glacier".toList), (.paris, "paris".toList), (.shanghai, "shanghai".toList), (.cancun, "cancun".toList), (.prague, "prague".toList),
   (.osaka, "osaka".toList)]

/-- evm_tools/utils.py:119 (`"".join(x.title() for x in fork_module.split("_"))`) and forks.py:259 with utils.py:133 (`title_case_name.replace(" ", "")`), for
the names of modules, which have no capital letters. -/
def titled (first : Bool) : Str → Str
  | [] => []
  | c :: r => if c = '_' then titled true r else (if first then c.toUpper else c) :: titled false r

/-- `str.casefold`. -/
def casefold (s : Str) : Str := s.map Char.toLower

/-- evm_tools/utils.py:28-62 `EXCEPTION_MAPS`. -/
def exceptionMaps : List (Str × List (Fork × Nat)) :=
  [("FrontierToHomesteadAt5".toList, [(.frontier, 0), (.homestead, 5)]),
   ("HomesteadToDaoAt5".toList, [(.homestead, 0), (.daoFork, 5)]),
   ("HomesteadToEIP150At5".toList, [(.homestead, 0), (.tangerineWhistle, 5)]),
   ("EIP158ToByzantiumAt5".toList, [(.spuriousDragon, 0), (.byzantium, 5)]),
   ("ByzantiumToConstantinopleAt5".toList, [(.byzantium, 0), (.constantinople, 5)]),
   ("ConstantinopleToIstanbulAt5".toList, [(.constantinople, 0), (.istanbul, 5)]),
   ("BerlinToLondonAt5".toList, [(.berlin, 0), (.london, 5)]),
   ("EIP150".toList, [(.tangerineWhistle, 0)]),
   ("EIP158".toList, [(.spuriousDragon, 0)]),
   ("Merge".toList, [(.paris, 0)]),
   ("ConstantinopleFix".toList, [(.constantinople, 0)])]

/-- evm_tools/utils.py:64 `UNSUPPORTED_FORKS`. -/
def unsupportedForks : List Str := ["constantinople".toList]

/-- evm_tools/utils.py:109-112: the last of the forks whose block has been reached. -/
def forkAt (blockNumber : Nat) (forkBlocks : List (Fork × Nat)) : Option Fork :=
  forkBlocks.foldl (fun current fb => if blockNumber ≥ fb.2 then some fb.1 else current) none

/-- evm_tools/utils.py:84-125 `get_module_name`, the fork; the number is the member `currentNumber` of the environment. -/
def getModuleName (stateFork : Str) (currentNumber : Option Num) : Option Fork :=
  if casefold stateFork ∈ unsupportedForks then none
  else match exceptionMaps.find? (fun e => e.1 == stateFork) with
    | some e => do
      let blockNumber ← currentNumber.bind parseHexOrInt
      forkAt blockNumber e.2
    | none => (modules.find? fun m => titled true m.2 == stateFork).map Prod.fst

/-- evm_tools/utils.py:128-146 `get_supported_forks`. -/
def supportedForks : List Str :=
  (modules.map (fun m => titled true m.2) ++ exceptionMaps.map Prod.fst).filter fun f => casefold f ∉ unsupportedForks

/-! ### Files of tests -/

/-- A member of `post[fork]`: its `hash` and its `indexes` (statetest/__init__.py:96-98, 261). -/
structure Post where
  data : Option Nat := none
  gas : Option Nat := none
  value : Option Nat := none
  hash : Option Str := none

/-- The object `transaction`: the members that are lists, of which a case takes one, and the others, which are those of a transaction. -/
structure TestTx where
  data : Option (List Str) := none
  gasLimit : Option (List Str) := none
  value : Option (List Str) := none
  accessLists : Option (List (Option (List AccessData))) := none
  others : TxData := {}

/-- A test of the file. `previousHash` is a member of `env` that only this tool looks at. -/
structure Test where
  env : EnvJson.EnvJson
  previousHash : Option Str := none
  pre : List (Str × AccountData)
  transaction : TestTx
  post : List (Str × List Post)

/-- statetest/__init__.py:21-35 `TestCase`, without the path. -/
structure TestCase where
  key : Str
  index : Nat
  forkName : Str
  post : Post
  pre : List (Str × AccountData)
  env : EnvJson.EnvJson
  previousHash : Option Str
  transaction : TestTx

/-- statetest/__init__.py:60-73: the cases of one fork, from the index `i` on. -/
def casesFrom (key : Str) (test : Test) (forkName : Str) (i : Nat) : List Post → List TestCase
  | [] => []
  | post :: r => ⟨key, i, forkName, post, test.pre, test.env, test.previousHash, test.transaction⟩ :: casesFrom key test forkName (i + 1) r

/-- statetest/__init__.py:38-73 `read_test_cases`. -/
def readTestCases : List (Str × Test) → List TestCase
  | [] => []
  | (key, test) :: r => (test.post.flatMap fun p => casesFrom key test p.1 0 p.2) ++ readTestCases r

/-- statetest/__init__.py:86-91: the environment. The transition tool, run with `--state-test`, does not read `parentHash` and `parentBeaconBlockRoot`
(t8n/env.py:80, 290); here they are put to zero, which no one reads. -/
def caseEnv (c : TestCase) : EnvJson.EnvJson :=
  { c.env with
    blockHashes := some (match c.previousHash with
      | some h => [(['0'], h)]
      | none => [])
    withdrawals := some []
    parentHash := some ('0' :: 'x' :: List.replicate 64 '0')
    parentBeaconBlockRoot := some ('0' :: 'x' :: List.replicate 64 '0') }

/-- `value[i]` of a member that is a list; a missing member is left out. -/
def pick {α : Type} (o : Option (List α)) (i : Nat) : Option (Option α) :=
  match o with
  | none => some none
  | some l => l[i]?.map some

/-- statetest/__init__.py:95-112: the transaction of the case. -/
def caseTx (c : TestCase) : Option TxData := do
  let d ← c.post.data
  let g ← c.post.gas
  let v ← c.post.value
  let input ← pick c.transaction.data d
  let gas ← pick c.transaction.gasLimit g
  let value ← pick c.transaction.value v
  let accessList ← pick c.transaction.accessLists d
  return { c.transaction.others with
    input := input
    gas := gas
    value := value
    accessList := match accessList with
      | some (some l) => some l
      | _ => c.transaction.others.accessList }

/-- statetest/__init__.py:76-151 `run_test_case`, with t8n/__init__.py:89-151 (`T8N.__init__`, where the chain id is 1) and 229-252 (`run_state_test`). -/
def runTestCase (C : Crypto) (sign : Signer) (c : TestCase) : Option Result := do
  let tx ← caseTx c
  let f ← getModuleName c.forkName c.env.currentNumber
  let s ← readAlloc f c.pre
  let e ← readEnv f (caseEnv c)
  match blockEnvironment C f 1 e with
  | .ok (some B) =>
    match runStateTest C B s (TxJson.readTxs C sign f 0 [tx]) with
    | .ok (_, r) => some r
    | .error _ => none
  | _ => none

/-- An element of the output (statetest/__init__.py:262-267). -/
structure Verdict where
  stateRoot : Str
  fork : Str
  name : Str
  pass : Bool
  deriving DecidableEq, Repr

/-- statetest/__init__.py:247-276: one case. -/
def judge (C : Crypto) (sign : Signer) (c : TestCase) : Option Verdict := do
  let r ← runTestCase C sign c
  let expected ← c.post.hash.bind hexToBytes
  return ⟨'0' :: 'x' :: bytesHex (wordBytes r.stateRoot), c.forkName, c.key, expected == wordBytes r.stateRoot⟩

/-- statetest/__init__.py:220-280 `run_one`, the list of results. -/
def runOne (C : Crypto) (sign : Signer) (tests : List (Str × Test)) : Option (List Verdict) :=
  ((readTestCases tests).filter fun c => casefold c.forkName ∈ supportedForks.map casefold).mapM (judge C sign)

end Verif.StateTest
