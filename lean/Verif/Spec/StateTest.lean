import Verif.Model.StateTest
import Verif.Spec.EnvJson
import Verif.Spec.TxRules
import Verif.Spec.ResultJson
/-! What state tests mean (C100). -/
namespace Verif.Spec
open Verif StateTest TxJson T8n

/-- The names of the forks for tests of a single fork. Constantinople was only ever active with its fix. -/
def forkNames : List (String × Fork) :=
  [("Frontier", .frontier), ("Homestead", .homestead), ("DaoFork", .daoFork), ("TangerineWhistle", .tangerineWhistle), ("EIP150", .tangerineWhistle),
   ("SpuriousDragon", .spuriousDragon), ("EIP158", .spuriousDragon), ("Byzantium", .byzantium), ("ConstantinopleFix", .constantinople),
   ("Istanbul", .istanbul), ("MuirGlacier", .muirGlacier), ("Berlin", .berlin), ("London", .london), ("ArrowGlacier", .arrowGlacier),
   ("GrayGlacier", .grayGlacier), ("Paris", .paris), ("Merge", .paris), ("Shanghai", .shanghai), ("Cancun", .cancun), ("Prague", .prague), ("Osaka", .osaka)]

/-- The names of the transitions, which happen in block 5. -/
def transitionNames : List (String × Fork × Fork) :=
  [("FrontierToHomesteadAt5", .frontier, .homestead), ("HomesteadToDaoAt5", .homestead, .daoFork), ("HomesteadToEIP150At5", .homestead, .tangerineWhistle),
   ("EIP158ToByzantiumAt5", .spuriousDragon, .byzantium), ("ByzantiumToConstantinopleAt5", .byzantium, .constantinople),
   ("ConstantinopleToIstanbulAt5", .constantinople, .istanbul), ("BerlinToLondonAt5", .berlin, .london)]

/-- The fork that the name stands for in the block with the number. -/
def Names (name : List Char) (number : Nat) (f : Fork) : Prop :=
  (∃ n, (n, f) ∈ forkNames ∧ name = n.toList) ∨
  ∃ n old new, (n, old, new) ∈ transitionNames ∧ name = n.toList ∧ f = if number < 5 then old else new

/-- All names. -/
def knownNames : List (List Char) := forkNames.map (fun p => p.1.toList) ++ transitionNames.map fun p => p.1.toList

/-- The two names are the same up to the case of letters. -/
def SameLetters (s t : List Char) : Prop := s.map Char.toLower = t.map Char.toLower

/-- The member is there exactly if the list is, and then it is the element of the list. -/
def Takes {α : Type} (l : Option (List α)) (i : Nat) (x : Option α) : Prop := (l = none ∧ x = none) ∨ ∃ m, l = some m ∧ i < m.length ∧ m[i]? = x

/-- The transaction of a case: data, gas limit and value are those that the indexes point to, the access list is the one beside the data, if there is one there, and
all else is as in the test. -/
structure Chosen (c : TestCase) (d : TxData) : Prop where
  picks : ∃ i j k, c.post.data = some i ∧ c.post.gas = some j ∧ c.post.value = some k ∧ Takes c.transaction.data i d.input ∧
    Takes c.transaction.gasLimit j d.gas ∧ Takes c.transaction.value k d.value ∧
    ∃ x, Takes c.transaction.accessLists i x ∧ d.accessList = (x.getD none).or c.transaction.others.accessList
  rest : d = { c.transaction.others with input := d.input, gas := d.gas, value := d.value, accessList := d.accessList }

/-- What the state root of a test case should be: that of the state which the transaction leaves, if it can be read and included in a block; otherwise that of the
state before it. -/
def RightRoot (C : Crypto) (sign : Signer) (f : Fork) (B : BlockEnv) (s : State) (d : TxData) (root : Word) : Prop :=
  (∃ tx b, parseJsonTx C sign f d = some tx ∧ processTransaction C B ⟨s, BlockOutput.empty⟩ tx 0 = .ok b ∧ stateRoot C b.state = .ok root) ∨
  ((∀ tx, parseJsonTx C sign f d = some tx → ∀ sender, ¬ Includable C B s 0 0 tx sender) ∧ stateRoot C s = .ok root)

/-- The verdict is right for the case: it names the case, the fork and the root that was reached, and the case passes exactly if this is the expected root. -/
structure Judges (C : Crypto) (sign : Signer) (c : TestCase) (v : Verdict) : Prop where
  name : v.name = c.key
  fork : v.fork = c.forkName
  root : ∃ r b, runTestCase C sign c = some r ∧ PrintsBytes v.stateRoot (wordBytes r.stateRoot) ∧ Has c.post.hash (WritesBytes · b) ∧
    (v.pass = true ↔ b = wordBytes r.stateRoot)

end Verif.Spec
