import Verif.Model.Genesis
import Verif.Model.T8n
/-!
The state as the transition tool reads and writes it (ethereum_spec_tools/evm_tools/t8n/t8n_types.py:24-81 and
evm_tools/loaders/fixture_loader.py:60-87). A JSON object is the list of its members; a member that is missing is `none`. `none` as a result stands for
an exception of Python. The members of an account are those of a genesis file (`Genesis.AccountData`); other members are not modelled.
-/
namespace Verif.T8n
open Verif Hex Genesis

/-- `hex(n)` of Python. -/
def hex (n : Nat) : Str := '0' :: 'x' :: Nat.toDigits 16 n

/-- `b.hex()` of Python. -/
def bytesHex : Bytes → Str
  | [] => []
  | b :: r => Nat.digitChar (b.toNat / 16) :: Nat.digitChar (b.toNat % 16) :: bytesHex r

/-- t8n/t8n_types.py:54-80 `Alloc.to_json`, one account. -/
def accountToJson (s : State) (a : Address) (acc : Account) : Str × AccountData :=
  ('0' :: 'x' :: bytesHex (addressBytes a),
    { balance := if acc.balance ≠ 0 then some (hex acc.balance.toNat) else none,
      nonce := if acc.nonce ≠ 0 then some (hex acc.nonce) else none,
      code := if acc.code ≠ [] then some ('0' :: 'x' :: bytesHex acc.code) else none,
      storage := match s.storageTries.get? a with
        | some t => t.data.entries.map fun e => ('0' :: 'x' :: bytesHex (wordBytes e.1), hex e.2.toNat)
        | none => [] })

/-- The accounts of `Alloc.to_json`, in the order of the dictionary. -/
def accountsToJson (s : State) : List (Address × Option Account) → Option (List (Str × AccountData))
  | [] => some []
  | (_, none) :: _ => none
  | (a, some acc) :: r =>
    match accountsToJson s r with
    | none => none
    | some l => some (accountToJson s a acc :: l)

/-- t8n/t8n_types.py:54-80 `Alloc.to_json`. -/
def allocToJson (s : State) : Option (List (Str × AccountData)) := accountsToJson s s.mainTrie.data.entries

/-- t8n/t8n_types.py:41-46: a member other than the storage that is a decimal number is made hexadecimal, with one prefix too many. -/
def normalized : Option Str → Option (Option Str)
  | none => some none
  | some v =>
    if v = [] ∨ hasHexPrefix v then some (some v)
    else match int 10 v with
      | none => none
      | some n => some (some ('0' :: 'x' :: hex n))

/-- utils/hexadecimal.py `hex_to_uint`, with the second prefix that `int(_, 16)` accepts (Model/Hex.lean leaves it out). -/
def uintOf (s : Str) : Option Nat := int 16 (removeHexPrefix (removeHexPrefix s))

/-- loaders/fixture_loader.py:68-72: the account of an object, after t8n/t8n_types.py:41-46. -/
def accountOfJson (d : AccountData) : Option Account := do
  let nonce ← normalized d.nonce
  let balance ← normalized d.balance
  let code ← normalized d.code
  let nonce ← uintOf (nonce.getD ['0', 'x', '0'])
  let balance ← bounded 256 (uintOf (balance.getD ['0', 'x', '0']))
  let code ← hexToBytes (code.getD [])
  return ⟨nonce, BitVec.ofNat 256 balance, code⟩

/-- loaders/fixture_loader.py:78-84. -/
def slotsOfJson (s : State) (a : Address) : List (Str × Str) → Option State
  | [] => some s
  | (k, v) :: rest => do
    let key ← hexToBytes32 k
    let value ← hexToBytes32 v
    match setStorage s a (BitVec.ofNat 256 (fromBE key)) (BitVec.ofNat 256 (fromBE value)) with
    | .error _ => none
    | .ok s' => slotsOfJson s' a rest

/-- loaders/fixture_loader.py:60-85 `json_to_state`: the loop. An empty account is refused by a fork with proof of stake. -/
def jsonToState (s : State) : List (Str × AccountData) → Option State
  | [] => some s
  | (addressHex, d) :: rest => do
    let address ← hexToAddress addressHex
    let account ← accountOfJson d
    if s.fork.since .paris ∧ account = emptyAccount then none
    else
      let a : Address := BitVec.ofNat 160 (fromBE address)
      let s' ← slotsOfJson (setAccount s a (some account)) a d.storage
      jsonToState s' rest

/-- t8n/t8n_types.py:30-52 `Alloc.__init__`: for the DAO fork the irregular state change is made each time a state is read. -/
def readAlloc (f : Fork) (data : List (Str × AccountData)) : Option State :=
  match jsonToState (State.empty f) data with
  | none => none
  | some s =>
    if f = .daoFork then
      match Dao.applyDao s with
      | .error _ => none
      | .ok s' => some s'
    else some s

end Verif.T8n
