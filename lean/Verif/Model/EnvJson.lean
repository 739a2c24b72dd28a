import Verif.Model.T8n
import Verif.Model.Rpc
/-!
The environment of the transition tool as JSON: what t8n/env.py reads from its input. A JSON object is the record of its members; a member that is missing is
`none`. `none` as a result stands for an exception of Python: a malformed string, a number that is too large, or a missing member that is always needed.
What the members mean for the block, and which of them may be missing, is in Model/T8n.lean (`blockEnvironment`).

Simplifications: `null` for `parentBeaconBlockRoot` is not modelled; the tool runs blocks (`state_test` is off); the keys of `blockHashes` are hexadecimal
numerals with an optional prefix (`int(key, 16)` also takes signs, spaces and underscores).
-/
namespace Verif.EnvJson
open Verif Hex B11r TxJson Sync T8n

/-- An element of `ommers` (t8n/env.py:322-330). `delta` is needed but never read. -/
structure OmmerJson where
  delta : Option Num := none
  address : Option Str := none

/-- The members that t8n/env.py:58-331 looks at. -/
structure EnvJson where
  currentCoinbase : Option Str := none
  currentGasLimit : Option Num := none
  currentNumber : Option Num := none
  currentTimestamp : Option Num := none
  currentDifficulty : Option Num := none
  parentTimestamp : Option Num := none
  parentDifficulty : Option Num := none
  parentUncleHash : Option Str := none
  currentBaseFee : Option Num := none
  parentGasUsed : Option Num := none
  parentGasLimit : Option Num := none
  parentBaseFee : Option Num := none
  currentRandom : Option Str := none
  parentHash : Option Str := none
  blockHashes : Option (List (Str × Str)) := none
  ommers : Option (List OmmerJson) := none
  withdrawals : Option (List RpcWithdrawal) := none
  parentBeaconBlockRoot : Option Str := none
  currentExcessBlobGas : Option Num := none
  parentExcessBlobGas : Option Num := none
  parentBlobGasUsed : Option Num := none

/-- evm_tools/utils.py:67-75 `parse_hex_or_int`, with the constructor `U256`. -/
def num256 (v : Num) : Option Word := (bounded 256 (parseHexOrInt v)).map fun n => BitVec.ofNat 256 n
/-- evm_tools/utils.py:67-75 `parse_hex_or_int`, with the constructor `U64`. -/
def num64 (v : Num) : Option U64 := (bounded 64 (parseHexOrInt v)).map fun n => BitVec.ofNat 64 n

/-- `if "..." in data`, where the fork looks for the member at all. -/
def member {α β : Type} (there : Bool) (read : α → Option β) (o : Option α) : Option (Option β) :=
  if there then
    match o with
    | none => some none
    | some v => (read v).map some
  else some none

/-- `data["..."]`, where the fork reads the member at all. -/
def needed {α β : Type} (there : Bool) (read : α → Option β) (zero : β) (o : Option α) : Option β := if there then o.bind read else some zero

/-- t8n/env.py:218-228 (`read_randao`): an odd number of digits is padded, and then the bytes are. -/
def random (s : Str) : Option Word :=
  let t := if hasHexPrefix s then s.drop 2 else s
  let t := if t.length % 2 = 1 then '0' :: t else t
  (hexToBytes t).bind fun b => if b.length ≤ 32 then some (BitVec.ofNat 256 (fromBE b)) else none

/-- t8n/env.py:299-302: an item of `blockHashes`. -/
def hashItem (kv : Str × Str) : Option (Nat × Word) := do
  let key ← hexToUint kv.1
  let value ← hash32 kv.2
  return (key, value)

/-- t8n/env.py:323-330: one ommer. -/
def ommer (o : OmmerJson) : Option Ommer := do
  let _ ← o.delta
  let a ← o.address.bind address
  return ⟨a⟩

/-- t8n/env.py:58-331, the reading of the members (fixture_loader.py:87-96 `json_to_withdrawals` reads the same as sync.py). Not for state tests,
where `parentHash` is not read (t8n/env.py:286-289). -/
def readEnv (f : Fork) (d : EnvJson) : Option EnvData := do
  let coinbase ← d.currentCoinbase.bind address
  let gasLimit ← d.currentGasLimit.bind parseHexOrInt
  let number ← d.currentNumber.bind parseHexOrInt
  let timestamp ← d.currentTimestamp.bind num256
  let pow := !f.since .paris
  let difficulty ← member pow parseHexOrInt d.currentDifficulty
  let fromParent := pow && d.currentDifficulty.isNone
  let parentTimestamp ← member fromParent num256 d.parentTimestamp
  let parentDifficulty ← member fromParent parseHexOrInt d.parentDifficulty
  let parentUncleHash ← member (fromParent && f.since .byzantium) hash32 d.parentUncleHash
  let baseFee ← member (f.since .london) parseHexOrInt d.currentBaseFee
  let parentGasUsed ← member (f.since .london) parseHexOrInt d.parentGasUsed
  let parentGasLimit ← member (f.since .london) parseHexOrInt d.parentGasLimit
  let parentBaseFee ← member (f.since .london) parseHexOrInt d.parentBaseFee
  let prevRandao ← needed (f.since .paris) random 0 d.currentRandom
  let _ ← needed (f.since .prague) hash32 0 d.parentHash
  let hashes ← (d.blockHashes.getD []).mapM hashItem
  let ommers ← (d.ommers.getD []).mapM ommer
  let withdrawals ← needed (f.since .shanghai) (fun l => l.mapM rpcWithdrawal) [] d.withdrawals
  let beaconRoot ← needed (f.since .cancun) hash32 0 d.parentBeaconBlockRoot
  let excess ← member (f.since .cancun) num64 d.currentExcessBlobGas
  let parentExcess ← member (f.since .cancun) num64 d.parentExcessBlobGas
  let parentUsed ← member (f.since .cancun) num64 d.parentBlobGasUsed
  let clean : Dict Nat Word := hashes.foldl (fun m x => m.set x.1 x.2) Dict.empty
  return ⟨coinbase, gasLimit, number, timestamp, difficulty, parentTimestamp, parentDifficulty, parentUncleHash, baseFee, parentGasUsed, parentGasLimit,
    parentBaseFee, prevRandao, fun n => clean.get? n, ommers, withdrawals, beaconRoot, excess, parentExcess, parentUsed⟩

end Verif.EnvJson
