import Verif.Model.EnvJson
import Verif.Spec.Rpc
/-! What environments of the transition tool are described by a JSON object (C98). -/
namespace Verif.Spec
open Verif EnvJson T8n

/-- A member that may be missing, and is looked at by some forks only: it says what the value is, if there is one. -/
def Says {α β : Type} (looked : Prop) (o : Option α) (x : Option β) (R : α → β → Prop) : Prop :=
  (¬ looked ∧ x = none) ∨ (looked ∧ o = none ∧ x = none) ∨ (looked ∧ ∃ s v, o = some s ∧ x = some v ∧ R s v)

/-- A member that some forks need and others do not look at: the value is `zero` there. -/
def Needs {α β : Type} (needed : Prop) (o : Option α) (x zero : β) (R : α → β → Prop) : Prop :=
  (needed ∧ Has o fun s => R s x) ∨ (¬ needed ∧ x = zero)

/-- The string writes the word in at most 32 bytes; a half byte in front may be missing. -/
def WritesRandom (s : List Char) (x : Word) : Prop :=
  ∃ t, Spec.Body s t ∧ ∃ b : Bytes, WritesBytes (if t.length % 2 = 1 then '0' :: t else t) b ∧ b.length ≤ 32 ∧ x.toNat = fromBE b

/-- The item says that the block with the number has the hash. -/
def DescribesHash (kv : List Char × List Char) (x : Nat × Word) : Prop := WritesHex kv.1 x.1 ∧ WritesBytes kv.2 (wordBytes x.2)

/-- The last value given for a number. -/
def lastFor (l : List (Nat × Word)) (n : Nat) : Option Word := (l.reverse.find? fun x => x.1 = n).map Prod.snd

/-- The object describes the environment of a block of the fork. -/
structure DescribesEnv (f : Fork) (d : EnvJson.EnvJson) (e : EnvData) : Prop where
  coinbase : Has d.currentCoinbase (WritesAddress · e.currentCoinbase)
  gasLimit : Has d.currentGasLimit (WritesNumber · e.currentGasLimit)
  number : Has d.currentNumber (WritesNumber · e.currentNumber)
  timestamp : Has d.currentTimestamp (WritesNumber · e.currentTimestamp.toNat)
  difficulty : Says (¬ f.since .paris) d.currentDifficulty e.currentDifficulty WritesNumber
  parentTimestamp : Says (¬ f.since .paris ∧ d.currentDifficulty = none) d.parentTimestamp e.parentTimestamp fun s x => WritesNumber s x.toNat
  parentDifficulty : Says (¬ f.since .paris ∧ d.currentDifficulty = none) d.parentDifficulty e.parentDifficulty WritesNumber
  parentUncleHash : Says (¬ f.since .paris ∧ d.currentDifficulty = none ∧ f.since .byzantium) d.parentUncleHash e.parentUncleHash
    fun s x => WritesBytes s (wordBytes x)
  baseFee : Says (f.since .london) d.currentBaseFee e.currentBaseFee WritesNumber
  parentGasUsed : Says (f.since .london) d.parentGasUsed e.parentGasUsed WritesNumber
  parentGasLimit : Says (f.since .london) d.parentGasLimit e.parentGasLimit WritesNumber
  parentBaseFee : Says (f.since .london) d.parentBaseFee e.parentBaseFee WritesNumber
  random : Needs (f.since .paris) d.currentRandom e.currentRandom 0 WritesRandom
  parentHash : f.since .prague → Has d.parentHash fun s => ∃ x : Word, WritesBytes s (wordBytes x)
  hashes : ∃ l, Each DescribesHash (d.blockHashes.getD []) l ∧ ∀ n, e.blockHashes n = lastFor l n
  ommers : Each (fun o x => o.delta ≠ none ∧ Has o.address (WritesAddress · x.address)) (d.ommers.getD []) e.ommers
  withdrawals : Needs (f.since .shanghai) d.withdrawals e.withdrawals [] (Each DescribesRpcWithdrawal)
  beaconRoot : Needs (f.since .cancun) d.parentBeaconBlockRoot e.parentBeaconBlockRoot 0 fun s x => WritesBytes s (wordBytes x)
  excess : Says (f.since .cancun) d.currentExcessBlobGas e.currentExcessBlobGas fun s x => WritesNumber s x.toNat
  parentExcess : Says (f.since .cancun) d.parentExcessBlobGas e.parentExcessBlobGas fun s x => WritesNumber s x.toNat
  parentUsed : Says (f.since .cancun) d.parentBlobGasUsed e.parentBlobGasUsed fun s x => WritesNumber s x.toNat

/-- An environment written the usual way, with all values and the hashes of the last 256 blocks. -/
def writtenEnv (e : EnvData) : EnvJson.EnvJson where
  currentCoinbase := some (writtenBytes (addressBytes e.currentCoinbase))
  currentGasLimit := some (writtenNumber e.currentGasLimit)
  currentNumber := some (writtenNumber e.currentNumber)
  currentTimestamp := some (writtenNumber e.currentTimestamp.toNat)
  currentDifficulty := e.currentDifficulty.map writtenNumber
  parentTimestamp := e.parentTimestamp.map fun x => writtenNumber x.toNat
  parentDifficulty := e.parentDifficulty.map writtenNumber
  parentUncleHash := e.parentUncleHash.map fun x => writtenBytes (wordBytes x)
  currentBaseFee := e.currentBaseFee.map writtenNumber
  parentGasUsed := e.parentGasUsed.map writtenNumber
  parentGasLimit := e.parentGasLimit.map writtenNumber
  parentBaseFee := e.parentBaseFee.map writtenNumber
  currentRandom := some (writtenBytes (wordBytes e.currentRandom))
  parentHash := some (writtenBytes (wordBytes ((e.blockHashes (e.currentNumber - 1)).getD 0)))
  blockHashes := some ((List.range' (e.currentNumber - min 256 e.currentNumber) (min 256 e.currentNumber)).filterMap fun n =>
    (e.blockHashes n).map fun x => (T8n.hex n, writtenBytes (wordBytes x)))
  ommers := some (e.ommers.map fun o => { delta := some (.inr 1), address := some (writtenBytes (addressBytes o.address)) })
  withdrawals := some (e.withdrawals.map rpcWithdrawalOf)
  parentBeaconBlockRoot := some (writtenBytes (wordBytes e.parentBeaconBlockRoot))
  currentExcessBlobGas := e.currentExcessBlobGas.map fun x => writtenNumber x.toNat
  parentExcessBlobGas := e.parentExcessBlobGas.map fun x => writtenNumber x.toNat
  parentBlobGasUsed := e.parentBlobGasUsed.map fun x => writtenNumber x.toNat

/-- What of the environment a block of the fork looks at. -/
def seen (f : Fork) (e : EnvData) : EnvData where
  currentCoinbase := e.currentCoinbase
  currentGasLimit := e.currentGasLimit
  currentNumber := e.currentNumber
  currentTimestamp := e.currentTimestamp
  currentDifficulty := if f.since .paris then none else e.currentDifficulty
  parentTimestamp := if f.since .paris ∨ e.currentDifficulty ≠ none then none else e.parentTimestamp
  parentDifficulty := if f.since .paris ∨ e.currentDifficulty ≠ none then none else e.parentDifficulty
  parentUncleHash := if f.since .paris ∨ e.currentDifficulty ≠ none ∨ ¬ f.since .byzantium then none else e.parentUncleHash
  currentBaseFee := if f.since .london then e.currentBaseFee else none
  parentGasUsed := if f.since .london then e.parentGasUsed else none
  parentGasLimit := if f.since .london then e.parentGasLimit else none
  parentBaseFee := if f.since .london then e.parentBaseFee else none
  currentRandom := if f.since .paris then e.currentRandom else 0
  blockHashes := fun n => if e.currentNumber - min 256 e.currentNumber ≤ n ∧ n < e.currentNumber then e.blockHashes n else none
  ommers := e.ommers
  withdrawals := if f.since .shanghai then e.withdrawals else []
  parentBeaconBlockRoot := if f.since .cancun then e.parentBeaconBlockRoot else 0
  currentExcessBlobGas := if f.since .cancun then e.currentExcessBlobGas else none
  parentExcessBlobGas := if f.since .cancun then e.parentExcessBlobGas else none
  parentBlobGasUsed := if f.since .cancun then e.parentBlobGasUsed else none

end Verif.Spec
