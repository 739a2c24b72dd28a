import Verif.Model.Hex
import Verif.Model.PowEvm
/-!
src/ethereum/genesis.py: the first block of a chain. `none` stands for an exception of Python: ValueError or OverflowError of a
malformed string, AttributeError of a balance that is missing (`account.get("balance", 0)` yields the number 0, which has no
`startswith`), or an assertion of `state_root`.
-/
namespace Verif.Genesis
open Verif Hex Pow Ethash

/-- A value of `initial_accounts`: the JSON object of an account. Its members are strings; an absent one is `none` (the object of
the storage: empty). -/
structure AccountData where
  nonce : Option Str
  balance : Option Str
  code : Option Str
  storage : List (Str × Str)

/-- genesis.py:36-89 `GenesisConfiguration`. -/
structure Configuration where
  chainId : U64
  difficulty : Nat
  extraData : Bytes
  gasLimit : Nat
  nonce : BitVec 64
  timestamp : Word
  initialAccounts : List (Str × AccountData)

/-- The JSON object of the file, as far as it is read (genesis.py:103-113). Simplification: a missing member is not modelled. -/
structure Data where
  chainId : Nat
  difficulty : Str
  extraData : Str
  gasLimit : Str
  nonce : Str
  timestamp : Str
  alloc : List (Str × AccountData)

/-- genesis.py:92-113 `get_genesis_configuration`, from the parsed JSON on. -/
def getGenesisConfiguration (d : Data) : Option Configuration := do
  let chainId ← bounded 64 (some d.chainId)
  let difficulty ← hexToUint d.difficulty
  let extraData ← hexToBytes d.extraData
  let gasLimit ← hexToUint d.gasLimit
  let nonce ← hexToBytes8 d.nonce
  let timestamp ← hexOrBase10StrToU256 d.timestamp
  return ⟨BitVec.ofNat 64 chainId, difficulty, extraData, gasLimit, BitVec.ofNat 64 (fromBE nonce), BitVec.ofNat 256 timestamp, d.alloc⟩

/-- genesis.py:210-214: the `Account` object. -/
def accountOf (d : AccountData) : Option Account := do
  let nonce ← int 10 (d.nonce.getD ['0'])
  let balance ← d.balance
  let balance ← hexOrBase10StrToU256 balance
  let code ← hexToBytes (d.code.getD ['0', 'x'])
  return ⟨nonce, BitVec.ofNat 256 balance, code⟩

/-- genesis.py:216-219: the loop over the storage. -/
def addSlots (s : State) (a : Address) : List (Str × Str) → Option State
  | [] => some s
  | (key, value) :: rest => do
    let key ← hexToBytes32 key
    let value ← hexToU256 value
    match setStorage s a (BitVec.ofNat 256 (fromBE key)) (BitVec.ofNat 256 value) with
    | .error _ => none
    | .ok s' => addSlots s' a rest

/-- genesis.py:205-219: the loop over the accounts. -/
def addAccounts (s : State) : List (Str × AccountData) → Option State
  | [] => some s
  | (hexAddress, data) :: rest => do
    let address ← hexToAddress hexAddress
    let account ← accountOf data
    let a : Address := BitVec.ofNat 160 (fromBE address)
    let s' ← addSlots (setAccount s a (some account)) a data.storage
    addAccounts s' rest

/-- `hardfork.root(hardfork.Trie(False, None))`. -/
def emptyRoot (C : Crypto) : Except Crash Word := trieRoot C false []

/-- genesis.py:158-278 `add_genesis_block` with a proof-of-work fork. The header class has `mix_digest`, and `base_fee_per_gas` from
london on. -/
def addGenesisBlock (C : Crypto) (K : Hashes) (F : PowFork) (chain : PowChain Txs) (genesis : Configuration) : Option (PowChain Txs) := do
  let state ← addAccounts chain.state genesis.initialAccounts
  match stateRoot C state, emptyRoot C with
  | .ok root, .ok empty =>
    let header : PowHeader :=
      { parentHash := 0, ommersHash := K.keccak256 (Rlp.encode (.list [])), coinbase := 0, stateRoot := root, transactionsRoot := empty,
        receiptRoot := empty, bloom := 0, difficulty := genesis.difficulty, number := 0, gasLimit := genesis.gasLimit, gasUsed := 0,
        timestamp := genesis.timestamp, extraData := genesis.extraData, mixDigest := 0, nonce := genesis.nonce,
        baseFeePerGas := if hasBaseFee F then some (10 ^ 9) else none }
    some ⟨chain.blocks ++ [⟨header, [], []⟩], state, genesis.chainId⟩
  | _, _ => none

/-- The same with a proof-of-stake fork: `prev_randao` in the place of `mix_digest`, a base fee, and the further fields of the
header class of the fork; those it lacks are 0 here and mean nothing. The difficulty and the nonce of the configuration are used. -/
def addGenesisBlockPos (C : Crypto) (f : Fork) (chain : BlockChain) (genesis : Configuration) : Option BlockChain := do
  let state ← addAccounts chain.state genesis.initialAccounts
  match stateRoot C state, emptyRoot C with
  | .ok root, .ok empty =>
    let header : Header :=
      { parentHash := 0, ommersHash := C.keccak256 (Rlp.encode (.list [])), coinbase := 0, stateRoot := root, transactionsRoot := empty,
        receiptRoot := empty, bloom := 0, difficulty := genesis.difficulty, number := 0, gasLimit := genesis.gasLimit, gasUsed := 0,
        timestamp := genesis.timestamp, extraData := genesis.extraData, prevRandao := 0, nonce := genesis.nonce,
        baseFeePerGas := 10 ^ 9, withdrawalsRoot := if f.since .shanghai then empty else 0, blobGasUsed := 0, excessBlobGas := 0,
        parentBeaconBlockRoot := 0, requestsHash := 0 }
    some ⟨chain.blocks ++ [⟨f, ⟨header, [], [], []⟩⟩], state, genesis.chainId⟩
  | _, _ => none

end Verif.Genesis
