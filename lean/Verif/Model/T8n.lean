import Verif.Model.PowEvm
/-!
The transition tool `t8n` (/repo/src/ethereum_spec_tools/evm_tools/t8n): it runs the transactions of one block on a state that is given
to it, with the functions of one fork, and reports the new state and the values a header is made of.

Files, tracing and signing are not modelled. The environment, the transactions and the state are given here as the objects that the tool builds
from its input in JSON (Model/EnvJson.lean, Model/TxJson.lean, Model/Alloc.lean). `is_after_fork` (evm_tools/loaders/fork_loader.py:40-48) is `Fork.since`: the package of a fork is
after itself.
-/
namespace Verif.T8n
open Verif Verif.Pow Ethash Dao

/-- What the tool raises. -/
inductive ToolExn where
  /-- what a function of the fork raised -/
  | fork (e : BlockExn)
  | keyError
  | assertionError
  | attributeError
  | overflowError
  deriving DecidableEq, Repr

/-- t8n/env.py:22-27 `Ommer`; `delta` (a string) is never read. -/
structure Ommer where
  address : Address
  deriving DecidableEq, Repr

/-- The members of the JSON object read by t8n/env.py:58-331, parsed. `none`: not in the object. A value that is always read is
given; `blockHashes` is the dictionary `clean_block_hashes` (t8n/env.py:297-302). -/
structure EnvData where
  currentCoinbase : Address
  currentGasLimit : Nat
  currentNumber : Nat
  currentTimestamp : Word
  currentDifficulty : Option Nat
  parentTimestamp : Option Word
  parentDifficulty : Option Nat
  parentUncleHash : Option Word
  currentBaseFee : Option Nat
  parentGasUsed : Option Nat
  parentGasLimit : Option Nat
  parentBaseFee : Option Nat
  currentRandom : Word
  blockHashes : Nat → Option Word
  ommers : List Ommer
  withdrawals : List Withdrawal
  parentBeaconBlockRoot : Word
  currentExcessBlobGas : Option U64
  parentExcessBlobGas : Option U64
  parentBlobGasUsed : Option U64

/-- t8n/env.py:89-160 `read_excess_blob_gas`, the value of `excess_blob_gas`; the arithmetic on U64 is checked. -/
def readExcessBlobGas (f : Fork) (d : EnvData) : Except ToolExn (Option U64) :=
  if ¬ f.since .cancun then .ok none
  else match d.currentExcessBlobGas with
    | some g => .ok (some g)
    | none =>
      let parentExcess := d.parentExcessBlobGas.getD 0
      let parentUsed := d.parentBlobGasUsed.getD 0
      if parentExcess.toNat + parentUsed.toNat ≥ 2 ^ 64 then .error .overflowError
      else
        let parentBlobGas := parentExcess.toNat + parentUsed.toNat
        if parentBlobGas < targetBlobGasPerBlock f then .ok (some 0)
        else if ¬ f.since .osaka then .ok (some (BitVec.ofNat 64 (parentBlobGas - targetBlobGasPerBlock f)))
        else match d.parentBaseFee with
          | none => .error .assertionError
          | some parentBaseFee =>
            let targetBlobGasPrice := GAS_PER_BLOB * calculateBlobGasPrice f parentExcess
            let baseBlobTxPrice := BLOB_BASE_COST * parentBaseFee
            if baseBlobTxPrice > targetBlobGasPrice then
              let delta := BLOB_SCHEDULE_MAX - BLOB_SCHEDULE_TARGET
              if parentUsed.toNat * delta ≥ 2 ^ 64 then .error .overflowError
              else if parentExcess.toNat + parentUsed.toNat * delta / BLOB_SCHEDULE_MAX ≥ 2 ^ 64 then .error .overflowError
              else .ok (some (BitVec.ofNat 64 (parentExcess.toNat + parentUsed.toNat * delta / BLOB_SCHEDULE_MAX)))
            else .ok (some (BitVec.ofNat 64 (parentBlobGas - targetBlobGasPerBlock f)))

/-- t8n/env.py:162-207 `read_base_fee_per_gas`, the value of `base_fee_per_gas`. -/
def readBaseFeePerGas (f : Fork) (d : EnvData) : Except ToolExn (Option Nat) :=
  if ¬ f.since .london then .ok none
  else match d.currentBaseFee with
    | some g => .ok (some g)
    | none =>
      match d.parentGasLimit, d.parentGasUsed, d.parentBaseFee with
      | some parentGasLimit, some parentGasUsed, some parentBaseFee =>
        match calculateBaseFeePerGas d.currentGasLimit parentGasLimit parentGasUsed parentBaseFee with
        | .error e => .error (.fork e)
        | .ok g => .ok (some g)
      | _, _, _ => .error .assertionError

/-- The package with proof of work of a fork, if it has one. -/
def powFork : Fork → Option PowFork
  | .frontier => some .frontier
  | .homestead => some .homestead
  | .daoFork => some .daoFork
  | .tangerineWhistle => some .tangerineWhistle
  | .spuriousDragon => some .spuriousDragon
  | .byzantium => some .byzantium
  | .constantinople => some .constantinople
  | .istanbul => some .istanbul
  | .muirGlacier => some .muirGlacier
  | .berlin => some .berlin
  | .london => some .london
  | .arrowGlacier => some .arrowGlacier
  | .grayGlacier => some .grayGlacier
  | _ => none

/-- t8n/env.py:240-281 `read_block_difficulty`, the value of `block_difficulty`. -/
def readBlockDifficulty (C : Crypto) (f : Fork) (d : EnvData) : Except ToolExn (Option Nat) :=
  match powFork f with
  | none => .ok none
  | some F =>
    match d.currentDifficulty with
    | some g => .ok (some g)
    | none =>
      match d.parentTimestamp, d.parentDifficulty with
      | some parentTimestamp, some parentDifficulty =>
        let parentHasOmmers := if f.since .byzantium then
            match d.parentUncleHash with
            | some h => decide (h ≠ emptyOmmerHash C)
            | none => false
          else false
        match calculateBlockDifficulty F d.currentNumber d.currentTimestamp parentTimestamp parentDifficulty parentHasOmmers with
        | none => .error .overflowError
        | some g => .ok (some g)
      | _, _ => .error .keyError

/-- t8n/env.py:304-314: the hashes of the last blocks, at most 256, oldest first; `none` where the input has none. -/
def readBlockHashes (d : EnvData) : List (Option Word) :=
  let count := min 256 d.currentNumber
  (List.range count).map fun i => d.blockHashes (d.currentNumber - count + i)

/-- t8n/__init__.py:162-191 `block_environment`, of an environment read by t8n/env.py:58-87. A value that the fork does not have is 0.
A hash that was not given is `None` in the list of hashes: the functions of the fork fail on it when they read it. Here the environment is only defined when all of them
are given; this is `none` otherwise. -/
def blockEnvironment (C : Crypto) (f : Fork) (chainId : U64) (d : EnvData) : Except ToolExn (Option BlockEnv) :=
  match readBlockDifficulty C f d with
  | .error e => .error e
  | .ok difficulty =>
    match readBaseFeePerGas f d with
    | .error e => .error e
    | .ok baseFee =>
      match readExcessBlobGas f d with
      | .error e => .error e
      | .ok excessBlobGas =>
        .ok ((readBlockHashes d).mapM id |>.map fun hashes =>
          { chainId := chainId, blockGasLimit := d.currentGasLimit, blockHashes := hashes, coinbase := d.currentCoinbase,
            number := d.currentNumber, baseFeePerGas := baseFee.getD 0, time := d.currentTimestamp,
            prevRandao := if f.since .paris then d.currentRandom else 0, excessBlobGas := excessBlobGas.getD 0,
            parentBeaconBlockRoot := if f.since .cancun then d.parentBeaconBlockRoot else 0, difficulty := difficulty.getD 0 })

/-- t8n/t8n_types.py:111-131 (`Txs.__init__`) and 133-151 (`parse_rlp_tx`): the transactions that can be decoded, with their places in the input, from
place `i` on. (Whatever goes wrong is caught, and the place is listed as rejected.) -/
def readTxs (f : Fork) (i : Nat) : List (LegacyTx ⊕ Bytes) → List (Nat × Transaction)
  | [] => []
  | t :: r =>
    match decodeTransaction f t with
    | .ok tx => (i, tx) :: readTxs f (i + 1) r
    | .error _ => readTxs f (i + 1) r

/-- t8n/t8n_types.py:111-131: the places of the transactions that cannot be decoded. -/
def unreadTxs (f : Fork) (i : Nat) : List (LegacyTx ⊕ Bytes) → List Nat
  | [] => []
  | t :: r =>
    match decodeTransaction f t with
    | .ok _ => unreadTxs f (i + 1) r
    | .error _ => i :: unreadTxs f (i + 1) r

/-- Is it an `EthereumException`? (ethereum/exceptions.py, osaka/vm/exceptions.py. The errors of `decode_transaction` are not raised where this is
asked.) -/
def caught : BlockExn → Bool
  | .invalidBlock | .invalidTx _ | .exn (.halt _) | .exn .revert => true
  | _ => false

/-- t8n/__init__.py:193-207 `backup_state` before, and `restore_state` after: the tries are those of the backup, the rest of
the state object is as it is. -/
def restoreState (backup s : State) : State := { s with mainTrie := backup.mainTrie, storageTries := backup.storageTries }

/-- What the tool acts on: the state and the block output, and the transactions rejected so far. -/
structure Progress where
  b : BlockState
  rejected : List (Nat × BlockExn)

/-- t8n/__init__.py:269-278: the loop over the transactions. -/
def runTxs (C : Crypto) (B : BlockEnv) (p : Progress) : List (Nat × Transaction) → Except (ToolExn × Progress) Progress
  | [] => .ok p
  | (i, tx) :: r =>
    match processTransaction C B p.b tx i with
    | .ok b => runTxs C B { p with b := b } r
    | .error (e, b) =>
      if caught e then runTxs C B ⟨{ b with state := restoreState p.b.state b.state }, p.rejected ++ [(i, e)]⟩ r
      else .error (.fork e, { p with b := b })

/-- t8n/__init__.py:209-227 `pay_block_rewards`. The class of the ommers (t8n/env.py:22-27) has neither `number` nor `coinbase`, so the loop
over them fails at the first. -/
def payBlockRewards (reward : Word) (s : State) (coinbase : Address) (ommers : List Ommer) : Except (ToolExn × State) State :=
  match toU256 (reward.toNat + ommers.length * (reward.toNat / 32)) with
  | .error _ => .error (.overflowError, s)
  | .ok minerReward =>
    match createEther s coinbase minerReward with
    | .error c => .error (.fork (.exn (.crash c)), s)
    | .ok s' => match ommers with
      | [] => .ok s'
      | _ :: _ => .error (.attributeError, s')

/-- t8n/__init__.py:280-286: the rewards, before paris; the option `--state.reward` is `stateReward`. -/
def payReward (stateReward : Option Int) (s : State) (coinbase : Address) (ommers : List Ommer) : Except (ToolExn × State) State :=
  match powFork s.fork with
  | none => .ok s
  | some F =>
    match stateReward with
    | none => payBlockRewards (blockReward F) s coinbase ommers
    | some r =>
      if r = -1 then .ok s
      else if r < 0 ∨ r ≥ 2 ^ 256 then .error (.overflowError, s)
      else payBlockRewards (BitVec.ofInt 256 r) s coinbase ommers

/-- The functions of the fork raise at a state. -/
def raised (out : BlockOutput) (x : Except (BlockExn × State) State) : Except (ToolExn × Progress) State :=
  match x with
  | .ok s => .ok s
  | .error (e, s) => .error (.fork e, ⟨⟨s, out⟩, []⟩)

/-- The functions of the fork raise at a state and an output. -/
def raisedAt (rejected : List (Nat × BlockExn)) (x : Except (BlockExn × BlockState) BlockState) : Except (ToolExn × Progress) BlockState :=
  match x with
  | .ok b => .ok b
  | .error (e, b) => .error (.fork e, ⟨b, rejected⟩)

/-- t8n/__init__.py:254-294 `_run_blockchain_test`. The parent hash is stored before the beacon root: `apply_body` does it the other way
round (osaka/fork.py:756-766). -/
def runBody (C : Crypto) (B : BlockEnv) (stateReward : Option Int) (ommers : List Ommer) (withdrawals : List Withdrawal) (s : State)
    (txs : List (Nat × Transaction)) : Except (ToolExn × Progress) Progress :=
  match raised BlockOutput.empty (storeParentHash C B s) with
  | .error e => .error e
  | .ok s1 =>
    match raised BlockOutput.empty (storeBeaconRoot C B s1) with
    | .error e => .error e
    | .ok s2 =>
      match runTxs C B ⟨⟨s2, BlockOutput.empty⟩, []⟩ txs with
      | .error e => .error e
      | .ok p =>
        match payReward stateReward p.b.state B.coinbase ommers with
        | .error (e, s3) => .error (e, { p with b := { p.b with state := s3 } })
        | .ok s3 =>
          let b3 : BlockState := { p.b with state := s3 }
          match raisedAt p.rejected (if s.fork.since .shanghai then processWithdrawals b3 withdrawals else .ok b3) with
          | .error e => .error e
          | .ok b4 =>
            match raisedAt p.rejected (if s.fork.since .prague then processGeneralPurposeRequests C B b4 else .ok b4) with
            | .error e => .error e
            | .ok b5 => .ok { p with b := b5 }

/-- t8n/t8n_types.py:252-270 `Result`; its JSON is in Model/ResultJson.lean. The difficulty is that of the environment (t8n/__init__.py:149-151). -/
structure Result where
  gasUsed : Nat
  txRoot : Word
  receiptRoot : Word
  bloom : BitVec 2048
  logsHash : Word
  stateRoot : Word
  receipts : List (Word × Receipt)
  difficulty : Option Nat
  baseFee : Option Nat
  withdrawalsRoot : Option Word
  excessBlobGas : Option U64
  blobGasUsed : Option Nat
  requests : Option (List Bytes)
  requestsHash : Option Word
  /-- the places of the transactions that were rejected when they were run -/
  rejected : List Nat
  blockException : Bool

/-- t8n/t8n_types.py:272-297 `get_receipts_from_output`. -/
def receiptsFromOutput (C : Crypto) (out : BlockOutput) : List Bytes → Except ToolExn (List (Word × Receipt))
  | [] => .ok []
  | key :: r =>
    match trieGet out.transactionsTrie key, trieGet out.receiptsTrie key with
    | some tx, some receipt =>
      match decodeReceipt receipt with
      | none => .error .assertionError
      | some decoded =>
        match receiptsFromOutput C out r with
        | .error e => .error e
        | .ok l => .ok ((getTransactionHash C tx, decoded) :: l)
    | _, _ => .error .assertionError

/-- t8n/t8n_types.py:299-324 `Result.update` (with t8n/__init__.py:251-252, 308-309). `blob_gas_used` keeps the `None` it has in the class. -/
def update (C : Crypto) (B : BlockEnv) (p : Progress) (blockException : Bool) : Except ToolExn Result :=
  match commitments C p.b with
  | .error c => .error (.fork (.exn (.crash c)))
  | .ok k =>
    match receiptsFromOutput C p.b.out p.b.out.receiptKeys with
    | .error e => .error e
    | .ok receipts =>
      let f := p.b.state.fork
      .ok { gasUsed := p.b.out.blockGasUsed, txRoot := k.transactionsRoot, receiptRoot := k.receiptRoot, bloom := k.bloom,
            logsHash := C.keccak256 (Rlp.encode (.list (p.b.out.blockLogs.map .ofLog))), stateRoot := k.stateRoot, receipts := receipts,
            difficulty := if f.since .paris then none else some B.difficulty,
            baseFee := if f.since .london then some B.baseFeePerGas else none,
            withdrawalsRoot := if f.since .shanghai then some k.withdrawalsRoot else none,
            excessBlobGas := if f.since .cancun then some B.excessBlobGas else none,
            blobGasUsed := none,
            requests := if f.since .prague then some p.b.out.requests else none,
            requestsHash := if f.since .prague then some k.requestsHash else none,
            rejected := p.rejected.map Prod.fst, blockException := blockException }

/-- t8n/__init__.py:296-309 `run_blockchain_test`: an `InvalidBlock` raised outside the transactions is noted, and the result is made from what was
done until then. The state is what the tool writes back (`alloc`). -/
def runBlockchainTest (C : Crypto) (B : BlockEnv) (stateReward : Option Int) (ommers : List Ommer) (withdrawals : List Withdrawal) (s : State)
    (txs : List (Nat × Transaction)) : Except ToolExn (State × Result) :=
  match runBody C B stateReward ommers withdrawals s txs with
  | .ok p => match update C B p false with
    | .error e => .error e
    | .ok r => .ok (p.b.state, r)
  | .error (.fork .invalidBlock, p) => match update C B p true with
    | .error e => .error e
    | .ok r => .ok (p.b.state, r)
  | .error (e, _) => .error e

/-- t8n/__init__.py:229-252 `run_state_test`: the first transaction only, and nothing else of a block. -/
def runStateTest (C : Crypto) (B : BlockEnv) (s : State) (txs : List (Nat × Transaction)) : Except ToolExn (State × Result) :=
  let p : Except (ToolExn × Progress) Progress := match txs with
    | [] => .ok ⟨⟨s, BlockOutput.empty⟩, []⟩
    | (_, tx) :: _ => runTxs C B ⟨⟨s, BlockOutput.empty⟩, []⟩ [(0, tx)]
  match p with
  | .error (e, _) => .error e
  | .ok p => match update C B p false with
    | .error e => .error e
    | .ok r => .ok (p.b.state, r)

end Verif.T8n
