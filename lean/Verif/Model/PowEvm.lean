import Verif.Model.Pow
/-!
Proof-of-work blocks whose transactions are executed by the model of the EVM, the activation of the proof-of-work forks, and the
change to proof of stake.
-/
namespace Verif.Pow
open Verif Ethash Dao

/-- The package of a fork. -/
def PowFork.fork : PowFork → Fork
  | .frontier => .frontier
  | .homestead => .homestead
  | .daoFork => .daoFork
  | .tangerineWhistle => .tangerineWhistle
  | .spuriousDragon => .spuriousDragon
  | .byzantium => .byzantium
  | .constantinople => .constantinople
  | .istanbul => .istanbul
  | .muirGlacier => .muirGlacier
  | .berlin => .berlin
  | .london => .london
  | .arrowGlacier => .arrowGlacier
  | .grayGlacier => .grayGlacier

/-- The transactions of a block: objects, or (since berlin) the bytes of a typed transaction. -/
abbrev Txs := List (LegacyTx ⊕ Bytes)

/-- frontier/fork.py:95-132 `get_last_256_block_hashes`. -/
def lastBlockHashes {T : Type} (K : Hashes) (blocks : List (PowBlock T)) : List Word :=
  let recentBlocks := lastN 255 blocks
  match recentBlocks.getLast? with
  | none => []
  | some last => recentBlocks.map (fun b => b.header.parentHash) ++ [powHash K last.header]

/-- The `BlockEnvironment` of frontier/fork.py:160-169, with the base fee from london on (london/fork.py:177-187). Before london there is no base fee; 0 stands for it. The last three fields of `BlockEnv` belong
to later forks. -/
def powEnvOf {T : Type} (K : Hashes) (chainId : U64) (blocks : List (PowBlock T)) (h : PowHeader) : BlockEnv :=
  { chainId := chainId, blockGasLimit := h.gasLimit, blockHashes := lastBlockHashes K blocks, coinbase := h.coinbase,
    number := h.number, baseFeePerGas := h.baseFeePerGas.getD 0, time := h.timestamp, prevRandao := 0,
    excessBlobGas := 0, parentBeaconBlockRoot := 0, difficulty := h.difficulty }

/-- The loop of `apply_body` (frontier/fork.py:451-454, london/fork.py:577-580) in the environment of the block, by the code of the fork, and the values
computed from its output (frontier/fork.py:176-179). A root can only fail because of an open snapshot or an oversized key; the
rewards are paid before it is computed, but they do not touch the tries of the output. -/
def evmExec (C : Crypto) (K : Hashes) : Exec Txs where
  run F chainId blocks h txs s :=
    match processTransactions C (powEnvOf K chainId blocks h) ⟨{ s with fork := F.fork }, BlockOutput.empty⟩ 0 txs with
    | .error (e, _) => .error e
    | .ok b =>
      match indexTrieRoot C encodeTxNode b.out.transactionsTrie, indexTrieRoot C encodeReceiptNode b.out.receiptsTrie with
      | .ok transactionsRoot, .ok receiptRoot =>
        .ok (b.state, ⟨b.out.blockGasUsed, transactionsRoot, receiptRoot, logsBloom C b.out.blockLogs⟩)
      | .error c, _ => .error (.exn (.crash c))
      | .ok _, .error c => .error (.exn (.crash c))
  stateRoot s := Verif.stateRoot C s

/-- `apply_fork`: the chain object is kept as it is (homestead/fork.py:73-92 and the others), except that the DAO fork
first moves the listed balances (dao_fork/fork.py:75-102). `state.fork` records whose code runs from then on. -/
def applyPowFork {T : Type} (F : PowFork) (chain : PowChain T) : Except Crash (PowChain T) :=
  if F = .daoFork then
    match applyDao chain.state with
    | .error c => .error c
    | .ok s => .ok { chain with state := { s with fork := F.fork } }
  else .ok { chain with state := { chain.state with fork := F.fork } }

/-- A header object of the last proof-of-work forks as the code of paris reads it: the same attributes, with `mix_digest` in
the place of `prev_randao` (gray_glacier/blocks.py:31-181, paris/blocks.py:31-169); the attributes of later forks do not exist. -/
def PowHeader.toHeader (h : PowHeader) : Header :=
  { parentHash := h.parentHash, ommersHash := h.ommersHash, coinbase := h.coinbase, stateRoot := h.stateRoot,
    transactionsRoot := h.transactionsRoot, receiptRoot := h.receiptRoot, bloom := h.bloom, difficulty := h.difficulty,
    number := h.number, gasLimit := h.gasLimit, gasUsed := h.gasUsed, timestamp := h.timestamp, extraData := h.extraData,
    prevRandao := h.mixDigest, nonce := h.nonce, baseFeePerGas := h.baseFeePerGas.getD 0, withdrawalsRoot := 0,
    blobGasUsed := 0, excessBlobGas := 0, parentBeaconBlockRoot := 0, requestsHash := 0 }

/-- A block of gray_glacier in the chain of paris. -/
def PowBlock.toChainBlock (b : PowBlock Txs) : ChainBlock :=
  ⟨.grayGlacier, ⟨b.header.toHeader, b.transactions, b.ommers.map PowHeader.toHeader, []⟩⟩

/-- paris/fork.py:82-101 `apply_fork`: the chain object is kept as it is. The code of paris reads of its blocks the parent hashes
and the header of the last one. -/
def merge (chain : PowChain Txs) : BlockChain :=
  ⟨chain.blocks.map PowBlock.toChainBlock, { chain.state with fork := .paris }, chain.chainId⟩

end Verif.Pow
