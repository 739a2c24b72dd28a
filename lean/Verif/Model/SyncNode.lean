import Verif.Model.Sync
/-!
A synchronising node: `Sync` of ethereum_spec_tools/sync.py, with its database, as a machine that can be stopped at any point.

The database (`rust_pyspec_glue`, not in /repo) is taken to be transactional: what is written becomes permanent with `commit_mutable`, all of it or nothing. Numbers in its
metadata are written in decimal and read back (sync.py:765-770, 847, 939, 944); here they are numbers. The `state` of the optimized node is a cache over this database;
that it behaves like the state of the forks is C43.
-/
namespace Verif.Sync
open Verif Pow TxJson T8n

/-- A block object together with the package of its class. -/
structure BlockObj where
  fork : Fork
  block : NodeBlock

/-- `block.header.number`. -/
def BlockObj.number (b : BlockObj) : Nat := match b.block with | .pow b => b.header.number | .pos b => b.header.number
/-- `block.header.timestamp`. -/
def BlockObj.time (b : BlockObj) : Word := match b.block with | .pow b => b.header.timestamp | .pos b => b.header.timestamp

/-- `BlockChain` (frontier/fork.py:62-70, osaka/fork.py:119-127): its blocks may be of the classes of older forks. -/
structure NodeChain where
  blocks : List BlockObj
  state : State
  chainId : U64

/-- The object as the code of a fork with proof of work sees it. -/
def BlockObj.toPow (b : BlockObj) : Option (PowBlock Txs) := match b.block with | .pow p => some p | .pos _ => none
/-- The object as the code of a fork without proof of work sees it. -/
def BlockObj.toPos (b : BlockObj) : ChainBlock :=
  match b.block with
  | .pow p => { p.toChainBlock with fork := b.fork }
  | .pos p => ⟨b.fork, p⟩

/-- `apply_fork` of the fork (frontier/fork.py:73-92, dao_fork/fork.py:75-102 and the others): only the DAO fork changes something. -/
def applyForkOf (f : Fork) (chain : NodeChain) : Option NodeChain :=
  if f = .daoFork then
    match Dao.applyDao chain.state with
    | .error _ => none
    | .ok s => some { chain with state := s }
  else some chain

/-- `state_transition` of the fork (frontier/fork.py:135-198, osaka/fork.py:192-276); `none` = an exception. `state.fork` says whose code runs. The chain keeps the
last 255 objects. -/
def transition (C : Crypto) (K : Ethash.Hashes) (f : Fork) (chain : NodeChain) (b : BlockObj) : Option NodeChain :=
  match powFork f with
  | some F =>
    match chain.blocks.mapM BlockObj.toPow, b.block with
    | some blocks, .pow p =>
      match Pow.stateTransition K (evmExec C K) F ⟨blocks, chain.state, chain.chainId⟩ p with
      | .ok c => some { chain with blocks := lastN 255 (chain.blocks ++ [b]), state := c.state }
      | .error _ => none
    | _, _ => none
  | none =>
    match b.block with
    | .pow _ => none
    | .pos p =>
      match Verif.stateTransition C ⟨chain.blocks.map BlockObj.toPos, { chain.state with fork := f }, chain.chainId⟩ p with
      | .ok c => some { chain with blocks := lastN 255 (chain.blocks ++ [b]), state := c.state }
      | .error _ => none

/-- The metadata in the database: `block_number`, `block_timestamp` and `chain_id`. -/
structure Meta where
  number : Option Nat := none
  time : Option Word := none
  chainId : Option U64 := none

/-- What is in the database. -/
structure Saved where
  state : State
  metadata : Meta

/-- Where the loop of `process_blocks` is (sync.py:916-971): waiting for a block; the block taken and the fork applied; the block processed; its number in the metadata; its time,
too; about to commit. -/
inductive Phase where
  | idle
  | forked (b : BlockObj)
  | applied (b : BlockObj)
  | numbered (b : BlockObj)
  | ready
  | saving

/-- The running process. `next` is how many blocks the downloader has handed out, counted from block 1. -/
structure Run where
  tracker : ForkTracking
  chain : NodeChain
  next : Nat
  metadata : Meta
  phase : Phase

/-- The node: its database on disk (`none` before the first commit) and the process, if it runs. -/
structure Machine where
  disk : Option Saved
  running : Option Run

/-- The parameters: the forks and their packages, the chain with the genesis block and its time, and the blocks 1, 2, ... as the downloader hands them out (C90). -/
structure World where
  forks : List ForkCriteria
  names : List Fork
  genesis : NodeChain
  genesisTime : Word
  blocks : List BlockObj

/-- sync.py:977-989: the first half of `process_block`. -/
def beginBlock (W : World) (t : ForkTracking) (chain : NodeChain) (b : BlockObj) : Option (ForkTracking × NodeChain) :=
  let a := t.advanceBlock b.time
  if a.2 = true ∨ a.1.blockNumber = 1 then
    (activeFork W.names a.1).bind fun f => (applyForkOf f chain).map fun c => (a.1, c)
  else some (a.1, chain)

/-- sync.py:991-993: the assertion. -/
def follows (t : ForkTracking) (chain : NodeChain) : Bool :=
  match chain.blocks.getLast? with
  | none => true
  | some last => decide (t.blockNumber = last.number + 1)

/-- sync.py:991-1003: the second half: the assertion, the check of the number and `state_transition`. -/
def finishBlock (C : Crypto) (K : Ethash.Hashes) (W : World) (t : ForkTracking) (chain : NodeChain) (b : BlockObj) : Option NodeChain :=
  if follows t chain = false then none
  else if b.number ≠ t.blockNumber then none
  else (activeFork W.names t).bind fun f => transition C K f chain b

/-- sync.py:973-1003 `process_block`. -/
def processBlock (C : Crypto) (K : Ethash.Hashes) (W : World) (t : ForkTracking) (chain : NodeChain) (b : BlockObj) : Option (ForkTracking × NodeChain) :=
  (beginBlock W t chain b).bind fun r => (finishBlock C K W r.1 r.2 b).map fun c => (r.1, c)

/-- sync.py:772-810 `__init__` with an empty database. -/
def startFresh (W : World) : Run :=
  { tracker := (⟨W.forks, 0, 0⟩ : ForkTracking).setBlock 0 W.genesisTime, chain := W.genesis, next := 0, metadata := {}, phase := .idle }

/-- sync.py:811-832 `__init__` with a database: the last blocks, up to 255 of them, are taken from the downloader, which begins that many blocks earlier. -/
def resume (W : World) (s : Saved) (number : Nat) (time : Word) : Option Run :=
  let length := if number < 256 then number else 255
  if W.blocks.length < number then none
  else
    s.metadata.chainId.map fun chainId =>
    { tracker := (⟨W.forks, 0, 0⟩ : ForkTracking).setBlock number time,
      chain := { blocks := (W.blocks.drop (number - length)).take length, state := s.state, chainId := chainId },
      next := number - length + length, metadata := s.metadata, phase := .idle }

/-- sync.py:687-832 `__init__`: which of the two. -/
def boot (W : World) : Option Saved → Option Run
  | none => some (startFresh W)
  | some s =>
    match s.metadata.number, s.metadata.time with
    | some number, some time => resume W s number time
    | _, _ => some (startFresh W)

/-- The steps of the node. A stop (a crash, a kill, an exception) can come between any two of them. -/
inductive Step (C : Crypto) (K : Ethash.Hashes) (W : World) : Machine → Machine → Prop
  /-- The process is started. -/
  | boot {d : Option Saved} {r : Run} (h : boot W d = some r) : Step C K W ⟨d, none⟩ ⟨d, some r⟩
  /-- The process stops; the database keeps what was committed. -/
  | stop {d : Option Saved} {r : Run} : Step C K W ⟨d, some r⟩ ⟨d, none⟩
  /-- sync.py:917, 977-989: a block is taken from the downloader. -/
  | take {d : Option Saved} {r : Run} {b : BlockObj} {t : ForkTracking} {c : NodeChain} (hp : r.phase = .idle) (hb : W.blocks[r.next]? = some b)
      (h : beginBlock W r.tracker r.chain b = some (t, c)) :
      Step C K W ⟨d, some r⟩ ⟨d, some { r with next := r.next + 1, tracker := t, chain := c, phase := .forked b }⟩
  /-- sync.py:991-1003. -/
  | apply {d : Option Saved} {r : Run} {b : BlockObj} {c : NodeChain} (hp : r.phase = .forked b) (h : finishBlock C K W r.tracker r.chain b = some c) :
      Step C K W ⟨d, some r⟩ ⟨d, some { r with chain := c, phase := .applied b }⟩
  /-- sync.py:936-940. -/
  | number {d : Option Saved} {r : Run} {b : BlockObj} (hp : r.phase = .applied b) :
      Step C K W ⟨d, some r⟩ ⟨d, some { r with metadata := { r.metadata with number := some r.tracker.blockNumber }, phase := .numbered b }⟩
  /-- sync.py:941-945. -/
  | time {d : Option Saved} {r : Run} {b : BlockObj} (hp : r.phase = .numbered b) :
      Step C K W ⟨d, some r⟩ ⟨d, some { r with metadata := { r.metadata with time := some b.time }, phase := .ready }⟩
  /-- sync.py:952-971: no commit after this block. -/
  | skip {d : Option Saved} {r : Run} (hp : r.phase = .ready) : Step C K W ⟨d, some r⟩ ⟨d, some { r with phase := .idle }⟩
  /-- sync.py:844-848: the chain id is written. -/
  | save {d : Option Saved} {r : Run} (hp : r.phase = .ready) :
      Step C K W ⟨d, some r⟩ ⟨d, some { r with metadata := { r.metadata with chainId := some r.chain.chainId }, phase := .saving }⟩
  /-- sync.py:852-853: everything is committed. -/
  | commit {d : Option Saved} {r : Run} (hp : r.phase = .saving) :
      Step C K W ⟨d, some r⟩ ⟨some ⟨r.chain.state, r.metadata⟩, some { r with phase := .idle }⟩

end Verif.Sync
