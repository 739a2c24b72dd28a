import Verif.Model.Fork
import Verif.Model.Ethash
import Verif.Model.Dao
/-!
Block validation in the thirteen proof-of-work forks, frontier to gray_glacier (src/ethereum/<fork>/fork.py). The texts of
these functions differ between forks only in constants and in the branches marked below, so they are modelled once, with the
fork as a parameter. Line numbers are those of frontier/fork.py unless another file is named. The execution of the
transactions of a block is a parameter (`Exec`); `evmExec` in PowEvm.lean is the execution by the model of the EVM.
-/
namespace Verif.Pow
open Verif Ethash Dao

/-- The proof-of-work forks, oldest first. -/
inductive PowFork where
  | frontier | homestead | daoFork | tangerineWhistle | spuriousDragon | byzantium | constantinople | istanbul
  | muirGlacier | berlin | london | arrowGlacier | grayGlacier
  deriving DecidableEq, Repr

/-- `BLOCK_REWARD` (frontier/fork.py:55, byzantium/fork.py:56, constantinople/fork.py:56, ...). -/
def blockReward : PowFork → Word
  | .frontier | .homestead | .daoFork | .tangerineWhistle | .spuriousDragon => 5 * 10 ^ 18
  | .byzantium => 3 * 10 ^ 18
  | _ => 2 * 10 ^ 18

/-- `BOMB_DELAY_BLOCKS` (byzantium/fork.py:61, constantinople/fork.py:61, istanbul/fork.py:61, muir_glacier/fork.py:61,
berlin/fork.py:66, london/fork.py:75, arrow_glacier/fork.py:74, gray_glacier/fork.py:74); 0 where there is none. -/
def bombDelay : PowFork → Nat
  | .frontier | .homestead | .daoFork | .tangerineWhistle | .spuriousDragon => 0
  | .byzantium => 3000000
  | .constantinople | .istanbul => 5000000
  | .muirGlacier | .berlin => 9000000
  | .london => 9700000
  | .arrowGlacier => 10700000
  | .grayGlacier => 11400000

/-- `MINIMUM_DIFFICULTY` (frontier/fork.py:58). -/
def MINIMUM_DIFFICULTY : Nat := 131072
/-- `MAX_OMMER_DEPTH` (frontier/fork.py:59). -/
def MAX_OMMER_DEPTH : Nat := 6
/-- `INITIAL_BASE_FEE` (london/fork.py:73). -/
def INITIAL_BASE_FEE : Nat := 1000000000
/-- `FORK_CRITERIA.block_number` (dao_fork/__init__.py:9). -/
def DAO_FORK_BLOCK : Nat := 1920000
/-- `FORK_CRITERIA.block_number` (london/__init__.py:8). -/
def LONDON_FORK_BLOCK : Nat := 12965000
/-- `b"dao-hard-fork"` (dao_fork/fork.py:274). -/
def DAO_EXTRA_DATA : Bytes := [100, 97, 111, 45, 104, 97, 114, 100, 45, 102, 111, 114, 107]

/-- Does the fork have the difficulty rule of EIP-100 (byzantium/fork.py:735-802)? -/
def eip100 : PowFork → Bool
  | .frontier | .homestead | .daoFork | .tangerineWhistle | .spuriousDragon => false
  | _ => true

/-- Does the fork have a base fee (london/fork.py:219-279)? -/
def hasBaseFee : PowFork → Bool
  | .london | .arrowGlacier | .grayGlacier => true
  | _ => false

/-- `Header` (frontier/blocks.py:25-157, london/blocks.py:31-181). A header object of a fork before london has no `base_fee_per_gas`
attribute: `none`. -/
structure PowHeader where
  parentHash : Word
  ommersHash : Word
  coinbase : Address
  stateRoot : Word
  transactionsRoot : Word
  receiptRoot : Word
  bloom : BitVec 2048
  difficulty : Nat
  number : Nat
  gasLimit : Nat
  gasUsed : Nat
  timestamp : Word
  extraData : Bytes
  mixDigest : Word
  nonce : BitVec 64
  baseFeePerGas : Option Nat
  deriving DecidableEq, Repr

/-- The fields of a header before the proof of work. -/
def headFields (h : PowHeader) : List Rlp :=
  [.ofWord32 h.parentHash, .ofWord32 h.ommersHash, .ofAddress h.coinbase, .ofWord32 h.stateRoot,
    .ofWord32 h.transactionsRoot, .ofWord32 h.receiptRoot, .ofBloom h.bloom, .ofNat h.difficulty, .ofNat h.number,
    .ofNat h.gasLimit, .ofNat h.gasUsed, .ofNat h.timestamp.toNat, .bytes h.extraData]

/-- The base fee, where there is one. -/
def feeField (h : PowHeader) : List Rlp := match h.baseFeePerGas with | none => [] | some f => [.ofNat f]

/-- `rlp.encode(header)`: all fields of the dataclass in order. -/
def ofPowHeader (h : PowHeader) : Rlp :=
  .list (headFields h ++ [.ofWord32 h.mixDigest, .bytes (toBE 8 h.nonce.toNat)] ++ feeField h)

/-- `keccak256(rlp.encode(header))`. -/
def powHash (K : Hashes) (h : PowHeader) : Word := K.keccak256 (Rlp.encode (ofPowHeader h))

/-- `Block` (frontier/blocks.py:160-201); the transactions are left abstract. -/
structure PowBlock (T : Type) where
  header : PowHeader
  transactions : T
  ommers : List PowHeader

/-- `BlockChain` (frontier/fork.py:62-70), oldest block first. -/
structure PowChain (T : Type) where
  blocks : List (PowBlock T)
  state : State
  chainId : U64

/-- The bomb: `num_bomb_periods = ((int(block_number) - BOMB_DELAY_BLOCKS) // 100000) - 2; if num_bomb_periods >= 0:
difficulty += 2**num_bomb_periods` (byzantium/fork.py:795-797; frontier/fork.py:769-771 with no delay). `//` rounds down.
In frontier `difficulty` is a `Uint` and `2**num_bomb_periods` an `int`; it is modelled as their sum, although a strict
`Uint` might refuse the operand (the source of ethereum_types was not available). -/
def bombTerm (F : PowFork) (blockNumber : Nat) : Int :=
  let numBombPeriods : Int := Int.fdiv ((blockNumber : Int) - bombDelay F) 100000 - 2
  if numBombPeriods ≥ 0 then 2 ^ numBombPeriods.toNat else 0

/-- `calculate_block_difficulty`: frontier/fork.py:725-776, homestead/fork.py:725-785, byzantium/fork.py:735-802. `none` is
the OverflowError of `parent_timestamp + U256(13)` (frontier only) or of `block_timestamp - parent_timestamp`. -/
def calculateBlockDifficulty (F : PowFork) (blockNumber : Nat) (blockTimestamp parentTimestamp : Word) (parentDifficulty : Nat)
    (parentHasOmmers : Bool) : Option Nat :=
  if F = .frontier then
    let maxAdjustmentDelta := parentDifficulty / 2048
    if parentTimestamp.toNat + 13 ≥ 2 ^ 256 then none
    else
      let difficulty : Int :=
        if blockTimestamp.toNat < parentTimestamp.toNat + 13 then parentDifficulty + maxAdjustmentDelta
        else parentDifficulty - maxAdjustmentDelta
      some (max (difficulty + bombTerm F blockNumber) MINIMUM_DIFFICULTY).toNat
  else if blockTimestamp.toNat < parentTimestamp.toNat then none
  else
    let elapsed := blockTimestamp.toNat - parentTimestamp.toNat
    let factor : Int :=
      if eip100 F then max ((if parentHasOmmers then 2 else 1) - (elapsed / 9 : Nat)) (-99)
      else max (1 - (elapsed / 10 : Nat)) (-99)
    let offset : Int := (parentDifficulty / 2048 : Nat) * factor
    let difficulty : Int := parentDifficulty + offset
    some (max (difficulty + bombTerm F blockNumber) MINIMUM_DIFFICULTY).toNat

/-- frontier/fork.py:263-302 `generate_header_hash_for_pow` (with the base fee: london/fork.py:357-397). -/
def headerHashForPow (K : Hashes) (h : PowHeader) : Bytes := K.h256 (Rlp.encode (.list (headFields h ++ feeField h)))

/-- A Python exception that is not an `InvalidBlock` (IndexError, OverflowError, ZeroDivisionError, AttributeError: they are
not told apart here). -/
def crashed : BlockExn := .exn (.crash .overflowError)

/-- One check after another: the first exception ends it. -/
def andThen (a b : Except BlockExn Unit) : Except BlockExn Unit :=
  match a with
  | .error e => .error e
  | .ok () => b

/-- frontier/fork.py:305-332 `validate_proof_of_work`. -/
def validateProofOfWork (K : Hashes) (h : PowHeader) : Except BlockExn Unit :=
  match generateCache K h.number, datasetSize h.number with
  | some cache, some size =>
    match hashimotoLight K (headerHashForPow K h) (toBE 8 h.nonce.toNat) cache size with
    | none => .error crashed
    | some (mixDigest, result) =>
      if mixDigest ≠ wordBytes h.mixDigest then .error .invalidBlock
      else if h.difficulty = 0 then .error crashed
      else if fromBE result > 2 ^ 256 / h.difficulty then .error .invalidBlock
      else .ok ()
  | _, _ => .error crashed

/-- The gas limit and base fee rules. Before london: `check_gas_limit` (frontier/fork.py:239-240). From london on: the base fee,
whose computation includes `check_gas_limit` (london/fork.py:318-330; arrow_glacier/fork.py:317-324); the first block of
london has the initial fee and no gas limit check. -/
def checkFees (F : PowFork) (parent h : PowHeader) : Except BlockExn Unit :=
  if hasBaseFee F then
    if F = .london ∧ h.number = LONDON_FORK_BLOCK then
      if h.baseFeePerGas ≠ some INITIAL_BASE_FEE then .error .invalidBlock else .ok ()
    else match parent.baseFeePerGas with
      | none => .error crashed
      | some parentFee =>
        match calculateBaseFeePerGas h.gasLimit parent.gasLimit parent.gasUsed parentFee with
        | .error e => .error e
        | .ok expected => if h.baseFeePerGas ≠ some expected then .error .invalidBlock else .ok ()
  else if ¬ checkGasLimit h.gasLimit parent.gasLimit then .error .invalidBlock
  else .ok ()

/-- `EMPTY_OMMER_HASH` (byzantium/fork.py:62). -/
def emptyOmmersHash (K : Hashes) : Word := K.keccak256 (Rlp.encode (.list []))

/-- The rules of `validate_header` about the header and its parent, except the proof of work (frontier/fork.py:232-258,
dao_fork/fork.py:243-276, byzantium/fork.py:236-263, london/fork.py:315-352). The order of checks that all raise `InvalidBlock`
is immaterial; where one of them can raise something else, the order is that of the code. -/
def checkAgainstParent (K : Hashes) (F : PowFork) (parent h : PowHeader) : Except BlockExn Unit :=
  if h.gasUsed > h.gasLimit then .error .invalidBlock
  else andThen (if hasBaseFee F then checkFees F parent h else .ok ()) <|
      if h.timestamp ≤ parent.timestamp then .error .invalidBlock
      else if h.number ≠ parent.number + 1 then .error .invalidBlock
      else andThen (if hasBaseFee F then .ok () else checkFees F parent h) <|
          if h.extraData.length > 32 then .error .invalidBlock
          else match calculateBlockDifficulty F h.number h.timestamp parent.timestamp parent.difficulty
              (parent.ommersHash ≠ emptyOmmersHash K) with
            | none => .error crashed
            | some blockDifficulty =>
              if h.difficulty ≠ blockDifficulty then .error .invalidBlock
              else if h.parentHash ≠ powHash K parent then .error .invalidBlock
              else if F = .daoFork ∧ DAO_FORK_BLOCK ≤ h.number ∧ h.number < DAO_FORK_BLOCK + 10 ∧ h.extraData ≠ DAO_EXTRA_DATA then
                .error .invalidBlock
              else .ok ()

/-- frontier/fork.py:201-260 `validate_header`. -/
def validateHeader {T : Type} (K : Hashes) (F : PowFork) (blocks : List (PowBlock T)) (h : PowHeader) : Except BlockExn Unit :=
  if h.number < 1 then .error .invalidBlock
  else
    let parentHeaderNumber := h.number - 1
    match blocks.head?, blocks.getLast? with
    | some first, some last =>
      if parentHeaderNumber < first.header.number ∨ parentHeaderNumber > last.header.number then .error .invalidBlock
      else match blocks[parentHeaderNumber - first.header.number]? with
        | none => .error crashed
        | some parent => andThen (checkAgainstParent K F parent.header h) (validateProofOfWork K h)
    | _, _ => .error crashed

/-- The loop over the headers of the ommers (frontier/fork.py:494-497). -/
def validateOmmerHeaders {T : Type} (K : Hashes) (F : PowFork) (blocks : List (PowBlock T)) (number : Nat) :
    List PowHeader → Except BlockExn Unit
  | [] => .ok ()
  | ommer :: rest =>
    if 1 > ommer.number ∨ ommer.number ≥ number then .error .invalidBlock
    else andThen (validateHeader K F blocks ommer) (validateOmmerHeaders K F blocks number rest)

/-- The last loop of `validate_ommers` (frontier/fork.py:516-533). -/
def validateOmmerPlaces (K : Hashes) (blockHash : Word) (block : PowHeader) (canonical recentOmmers : List Word) :
    List PowHeader → Except BlockExn Unit
  | [] => .ok ()
  | ommer :: rest =>
    let ommerHash := powHash K ommer
    if ommerHash = blockHash then .error .invalidBlock
    else if ommerHash ∈ canonical then .error .invalidBlock
    else if ommerHash ∈ recentOmmers then .error .invalidBlock
    else if block.number < ommer.number then .error crashed
    else
      let ommerAge := block.number - ommer.number
      if 1 > ommerAge ∨ ommerAge > MAX_OMMER_DEPTH then .error .invalidBlock
      else if ommer.parentHash ∉ canonical then .error .invalidBlock
      else if ommer.parentHash = block.parentHash then .error .invalidBlock
      else validateOmmerPlaces K blockHash block canonical recentOmmers rest

/-- frontier/fork.py:461-533 `validate_ommers`. -/
def validateOmmers {T : Type} (K : Hashes) (F : PowFork) (ommers : List PowHeader) (block : PowHeader)
    (blocks : List (PowBlock T)) : Except BlockExn Unit :=
  let blockHash := powHash K block
  if K.keccak256 (Rlp.encode (.list (ommers.map ofPowHeader))) ≠ block.ommersHash then .error .invalidBlock
  else if ommers.length = 0 then .ok ()
  else andThen (validateOmmerHeaders K F blocks block.number ommers) <|
      if ommers.length > 2 then .error .invalidBlock
      else
        let ommersHashes := ommers.map (powHash K)
        if ¬ ommersHashes.Nodup then .error .invalidBlock
        else
          let recent := lastN (MAX_OMMER_DEPTH + 1) blocks
          let canonical := recent.map fun b => powHash K b.header
          let recentOmmers := recent.flatMap fun b => b.ommers.map (powHash K)
          validateOmmerPlaces K blockHash block canonical recentOmmers ommers

/-- The rewards of the ommers' miners (frontier/fork.py:571-575); `U256` subtraction and product are checked. -/
def payOmmers (F : PowFork) (blockNumber : Nat) (s : State) : List PowHeader → Except Crash State
  | [] => .ok s
  | ommer :: rest =>
    match usub blockNumber ommer.number with
    | .error c => .error c
    | .ok ommerAge =>
      match usub 8 ommerAge with
      | .error c => .error c
      | .ok left =>
        match toU256 (left * (blockReward F).toNat) with
        | .error c => .error c
        | .ok product =>
          match createEther s ommer.coinbase (product / 8) with
          | .error c => .error c
          | .ok s' => payOmmers F blockNumber s' rest

/-- frontier/fork.py:536-575 `pay_rewards`. -/
def payRewards (F : PowFork) (s : State) (blockNumber : Nat) (coinbase : Address) (ommers : List PowHeader) : Except Crash State :=
  match toU256 ((blockReward F).toNat + ommers.length * ((blockReward F).toNat / 32)) with
  | .error c => .error c
  | .ok minerReward =>
    match createEther s coinbase minerReward with
    | .error c => .error c
    | .ok s' => payOmmers F blockNumber s' ommers

/-- What executing the transactions of a block gives besides the new state. -/
structure TxsResult where
  gasUsed : Nat
  transactionsRoot : Word
  receiptRoot : Word
  bloom : BitVec 2048

/-- Parameters of `stateTransition`: executing the transactions in the environment of the block, given the chain id and the
blocks of the chain, and the state root. -/
structure Exec (T : Type) where
  run : PowFork → U64 → List (PowBlock T) → PowHeader → T → State → Except BlockExn (State × TxsResult)
  stateRoot : State → Except Crash Word

/-- frontier/fork.py:135-198 `state_transition` with `apply_body` (frontier/fork.py:421-458). On an error the mutated state
stays behind in the code; here only the error is returned. -/
def stateTransition {T : Type} (K : Hashes) (X : Exec T) (F : PowFork) (chain : PowChain T) (block : PowBlock T) :
    Except BlockExn (PowChain T) :=
  match validateHeader K F chain.blocks block.header with
  | .error e => .error e
  | .ok () =>
    match validateOmmers K F block.ommers block.header chain.blocks with
    | .error e => .error e
    | .ok () =>
      match X.run F chain.chainId chain.blocks block.header block.transactions chain.state with
      | .error e => .error e
      | .ok (s, r) =>
        match payRewards F s block.header.number block.header.coinbase block.ommers with
        | .error c => .error (.exn (.crash c))
        | .ok s' =>
          match X.stateRoot s' with
          | .error c => .error (.exn (.crash c))
          | .ok root =>
            if r.gasUsed ≠ block.header.gasUsed then .error .invalidBlock
            else if r.transactionsRoot ≠ block.header.transactionsRoot then .error .invalidBlock
            else if root ≠ block.header.stateRoot then .error .invalidBlock
            else if r.receiptRoot ≠ block.header.receiptRoot then .error .invalidBlock
            else if r.bloom ≠ block.header.bloom then .error .invalidBlock
            else .ok { chain with blocks := lastN 255 (chain.blocks ++ [block]), state := s' }

end Verif.Pow
