import Verif.Model.Numeric
/-! The proof-of-work function (src/ethereum/ethash.py). A raised exception (IndexError, OverflowError of a bounded integer,
ZeroDivisionError) is `none`. The hash functions are parameters. -/
namespace Verif.Ethash
open Verif

/-- The hash functions of ethereum.crypto.hash used here: `keccak256` (32 bytes) and `keccak512` (64 bytes). Only the lengths
of their results are assumed, by their types. -/
structure Hashes where
  keccak256 : Bytes → BitVec 256
  keccak512 : Bytes → BitVec 512

/-- The 32 bytes of `keccak256`. -/
def Hashes.h256 (K : Hashes) (b : Bytes) : Bytes := toBE 32 (K.keccak256 b).toNat
/-- The 64 bytes of `keccak512`. -/
def Hashes.h512 (K : Hashes) (b : Bytes) : Bytes := toBE 64 (K.keccak512 b).toNat

/-- ethash.py:42 -/
def EPOCH_SIZE : Nat := 30000
/-- ethash.py:50 -/
def INITIAL_CACHE_SIZE : Nat := 2 ^ 24
/-- ethash.py:59 -/
def CACHE_EPOCH_GROWTH_SIZE : Nat := 2 ^ 17
/-- ethash.py:67 -/
def INITIAL_DATASET_SIZE : Nat := 2 ^ 30
/-- ethash.py:77 -/
def DATASET_EPOCH_GROWTH_SIZE : Nat := 2 ^ 23
/-- ethash.py:85 -/
def HASH_BYTES : Nat := 64
/-- ethash.py:90 -/
def MIX_BYTES : Nat := 128
/-- ethash.py:97 -/
def CACHE_ROUNDS : Nat := 3
/-- ethash.py:106 -/
def DATASET_PARENTS : Nat := 256
/-- ethash.py:113 -/
def HASHIMOTO_ACCESSES : Nat := 64

/-- ethash.py:121-133 `epoch`. -/
def epoch (blockNumber : Nat) : Nat := blockNumber / EPOCH_SIZE

/-- The loop `while not is_prime(size // unit): size -= 2 * unit` (ethash.py:156-157, 186-187). Subtraction of `Uint`s
raises below zero. The first argument bounds the iterations; it is never reached (theorems C51_cache, C51_dataset). -/
def shrink (unit : Nat) : Nat → Nat → Option Nat
  | 0, _ => none
  | steps + 1, size =>
    if isPrime (size / unit) then some size
    else if size < 2 * unit then none
    else shrink unit steps (size - 2 * unit)

/-- ethash.py:136-159 `cache_size`. -/
def cacheSize (blockNumber : Nat) : Option Nat :=
  let size := INITIAL_CACHE_SIZE + CACHE_EPOCH_GROWTH_SIZE * epoch blockNumber
  let size := size - HASH_BYTES
  shrink HASH_BYTES size size

/-- ethash.py:162-189 `dataset_size`. -/
def datasetSize (blockNumber : Nat) : Option Nat :=
  let size := INITIAL_DATASET_SIZE + DATASET_EPOCH_GROWTH_SIZE * epoch blockNumber
  let size := size - MIX_BYTES
  shrink MIX_BYTES size size

/-- The loop of `generate_seed` (ethash.py:202-204), by the remaining epoch number. -/
def seedLoop (K : Hashes) : Nat → Bytes → Bytes
  | 0, seed => seed
  | epochNumber + 1, seed => seedLoop K epochNumber (K.h256 seed)

/-- ethash.py:192-206 `generate_seed`. -/
def generateSeed (K : Hashes) (blockNumber : Nat) : Bytes := seedLoop K (epoch blockNumber) (List.replicate 32 0)

/-- ethash.py:226-230: the chain of hashes that fills the cache. -/
def fillCache (K : Hashes) (seed : Bytes) (cacheSizeWords : Nat) : Option (List Bytes) :=
  (List.range' 1 (cacheSizeWords - 1)).foldlM (fun cache index => do
    let previous ← cache[index - 1]?
    return cache ++ [K.h512 previous]) [K.h512 seed]

/-- ethash.py:234-245: one step of a round. -/
def memoStep (K : Hashes) (cacheSizeWords : Nat) (cache : List Bytes) (index : Nat) : Option (List Bytes) := do
  let first ← cache[(index + cacheSizeWords - 1) % cacheSizeWords]?
  let item ← cache[index]?
  if cacheSizeWords = 0 ∨ cacheSizeWords ≥ 2 ^ 32 then none
  else do
    let second ← cache[fromLE (item.take 4) % cacheSizeWords]?
    let result := List.zipWith (· ^^^ ·) first second
    return cache.set index (K.h512 result)

/-- ethash.py:209-249 `generate_cache`. -/
def generateCache (K : Hashes) (blockNumber : Nat) : Option (List (List U32)) := do
  let seed := generateSeed K blockNumber
  let cacheSizeBytes ← cacheSize blockNumber
  let cacheSizeWords := cacheSizeBytes / HASH_BYTES
  let cache ← fillCache K seed cacheSizeWords
  let cache ← (List.range CACHE_ROUNDS).foldlM (fun cache _ =>
    (List.range cacheSizeWords).foldlM (memoStep K cacheSizeWords) cache) cache
  return cache.map leWords

/-- ethash.py:252-270 `fnv`; either argument may be a `Uint` or a `U32`. -/
def fnv (a b : Nat) : U32 := BitVec.ofNat 32 (((a * 0x01000193) ^^^ b) &&& 0xffffffff)

/-- ethash.py:273-286 `fnv_hash`: an IndexError if `data` is shorter. -/
def fnvHash (mixIntegers data : List U32) : Option (List U32) :=
  (List.range mixIntegers.length).mapM fun i => do
    return fnv (← mixIntegers[i]?).toNat (← data[i]?).toNat

/-- ethash.py:312-316: mixing in one parent. -/
def parentStep (cache : List (List U32)) (index : Nat) (mixIntegers : List U32) (j : Nat) : Option (List U32) := do
  let mixWord ← mixIntegers[j % 16]?
  if cache.length = 0 ∨ cache.length ≥ 2 ^ 32 then none
  else do
    let cacheIndex := (fnv (index ^^^ j) mixWord.toNat).toNat % cache.length
    let parent ← cache[cacheIndex]?
    fnvHash mixIntegers parent

/-- ethash.py:289-320 `generate_dataset_item`. -/
def generateDatasetItem (K : Hashes) (cache : List (List U32)) (index : Nat) : Option Bytes := do
  if cache.length = 0 then none
  else do
    let row ← cache[index % cache.length]?
    let number := leWordsToNat row ^^^ index
    if number ≥ 2 ^ 512 then none
    else do
      let mixIntegers := leWords (K.h512 (toLE 64 number))
      let mixIntegers ← (List.range DATASET_PARENTS).foldlM (parentStep cache index) mixIntegers
      let mix := leWordsToBytes mixIntegers
      if mix.length ≠ 64 then none else return K.h512 mix

/-- ethash.py:323-337 `generate_dataset`. -/
def generateDataset (K : Hashes) (blockNumber : Nat) : Option (List Bytes) := do
  let datasetSizeBytes ← datasetSize blockNumber
  let cache ← generateCache K blockNumber
  (List.range (datasetSizeBytes / HASH_BYTES)).mapM fun index => generateDatasetItem K cache index

/-- ethash.py:373-380: one access of the loop of `hashimoto`. -/
def accessStep (rows : Nat) (seedHead : U32) (fetch : Nat → Option (List U32)) (mix : List U32) (i : Nat) :
    Option (List U32) := do
  if mix.length = 0 then none
  else do
    let word ← mix[i % mix.length]?
    if rows = 0 ∨ rows ≥ 2 ^ 32 then none
    else do
      let parent := (fnv (BitVec.ofNat 32 i ^^^ seedHead).toNat word.toNat).toNat % rows
      let newData ← (List.range (MIX_BYTES / HASH_BYTES)).foldlM (fun newData j => do
        return newData ++ (← fetch (2 * parent + j))) []
      fnvHash mix newData

/-- ethash.py:383-387: compressing groups of four. -/
def compress : List U32 → Option (List U32)
  | [] => some []
  | a :: b :: c :: d :: r => do
    return fnv (fnv (fnv a.toNat b.toNat).toNat c.toNat).toNat d.toNat :: (← compress r)
  | _ => none

/-- ethash.py:340-392 `hashimoto`: the mix digest and the result. -/
def hashimoto (K : Hashes) (headerHash nonce : Bytes) (datasetSize : Nat) (fetch : Nat → Option (List U32)) :
    Option (Bytes × Bytes) := do
  let nonceLe := nonce.reverse
  let seedHash := K.h512 (headerHash ++ nonceLe)
  let seedHead : U32 := BitVec.ofNat 32 (fromLE (seedHash.take 4))
  let rows := datasetSize / 128
  let mix := (List.replicate (MIX_BYTES / HASH_BYTES) (leWords seedHash)).flatten
  let mix ← (List.range HASHIMOTO_ACCESSES).foldlM (accessStep rows seedHead fetch) mix
  let mixDigest := leWordsToBytes (← compress mix)
  return (mixDigest, K.h256 (seedHash ++ mixDigest))

/-- ethash.py:395-427 `hashimoto_light`. -/
def hashimotoLight (K : Hashes) (headerHash nonce : Bytes) (cache : List (List U32)) (datasetSize : Nat) :
    Option (Bytes × Bytes) :=
  hashimoto K headerHash nonce datasetSize fun index => do return leWords (← generateDatasetItem K cache index)

end Verif.Ethash
