import Verif.Model.Ethash
import Mathlib.Logic.Function.Iterate
/-! What Ethash computes, word by word, in the manner of appendix J of the Yellow Paper. Nothing here can fail: rows, items and
mixes are functions from positions to bytes or 32-bit words, and every round is written as a recurrence. From the model only
the two hash functions (`K.h256`, `K.h512`) are taken. -/
namespace Verif.Spec.Ethash
open Verif Verif.Ethash

/-- The 32-bit FNV mixing function. -/
def mixWord (a b : U32) : U32 := a * 16777619#32 ^^^ b

/-- Word `k` of a string, least significant byte first. -/
def word (b : Bytes) (k : Nat) : U32 :=
  BitVec.ofNat 32 ((b.getD (4 * k) 0).toNat + 2 ^ 8 * (b.getD (4 * k + 1) 0).toNat + 2 ^ 16 * (b.getD (4 * k + 2) 0).toNat +
    2 ^ 24 * (b.getD (4 * k + 3) 0).toNat)

/-- The `4 * n` bytes of the words `w 0, ..., w (n - 1)`, each least significant byte first. -/
def bytesOf (n : Nat) (w : Nat → U32) : Bytes :=
  (List.range (4 * n)).map fun i => UInt8.ofNat ((w (i / 4)).toNat / 256 ^ (i % 4))

/-- The cache before the rounds: a chain of hashes that begins with the hash of the seed. -/
def chained (K : Hashes) (seed : Bytes) : Nat → Bytes
  | 0 => K.h512 seed
  | i + 1 => K.h512 (chained K seed i)

/-- Row `i` of a cache of `n` rows is replaced by the hash of: the row before it (cyclically), combined by exclusive or with the
row that the first word of row `i` points to. -/
def stirRow (K : Hashes) (n : Nat) (c : Nat → Bytes) (i : Nat) : Nat → Bytes := fun j =>
  if j = i then
    K.h512 (List.zipWith (· ^^^ ·) (c (if i = 0 then n - 1 else i - 1)) (c ((word (c i) 0).toNat % n)))
  else c j

/-- The cache after `t` replacements, which go through the rows in order, again and again. -/
def stirred (K : Hashes) (n : Nat) (seed : Bytes) : Nat → Nat → Bytes
  | 0 => chained K seed
  | t + 1 => stirRow K n (stirred K n seed t) (t % n)

/-- The rows of the finished cache: three rounds of replacements. -/
def cacheRow (K : Hashes) (n : Nat) (seed : Bytes) : Nat → Bytes := stirred K n seed (3 * n)

/-- The words of an item of the dataset after `j` parents have been mixed in. The item begins as the hash of a row of the cache in
which the number of the item has been combined, least significant byte first, by exclusive or. -/
def itemMix (K : Hashes) (n : Nat) (row : Nat → Bytes) (index : Nat) : Nat → Nat → U32
  | 0 => word (K.h512 ((List.range 64).map fun i => (row (index % n)).getD i 0 ^^^ UInt8.ofNat (index / 256 ^ i)))
  | j + 1 =>
    let m := itemMix K n row index j
    let parent := (mixWord (BitVec.ofNat 32 index ^^^ BitVec.ofNat 32 j) (m (j % 16))).toNat % n
    fun k => mixWord (m k) (word (row parent) k)

/-- An item of the dataset: 256 parents, then a last hash. -/
def item (K : Hashes) (n : Nat) (row : Nat → Bytes) (index : Nat) : Bytes := K.h512 (bytesOf 16 (itemMix K n row index 256))

/-- The 32 words of the mix after `i` accesses to a dataset of `pages` pages of two items. -/
def mix (pages : Nat) (item : Nat → Bytes) (seed : Bytes) : Nat → Nat → U32
  | 0 => fun k => word seed (k % 16)
  | i + 1 =>
    let m := mix pages item seed i
    let page := (mixWord (BitVec.ofNat 32 i ^^^ word seed 0) (m (i % 32))).toNat % pages
    fun k => mixWord (m k) (word (item (2 * page + k / 16)) (k % 16))

/-- The hash of header and nonce that starts the search; the nonce is taken least significant byte first. -/
def start (K : Hashes) (headerHash nonce : Bytes) : Bytes := K.h512 (headerHash ++ nonce.reverse)

/-- The mix digest: the 32 words after 64 accesses, folded four by four from the left. -/
def digest (K : Hashes) (headerHash nonce : Bytes) (pages : Nat) (item : Nat → Bytes) : Bytes :=
  let m := mix pages item (start K headerHash nonce) 64
  bytesOf 8 fun k => mixWord (mixWord (mixWord (m (4 * k)) (m (4 * k + 1))) (m (4 * k + 2))) (m (4 * k + 3))

/-- The result that is compared with the difficulty. -/
def result (K : Hashes) (headerHash nonce : Bytes) (pages : Nat) (item : Nat → Bytes) : Bytes :=
  K.h256 (start K headerHash nonce ++ digest K headerHash nonce pages item)

/-- The seed of the epoch of a block: 32 zero bytes, hashed once for every 30000 blocks before the epoch. -/
def seedOf (K : Hashes) (number : Nat) : Bytes := K.h256^[number / 30000] (List.replicate 32 0)

/-- The items of the dataset of a block, given the number of rows of its cache. -/
def itemOf (K : Hashes) (number rows : Nat) : Nat → Bytes := item K rows (cacheRow K rows (seedOf K number))

end Verif.Spec.Ethash
