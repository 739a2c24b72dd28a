import Verif.Model.Numeric
/-! The BLAKE2 compression function, src/ethereum/crypto/blake2.py. Words are `Uint`s (unbounded naturals), as in the code. -/
namespace Verif

/-- crypto/blake2.py:12-32 `spit_le_to_uint`. -/
def spitLeToUint (data : Bytes) (start numWords : Nat) : List Nat :=
  (List.range numWords).map fun i => fromLE (slice data (start + i * 8) (start + i * 8 + 8))

/-- crypto/blake2.py:35-51 `Blake2`: the parameters of a flavour. `word_format` is the number of bytes it stands for. -/
structure Blake2 where
  w : Nat
  maskBits : Nat
  wordFormat : Nat
  R1 : Nat
  R2 : Nat
  R3 : Nat
  R4 : Nat

/-- crypto/blake2.py:246-261 `Blake2b` (`"Q"` is an 8-byte word). -/
def blake2b : Blake2 := ⟨64, 0xFFFFFFFFFFFFFFFF, 8, 32, 24, 16, 63⟩

namespace Blake2

/-- crypto/blake2.py:53-58 `max_word`. -/
def maxWord (B : Blake2) : Nat := 2 ^ B.w

/-- crypto/blake2.py:92-103 `sigma`. -/
def sigma : List (List Nat) :=
  [[0, 1, 2, 3, 4, 5, 6, 7, 8, 9, 10, 11, 12, 13, 14, 15],
   [14, 10, 4, 8, 9, 15, 13, 6, 1, 12, 0, 2, 11, 7, 5, 3],
   [11, 8, 12, 0, 5, 2, 15, 13, 10, 14, 3, 6, 7, 1, 9, 4],
   [7, 9, 3, 1, 13, 12, 11, 14, 2, 6, 5, 10, 4, 0, 15, 8],
   [9, 0, 5, 7, 2, 4, 10, 15, 14, 1, 11, 12, 6, 8, 3, 13],
   [2, 12, 6, 10, 0, 11, 8, 3, 4, 13, 7, 5, 15, 14, 1, 9],
   [12, 5, 1, 15, 14, 13, 4, 10, 0, 7, 6, 3, 9, 2, 8, 11],
   [13, 11, 7, 14, 12, 1, 3, 9, 5, 0, 15, 4, 8, 6, 2, 10],
   [6, 15, 14, 9, 11, 3, 0, 8, 12, 2, 13, 7, 1, 4, 10, 5],
   [10, 2, 8, 4, 7, 6, 1, 5, 15, 11, 9, 14, 3, 12, 13, 0]]

/-- crypto/blake2.py:105-114 `IV`. -/
def IV : List Nat :=
  [0x6A09E667F3BCC908, 0xBB67AE8584CAA73B, 0x3C6EF372FE94F82B, 0xA54FF53A5F1D36F1,
   0x510E527FADE682D1, 0x9B05688C2B3E6C1F, 0x1F83D9ABFB41BD6B, 0x5BE0CD19137E2179]

/-- crypto/blake2.py:116-125 `MIX_TABLE`. -/
def mixTable : List (Nat × Nat × Nat × Nat) :=
  [(0, 4, 8, 12), (1, 5, 9, 13), (2, 6, 10, 14), (3, 7, 11, 15),
   (0, 5, 10, 15), (1, 6, 11, 12), (2, 7, 8, 13), (3, 4, 9, 14)]

/-- `xs[i]` of a Python list; the constant indices used below are in range, so the IndexError case (here 0) does not occur. -/
def at' (xs : List Nat) (i : Nat) : Nat := xs.getD i 0

/-- crypto/blake2.py:134-150 `get_blake2_parameters`: rounds, h, m, t_0, t_1, f. -/
def getParameters (data : Bytes) : Nat × List Nat × List Nat × Nat × Nat × Nat :=
  let rounds := fromBE (data.take 4)
  let h := spitLeToUint data 4 8
  let m := spitLeToUint data 68 16
  let t := spitLeToUint data 196 2
  let f := fromBE (data.drop 212)
  (rounds, h, m, at' t 0, at' t 1, f)

/-- The expression `(x >> R) ^ (x << w_R) % max_word` of crypto/blake2.py:169-171 and its three siblings; `w_R` is
`w - R` (crypto/blake2.py:60-90). -/
def rot (B : Blake2) (x R : Nat) : Nat := (x >>> R) ^^^ ((x <<< (B.w - R)) % B.maxWord)

/-- crypto/blake2.py:152-188 `G`. -/
def G (B : Blake2) (v : List Nat) (ix : Nat × Nat × Nat × Nat) (x y : Nat) : List Nat :=
  let (a, b, c, d) := ix
  let v := v.set a ((at' v a + at' v b + x) % B.maxWord)
  let v := v.set d (B.rot (at' v d ^^^ at' v a) B.R1)
  let v := v.set c ((at' v c + at' v d) % B.maxWord)
  let v := v.set b (B.rot (at' v b ^^^ at' v c) B.R2)
  let v := v.set a ((at' v a + at' v b + y) % B.maxWord)
  let v := v.set d (B.rot (at' v d ^^^ at' v a) B.R3)
  let v := v.set c ((at' v c + at' v d) % B.maxWord)
  v.set b (B.rot (at' v b ^^^ at' v c) B.R4)

/-- crypto/blake2.py:231-240: the body of the loop over the rounds. -/
def round (B : Blake2) (m : List Nat) (v : List Nat) (r : Nat) : List Nat :=
  let s := sigma.getD (r % sigma.length) []
  let v := B.G v (mixTable.getD 0 (0, 0, 0, 0)) (at' m (at' s 0)) (at' m (at' s 1))
  let v := B.G v (mixTable.getD 1 (0, 0, 0, 0)) (at' m (at' s 2)) (at' m (at' s 3))
  let v := B.G v (mixTable.getD 2 (0, 0, 0, 0)) (at' m (at' s 4)) (at' m (at' s 5))
  let v := B.G v (mixTable.getD 3 (0, 0, 0, 0)) (at' m (at' s 6)) (at' m (at' s 7))
  let v := B.G v (mixTable.getD 4 (0, 0, 0, 0)) (at' m (at' s 8)) (at' m (at' s 9))
  let v := B.G v (mixTable.getD 5 (0, 0, 0, 0)) (at' m (at' s 10)) (at' m (at' s 11))
  let v := B.G v (mixTable.getD 6 (0, 0, 0, 0)) (at' m (at' s 12)) (at' m (at' s 13))
  B.G v (mixTable.getD 7 (0, 0, 0, 0)) (at' m (at' s 14)) (at' m (at' s 15))

/-- crypto/blake2.py:216-225: the work vector. The slice assignment `v[8:15] = IV` replaces seven words by eight, so the
list has 17 words and the last one is never used. -/
def init (B : Blake2) (h : List Nat) (t0 t1 : Nat) (f : Bool) : List Nat :=
  let v := List.replicate 16 0
  let v := h ++ v.drop 8
  let v := v.take 8 ++ IV ++ v.drop 15
  let v := v.set 12 (t0 ^^^ at' IV 4)
  let v := v.set 13 (t1 ^^^ at' IV 5)
  if f then v.set 14 (at' v 14 ^^^ B.maskBits) else v

/-- `struct.pack("<8Q", *words)`: `struct.error` for a word that does not fit. -/
def pack (B : Blake2) (words : List Nat) : Except Crash Bytes :=
  if words.all (fun x => decide (x < 256 ^ B.wordFormat)) then .ok (words.flatMap (toLE B.wordFormat))
  else .error .structError

/-- crypto/blake2.py:190-243 `compress`. -/
def compress (B : Blake2) (numRounds : Nat) (h m : List Nat) (t0 t1 : Nat) (f : Bool) : Except Crash Bytes :=
  let v := (List.range numRounds).foldl (B.round m) (B.init h t0 t1 f)
  B.pack ((List.range 8).map fun i => at' h i ^^^ at' v i ^^^ at' v (i + 8))

end Blake2

end Verif
