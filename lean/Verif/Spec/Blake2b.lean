/-!
The BLAKE2b compression function `F` of RFC 7693 section 3, with the number of rounds as a parameter (EIP-152). Written from the
RFC: 64-bit words, a work vector of 16 words, rotations to the right.
-/
namespace Verif.Spec.Blake2b

abbrev W := BitVec 64

/-- RFC 7693 section 2.6, table: IV[i] = floor(2^64 frac(sqrt(prime(i+1)))). -/
def IV : Fin 8 → W
  | 0 => 0x6A09E667F3BCC908#64 | 1 => 0xBB67AE8584CAA73B#64
  | 2 => 0x3C6EF372FE94F82B#64 | 3 => 0xA54FF53A5F1D36F1#64
  | 4 => 0x510E527FADE682D1#64 | 5 => 0x9B05688C2B3E6C1F#64
  | 6 => 0x1F83D9ABFB41BD6B#64 | 7 => 0x5BE0CD19137E2179#64

/-- RFC 7693 section 2.7: the message schedule SIGMA, row of round `r` modulo 10. -/
def SIGMA (r : Nat) : Fin 16 → Fin 16 :=
  match r % 10 with
  | 0 => row [ 0,  1,  2,  3,  4,  5,  6,  7,  8,  9, 10, 11, 12, 13, 14, 15]
  | 1 => row [14, 10,  4,  8,  9, 15, 13,  6,  1, 12,  0,  2, 11,  7,  5,  3]
  | 2 => row [11,  8, 12,  0,  5,  2, 15, 13, 10, 14,  3,  6,  7,  1,  9,  4]
  | 3 => row [ 7,  9,  3,  1, 13, 12, 11, 14,  2,  6,  5, 10,  4,  0, 15,  8]
  | 4 => row [ 9,  0,  5,  7,  2,  4, 10, 15, 14,  1, 11, 12,  6,  8,  3, 13]
  | 5 => row [ 2, 12,  6, 10,  0, 11,  8,  3,  4, 13,  7,  5, 15, 14,  1,  9]
  | 6 => row [12,  5,  1, 15, 14, 13,  4, 10,  0,  7,  6,  3,  9,  2,  8, 11]
  | 7 => row [13, 11,  7, 14, 12,  1,  3,  9,  5,  0, 15,  4,  8,  6,  2, 10]
  | 8 => row [ 6, 15, 14,  9, 11,  3,  0,  8, 12,  2, 13,  7,  1,  4, 10,  5]
  | _ => row [10,  2,  8,  4,  7,  6,  1,  5, 15, 11,  9, 14,  3, 12, 13,  0]
where row (l : List (Fin 16)) (i : Fin 16) : Fin 16 := l.getD i.val 0

/-- Assignment to one word of the work vector. -/
def put (v : Fin 16 → W) (i : Fin 16) (x : W) : Fin 16 → W := fun j => if j = i then x else v j

/-- RFC 7693 section 3.1, the mixing function `G` with (R1, R2, R3, R4) = (32, 24, 16, 63). -/
def G (v : Fin 16 → W) (a b c d : Fin 16) (x y : W) : Fin 16 → W :=
  let v := put v a (v a + v b + x)
  let v := put v d ((v d ^^^ v a).rotateRight 32)
  let v := put v c (v c + v d)
  let v := put v b ((v b ^^^ v c).rotateRight 24)
  let v := put v a (v a + v b + y)
  let v := put v d ((v d ^^^ v a).rotateRight 16)
  let v := put v c (v c + v d)
  put v b ((v b ^^^ v c).rotateRight 63)

/-- One round of RFC 7693 section 3.2: columns, then diagonals. -/
def round (m : Fin 16 → W) (v : Fin 16 → W) (r : Nat) : Fin 16 → W :=
  let s := SIGMA r
  let v := G v 0 4  8 12 (m (s 0)) (m (s 1))
  let v := G v 1 5  9 13 (m (s 2)) (m (s 3))
  let v := G v 2 6 10 14 (m (s 4)) (m (s 5))
  let v := G v 3 7 11 15 (m (s 6)) (m (s 7))
  let v := G v 0 5 10 15 (m (s 8)) (m (s 9))
  let v := G v 1 6 11 12 (m (s 10)) (m (s 11))
  let v := G v 2 7  8 13 (m (s 12)) (m (s 13))
  G v 3 4  9 14 (m (s 14)) (m (s 15))

/-- The rounds `0, 1, ..., n - 1`, in order. -/
def rounds (m : Fin 16 → W) (v : Fin 16 → W) : Nat → Fin 16 → W
  | 0 => v
  | n + 1 => round m (rounds m v n) n

/-- The local work vector of RFC 7693 section 3.2; `t` is the 128-bit offset counter. -/
def work (h : Fin 8 → W) (t : BitVec 128) (last : Bool) (i : Fin 16) : W :=
  if hi : i.val < 8 then h ⟨i.val, hi⟩
  else if i = 12 then IV 4 ^^^ t.setWidth 64
  else if i = 13 then IV 5 ^^^ (t >>> 64).setWidth 64
  else if i = 14 then (if last then IV 6 ^^^ 0xFFFFFFFFFFFFFFFF#64 else IV 6)
  else IV ⟨i.val - 8, by omega⟩

/-- RFC 7693 section 3.2, compression function `F`. -/
def F (n : Nat) (h : Fin 8 → W) (m : Fin 16 → W) (t : BitVec 128) (last : Bool) (i : Fin 8) : W :=
  let v := rounds m (work h t last) n
  h i ^^^ v ⟨i.val, by omega⟩ ^^^ v ⟨i.val + 8, by omega⟩

/-! ### EIP-152: the input and output of the precompile as bytes -/

/-- Value of a little-endian byte string. -/
def le (b : List UInt8) : Nat := b.foldr (fun x acc => x.toNat + 256 * acc) 0

/-- The 64-bit little-endian word at offset `o`. -/
def word (data : List UInt8) (o : Nat) : W := BitVec.ofNat 64 (le ((data.drop o).take 8))

/-- The eight bytes of a word, the least significant first. -/
def bytesOf (x : W) : List UInt8 := (List.range 8).map fun k => UInt8.ofNat (x.toNat / 256 ^ k)

/-- The rounds: a 32-bit big-endian number. -/
def roundsOf (data : List UInt8) : Nat := le (data.take 4).reverse

/-- `[4 bytes rounds][64 bytes h][128 bytes m][16 bytes t][1 byte f]`, all words little-endian; the result is the new state `h`. -/
def eip152 (data : List UInt8) : List UInt8 :=
  (List.finRange 8).flatMap fun i => bytesOf
    (F (roundsOf data) (fun j => word data (4 + 8 * j.val)) (fun j => word data (68 + 8 * j.val))
      (BitVec.ofNat 128 (le ((data.drop 196).take 16))) (data.drop 212 == [1]) i)

end Verif.Spec.Blake2b
