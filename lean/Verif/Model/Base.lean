/-
Basic data: bytes, words, addresses, Python dictionaries and byte slices.

External package `ethereum_types` is not part of /repo; the conventions below model the parts of it that the
repository uses (Uint = unbounded natural, U256/U64 = fixed width unsigned, FixedBytes).
-/
namespace Verif

/-- Python `bytes` / `Bytes` / `bytearray`. -/
abbrev Bytes := List UInt8
/-- `U256`, `Bytes32`, `Hash32` (big-endian value of the 32 bytes).
Simplification: a 32-byte string and the 256-bit number it encodes are identified (they are in bijection). -/
abbrev Word := BitVec 256
/-- `Address = Bytes20` (osaka/fork_types.py:24), identified with its big-endian value. -/
abbrev Address := BitVec 160
/-- `U64`. -/
abbrev U64 := BitVec 64

/-- The packages `ethereum.<fork>` of src/ethereum, oldest first. -/
inductive Fork where
  | frontier | homestead | daoFork | tangerineWhistle | spuriousDragon | byzantium | constantinople | istanbul
  | muirGlacier | berlin | london | arrowGlacier | grayGlacier | paris | shanghai | cancun | prague | osaka
  deriving DecidableEq, Repr

/-- Position in the list of forks. -/
def Fork.rank (f : Fork) : Nat := f.ctorIdx

/-- The fork `f` is `g` or a later one. -/
def Fork.since (f g : Fork) : Bool := decide (g.rank ≤ f.rank)

/-- Exceptional halts: subclasses of `ExceptionalHalt` in osaka/vm/exceptions.py:18-140. -/
inductive Halt where
  | stackUnderflow | stackOverflow | outOfGas | invalidOpcode | invalidJumpDest
  | stackDepthLimit | writeInStaticContext | outOfBoundsRead | invalidParameter
  | invalidContractPrefix | addressCollision | kzgProofError
  /-- `ExceptionalHalt` itself, raised by modexp.py:33,37,41. -/
  | exceptionalHalt
  deriving DecidableEq, Repr

/-- Python errors that no code in the interpreter catches. `invalidBlock` is the `InvalidBlock` raised by
`set_delegation` (osaka/vm/eoa_delegation.py:202-203), which also leaves the interpreter. -/
inductive Crash where
  | assertionError | overflowError | indexError | invalidBlock | valueError | structError
  deriving DecidableEq, Repr

/-- Everything that can be raised while executing a frame.
`outOfFuel` is an artefact of the model (see `Verif/Model/Interpreter.lean`); C06 proves that it is never produced. -/
inductive Exn where
  | halt (h : Halt)
  | revert
  | crash (c : Crash)
  | outOfFuel
  deriving DecidableEq, Repr

/-- `x.to_be_bytesN()`: `n` bytes, most significant first. -/
def toBE : Nat → Nat → Bytes
  | 0, _ => []
  | n + 1, x => toBE n (x / 256) ++ [UInt8.ofNat x]

/-- `Uint.from_be_bytes`. -/
def fromBE (b : Bytes) : Nat := b.foldl (fun a c => a * 256 + c.toNat) 0

/-- Number of bytes of the minimal big-endian representation: `ceil(bit_length / 8)`. -/
def byteLength (x : Nat) : Nat := if x = 0 then 0 else Nat.log2 x / 8 + 1

/-- `Uint.to_be_bytes()`: minimal big-endian, empty for zero. -/
def natBytes (x : Nat) : Bytes := toBE (byteLength x) x

/-- `U256.to_be_bytes32()` as a byte string. -/
def wordBytes (w : Word) : Bytes := toBE 32 w.toNat

/-- The 20 bytes of an address. -/
def addressBytes (a : Address) : Bytes := toBE 20 a.toNat

/-- Python slice `b[start:stop]` for non-negative bounds. -/
def slice (b : Bytes) (start stop : Nat) : Bytes := (b.drop start).take (stop - start)

/-- utils/byte.py:39 `right_pad_zero_bytes` (`ljust`). -/
def rightPad (b : Bytes) (size : Nat) : Bytes := b ++ List.replicate (size - b.length) 0

/-- utils/byte.py:18 `left_pad_zero_bytes` (`rjust`). -/
def leftPad (b : Bytes) (size : Nat) : Bytes := List.replicate (size - b.length) 0 ++ b

/-- osaka/vm/memory.py:61 `buffer_read`. -/
def bufferRead (b : Bytes) (start size : Nat) : Bytes :=
  rightPad (slice b start (start + size)) size

/-- utils/numeric.py:42-63 `ceil32`. -/
def ceil32 (value : Nat) : Nat :=
  let remainder := value % 32
  if remainder = 0 then value else value + 32 - remainder

/-- utils/numeric.py:19-39 `get_sign`. -/
def getSign (value : Int) : Int :=
  if value < 0 then -1 else if value = 0 then 0 else 1

/-- osaka/utils/address.py:25-39 `to_address_masked`: the low 20 bytes. -/
def toAddressMasked (w : Word) : Address := w.setWidth 160

/-- `U256.from_be_bytes(address)`. -/
def addressWord (a : Address) : Word := a.setWidth 256

/-! ### Python dictionaries -/

section Dict
variable {K V : Type} [DecidableEq K]

/-- Lookup in an insertion-ordered list of pairs. -/
def aget : List (K × V) → K → Option V
  | [], _ => none
  | (k', v) :: r, k => if k' = k then some v else aget r k

/-- `d[k] = v`: in place when the key is present, else appended. -/
def aset : List (K × V) → K → V → List (K × V)
  | [], k, v => [(k, v)]
  | (k', v') :: r, k, v => if k' = k then (k, v) :: r else (k', v') :: aset r k v

/-- `del d[k]`. -/
def adel (l : List (K × V)) (k : K) : List (K × V) := l.filter (fun e => decide (e.1 ≠ k))

theorem aset_keys (l : List (K × V)) (k : K) (v : V) (x : K) :
    x ∈ (aset l k v).map Prod.fst ↔ x ∈ l.map Prod.fst ∨ x = k := by
  induction l with
  | nil => simp [aset]
  | cons e r ih =>
    obtain ⟨k', v'⟩ := e
    by_cases h : k' = k
    · subst h; simp only [aset, if_true, List.map_cons, List.mem_cons]; grind
    · simp only [aset, h, if_false, List.map_cons, List.mem_cons, ih]; grind

theorem aset_nodup (l : List (K × V)) (k : K) (v : V) (h : (l.map Prod.fst).Nodup) :
    ((aset l k v).map Prod.fst).Nodup := by
  induction l with
  | nil => simp [aset]
  | cons e r ih =>
    obtain ⟨k', v'⟩ := e
    simp only [List.map_cons, List.nodup_cons] at h
    by_cases hk : k' = k
    · subst hk; simpa only [aset, if_true, List.map_cons, List.nodup_cons] using h
    · simp only [aset, hk, if_false, List.map_cons, List.nodup_cons]
      refine ⟨?_, ih h.2⟩
      rw [aset_keys]
      grind

theorem adel_nodup (l : List (K × V)) (k : K) (h : (l.map Prod.fst).Nodup) :
    ((adel l k).map Prod.fst).Nodup :=
  h.sublist ((List.filter_sublist).map _)

/-- Python `dict`: insertion-ordered, keys unique (the runtime guarantees uniqueness; here it is a proof field). -/
structure Dict (K V : Type) where
  entries : List (K × V)
  nodup : (entries.map Prod.fst).Nodup

namespace Dict
variable (d : Dict K V)

/-- `{}`. -/
def empty : Dict K V := ⟨[], by simp⟩
/-- `d.get(k)`. -/
def get? (k : K) : Option V := aget d.entries k
/-- `d[k] = v`. -/
def set (k : K) (v : V) : Dict K V := ⟨aset d.entries k v, aset_nodup _ _ _ d.nodup⟩
/-- `if k in d: del d[k]`. -/
def del (k : K) : Dict K V := ⟨adel d.entries k, adel_nodup _ _ d.nodup⟩
/-- `k in d`. -/
def contains (k : K) : Bool := (d.get? k).isSome
end Dict

end Dict

/-- Set membership test for Python sets of hashable values; sets are modelled as lists without regard to order. -/
def setAdd {α : Type} [DecidableEq α] (s : List α) (a : α) : List α := if a ∈ s then s else a :: s

/-- `s.update(t)`. -/
def setUpdate {α : Type} [DecidableEq α] (s t : List α) : List α := t.foldl setAdd s

end Verif
