import Verif.Model.Evm
import Verif.Model.Rlp
/-!
Specification vocabulary for C95: the Merkle Patricia trie of a set of pairs, after appendix D of the Yellow Paper. The
set is a relation `J` between keys (lists of nibbles) and values (byte strings). Nothing here refers to the code.
-/
namespace Verif.Spec.Mpt

/-- The two nibbles of each byte, the high one first. -/
def nibbles (b : Bytes) : Bytes := b.flatMap fun x => [x / 16, x % 16]

/-- The hex-prefix encoding (appendix C): the flag nibble is twice `t` plus the parity of the length; then the nibbles, two
to a byte. With an even number of nibbles a zero nibble follows the flag. -/
def hexPrefix (l : Bytes) (t : Bool) : Bytes :=
  let f : UInt8 := if t then 2 else 0
  if l.length % 2 = 0 then
    16 * f :: (List.range (l.length / 2)).map fun j => 16 * l.getD (2 * j) 0 + l.getD (2 * j + 1) 0
  else
    (16 * (f + 1) + l.getD 0 0) :: (List.range (l.length / 2)).map fun j => 16 * l.getD (2 * j + 1) 0 + l.getD (2 * j + 2) 0

/-- How a node stands in its parent: as it is if its encoding has fewer than 32 bytes, as the hash of its encoding
otherwise. -/
def ref (C : Crypto) (n : Rlp) : Rlp :=
  if (Rlp.encode n).length < 32 then n else .bytes (wordBytes (C.keccak256 (Rlp.encode n)))

/-- There are two different keys. -/
def Several (J : Bytes → Bytes → Prop) : Prop := ∃ k v k' v', J k v ∧ J k' v' ∧ k ≠ k'

/-- All keys continue with `l` after their first `i` nibbles. -/
def AllContinue (J : Bytes → Bytes → Prop) (i : Nat) (l : Bytes) : Prop := ∀ k v, J k v → l <+: k.drop i

/-- `n` is the node for the pairs `J`, whose keys agree on their first `i` nibbles. -/
inductive Node (C : Crypto) : (Bytes → Bytes → Prop) → Nat → Rlp → Prop where
  /-- Nothing: the empty string. -/
  | empty {J : Bytes → Bytes → Prop} {i : Nat} (h : ∀ k v, ¬ J k v) : Node C J i (.bytes [])
  /-- One pair: a leaf, with the rest of the key. -/
  | leaf {J : Bytes → Bytes → Prop} {i : Nat} (k v : Bytes) (h : ∀ k' v', J k' v' ↔ k' = k ∧ v' = v) :
      Node C J i (.list [.bytes (hexPrefix (k.drop i) true), .bytes v])
  /-- Several keys, all of which continue with the same nibbles: an extension, with the longest such sequence. -/
  | ext {J : Bytes → Bytes → Prop} {i : Nat} (l : Bytes) (n : Rlp) (several : Several J) (nonempty : l ≠ []) (all : AllContinue J i l)
      (longest : ∀ x, ¬ AllContinue J i (l ++ [x])) (below : Node C J (i + l.length) n) :
      Node C J i (.list [.bytes (hexPrefix l false), ref C n])
  /-- Several keys that differ in the next nibble: a branch, with sixteen children and the value of the key that ends
  here, if there is one. -/
  | branch {J : Bytes → Bytes → Prop} {i : Nat} (nodes : Nat → Rlp) (value : Bytes) (several : Several J)
      (differ : ∀ x, ¬ AllContinue J i [x])
      (below : ∀ j < 16, Node C (fun k v => J k v ∧ k[i]? = some (UInt8.ofNat j)) (i + 1) (nodes j))
      (here : (∃ k, k.length = i ∧ J k value) ∨ (value = [] ∧ ∀ k v, J k v → k.length ≠ i)) :
      Node C J i (.list ((List.range 16).map (fun j => ref C (nodes j)) ++ [.bytes value]))

/-- `r` is the root of the trie with the pairs `J`: the hash of the encoding of the node for all of them. -/
def IsRoot (C : Crypto) (J : Bytes → Bytes → Prop) (r : Word) : Prop := ∃ n, Node C J 0 n ∧ r = C.keccak256 (Rlp.encode n)

/-- The pairs of a list of entries, under the nibbles of their keys. -/
def plain (l : List (Bytes × Bytes)) : Bytes → Bytes → Prop := fun k v => ∃ e ∈ l, k = nibbles e.1 ∧ v = e.2

/-- The pairs of a list of entries, under the nibbles of the hashes of their keys. -/
def hashed (C : Crypto) (l : List (Bytes × Bytes)) : Bytes → Bytes → Prop := fun k v =>
  ∃ e ∈ l, k = nibbles (wordBytes (C.keccak256 e.1)) ∧ v = e.2

/-- The storage of an account: the encoding of every value other than zero, under the hash of its 32-byte slot number. -/
def storagePairs (C : Crypto) (read : Word → Word) : Bytes → Bytes → Prop := fun k v =>
  ∃ w, read w ≠ 0 ∧ k = nibbles (wordBytes (C.keccak256 (wordBytes w))) ∧ v = Rlp.encode (.bytes (natBytes (read w).toNat))

/-- The state: for every account, the encoding of its nonce, its balance, the root of its storage and the hash of its code,
under the hash of its 20-byte address. -/
def statePairs (C : Crypto) (account : Address → Option Account) (read : Address → Word → Word) : Bytes → Bytes → Prop := fun k v =>
  ∃ a acc root, account a = some acc ∧ IsRoot C (storagePairs C (read a)) root ∧
    k = nibbles (wordBytes (C.keccak256 (addressBytes a))) ∧
    v = Rlp.encode (.list [.bytes (natBytes acc.nonce), .bytes (natBytes acc.balance.toNat), .bytes (wordBytes root),
      .bytes (wordBytes (C.keccak256 acc.code))])

/-- A numbered sequence, such as the transactions of a block: each item under the encoding of its position, counted from 0. -/
def sequencePairs (items : List Bytes) : Bytes → Bytes → Prop := fun k v =>
  ∃ j, items[j]? = some v ∧ k = nibbles (Rlp.encode (.bytes (natBytes j)))

end Verif.Spec.Mpt
