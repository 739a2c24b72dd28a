import Verif.Model.TrieRoot
/-!
Specification vocabulary for C35: which byte strings are hashed while a trie root or a state root is computed, and what
it means that the hash function does not collide on them.
-/
namespace Verif.Spec

/-- Keccak-256 is injective on a given finite list of inputs. -/
def NoCollision (C : Crypto) (inputs : List Bytes) : Prop :=
  ∀ x ∈ inputs, ∀ y ∈ inputs, C.keccak256 x = C.keccak256 y → x = y

/-- The root of the empty trie: Keccak-256 of the byte 0x80. -/
def emptyTrieRoot : BitVec 256 := 0x56e81f171bcc55a6ff8345e692c0f86e5b48e01b996cadc001622fb5e363b421

/-- The node encodings hashed by `encode_internal_node` for the subtree of `obj` at `level` (the encodings of 32 bytes or
more). -/
def hashedNodes (C : Crypto) : Nat → List (Bytes × Bytes) → Nat → List Bytes
  | 0, _, _ => []
  | fuel + 1, obj, level =>
    let below := match obj with
      | [] => []
      | [_] => []
      | e :: _ =>
        let p := prefixLength e.1 obj level
        if p > 0 then hashedNodes C fuel obj (level + p)
        else (List.range 16).flatMap fun k => hashedNodes C fuel (branchEntries obj level (UInt8.ofNat k)) (level + 1)
    let encoded := Rlp.encode (unencodedNode (patricializeF C (fuel + 1) obj level))
    if encoded.length < 32 then below else encoded :: below

/-- Everything hashed while the root of a trie with these entries is computed: the keys if the trie is secured, the
encoding of the top node, and the long encodings of the nodes. -/
def hashedByRoot (C : Crypto) (secured : Bool) (entries : List (Bytes × Bytes)) : List Bytes :=
  (if secured then entries.map Prod.fst else []) ++
  match prepareTrie C secured entries with
  | .error _ => []
  | .ok obj => Rlp.encode (unencodedNode (patricialize C obj 0)) :: hashedNodes C (maxKeyLength obj + 2) obj 0

/-- Everything hashed while the state root is computed: for the account trie, for every storage trie, every account's
code, and the input whose hash is the constant `emptyTrieRoot`. -/
def hashedByStateRoot (C : Crypto) (s : State) : List Bytes :=
  (match accountEntries C s s.mainTrie.data.entries with
    | .error _ => []
    | .ok l => hashedByRoot C s.mainTrie.secured l) ++
  (s.storageTries.entries.flatMap fun e => hashedByRoot C e.2.secured (storageEntries e.2)) ++
  (s.mainTrie.data.entries.filterMap fun e => e.2.map Account.code) ++
  [Rlp.encode (.bytes [])]

/-- The entries of the tries of transactions, receipts and withdrawals: each value under the RLP of its position. -/
def indexEntries (values : List Bytes) : List (Bytes × Bytes) := values.zipIdx.map fun p => (Rlp.encode (.ofNat p.2), p.1)

/-- Keys and values of sizes that the RLP decoder can tell apart. -/
def EntriesFit (entries : List (Bytes × Bytes)) : Prop := ∀ e ∈ entries, e.1.length < 2 ^ 60 ∧ e.2.length < 2 ^ 62

end Verif.Spec
