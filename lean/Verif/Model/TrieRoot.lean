import Verif.Model.RlpDecode
/-
osaka/trie.py: Merkle Patricia trie root; osaka/state.py `storage_root`, `state_root`; osaka/fork_types.py
`encode_account`. Nibble lists are byte strings with values below 16, as in the code.
-/
namespace Verif

/-- osaka/trie.py:89-136 `LeafNode`, `ExtensionNode`, `BranchNode`. -/
inductive InternalNode where
  | leaf (restOfKey : Bytes) (value : Bytes)
  | ext (keySegment : Bytes) (subnode : Rlp)
  | branch (subnodes : List Rlp) (value : Bytes)

/-- osaka/trie.py:273-280 `common_prefix_length`. -/
def commonPrefixLength : Bytes → Bytes → Nat
  | a :: r, b :: t => if a = b then commonPrefixLength r t + 1 else 0
  | _, _ => 0

/-- The loops of osaka/trie.py:321-326: pairs of nibbles to bytes. -/
def pairNibbles : Bytes → Bytes
  | a :: b :: r => (16 * a + b) :: pairNibbles r
  | _ => []

/-- osaka/trie.py:283-328 `nibble_list_to_compact`. (`bytearray.append` raises for values above 255; they do not occur
for nibbles.) -/
def nibbleListToCompact (x : Bytes) (isLeaf : Bool) : Bytes :=
  let flag : UInt8 := if isLeaf then 2 else 0
  if x.length % 2 = 0 then (16 * flag) :: pairNibbles x
  else match x with
    | [] => []
    | a :: r => (16 * (flag + 1) + a) :: pairNibbles r

/-- osaka/trie.py:331-349 `bytes_to_nibble_list`. -/
def bytesToNibbleList (b : Bytes) : Bytes := b.flatMap fun (x : UInt8) => [(x &&& 0xF0) >>> 4, x &&& 0x0F]

/-- The structure `unencoded` of osaka/trie.py:158-172. -/
def unencodedNode : Option InternalNode → Rlp
  | none => .bytes []
  | some (.leaf k v) => .list [.bytes (nibbleListToCompact k true), .bytes v]
  | some (.ext k s) => .list [.bytes (nibbleListToCompact k false), s]
  | some (.branch subs v) => .list (subs ++ [.bytes v])

/-- osaka/trie.py:139-180 `encode_internal_node`. -/
def encodeInternalNode (C : Crypto) (node : Option InternalNode) : Rlp :=
  let unencoded := unencodedNode node
  let encoded := Rlp.encode unencoded
  if encoded.length < 32 then unencoded else .bytes (wordBytes (C.keccak256 encoded))

/-- The length of the prefix after `level` common to all keys (osaka/trie.py:459-468; the early `break` does not change
the result). -/
def prefixLength (arbitraryKey : Bytes) (obj : List (Bytes × Bytes)) (level : Nat) : Nat :=
  let substring := arbitraryKey.drop level
  obj.foldl (fun p e => min p (commonPrefixLength substring (e.1.drop level))) substring.length

/-- osaka/trie.py:484-491: the entries that go to branch `k`. -/
def branchEntries (obj : List (Bytes × Bytes)) (level : Nat) (k : UInt8) : List (Bytes × Bytes) :=
  obj.filter fun e => e.1[level]? = some k

/-- osaka/trie.py:483-489: the value of the key that ends here, if there is one. -/
def branchValue (obj : List (Bytes × Bytes)) (level : Nat) : Bytes :=
  obj.foldl (fun v e => if e.1.length = level then e.2 else v) []

/-- osaka/trie.py:426-500 `patricialize`, with fuel (see `patricialize`). The dictionary is a list of entries.
Values are byte strings here, so the assertion in line 487 cannot fail. -/
def patricializeF (C : Crypto) : Nat → List (Bytes × Bytes) → Nat → Option InternalNode
  | 0, _, _ => none
  | fuel + 1, obj, level =>
    match obj with
    | [] => none
    | [e] => some (.leaf (e.1.drop level) e.2)
    | e :: _ =>
      let p := prefixLength e.1 obj level
      if p > 0 then
        some (.ext (slice e.1 level (level + p)) (encodeInternalNode C (patricializeF C fuel obj (level + p))))
      else
        some (.branch
          ((List.range 16).map fun k =>
            encodeInternalNode C (patricializeF C fuel (branchEntries obj level (UInt8.ofNat k)) (level + 1)))
          (branchValue obj level))

/-- An upper bound on the depth of the recursion: the longest key. -/
def maxKeyLength (obj : List (Bytes × Bytes)) : Nat := obj.foldl (fun n e => max n e.1.length) 0

/-- osaka/trie.py:426-500 `patricialize`. For dictionaries (distinct keys) that fuel suffices: C34. -/
def patricialize (C : Crypto) (obj : List (Bytes × Bytes)) (level : Nat) : Option InternalNode :=
  patricializeF C (maxKeyLength obj + 2) obj level

/-- osaka/trie.py:352-392 `_prepare_trie`, for values that are already encoded by `encode_node`. -/
def prepareTrie (C : Crypto) (secured : Bool) (entries : List (Bytes × Bytes)) : Except Crash (List (Bytes × Bytes)) :=
  if entries.any (fun e => e.2.isEmpty) then .error .assertionError
  else .ok (entries.foldl
    (fun d e => aset d (bytesToNibbleList (if secured then wordBytes (C.keccak256 e.1) else e.1)) e.2) [])

/-- osaka/trie.py:395-423 `root`, for encoded values. -/
def trieRoot (C : Crypto) (secured : Bool) (entries : List (Bytes × Bytes)) : Except Crash Word :=
  match prepareTrie C secured entries with
  | .error c => .error c
  | .ok obj =>
    let rootNode := encodeInternalNode C (patricialize C obj 0)
    let encoded := Rlp.encode rootNode
    if encoded.length < 32 then .ok (C.keccak256 encoded)
    else match rootNode with
      | .bytes b => if b.length = 32 then .ok (BitVec.ofNat 256 (fromBE b)) else .error .assertionError
      | .list _ => .error .assertionError

/-- osaka/trie.py:59-63 `EMPTY_TRIE_ROOT`. -/
def EMPTY_TRIE_ROOT : Word := 0x56e81f171bcc55a6ff8345e692c0f86e5b48e01b996cadc001622fb5e363b421

/-- The encoded entries of a storage trie (osaka/trie.py:192-193 `encode_node` for U256). -/
def storageEntries (t : Trie Word Word) : List (Bytes × Bytes) :=
  t.data.entries.map fun e => (wordBytes e.1, Rlp.encode (.ofNat e.2.toNat))

/-- osaka/state.py:321-344 `storage_root`. -/
def storageRoot (C : Crypto) (s : State) (a : Address) : Except Crash Word :=
  match s.storageTries.get? a with
  | none => .ok EMPTY_TRIE_ROOT
  | some t => trieRoot C t.secured (storageEntries t)

/-- osaka/fork_types.py:50-64 `encode_account`. -/
def encodeAccount (C : Crypto) (a : Account) (storageRoot : Word) : Bytes :=
  Rlp.encode (.list [.ofNat a.nonce, .ofNat a.balance.toNat, .ofWord32 storageRoot, .ofWord32 (C.keccak256 a.code)])

/-- The encoded entries of the main trie. -/
def accountEntries (C : Crypto) (s : State) : List (Address × Option Account) → Except Crash (List (Bytes × Bytes))
  | [] => .ok []
  | (_, none) :: _ => .error .assertionError
  | (a, some acc) :: r =>
    match storageRoot C s a with
    | .error c => .error c
    | .ok root =>
      match accountEntries C s r with
      | .error c => .error c
      | .ok l => .ok ((addressBytes a, encodeAccount C acc root) :: l)

/-- osaka/state.py:347-366 `state_root`. -/
def stateRoot (C : Crypto) (s : State) : Except Crash Word :=
  if s.snapshots ≠ [] then .error .assertionError
  else match accountEntries C s s.mainTrie.data.entries with
    | .error c => .error c
    | .ok l => trieRoot C s.mainTrie.secured l

/-- osaka/trie.py:192-195 `encode_node` for the values of the transactions and receipts tries. -/
def encodeTxNode : LegacyTx ⊕ Bytes → Bytes
  | .inl t => Rlp.encode (Rlp.ofLegacyTx t)
  | .inr b => b
/-- osaka/trie.py:192-195 `encode_node` for receipts. -/
def encodeReceiptNode : Receipt ⊕ Bytes → Bytes
  | .inl r => Rlp.encode (Rlp.ofReceipt r)
  | .inr b => b

/-- `root` of an unsecured trie with optional values; `None` is never stored (`trie_set` deletes instead). -/
def indexTrieRoot {V : Type} (C : Crypto) (enc : V → Bytes) (t : Trie Bytes (Option V)) : Except Crash Word :=
  trieRoot C t.secured (t.data.entries.map fun e => (e.1, match e.2 with | none => [] | some v => enc v))

end Verif
