import Verif.Lemmas.Mpt
import Verif.Props.C81
import Verif.Props.C85
/-!
Property C95: the roots are those of the Yellow Paper. `Spec/Mpt.lean` says what the Merkle Patricia trie of a set of pairs
is (appendices C and D): `IsRoot C J r`.
-/
namespace Verif.Props
open Verif Verif.Spec Verif.Spec.Mpt Verif.Pow Ethash

attribute [local irreducible] wordBytes nibbles addressBytes

/-- **C95**, there is at most one root: the pairs determine it, if no key has two values. -/
theorem C95_unique (C : Crypto) (J : Bytes → Bytes → Prop) (r r' : Word) (hf : ∀ k v v', J k v → J k v' → v = v') (h : IsRoot C J r)
    (h' : IsRoot C J r') : r = r' := isRoot_unique hf h h'

theorem nibbles_inj {a b : Bytes} (h : nibbles a = nibbles b) : a = b := by
  rw [← nibbles_eq, ← nibbles_eq] at h; exact bytesToNibbleList_inj h

theorem value_unique {l : List (Bytes × Bytes)} (hn : (l.map Prod.fst).Nodup) {e e' : Bytes × Bytes} (h : e ∈ l) (h' : e' ∈ l)
    (hk : e.1 = e'.1) : e = e' := by
  induction l with
  | nil => cases h
  | cons x r ih =>
    rw [List.map_cons, List.nodup_cons] at hn
    rcases List.mem_cons.mp h with hx | hx <;> rcases List.mem_cons.mp h' with hx' | hx'
    · rw [hx, hx']
    · exact absurd (List.mem_map.mpr ⟨e', hx', by rw [← hk, hx]⟩) hn.1
    · exact absurd (List.mem_map.mpr ⟨e, hx, by rw [hk, hx']⟩) hn.1
    · exact ih hn.2 hx hx'

/-- **C95**, tries with plain keys: the root of a list of entries with different keys and values that are not empty is the root
of these pairs, and nothing else is. -/
theorem C95_plain (C : Crypto) (l : List (Bytes × Bytes)) (hn : (l.map Prod.fst).Nodup) (hv : ∀ e ∈ l, e.2 ≠ []) (r : Word) :
    trieRoot C false l = .ok r ↔ IsRoot C (plain l) r := by
  have key : ∀ r, trieRoot C false l = .ok r → IsRoot C (plain l) r := by
    intro r h
    have := trieRoot_isRoot (trieKeys_nodup hn (by intro x hx; simp at hx)) h
    unfold trieKey at this
    simp only [Bool.false_eq_true, if_false, nibbles_eq] at this
    exact this
  refine ⟨key r, fun h => ?_⟩
  obtain ⟨r', hr⟩ := trieRoot_total C false l hv
  rw [hr, isRoot_unique ?_ (key r' hr) h]
  rintro k v v' ⟨e, he, rfl, rfl⟩ ⟨e', he', hk, rfl⟩
  rw [value_unique hn he he' (nibbles_inj hk)]

/-- **C95**, tries with hashed keys, if no two keys have the same hash. -/
theorem C95_hashed (C : Crypto) (l : List (Bytes × Bytes)) (hn : (l.map Prod.fst).Nodup) (hc : NoCollision C (l.map Prod.fst))
    (hv : ∀ e ∈ l, e.2 ≠ []) (r : Word) : trieRoot C true l = .ok r ↔ IsRoot C (hashed C l) r := by
  have key : ∀ r, trieRoot C true l = .ok r → IsRoot C (hashed C l) r := by
    intro r h
    have := trieRoot_isRoot (trieKeys_nodup hn (by simpa using hc)) h
    unfold trieKey at this
    simp only [if_true, nibbles_eq] at this
    exact this
  refine ⟨key r, fun h => ?_⟩
  obtain ⟨r', hr⟩ := trieRoot_total C true l hv
  rw [hr, isRoot_unique ?_ (key r' hr) h]
  rintro k v v' ⟨e, he, rfl, rfl⟩ ⟨e', he', hk, rfl⟩
  have := hc _ (List.mem_map.mpr ⟨e, he, rfl⟩) _ (List.mem_map.mpr ⟨e', he', rfl⟩) (wordBytes_inj (nibbles_inj hk))
  rw [value_unique hn he he' this]

/-- **C95**, the storage of an account of any state that a program can reach: its root is the root of the slots that are not
zero. -/
theorem C95_storage (C : Crypto) (s : State) (hs : s.WF) (hsec : Secured s) (hE : C.keccak256 [0x80] = emptyTrieRoot)
    (hk : KeysDiffer C s) (a : Address) (r : Word) : storageRoot C s a = .ok r ↔ IsRoot C (storagePairs C (getStorage s a)) r := by
  rw [storageRoot_trie hsec hE, C95_hashed C _ (entriesOf_nodup s a)]
  · have hJ : hashed C (entriesOf s a) = storagePairs C (getStorage s a) := by
      funext k v
      refine propext ⟨?_, ?_⟩
      · rintro ⟨e, he, rfl, rfl⟩
        obtain ⟨w, hw, rfl⟩ := (mem_entriesOf hs).mp he
        exact ⟨w, hw, rfl, rfl⟩
      · rintro ⟨w, hw, rfl, rfl⟩
        exact ⟨_, (mem_entriesOf hs).mpr ⟨w, hw, rfl⟩, rfl, rfl⟩
    rw [hJ]
  · intro x hx y hy h
    obtain ⟨e, he, rfl⟩ := List.mem_map.mp hx
    obtain ⟨e', he', rfl⟩ := List.mem_map.mp hy
    obtain ⟨w, hw, rfl⟩ := (mem_entriesOf hs).mp he
    obtain ⟨w', hw', rfl⟩ := (mem_entriesOf hs).mp he'
    dsimp only at h ⊢
    rw [hk.slots a w w' hw hw' h]
  · intro e he
    obtain ⟨w, hw, rfl⟩ := (mem_entriesOf hs).mp he
    exact encode_ne _

/-- **C95**, the state: its root is the root of the accounts, each with its nonce, its balance, the root of its storage and
the hash of its code. -/
theorem C95_state (C : Crypto) (s : State) (hs : Quiet s) (hsec : Secured s) (hE : C.keccak256 [0x80] = emptyTrieRoot)
    (hk : KeysDiffer C s) (r : Word) : stateRoot C s = .ok r ↔ IsRoot C (statePairs C (getAccountOptional s) (getStorage s)) r := by
  have hroot : ∀ a r, IsRoot C (storagePairs C (getStorage s a)) r ↔ r = rootOf C s a := by
    intro a r
    rw [← C95_storage C s hs.wf hsec hE hk, rootOf_spec]
    exact ⟨fun h => (Except.ok.inj h).symm, fun h => by rw [h]⟩
  rw [stateRoot_eq hs.wf hsec hs.snapshots, C95_hashed C _ (rows_nodup C s)]
  · have hJ : hashed C (s.mainTrie.data.entries.map (accountRow C s)) = statePairs C (getAccountOptional s) (getStorage s) := by
      funext k v
      refine propext ⟨?_, ?_⟩
      · rintro ⟨e, he, rfl, rfl⟩
        obtain ⟨a, acc, ha, rfl⟩ := (mem_rows hs.wf).mp he
        exact ⟨a, acc, _, ha, (hroot a _).mpr rfl, rfl, rfl⟩
      · rintro ⟨a, acc, root, ha, hr, rfl, rfl⟩
        rw [(hroot a root).mp hr]
        exact ⟨_, (mem_rows hs.wf).mpr ⟨a, acc, ha, rfl⟩, rfl, rfl⟩
    rw [hJ]
  · intro x hx y hy h
    obtain ⟨e, he, rfl⟩ := List.mem_map.mp hx
    obtain ⟨e', he', rfl⟩ := List.mem_map.mp hy
    obtain ⟨a, acc, ha, rfl⟩ := (mem_rows hs.wf).mp he
    obtain ⟨a', acc', ha', rfl⟩ := (mem_rows hs.wf).mp he'
    dsimp only at h ⊢
    rw [hk.accounts a a' (by rw [ha]; simp) (by rw [ha']; simp) h]
  · intro e he
    obtain ⟨a, acc, ha, rfl⟩ := (mem_rows hs.wf).mp he
    exact encode_ne _

/-! ### Blocks -/

theorem plain_index (vs : List Bytes) : plain (indexEntries vs) = sequencePairs vs := by
  funext k v
  refine propext ⟨?_, ?_⟩
  · rintro ⟨⟨k', v'⟩, he, rfl, rfl⟩
    obtain ⟨j, hj, rfl⟩ := mem_indexEntries.mp he
    exact ⟨j, hj, rfl⟩
  · rintro ⟨j, hj, rfl⟩
    exact ⟨_, mem_indexEntries.mpr ⟨j, hj, rfl⟩, rfl, rfl⟩

theorem index_isRoot {C : Crypto} {vs : List Bytes} {r : Word} (hl : vs.length < 2 ^ 64) (h : trieRoot C false (indexEntries vs) = .ok r) :
    IsRoot C (sequencePairs vs) r := by
  have := trieRoot_isRoot (trieKeys_nodup (indexEntries_nodup hl) (by intro x hx; simp at hx)) h
  unfold trieKey at this
  simp only [Bool.false_eq_true, if_false, nibbles_eq] at this
  rw [← plain_index]
  exact this

/-- **C95**, an imported block: its header has the roots of its transactions and receipts in order, since shanghai of its
withdrawals, and of the state after it. -/
theorem C95_import {C : Crypto} {c d : BlockChain} {b : Block} (hi : Idle c.state) (hsec : Secured c.state)
    (h : stateTransition C c b = .ok d) (hl : c.state.fork.since .osaka = true ∨ FewItems b)
    (hE : C.keccak256 [0x80] = emptyTrieRoot) (hk : KeysDiffer C d.state) :
    ∃ rs : List (Transaction × Receipt), b.transactions.map (decodeTransaction c.state.fork) = rs.map (fun p => .ok p.1) ∧
      IsRoot C (sequencePairs (rs.map fun p => wireBytes p.1)) b.header.transactionsRoot ∧
      IsRoot C (sequencePairs (rs.map fun p => receiptBytes p.1 p.2)) b.header.receiptRoot ∧
      (c.state.fork.since .shanghai = true →
        IsRoot C (sequencePairs (b.withdrawals.map fun w => Rlp.encode (.ofWithdrawal w))) b.header.withdrawalsRoot) ∧
      IsRoot C (statePairs C (getAccountOptional d.state) (getStorage d.state)) b.header.stateRoot := by
  obtain ⟨hc1, hc2⟩ := hl.elim (fewItems_osaka h) id
  obtain ⟨rs, h1, h2, h3, h4, -⟩ := C35_roots h hl
  have hlen : rs.length = b.transactions.length := by
    have := congrArg List.length h1
    rw [List.length_map, List.length_map] at this
    exact this.symm
  have hroot : stateRoot C d.state = .ok b.header.stateRoot := by
    obtain ⟨-, -, -, -, bs, k, hb, hs, hk, -, -, hroot, -⟩ := stateTransition_ok h
    unfold commitments at hk
    rw [except_bind_ok] at hk
    obtain ⟨x0, hx0, hk⟩ := hk
    rw [except_bind_ok] at hk
    obtain ⟨x1, -, hk⟩ := hk
    rw [except_bind_ok] at hk
    obtain ⟨x2, -, hk⟩ := hk
    rw [except_bind_ok] at hk
    obtain ⟨x3, -, hk⟩ := hk
    cases hk
    rw [hs, ← hroot]
    exact hx0
  exact ⟨rs, h1, index_isRoot (by rw [List.length_map, hlen]; exact hc1) h2, index_isRoot (by rw [List.length_map, hlen]; exact hc1) h3,
    fun hs => index_isRoot (by rw [List.length_map]; exact hc2) (h4 hs),
    (C95_state C _ (imports_idle (.cons h (.nil d)) hi).quiet (import_rel secured_closed h hsec) hE hk _).mp hroot⟩

theorem transactions_roots {C : Crypto} {B : BlockEnv} {s : State} {b : BlockState} {txs : List (LegacyTx ⊕ Bytes)}
    (h : processTransactions C B ⟨s, BlockOutput.empty⟩ 0 txs = .ok b) (hl : txs.length < 2 ^ 64) :
    ∃ rs : List (Transaction × Receipt), txs.map (decodeTransaction s.fork) = rs.map (fun p => .ok p.1) ∧
      indexTrieRoot C encodeTxNode b.out.transactionsTrie = trieRoot C false (indexEntries (rs.map fun p => wireBytes p.1)) ∧
      indexTrieRoot C encodeReceiptNode b.out.receiptsTrie = trieRoot C false (indexEntries (rs.map fun p => receiptBytes p.1 p.2)) := by
  obtain ⟨rs, q⟩ := C27_receipts _ h (by omega)
  obtain ⟨p1, p2, -⟩ := transactions_plain _ h Plain.empty Plain.empty
  have hlen := q.length
  have hat : ∀ {j : Nat} {p : Transaction × Receipt}, rs[j]? = some p → trieGet b.out.receiptsTrie (indexKey j) = some (encodeReceipt p.1 p.2) ∧
      trieGet b.out.transactionsTrie (indexKey j) = some (encodeTransaction p.1) := by
    intro j p hp
    have h2 := (List.getElem?_eq_some_iff.mp hp).1
    rw [q.length] at h2
    obtain ⟨-, -, -, h3, h4⟩ := q.each j _ p (List.getElem?_eq_getElem h2) hp
    rw [Nat.zero_add] at h3 h4
    exact ⟨h3, h4⟩
  have hout : ∀ k, (∀ j, j < rs.length → k ≠ indexKey j) → trieGet b.out.receiptsTrie k = none ∧ trieGet b.out.transactionsTrie k = none := by
    intro k hk
    obtain ⟨h1, h2⟩ := q.others k fun j hj => by
      rw [Nat.zero_add]; exact hk j (by rw [q.length]; exact hj)
    exact ⟨h1, h2⟩
  refine ⟨rs, ?_, ?_, ?_⟩
  · apply List.ext_getElem?
    intro j
    rw [List.getElem?_map, List.getElem?_map]
    match e : txs[j]?, e' : rs[j]? with
    | none, none => rfl
    | none, some p =>
      have h1 := List.getElem?_eq_none_iff.mp e
      have h2 := (List.getElem?_eq_some_iff.mp e').1
      omega
    | some t, none =>
      have h1 := List.getElem?_eq_none_iff.mp e'
      have h2 := (List.getElem?_eq_some_iff.mp e).1
      omega
    | some t, some p => rw [Option.map_some, Option.map_some, show decodeTransaction s.fork t = _ from (q.each j t p e e').1]
  · rw [indexRoot_eq (xs := rs.map fun p => encodeTransaction p.1) p1 (by rw [List.length_map]; omega)]
    · rw [List.map_map]; rfl
    · intro j x hj
      rw [List.getElem?_map, Option.map_eq_some_iff] at hj
      obtain ⟨p, hp, rfl⟩ := hj
      exact (hat hp).2
    · intro k hk
      exact (hout k fun j hj => hk j (by rw [List.length_map]; exact hj)).2
  · rw [indexRoot_eq (xs := rs.map fun p => encodeReceipt p.1 p.2) p2 (by rw [List.length_map]; omega)]
    · rw [List.map_map]; rfl
    · intro j x hj
      rw [List.getElem?_map, Option.map_eq_some_iff] at hj
      obtain ⟨p, hp, rfl⟩ := hj
      exact (hat hp).1
    · intro k hk
      exact (hout k fun j hj => hk j (by rw [List.length_map]; exact hj)).1

/-- **C95**, a mined block. (The number of its transactions is assumed to be below 2^64.) -/
theorem C95_mined {C : Crypto} {K : Hashes} {F : PowFork} {c d : PowChain Txs} {b : PowBlock Txs} (ho : Orderly c.state)
    (hF : c.state.fork = F.fork) (h : Pow.stateTransition K (evmExec C K) F c b = .ok d) (hl : b.transactions.length < 2 ^ 64)
    (hE : C.keccak256 [0x80] = emptyTrieRoot) (hk : KeysDiffer C d.state) :
    ∃ rs : List (Transaction × Receipt), b.transactions.map (decodeTransaction F.fork) = rs.map (fun p => .ok p.1) ∧
      IsRoot C (sequencePairs (rs.map fun p => wireBytes p.1)) b.header.transactionsRoot ∧
      IsRoot C (sequencePairs (rs.map fun p => receiptBytes p.1 p.2)) b.header.receiptRoot ∧
      IsRoot C (statePairs C (getAccountOptional d.state) (getStorage d.state)) b.header.stateRoot := by
  have o := mined_orderly (.block hF h (.nil d)) ho
  obtain ⟨-, -, s, r, hrun, -, -, ht, hr, hrec, -⟩ := powTransition_ok h
  unfold evmExec at hrun hr
  dsimp only at hrun hr
  split at hrun
  · cases hrun
  · rename_i b' hb
    obtain ⟨rs, h1, h2, h3⟩ := transactions_roots hb hl
    have hlen : rs.length = b.transactions.length := by
      have := congrArg List.length h1
      rw [List.length_map, List.length_map] at this
      exact this.symm
    split at hrun
    · rename_i x y hx hy
      cases hrun
      dsimp only at ht hrec
      rw [h2, ht] at hx
      rw [h3, hrec] at hy
      exact ⟨rs, h1, index_isRoot (by rw [List.length_map, hlen]; exact hl) hx, index_isRoot (by rw [List.length_map, hlen]; exact hl) hy,
        (C95_state C _ o.quiet o.secured hE hk _).mp hr⟩
    · cases hrun
    · cases hrun

/-! ### Concrete cases -/

/-- The sample state has accounts with and without code and a root; the toy hash meets the hypotheses of `C95_state`. -/
example : ∃ r, stateRoot commitCrypto sampleState = .ok r ∧
    IsRoot commitCrypto (statePairs commitCrypto (getAccountOptional sampleState) (getStorage sampleState)) r := by
  obtain ⟨r, hr⟩ := stateRoot_total_wf commitCrypto sampleState sample_orderly.quiet.wf sample_orderly.quiet.snapshots
  exact ⟨r, hr, (C95_state commitCrypto sampleState sample_orderly.quiet sample_orderly.secured (by decide +kernel) (commit_free.keys _) r).mp hr⟩

/-- Three entries whose keys share their first nibbles: an extension above a branch with a value. -/
example : ∃ r, trieRoot commitCrypto false [([0x12, 0x34], [1]), ([0x12], [2]), ([0x12, 0x35], [3])] = .ok r ∧
    IsRoot commitCrypto (plain [([0x12, 0x34], [1]), ([0x12], [2]), ([0x12, 0x35], [3])]) r := by
  obtain ⟨r, hr⟩ := trieRoot_total commitCrypto false [([0x12, 0x34], [1]), ([0x12], [2]), ([0x12, 0x35], [3])] (by decide)
  exact ⟨r, hr, (C95_plain _ _ (by decide) (by decide) r).mp hr⟩

/-- The sample block is imported. -/
example : ∃ b d, Idle sampleChain.state ∧ Secured sampleChain.state ∧ stateTransition commitCrypto sampleChain b = .ok d ∧
    sampleChain.state.fork.since .osaka = true ∧ commitCrypto.keccak256 [0x80] = emptyTrieRoot ∧ KeysDiffer commitCrypto d.state ∧
    b.transactions ≠ [] ∧ b.withdrawals ≠ [] := by
  obtain ⟨b, -, d, -, -, h, -, -, -, -, ht, hw, hi, hs, -, -, hE, -⟩ := C35_hypotheses_met
  exact ⟨b, d, hi, hs, h, rfl, hE, commit_free.keys _, ht, hw⟩

/-- A frontier block with the sample transaction is mined. -/
example : Orderly powEvmState ∧ ∃ b d, Pow.stateTransition sampleK (evmExec commitCrypto sampleK) .frontier
      ⟨[⟨powEvmGenesis, [], []⟩], powEvmState, 1⟩ b = .ok d ∧ KeysDiffer commitCrypto d.state ∧ getStorage d.state 88 1 = 7 := by
  refine ⟨powEvm_orderly, ?_⟩
  have e : alikeHead.number = 1 ∧ alikeHead.coinbase = 0xa ∧ alikeHead.ommersHash = 0 := by simp only [alikeHead, mkHeader, and_self]
  have ho : alikeHead.ommersHash = sampleK.keccak256 (Rlp.encode (.list ([].map ofPowHeader))) := by rw [e.2.2]; decide +kernel
  obtain ⟨s', h1, h2⟩ := seal_accepts (C := commitCrypto) (g := powEvmGenesis) (h := alikeHead) (txs := [.inl sampleTx]) (st := powEvmState) (n := 1) (cb := 0xa)
    (p := fun s => getStorage s 88 1 == 7) e.1 e.2.1 alike_rules ho alike_runs
  exact ⟨_, _, h1, commit_free.keys _, by simpa using h2⟩

end Verif.Props
