import Verif.Lemmas.IndexRoot
import Verif.Lemmas.Header
import Verif.Props.C34_C35
/-!
C35, for the body of a block: the roots in a header determine the transactions, the withdrawals and the receipts.
-/
namespace Verif.Props
open Verif Spec

/-- The bytes of a receipt in the receipts trie: for typed transactions, the type byte comes first. -/
def receiptBytes (tx : Transaction) (r : Receipt) : Bytes :=
  match encodeReceipt tx r with
  | .inl r => Rlp.encode (Rlp.ofReceipt r)
  | .inr b => b

/-- The block has fewer than 2^64 transactions and withdrawals. -/
def FewItems (b : Block) : Prop := b.transactions.length < 2 ^ 64 ∧ b.withdrawals.length < 2 ^ 64

/-- Since osaka the limit on the size of blocks implies that. -/
theorem fewItems_osaka {C : Crypto} {c d : BlockChain} {b : Block} (h : stateTransition C c b = .ok d)
    (hf : c.state.fork.since .osaka = true) : FewItems b := by
  have he : c.state.fork = .osaka := by revert hf; cases c.state.fork <;> decide
  apply block_counts
  unfold stateTransition at h
  split at h
  · cases h
  · rename_i hs
    rw [he] at hs
    exact Nat.le_of_not_gt fun hx => hs ⟨rfl, hx⟩

/-- What the body of an imported block leaves: the transactions and the receipts, in the tries and in the roots. -/
theorem body_contents {C : Crypto} {c d : BlockChain} {b : Block} (h : stateTransition C c b = .ok d) (hc1 : b.transactions.length < 2 ^ 64)
    (hcw : c.state.fork.since .shanghai = true → b.withdrawals.length < 2 ^ 64) :
    ∃ (bs b3 : BlockState) (s2 : State) (rs : List (Transaction × Receipt)),
      applyBody C (blockEnvOf C c b.header) c.state b.transactions b.withdrawals = .ok bs ∧
      processTransactions C (blockEnvOf C c b.header) ⟨s2, BlockOutput.empty⟩ 0 b.transactions = .ok b3 ∧ s2.fork = c.state.fork ∧
      bs.out.transactionsTrie = b3.out.transactionsTrie ∧ bs.out.receiptsTrie = b3.out.receiptsTrie ∧ bs.out.receiptKeys = b3.out.receiptKeys ∧ bs.out.blockLogs = b3.out.blockLogs ∧
      ReceiptsAdded C c.state.fork 0 b.transactions BlockOutput.empty b3.out rs ∧
      b.transactions.map (decodeTransaction c.state.fork) = rs.map (fun p => .ok p.1) ∧
      trieRoot C false (indexEntries (rs.map fun p => wireBytes p.1)) = .ok b.header.transactionsRoot ∧
      trieRoot C false (indexEntries (rs.map fun p => receiptBytes p.1 p.2)) = .ok b.header.receiptRoot ∧
      (c.state.fork.since .shanghai = true →
        trieRoot C false (indexEntries (b.withdrawals.map fun w => Rlp.encode (.ofWithdrawal w))) = .ok b.header.withdrawalsRoot) ∧
      (0 :: rs.map fun p => p.2.cumulativeGasUsed).getLast? = some b.header.gasUsed ∧
      logsBloom C (rs.flatMap fun p => p.2.logs) = b.header.bloom := by
  obtain ⟨-, -, -, -, bs, k, hb, -, hk, hgas, ht, -, hr, hbl, hw, -⟩ := stateTransition_ok h
  obtain ⟨s1, s2, b3, b4, run⟩ := applyBody_ok hb
  obtain ⟨rs, q⟩ := C27_receipts _ run.transactions (by omega)
  obtain ⟨p1, p2, p3⟩ := transactions_plain _ run.transactions Plain.empty Plain.empty
  have hq := q
  rw [show (⟨s2, BlockOutput.empty⟩ : BlockState).state.fork = c.state.fork from run.forks.2.1] at hq
  obtain ⟨e1, e2, e3⟩ : bs.out.transactionsTrie = b4.out.transactionsTrie ∧ bs.out.receiptsTrie = b4.out.receiptsTrie ∧
      bs.out.withdrawalsTrie = b4.out.withdrawalsTrie := by
    rcases ite_ok run.requests with ⟨-, h⟩ | ⟨-, h⟩
    · exact requests_tries h
    · rw [h]; exact ⟨rfl, rfl, rfl⟩
  obtain ⟨f1, f2, f3, f4, f5⟩ : b4.out.transactionsTrie = b3.out.transactionsTrie ∧ b4.out.receiptsTrie = b3.out.receiptsTrie ∧
      b4.out.blockGasUsed = b3.out.blockGasUsed ∧ b4.out.blockLogs = b3.out.blockLogs ∧ b4.out.receiptKeys = b3.out.receiptKeys := by
    rcases ite_ok run.withdrawals with ⟨hsh, h⟩ | ⟨-, h⟩
    · have eo := (C40_credit (by rw [run.forks.2.2.1]; exact hsh) h).2
      have f1 : b4.out.transactionsTrie = b3.out.transactionsTrie := (congrArg BlockOutput.transactionsTrie eo :)
      have f2 : b4.out.receiptsTrie = b3.out.receiptsTrie := (congrArg BlockOutput.receiptsTrie eo :)
      have f3 : b4.out.blockGasUsed = b3.out.blockGasUsed := (congrArg BlockOutput.blockGasUsed eo :)
      have f4 : b4.out.blockLogs = b3.out.blockLogs := (congrArg BlockOutput.blockLogs eo :)
      have f5 : b4.out.receiptKeys = b3.out.receiptKeys := (congrArg BlockOutput.receiptKeys eo :)
      exact ⟨f1, f2, f3, f4, f5⟩
    · rw [h]; exact ⟨rfl, rfl, rfl, rfl, rfl⟩
  have g34 : bs.out.blockGasUsed = b4.out.blockGasUsed ∧ bs.out.blockLogs = b4.out.blockLogs ∧ bs.out.receiptKeys = b4.out.receiptKeys := by
    have ha : ∀ (o : BlockOutput) t d, (appendRequest o t d).blockGasUsed = o.blockGasUsed ∧
        (appendRequest o t d).blockLogs = o.blockLogs ∧ (appendRequest o t d).receiptKeys = o.receiptKeys := by
      intro o t d; unfold appendRequest; split <;> exact ⟨rfl, rfl, rfl⟩
    rcases ite_ok run.requests with ⟨-, h⟩ | ⟨-, h⟩
    · unfold processGeneralPurposeRequests at h
      split at h
      · cases h
      · dsimp only at h
        split at h
        · cases h
        · split at h
          · cases h
          · cases h
            exact ⟨by simp only [ha], by simp only [ha], by simp only [ha]⟩
    · rw [h]; exact ⟨rfl, rfl, rfl⟩
  have hfk := run.forks.2.1
  have hdec : b.transactions.map (decodeTransaction c.state.fork) = rs.map (fun p => .ok p.1) := by
    apply List.ext_getElem?
    intro j
    rw [List.getElem?_map, List.getElem?_map]
    match e : b.transactions[j]?, e' : rs[j]? with
    | none, none => rfl
    | none, some p =>
      have h1 := List.getElem?_eq_none_iff.mp e
      have h2 := (List.getElem?_eq_some_iff.mp e').1
      have := q.length
      omega
    | some t, none =>
      have h1 := List.getElem?_eq_none_iff.mp e'
      have h2 := (List.getElem?_eq_some_iff.mp e).1
      have := q.length
      omega
    | some t, some p => rw [Option.map_some, Option.map_some, show decodeTransaction c.state.fork t = _ from hfk ▸ (q.each j t p e e').1]
  have hat : ∀ {j : Nat} {p : Transaction × Receipt}, rs[j]? = some p → trieGet b3.out.receiptsTrie (indexKey j) = some (encodeReceipt p.1 p.2) ∧
      trieGet b3.out.transactionsTrie (indexKey j) = some (encodeTransaction p.1) := by
    intro j p hp
    have h2 := (List.getElem?_eq_some_iff.mp hp).1
    rw [q.length] at h2
    obtain ⟨-, -, -, h3, h4⟩ := q.each j _ p (List.getElem?_eq_getElem h2) hp
    rw [Nat.zero_add] at h3 h4
    exact ⟨h3, h4⟩
  have hout : ∀ k, (∀ j, j < rs.length → k ≠ indexKey j) → trieGet b3.out.receiptsTrie k = none ∧ trieGet b3.out.transactionsTrie k = none := by
    intro k hk
    obtain ⟨h1, h2⟩ := q.others k fun j hj => by
      rw [Nat.zero_add]; exact hk j (by rw [q.length]; exact hj)
    exact ⟨h1, h2⟩
  have hl : rs.length < 2 ^ 64 := by rw [q.length]; exact hc1
  unfold commitments at hk
  rw [except_bind_ok] at hk
  obtain ⟨x0, -, hk⟩ := hk
  rw [except_bind_ok] at hk
  obtain ⟨x1, hx1, hk⟩ := hk
  rw [except_bind_ok] at hk
  obtain ⟨x2, hx2, hk⟩ := hk
  rw [except_bind_ok] at hk
  obtain ⟨x3, hx3, hk⟩ := hk
  cases hk
  dsimp only at ht hr hw hbl
  subst ht hr
  refine ⟨bs, b3, s2, rs, hb, run.transactions, run.forks.2.1, e1.trans f1, e2.trans f2, g34.2.2.trans f5, g34.2.1.trans f4, hq, hdec, ?_, ?_, ?_, ?_, ?_⟩
  · rw [e1, f1] at hx1
    rw [← hx1, indexRoot_eq (xs := rs.map fun p => encodeTransaction p.1) p1 (by rw [List.length_map]; exact hl)]
    · rw [List.map_map]; rfl
    · intro j x hj
      rw [List.getElem?_map, Option.map_eq_some_iff] at hj
      obtain ⟨p, hp, rfl⟩ := hj
      exact (hat hp).2
    · intro k hk
      exact (hout k fun j hj => hk j (by rw [List.length_map]; exact hj)).2
  · rw [e2, f2] at hx2
    rw [← hx2, indexRoot_eq (xs := rs.map fun p => encodeReceipt p.1 p.2) p2 (by rw [List.length_map]; exact hl)]
    · rw [List.map_map]; rfl
    · intro j x hj
      rw [List.getElem?_map, Option.map_eq_some_iff] at hj
      obtain ⟨p, hp, rfl⟩ := hj
      exact (hat hp).1
    · intro k hk
      exact (hout k fun j hj => hk j (by rw [List.length_map]; exact hj)).1
  · intro hsh
    have hc2 := hcw hsh
    rw [← hw hsh]
    rw [e3] at hx3
    obtain ⟨w1, w2, w3⟩ := withdrawals_trie _ (by rw [run.forks.2.2.1]; exact shanghai_paris hsh) ((if_pos hsh).symm.trans run.withdrawals) (by rw [p3]; exact Plain.empty) (by omega)
    rw [← hx3, indexRoot_eq (xs := b.withdrawals.map fun w => Rlp.encode (.ofWithdrawal w)) w1 (by rw [List.length_map]; exact hc2)]
    · rw [List.map_id]
    · intro j x hj
      rw [List.getElem?_map, Option.map_eq_some_iff] at hj
      obtain ⟨w, hw, rfl⟩ := hj
      have := w2 j w hw
      rwa [Nat.zero_add] at this
    · intro k hk
      rw [w3 k fun j hj => ?_, p3]
      · rfl
      · rw [Nat.zero_add]; exact hk j (by rw [List.length_map]; exact hj)
  · have := q.total
    rw [← hgas, g34.1, f3]
    exact this
  · have := q.logs
    rw [← hbl, g34.2.1, f4, this]
    rfl

/-- **C35**, what the roots of an imported block are: the transactions root is the root of the trie that has the encoding
of the j-th transaction under the RLP of j, and the same with the receipts and, since shanghai, the withdrawals. (Before osaka, when
there was no limit on the size of blocks, the numbers of transactions and withdrawals are assumed to be below 2^64.) -/
theorem C35_roots {C : Crypto} {c d : BlockChain} {b : Block} (h : stateTransition C c b = .ok d)
    (hl : c.state.fork.since .osaka = true ∨ FewItems b) :
    ∃ rs : List (Transaction × Receipt), b.transactions.map (decodeTransaction c.state.fork) = rs.map (fun p => .ok p.1) ∧
      trieRoot C false (indexEntries (rs.map fun p => wireBytes p.1)) = .ok b.header.transactionsRoot ∧
      trieRoot C false (indexEntries (rs.map fun p => receiptBytes p.1 p.2)) = .ok b.header.receiptRoot ∧
      (c.state.fork.since .shanghai = true →
        trieRoot C false (indexEntries (b.withdrawals.map fun w => Rlp.encode (.ofWithdrawal w))) = .ok b.header.withdrawalsRoot) ∧
      (0 :: rs.map fun p => p.2.cumulativeGasUsed).getLast? = some b.header.gasUsed ∧
      logsBloom C (rs.flatMap fun p => p.2.logs) = b.header.bloom := by
  obtain ⟨hc1, hc2⟩ := hl.elim (fewItems_osaka h) id
  obtain ⟨-, -, -, rs, -, -, -, -, -, -, -, -, r⟩ := body_contents h hc1 fun _ => hc2
  exact ⟨rs, r⟩

theorem indexEntries_inj {vs vs' : List Bytes} (hl : vs.length < 2 ^ 64) (hl' : vs'.length < 2 ^ 64)
    (h : ∀ k v, (k, v) ∈ indexEntries vs ↔ (k, v) ∈ indexEntries vs') : vs = vs' := by
  have key : ∀ {vs vs' : List Bytes}, vs.length < 2 ^ 64 → vs'.length < 2 ^ 64 → (∀ k v, (k, v) ∈ indexEntries vs → (k, v) ∈ indexEntries vs') →
      ∀ (j : Nat) v, vs[j]? = some v → vs'[j]? = some v := by
    intro vs vs' hl hl' h j v hj
    obtain ⟨i, hi, he⟩ := mem_indexEntries.mp (h _ _ (mem_indexEntries.mpr ⟨j, hj, rfl⟩))
    have h1 := (List.getElem?_eq_some_iff.mp hj).1
    have h2 := (List.getElem?_eq_some_iff.mp hi).1
    have := indexKey_inj (by omega) (by omega) he
    rw [this]; exact hi
  apply List.ext_getElem?
  intro j
  match e : vs[j]?, e' : vs'[j]? with
  | none, none => rfl
  | some v, _ => rw [← e', key hl hl' (fun k v => (h k v).mp) j v e]
  | none, some v => have := key hl' hl (fun k v => (h k v).mpr) j v e'; rw [e] at this; cases this

theorem indexRoot_inj {C : Crypto} {vs vs' : List Bytes} {r : Word} (hl : vs.length < 2 ^ 64) (hl' : vs'.length < 2 ^ 64)
    (hf : ∀ v ∈ vs, v.length < 2 ^ 62) (hf' : ∀ v ∈ vs', v.length < 2 ^ 62) (h : trieRoot C false (indexEntries vs) = .ok r)
    (h' : trieRoot C false (indexEntries vs') = .ok r)
    (hc : NoCollision C (hashedByRoot C false (indexEntries vs) ++ hashedByRoot C false (indexEntries vs'))) : vs = vs' := by
  have hfit : ∀ {vs : List Bytes}, vs.length < 2 ^ 64 → (∀ v ∈ vs, v.length < 2 ^ 62) → EntriesFit (indexEntries vs) := by
    rintro vs hl hf ⟨k, v⟩ he
    obtain ⟨j, hj, rfl⟩ := mem_indexEntries.mp he
    have h1 := (List.getElem?_eq_some_iff.mp hj).1
    refine ⟨?_, hf v (List.mem_of_getElem? hj)⟩
    have := encode_ofNat_le (n := j) (by omega)
    show (Rlp.encode (.ofNat j)).length < _
    omega
  refine indexEntries_inj hl hl' ?_
  rcases C35_root C false _ _ r (indexEntries_nodup hl) (indexEntries_nodup hl') (hfit hl hf) (hfit hl' hf') h h' with h | ⟨x, y, hx, hy, hne, he⟩
  · exact h
  · exact absurd (hc x hx y hy he) hne

theorem withdrawal_small (w : Withdrawal) : (Rlp.encode (.ofWithdrawal w)).length < 2 ^ 62 := by
  have hn : ∀ x : U64, (Rlp.encode (.ofNat x.toNat)).length ≤ 41 := fun x => encode_ofNat_le (by have := x.isLt; omega)
  have ha : (Rlp.encode (.ofAddress w.address)).length ≤ 29 := by
    have := encodeBytes_le (addressBytes w.address) (by rw [addressBytes_length]; decide)
    rw [addressBytes_length] at this
    exact this
  have hs : (Rlp.encodeSeq [.ofNat w.index.toNat, .ofNat w.validatorIndex.toNat, .ofAddress w.address, .ofNat w.amount.toNat]).length ≤ 152 := by
    have h1 := hn w.index
    have h2 := hn w.validatorIndex
    have h3 : (Rlp.encode (.ofNat w.amount.toNat)).length ≤ 41 := encode_ofNat_le w.amount.isLt
    simp only [Rlp.encodeSeq, List.length_append, List.length_nil]
    omega
  have := encodeList_le _ (Nat.lt_of_le_of_lt hs (by decide))
  show (Rlp.encode (.list _)).length < _
  omega

theorem ofWithdrawal_inj {w w' : Withdrawal} (h : Rlp.ofWithdrawal w = Rlp.ofWithdrawal w') : w = w' := by
  simp only [Rlp.ofWithdrawal, Rlp.list.injEq, List.cons.injEq, and_true] at h
  obtain ⟨h1, h2, h3, h4⟩ := h
  have h3' : w.address = w'.address := by
    have := congrArg Rlp.asAddress h3
    rw [Rlp.asAddress_ofAddress, Rlp.asAddress_ofAddress] at this
    exact Option.some.inj this
  cases w; cases w'
  simp only [Withdrawal.mk.injEq]
  exact ⟨Rlp.ofNat_bv_inj h1, Rlp.ofNat_bv_inj h2, h3', Rlp.ofNat_bv_inj h4⟩

/-- **C35**, withdrawals: blocks imported in shanghai or later with the same withdrawals root have the same withdrawals, unless there is a
collision among the byte strings hashed for the two roots. -/
theorem C35_withdrawals {C : Crypto} {c c' d d' : BlockChain} {b b' : Block} (h : stateTransition C c b = .ok d)
    (h' : stateTransition C c' b' = .ok d') (hf : c.state.fork.since .shanghai = true) (hf' : c'.state.fork.since .shanghai = true)
    (hl : c.state.fork.since .osaka = true ∨ FewItems b) (hl' : c'.state.fork.since .osaka = true ∨ FewItems b') (hroot : b.header.withdrawalsRoot = b'.header.withdrawalsRoot)
    (hc : NoCollision C (hashedByRoot C false (indexEntries (b.withdrawals.map fun w => Rlp.encode (.ofWithdrawal w))) ++
      hashedByRoot C false (indexEntries (b'.withdrawals.map fun w => Rlp.encode (.ofWithdrawal w))))) :
    b.withdrawals = b'.withdrawals := by
  obtain ⟨-, -, -, -, r, -⟩ := C35_roots h hl
  obtain ⟨-, -, -, -, r', -⟩ := C35_roots h' hl'
  replace r := r hf
  replace r' := r' hf'
  have hs : ∀ {b : Block}, ∀ v ∈ b.withdrawals.map fun w => Rlp.encode (.ofWithdrawal w), v.length < 2 ^ 62 := by
    intro b v hv
    obtain ⟨w, -, rfl⟩ := List.mem_map.mp hv
    exact withdrawal_small w
  have := indexRoot_inj (by rw [List.length_map]; exact (hl.elim (fewItems_osaka h) id).2) (by rw [List.length_map]; exact (hl'.elim (fewItems_osaka h') id).2) hs hs r
    (by rw [hroot]; exact r') hc
  refine (List.map_inj_right (fun w w' he => ?_)).mp this
  refine ofWithdrawal_inj ?_
  have h1 := C37_decode_encode (.ofWithdrawal w) (Nat.lt_trans (withdrawal_small w) (by decide))
  have h2 := C37_decode_encode (.ofWithdrawal w') (Nat.lt_trans (withdrawal_small w') (by decide))
  rw [he, h2] at h1
  exact (Option.some.inj h1).symm

theorem decodes_later {f : Fork} : ∀ {l : List (LegacyTx ⊕ Bytes)} {rs : List (Transaction × Receipt)},
    l.map (decodeTransaction f) = rs.map (fun p => .ok p.1) → l.map (decodeTransaction .osaka) = rs.map (fun p => .ok p.1)
  | [], [], _ => rfl
  | [], _ :: _, h => by cases h
  | _ :: _, [], h => by cases h
  | t :: l, p :: rs, h => by
    obtain ⟨h1, h2⟩ := List.cons.inj h
    rw [List.map_cons, List.map_cons, decode_later h1, decodes_later h2]

/-- **C35**, transactions: imported blocks with the same transactions root have the same transactions in the same order,
unless there is a collision among the byte strings hashed for the two roots. (No transaction has an encoding of 2^62
bytes or more.) -/
theorem C35_transactions {C : Crypto} {c c' d d' : BlockChain} {b b' : Block} (h : stateTransition C c b = .ok d)
    (h' : stateTransition C c' b' = .ok d') (hl : c.state.fork.since .osaka = true ∨ FewItems b)
    (hl' : c'.state.fork.since .osaka = true ∨ FewItems b') (hroot : b.header.transactionsRoot = b'.header.transactionsRoot)
    (hs : ∀ t ∈ b.transactions ++ b'.transactions, ∀ tx, decodeTransaction .osaka t = .ok tx → (wireBytes tx).length < 2 ^ 62)
    (hc : ∀ txs txs' : List Transaction, b.transactions.map (decodeTransaction .osaka) = txs.map .ok → b'.transactions.map (decodeTransaction .osaka) = txs'.map .ok →
      NoCollision C (hashedByRoot C false (indexEntries (txs.map wireBytes)) ++ hashedByRoot C false (indexEntries (txs'.map wireBytes)))) :
    b.transactions.map (decodeTransaction .osaka) = b'.transactions.map (decodeTransaction .osaka) := by
  obtain ⟨rs, e0, r, -⟩ := C35_roots h hl
  obtain ⟨rs', e0', r', -⟩ := C35_roots h' hl'
  have e := decodes_later e0
  have e' := decodes_later e0'
  have hm : ∀ {l : List (LegacyTx ⊕ Bytes)} {rs : List (Transaction × Receipt)}, l.map (decodeTransaction .osaka) = rs.map (fun p => .ok p.1) →
      (∀ t ∈ l, ∀ tx, decodeTransaction .osaka t = .ok tx → (wireBytes tx).length < 2 ^ 62) →
      rs.length = l.length ∧ ∀ p ∈ rs, WellTyped p.1 ∧ (wireBytes p.1).length < 2 ^ 62 := by
    intro l rs e hs
    have hl := congrArg List.length e
    rw [List.length_map, List.length_map] at hl
    refine ⟨hl.symm, fun p hp => ?_⟩
    have : (Except.ok p.1 : Except DecodeError Transaction) ∈ l.map (decodeTransaction .osaka) := by rw [e]; exact List.mem_map.mpr ⟨p, hp, rfl⟩
    obtain ⟨t, ht, hd⟩ := List.mem_map.mp this
    exact ⟨decode_wellTyped hd, hs t ht _ hd⟩
  obtain ⟨l1, m1⟩ := hm e fun t ht => hs t (List.mem_append_left _ ht)
  obtain ⟨l2, m2⟩ := hm e' fun t ht => hs t (List.mem_append_right _ ht)
  have hc := hc (rs.map Prod.fst) (rs'.map Prod.fst) (by rw [e, List.map_map]; rfl) (by rw [e', List.map_map]; rfl)
  rw [List.map_map, List.map_map] at hc
  have hw := indexRoot_inj (by rw [List.length_map, l1]; exact (hl.elim (fewItems_osaka h) id).1) (by rw [List.length_map, l2]; exact (hl'.elim (fewItems_osaka h') id).1)
    (fun v hv => by obtain ⟨p, hp, rfl⟩ := List.mem_map.mp hv; exact (m1 p hp).2)
    (fun v hv => by obtain ⟨p, hp, rfl⟩ := List.mem_map.mp hv; exact (m2 p hp).2) r (by rw [hroot]; exact r') hc
  rw [e, e']
  clear hc r r' e e' e0 e0' l1 l2
  induction rs generalizing rs' with
  | nil => cases rs' with
    | nil => rfl
    | cons p q => cases hw
  | cons p q ih => cases rs' with
    | nil => cases hw
    | cons p' q' =>
      simp only [List.map_cons, List.cons.injEq] at hw ⊢
      have a1 := m1 p (by simp)
      have a2 := m2 p' (by simp)
      refine ⟨?_, ih _ (fun x hx => m1 x (by simp [hx])) (fun x hx => m2 x (by simp [hx])) hw.2⟩
      rw [C38_no_clash p.1 p'.1 a1.1 a2.1 (Nat.lt_trans a1.2 (by decide)) hw.1]

theorem receiptBytes_decode (tx : Transaction) (r : Receipt) (h : (receiptBytes tx r).length < 2 ^ 62) :
    (Rlp.encode (.ofReceipt r)).length < 2 ^ 64 := by
  unfold receiptBytes encodeReceipt at h
  cases tx <;> simp only [List.length_cons] at h <;> omega

theorem receiptBytes_head (tx : Transaction) (r : Receipt) (h : (receiptBytes tx r).length < 2 ^ 62) :
    (∃ t rest, tx = .legacy t ∧ receiptBytes tx r = Rlp.encode (.ofReceipt r) ∧ ∃ f, receiptBytes tx r = f :: rest ∧ ¬ f ≤ 0xbf) ∨
    ∃ f, receiptBytes tx r = f :: Rlp.encode (.ofReceipt r) ∧ f ≤ 0xbf := by
  cases tx with
  | legacy t =>
    obtain ⟨f, rest, h1, h2⟩ := encodeList_head [.ofStatus r.status, .ofNat r.cumulativeGasUsed, .ofBloom r.bloom,
      .list (r.logs.map .ofLog)] (receiptBytes_decode _ _ h)
    exact .inl ⟨t, rest, rfl, rfl, f, h1, h2⟩
  | accessList t => exact .inr ⟨1, rfl, by decide⟩
  | feeMarket t => exact .inr ⟨2, rfl, by decide⟩
  | blob t => exact .inr ⟨3, rfl, by decide⟩
  | setCode t => exact .inr ⟨4, rfl, by decide⟩

theorem receiptBytes_inj {tx tx' : Transaction} {r r' : Receipt} (h : (receiptBytes tx r).length < 2 ^ 62)
    (h' : (receiptBytes tx' r').length < 2 ^ 62) (he : receiptBytes tx r = receiptBytes tx' r') : r = r' := by
  have hx : Rlp.encode (.ofReceipt r) = Rlp.encode (.ofReceipt r') := by
    rcases receiptBytes_head tx r h with ⟨-, rest, -, e, f, e2, hf⟩ | ⟨f, e, hf⟩ <;>
      rcases receiptBytes_head tx' r' h' with ⟨-, rest', -, e', f', e2', hf'⟩ | ⟨f', e', hf'⟩
    · rw [← e, ← e', he]
    · rw [he, e'] at e2
      obtain ⟨rfl, -⟩ := List.cons.inj e2
      exact absurd hf' hf
    · rw [← he, e] at e2'
      obtain ⟨rfl, -⟩ := List.cons.inj e2'
      exact absurd hf hf'
    · rw [he, e'] at e
      exact (List.cons.inj e).2.symm
  have h1 := C37_decode_encode (.ofReceipt r) (receiptBytes_decode _ _ h)
  have h2 := C37_decode_encode (.ofReceipt r') (receiptBytes_decode _ _ h')
  rw [hx, h2] at h1
  exact (Rlp.ofReceipt_inj (Option.some.inj h1)).symm

/-- **C35**, receipts: two lists of receipts with the same receipts root (see `C35_roots`) are the same, unless there is a
collision. (No receipt has an encoding of 2^62 bytes or more.) -/
theorem C35_receipts {C : Crypto} {rs rs' : List (Transaction × Receipt)} {r : Word} (hl : rs.length < 2 ^ 64) (hl' : rs'.length < 2 ^ 64)
    (h : trieRoot C false (indexEntries (rs.map fun p => receiptBytes p.1 p.2)) = .ok r)
    (h' : trieRoot C false (indexEntries (rs'.map fun p => receiptBytes p.1 p.2)) = .ok r)
    (hs : ∀ p ∈ rs ++ rs', (receiptBytes p.1 p.2).length < 2 ^ 62)
    (hc : NoCollision C (hashedByRoot C false (indexEntries (rs.map fun p => receiptBytes p.1 p.2)) ++
      hashedByRoot C false (indexEntries (rs'.map fun p => receiptBytes p.1 p.2)))) : rs.map Prod.snd = rs'.map Prod.snd := by
  have hw := indexRoot_inj (by rw [List.length_map]; exact hl) (by rw [List.length_map]; exact hl')
    (fun v hv => by obtain ⟨p, hp, rfl⟩ := List.mem_map.mp hv; exact hs p (List.mem_append_left _ hp))
    (fun v hv => by obtain ⟨p, hp, rfl⟩ := List.mem_map.mp hv; exact hs p (List.mem_append_right _ hp)) h h' hc
  clear hc h h' hl hl'
  induction rs generalizing rs' with
  | nil => cases rs' with
    | nil => rfl
    | cons p q => cases hw
  | cons p q ih => cases rs' with
    | nil => cases hw
    | cons p' q' =>
      simp only [List.map_cons, List.cons.injEq] at hw ⊢
      exact ⟨receiptBytes_inj (hs p (by simp)) (hs p' (by simp)) hw.1,
        ih (fun x hx => hs x (by simp at hx ⊢; tauto)) hw.2⟩

/-! ### A concrete case

A toy hash function that does not collide on the inputs of the example and hashes the empty trie to `emptyTrieRoot`. -/

def commitHash (b : Bytes) : Word :=
  if b = [0x80] then emptyTrieRoot else if b.length = 32 then BitVec.ofNat 256 (fromBE b) else BitVec.ofNat 256 (fromBE (7 :: b) % (2 ^ 256 - 189))

def commitCrypto : Crypto := { sampleCrypto with keccak256 := commitHash }

/-- The chain of `sampleChain`, with the parent's hash computed with the toy hash. -/
def commitBody : Except (BlockExn × BlockState) BlockState :=
  applyBody commitCrypto (blockEnvOf commitCrypto sampleChain sampleBlock.header) sampleChain.state sampleBlock.transactions sampleBlock.withdrawals

/-- A header with the roots of the sample block under the toy hash. -/
def commitHeader : Option Header :=
  match commitBody with
  | .error _ => none
  | .ok b => match commitments commitCrypto b with
    | .error _ => none
    | .ok k => some { sampleBlock.header with
        parentHash := commitHash (Rlp.encode (.ofHeader .osaka sampleParent)), ommersHash := commitHash [0xc0], stateRoot := k.stateRoot,
        transactionsRoot := k.transactionsRoot, receiptRoot := k.receiptRoot, withdrawalsRoot := k.withdrawalsRoot, bloom := k.bloom,
        gasUsed := b.out.blockGasUsed, requestsHash := k.requestsHash }

/-- Two different blocks with the same roots. -/
def commitBlocks (h : Header) : Block × Block := ({ sampleBlock with header := h }, { sampleBlock with header := { h with extraData := [1] } })

instance (C : Crypto) (l : List Bytes) : Decidable (NoCollision C l) := by unfold NoCollision; infer_instance

/-- What the examples need: both blocks are imported, and there is no collision for the roots of the transactions, of the
withdrawals and of the state. -/
def commitCase : Bool :=
  match commitHeader with
  | none => false
  | some h =>
    let bs := commitBlocks h
    match stateTransition commitCrypto sampleChain bs.1, stateTransition commitCrypto sampleChain bs.2 with
    | .ok d, .ok d' =>
      decide (h.extraData = []) && decide (NoCollision commitCrypto (hashedByStateRoot commitCrypto d.state ++ hashedByStateRoot commitCrypto d'.state)) &&
      decide (NoCollision commitCrypto (hashedByRoot commitCrypto false (indexEntries [wireBytes (.legacy sampleTx)]))) &&
      decide (NoCollision commitCrypto (hashedByRoot commitCrypto false
        (indexEntries (sampleBlock.withdrawals.map fun w => Rlp.encode (.ofWithdrawal w)))))
    | _, _ => false


theorem commit_case : commitCase = true := by decide +kernel

theorem nonceBound_of {s : State} (hd : s.mainTrie.default = none)
    (h : s.mainTrie.data.entries.all (fun e => match e.2 with | none => true | some a => decide (a.nonce < 2 ^ 64)) = true) : NonceBound s := by
  intro a
  unfold getAccount getAccountOptional trieGet
  match e : s.mainTrie.data.get? a with
  | none => rw [hd]; decide
  | some x =>
    have := List.all_eq_true.mp h (a, x) ((Dict.mem_iff _ _ _).mpr e)
    match x with
    | none => exact Nat.two_pow_pos 64
    | some acc => simpa using this

theorem sample_nonceBound : NonceBound sampleChain.state := nonceBound_of rfl (by decide +kernel)

theorem sample_noStorage : sampleChain.state.storageTries = Dict.empty := rfl

/-- Two different blocks meet all hypotheses of `C35_block`, `C35_transactions` and `C35_withdrawals`. -/
theorem C35_hypotheses_met : ∃ (b b' : Block) (d d' : BlockChain), b ≠ b' ∧
    stateTransition commitCrypto sampleChain b = .ok d ∧ stateTransition commitCrypto sampleChain b' = .ok d' ∧
    b.header.stateRoot = b'.header.stateRoot ∧ b.header.transactionsRoot = b'.header.transactionsRoot ∧
    b.header.withdrawalsRoot = b'.header.withdrawalsRoot ∧ b.transactions ≠ [] ∧ b.withdrawals ≠ [] ∧
    Idle sampleChain.state ∧ Secured sampleChain.state ∧ NoOrphans sampleChain.state ∧ NonceBound sampleChain.state ∧
    commitCrypto.keccak256 [0x80] = emptyTrieRoot ∧
    NoCollision commitCrypto (hashedByStateRoot commitCrypto d.state ++ hashedByStateRoot commitCrypto d'.state) ∧
    NoCollision commitCrypto (hashedByRoot commitCrypto false (indexEntries [wireBytes (.legacy sampleTx)])) ∧
    NoCollision commitCrypto (hashedByRoot commitCrypto false
      (indexEntries (b.withdrawals.map fun w => Rlp.encode (.ofWithdrawal w)))) := by
  have hc := commit_case
  unfold commitCase at hc
  split at hc
  · cases hc
  · rename_i h hh
    dsimp only at hc
    split at hc
    · rename_i d d' hd hd'
      simp only [Bool.and_eq_true, decide_eq_true_eq] at hc
      obtain ⟨⟨⟨hx, h1⟩, h4⟩, h5⟩ := hc
      refine ⟨_, _, d, d', ?_, hd, hd', rfl, rfl, rfl, by simp [commitBlocks, sampleBlock], by simp [commitBlocks, sampleBlock], sample_idle,
        ⟨rfl, fun a t ht => ?_⟩, fun a k _ => ?_, sample_nonceBound, by decide +kernel, h1, h4, h5⟩
      · intro he
        have := congrArg (fun b : Block => b.header.extraData) he
        simp only [commitBlocks, hx] at this
        cases this
      · rw [sample_noStorage] at ht; simp at ht
      · unfold getStorage; rw [sample_noStorage]; rfl
    · cases hc

end Verif.Props
