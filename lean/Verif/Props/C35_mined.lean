import Verif.Props.C35_body
import Verif.Props.C80_receipts
import Verif.Lemmas.SamplePowEvm
/-!
C35, for the body of a mined block: the roots in its header determine the transactions and the receipts. C80, for the receipts that the transition tool reports.
-/
namespace Verif.Props
open Verif Pow Ethash Spec T8n

/-- The roots of the tries that a list of transactions leaves. -/
theorem txs_roots {C : Crypto} {B : BlockEnv} {s : State} {b : BlockState} {txs : List (LegacyTx ⊕ Bytes)} {rs : List (Transaction × Receipt)}
    (h : processTransactions C B ⟨s, BlockOutput.empty⟩ 0 txs = .ok b) (hl : txs.length < 2 ^ 64) (q : ReceiptsAdded C s.fork 0 txs BlockOutput.empty b.out rs) :
    txs.map (decodeTransaction s.fork) = rs.map (fun p => .ok p.1) ∧
      indexTrieRoot C encodeTxNode b.out.transactionsTrie = trieRoot C false (indexEntries (rs.map fun p => wireBytes p.1)) ∧
      indexTrieRoot C encodeReceiptNode b.out.receiptsTrie = trieRoot C false (indexEntries (rs.map fun p => receiptBytes p.1 p.2)) := by
  obtain ⟨p1, p2, -⟩ := transactions_plain _ h Plain.empty Plain.empty
  have hat : ∀ {j : Nat} {p : Transaction × Receipt}, rs[j]? = some p → trieGet b.out.receiptsTrie (indexKey j) = some (encodeReceipt p.1 p.2) ∧
      trieGet b.out.transactionsTrie (indexKey j) = some (encodeTransaction p.1) := by
    intro j p hp
    have h2 := (List.getElem?_eq_some_iff.mp hp).1
    rw [q.length] at h2
    obtain ⟨-, -, -, h3, h4⟩ := q.each j _ p (List.getElem?_eq_getElem h2) hp
    rw [Nat.zero_add] at h3 h4
    exact ⟨h3, h4⟩
  have hout : ∀ k, (∀ j, j < rs.length → k ≠ indexKey j) → trieGet b.out.receiptsTrie k = none ∧ trieGet b.out.transactionsTrie k = none := by
    intro k hk
    obtain ⟨h1, h2⟩ := q.others k fun j hj => by
      rw [Nat.zero_add]; exact hk j (by rw [q.length]; exact hj)
    exact ⟨h1, h2⟩
  have hlr : rs.length < 2 ^ 64 := by rw [q.length]; exact hl
  refine ⟨?_, ?_, ?_⟩
  · apply List.ext_getElem?
    intro j
    rw [List.getElem?_map, List.getElem?_map]
    match e : txs[j]?, e' : rs[j]? with
    | none, none => rfl
    | none, some p =>
      have h1 := List.getElem?_eq_none_iff.mp e
      have h2 := (List.getElem?_eq_some_iff.mp e').1
      have := q.length
      omega
    | some t, none =>
      have h1 := List.getElem?_eq_none_iff.mp e'
      have h2 := (List.getElem?_eq_some_iff.mp e).1
      have := q.length
      omega
    | some t, some p => rw [Option.map_some, Option.map_some, (q.each j t p e e').1]
  · rw [indexRoot_eq (xs := rs.map fun p => encodeTransaction p.1) p1 (by rw [List.length_map]; exact hlr)]
    · rw [List.map_map]; rfl
    · intro j x hj
      rw [List.getElem?_map, Option.map_eq_some_iff] at hj
      obtain ⟨p, hp, rfl⟩ := hj
      exact (hat hp).2
    · intro k hk
      exact (hout k fun j hj => hk j (by rw [List.length_map]; exact hj)).2
  · rw [indexRoot_eq (xs := rs.map fun p => encodeReceipt p.1 p.2) p2 (by rw [List.length_map]; exact hlr)]
    · rw [List.map_map]; rfl
    · intro j x hj
      rw [List.getElem?_map, Option.map_eq_some_iff] at hj
      obtain ⟨p, hp, rfl⟩ := hj
      exact (hat hp).1
    · intro k hk
      exact (hout k fun j hj => hk j (by rw [List.length_map]; exact hj)).1

/-- **C35**, what the roots of a mined block are: the transactions root is the root of the trie that has the encoding of the j-th transaction under the RLP of j, and the
same with the receipts, which have increasing cumulative gas up to the gas used; the bloom filter is that of their logs. -/
theorem C35_mined_roots {C : Crypto} {K : Hashes} {F : PowFork} {c d : PowChain Txs} {b : PowBlock Txs} (h : Pow.stateTransition K (evmExec C K) F c b = .ok d)
    (hg : b.header.gasUsed < 2 ^ 64) :
    ∃ rs : List (Transaction × Receipt), b.transactions.map (decodeTransaction F.fork) = rs.map (fun p => .ok p.1) ∧
      trieRoot C false (indexEntries (rs.map fun p => wireBytes p.1)) = .ok b.header.transactionsRoot ∧
      trieRoot C false (indexEntries (rs.map fun p => receiptBytes p.1 p.2)) = .ok b.header.receiptRoot ∧
      (0 :: rs.map fun p => p.2.cumulativeGasUsed).Pairwise (· < ·) ∧
      (0 :: rs.map fun p => p.2.cumulativeGasUsed).getLast? = some b.header.gasUsed ∧
      logsBloom C (rs.flatMap fun p => p.2.logs) = b.header.bloom := by
  obtain ⟨-, -, s, t, hrun, -, e1, e2, -, e4, e5, -, -⟩ := powTransition_ok h
  obtain ⟨b1, hb, rfl, f1, f2, f3, f4⟩ := evmExec_ok hrun
  have hlim := (C27_limits _ hb (Nat.zero_le _) (Nat.zero_le _)).2.2.1
  have hpos := Nat.le_mul_of_pos_left b.transactions.length (leastGas_pos ({ c.state with fork := F.fork } : State).fork)
  have hlen : b.transactions.length < 2 ^ 64 := by
    rw [← f1, e1] at hlim
    exact Nat.lt_of_le_of_lt (Nat.le_trans hpos (Nat.le_trans (Nat.le_add_left _ _) hlim)) hg
  obtain ⟨rs, q⟩ := C27_receipts _ hb (by omega)
  obtain ⟨g1, g2, g3⟩ := txs_roots hb hlen q
  refine ⟨rs, g1, ?_, ?_, q.cumulative, ?_, ?_⟩
  · rw [← g2, f2, e2]
  · rw [← g3, f3, e4]
  · have := q.total
    rw [← f1, e1] at this
    exact this
  · have := q.logs
    rw [← e5, f4, this]
    rfl

/-- **C35**, transactions of mined blocks: mined blocks with the same transactions root have the same transactions in the same order, unless there is a collision among
the byte strings hashed for the two roots; also if they are of different forks. (No transaction has an encoding of 2^62 bytes or more.) -/
theorem C35_mined_transactions {C : Crypto} {K : Hashes} {F F' : PowFork} {c c' d d' : PowChain Txs} {b b' : PowBlock Txs}
    (h : Pow.stateTransition K (evmExec C K) F c b = .ok d) (h' : Pow.stateTransition K (evmExec C K) F' c' b' = .ok d')
    (hg : b.header.gasUsed < 2 ^ 64) (hg' : b'.header.gasUsed < 2 ^ 64) (hroot : b.header.transactionsRoot = b'.header.transactionsRoot)
    (hs : ∀ t ∈ b.transactions ++ b'.transactions, ∀ tx, decodeTransaction .osaka t = .ok tx → (wireBytes tx).length < 2 ^ 62)
    (hc : ∀ txs txs' : List Transaction, b.transactions.map (decodeTransaction .osaka) = txs.map .ok → b'.transactions.map (decodeTransaction .osaka) = txs'.map .ok →
      NoCollision C (hashedByRoot C false (indexEntries (txs.map wireBytes)) ++ hashedByRoot C false (indexEntries (txs'.map wireBytes)))) :
    b.transactions.map (decodeTransaction .osaka) = b'.transactions.map (decodeTransaction .osaka) := by
  obtain ⟨rs, e0, r, -, i, i', -⟩ := C35_mined_roots h hg
  obtain ⟨rs', e0', r', -, j, j', -⟩ := C35_mined_roots h' hg'
  have e := decodes_later e0
  have e' := decodes_later e0'
  have count : ∀ {rs : List (Transaction × Receipt)} {n : Nat}, (0 :: rs.map fun p => p.2.cumulativeGasUsed).Pairwise (· < ·) →
      (0 :: rs.map fun p => p.2.cumulativeGasUsed).getLast? = some n → n < 2 ^ 64 → rs.length < 2 ^ 64 := by
    intro rs n h1 h2 h3
    have key : ∀ (l : List Nat) (x : Nat), (x :: l).Pairwise (· < ·) → ∀ n, (x :: l).getLast? = some n → x + l.length ≤ n := by
      intro l
      induction l with
      | nil => intro x _ n h; cases h; exact Nat.le_refl _
      | cons y l ih =>
        intro x hp n hn
        rw [List.getLast?_cons_cons] at hn
        obtain ⟨h1, h2⟩ := List.pairwise_cons.mp hp
        have := ih y h2 n hn
        have := h1 y (List.mem_cons_self ..)
        rw [List.length_cons]; omega
    have := key _ _ h1 n h2
    rw [List.length_map] at this
    omega
  have hm : ∀ {l : List (LegacyTx ⊕ Bytes)} {rs : List (Transaction × Receipt)}, l.map (decodeTransaction .osaka) = rs.map (fun p => .ok p.1) →
      (∀ t ∈ l, ∀ tx, decodeTransaction .osaka t = .ok tx → (wireBytes tx).length < 2 ^ 62) →
      ∀ p ∈ rs, WellTyped p.1 ∧ (wireBytes p.1).length < 2 ^ 62 := by
    intro l rs e hs p hp
    have : (Except.ok p.1 : Except DecodeError Transaction) ∈ l.map (decodeTransaction .osaka) := by rw [e]; exact List.mem_map.mpr ⟨p, hp, rfl⟩
    obtain ⟨t, ht, hd⟩ := List.mem_map.mp this
    exact ⟨decode_wellTyped hd, hs t ht _ hd⟩
  have m1 := hm e fun t ht => hs t (List.mem_append_left _ ht)
  have m2 := hm e' fun t ht => hs t (List.mem_append_right _ ht)
  have hc := hc (rs.map Prod.fst) (rs'.map Prod.fst) (by rw [e, List.map_map]; rfl) (by rw [e', List.map_map]; rfl)
  rw [List.map_map, List.map_map] at hc
  have hw := indexRoot_inj (by rw [List.length_map]; exact count i i' hg) (by rw [List.length_map]; exact count j j' hg')
    (fun v hv => by obtain ⟨p, hp, rfl⟩ := List.mem_map.mp hv; exact (m1 p hp).2)
    (fun v hv => by obtain ⟨p, hp, rfl⟩ := List.mem_map.mp hv; exact (m2 p hp).2) r (by rw [hroot]; exact r') hc
  rw [e, e']
  clear hc r r' e e' e0 e0' i i' j j'
  induction rs generalizing rs' with
  | nil => cases rs' with
    | nil => rfl
    | cons p q => cases hw
  | cons p q ih => cases rs' with
    | nil => cases hw
    | cons p' q' =>
      simp only [List.map_cons, List.cons.injEq] at hw ⊢
      have a1 := m1 p (by simp)
      have a2 := m2 p' (by simp)
      refine ⟨?_, ih _ (fun x hx => m1 x (by simp [hx])) (fun x hx => m2 x (by simp [hx])) hw.2⟩
      rw [C38_no_clash p.1 p'.1 a1.1 a2.1 (Nat.lt_trans a1.2 (by decide)) hw.1]

theorem decode_known {f : Fork} {t : LegacyTx ⊕ Bytes} {tx : Transaction} (h : decodeTransaction f t = .ok tx) : Known f tx := by
  by_cases hz : f.since .byzantium = true
  · exact .inr hz
  · match t with
    | .inl t => cases h; exact .inl ⟨t, rfl⟩
    | .inr [] => cases h
    | .inr (c :: l) =>
      exfalso
      simp only [decodeTransaction] at h
      by_cases h0 : ¬ f.since (txTypeFirstFork c) = true
      · rw [if_pos h0] at h; cases h
      · have h1 : f.since (txTypeFirstFork c) = true := Decidable.not_not.mp h0
        refine hz (since_later h1 ?_)
        unfold txTypeFirstFork
        (repeat' split) <;> rfl

/-- **C80**, the receipts that the tool reports for a mined block without ommers: one for each transaction, in order, under the hash of the transaction; they are those of
which the header has the root, and the logs whose hash it reports are theirs. (The hypotheses are those of `C80_mined`.) -/
theorem C80_mined_receipts {C : Crypto} {K : Hashes} {F : PowFork} {c c' : PowChain Txs} {b : PowBlock Txs} {p : PowHeader} {d : EnvData}
    (hK : F.fork.since .byzantium = true → C.keccak256 (Rlp.encode (.list [])) = K.keccak256 (Rlp.encode (.list [])))
    (hc : PowChainFits F c) (hh : MinedFits F b.header) (hd : DescribesMined C K F c p b.header d) (ho : b.ommers = []) (hdo : d.ommers = [])
    (h : Pow.stateTransition K (evmExec C K) F c b = .ok c') {B : BlockEnv} (hB : blockEnvironment C F.fork c.chainId d = .ok (some B)) {s' : State} {r : Result}
    (hr : runBlockchainTest C B none d.ommers d.withdrawals c.state (readTxs F.fork 0 b.transactions) = .ok (s', r)) :
    ∃ rs : List (Transaction × Receipt), b.transactions.map (decodeTransaction F.fork) = rs.map (fun p => .ok p.1) ∧
      trieRoot C false (indexEntries (rs.map fun p => receiptBytes p.1 p.2)) = .ok b.header.receiptRoot ∧
      (0 :: rs.map fun p => p.2.cumulativeGasUsed).Pairwise (· < ·) ∧
      (∀ p ∈ rs, F.fork.since .byzantium = true → ∃ ok, p.2.status = .succeeded ok) ∧
      r.receipts = rs.map (fun p => (C.keccak256 (wireBytes p.1), p.2)) ∧
      r.logsHash = C.keccak256 (Rlp.encode (.list ((rs.flatMap fun p => p.2.logs).map .ofLog))) ∧
      r.withdrawalsRoot = none ∧ r.excessBlobGas = none ∧ r.blobGasUsed = none ∧ r.requests = none ∧ r.requestsHash = none := by
  obtain ⟨q0, hq, -⟩ := hc.last
  have hp : q0.header = p := by have := hd.parent; rw [hq] at this; exact Option.some.inj this
  have hnext := hd.next
  have hlen0 := powHashes_length (K := K) hq
  obtain ⟨q1, hq1, hl1⟩ := hc.last
  rw [hq] at hq1
  cases hq1
  have hashes : min 256 b.header.number ≤ (lastBlockHashes K c.blocks).length := by rw [← hp] at hnext; omega
  obtain ⟨hv, -, -⟩ := powTransition_ok h
  have v := mined_parent hc.numbered hd.parent hnext hv
  obtain ⟨pre, hs, w1, w2, w3⟩ := environment_mined hd hK v hashes
  have hn : 1 ≤ (powEnvOf K c.chainId c.blocks b.header).number := by
    show 1 ≤ b.header.number
    rw [hnext]; exact Nat.le_add_left _ _
  rw [hB] at w3
  have eB := Option.some.inj (Except.ok.inj w3)
  subst eB
  obtain ⟨b1, w, hb, hbody, hk, -, hfk, -, hgas⟩ := mined_body (om := d.withdrawals) hc hh hashes ho h
  have hfits := mined_fits (c := c) (K := K) hh hashes
  have hlim := C27_limits _ hb (Nat.zero_le _) (Nat.zero_le _)
  have hpos := Nat.le_mul_of_pos_left b.transactions.length (leastGas_pos c.state.fork)
  have hglim : b1.out.blockGasUsed ≤ b.header.gasLimit := hlim.1
  have hlen : b.transactions.length < 2 ^ 64 := by
    have h1 := hlim.2.2.1
    have h2 := hh.gasLimit
    exact Nat.lt_of_le_of_lt (Nat.le_trans hpos (Nat.le_trans (Nat.le_add_left _ _) h1)) (by omega)
  obtain ⟨rs, q⟩ := C27_receipts _ hb (by omega)
  obtain ⟨g1, -, g3⟩ := txs_roots hb hlen q
  have hroot : indexTrieRoot C encodeReceiptNode b1.out.receiptsTrie = .ok b.header.receiptRoot := by
    have hk := hk
    unfold commitments at hk
    rw [except_bind_ok] at hk
    obtain ⟨x0, -, hk⟩ := hk
    rw [except_bind_ok] at hk
    obtain ⟨x1, -, hk⟩ := hk
    rw [except_bind_ok] at hk
    obtain ⟨x2, hx2, hk⟩ := hk
    rw [except_bind_ok] at hk
    obtain ⟨x3, -, hk⟩ := hk
    have e := congrArg Commitments.receiptRoot (Except.ok.inj hk)
    rw [← show x2 = b.header.receiptRoot from e]
    exact hx2
  have hstat : ∀ p ∈ rs, F.fork.since .byzantium = true → ∃ ok, p.2.status = .succeeded ok := by
    intro p hp hz
    obtain ⟨j, hj, rfl⟩ := List.mem_iff_getElem.mp hp
    have hj' := hj
    rw [q.length] at hj'
    exact (q.each j _ _ (List.getElem?_eq_getElem hj') (List.getElem?_eq_getElem hj)).2.1 (by show c.state.fork.since _ = true; rw [hc.fork]; exact hz)
  have hdec : ∀ (j : Nat) (p : Transaction × Receipt), rs[j]? = some p → decodeReceipt (encodeReceipt p.1 p.2) = some p.2 := by
    intro j p hp
    have h2 := (List.getElem?_eq_some_iff.mp hp).1
    rw [q.length] at h2
    obtain ⟨h0, -, -, h3, -⟩ := q.each j _ p (List.getElem?_eq_getElem h2) hp
    by_cases hz : F.fork.since .byzantium = true
    · obtain ⟨ok, hok⟩ := hstat p (List.mem_of_getElem? hp) hz
      obtain ⟨tx, rc, h5, h6⟩ := receipts_small hfits hz _ hc.fork hb (by omega) j h2
      rw [h3] at h5
      exact encoded_small (Option.some.inj h5) hok h6
    · have hk : Known c.state.fork p.1 := decode_known h0
      rcases hk with ⟨t, ht⟩ | hk
      · rw [ht]; rfl
      · rw [hc.fork] at hk; exact absurd hk hz
  have hrep := reported_receipts (C := C) (out := b1.out) rs 0 fun j p hp => by
    have h2 := (List.getElem?_eq_some_iff.mp hp).1
    rw [q.length] at h2
    obtain ⟨-, -, -, h3, h4⟩ := q.each j _ p (List.getElem?_eq_getElem h2) hp
    exact ⟨h3, h4, hdec j p hp⟩
  have hkeys : b1.out.receiptKeys = (List.range rs.length).map fun j => indexKey (0 + j) := by rw [q.keys, q.length]; rfl
  rw [runTest_window hn w1 w2, hdo] at hr
  unfold runBlockchainTest at hr
  rw [hbody] at hr
  dsimp only at hr
  unfold update at hr
  rw [hk] at hr
  dsimp only at hr
  rw [hkeys, hrep] at hr
  have hres := (Prod.mk.inj (Except.ok.inj hr)).2
  have n1 : F.fork.since .prague = false := by cases F <;> decide
  have n2 : F.fork.since .cancun = false := by cases F <;> decide
  have n3 : F.fork.since .shanghai = false := by cases F <;> decide
  refine ⟨rs, hc.fork ▸ g1, g3.symm.trans hroot, q.cumulative, hstat, ?_⟩
  rw [← hres]
  have hlogs : b1.out.blockLogs = rs.flatMap fun p => p.2.logs := by rw [q.logs]; rfl
  refine ⟨List.map_congr_left fun p _ => Prod.ext ?_ rfl, ?_, ?_, ?_, rfl, ?_, ?_⟩
  · cases p.1 <;> rfl
  · dsimp only; rw [hlogs]
  · dsimp only; rw [hfk, n3]; rfl
  · dsimp only; rw [hfk, n2]; rfl
  · dsimp only; rw [hfk, n1]; rfl
  · dsimp only; rw [hfk, n1]; rfl

/-! ### Examples -/

/-- The sample block of frontier meets the hypotheses of `C35_mined_roots` and `C35_mined_transactions`. -/
example : (∃ d, Pow.stateTransition sampleK (evmExec sampleCrypto sampleK) .frontier powEvmChain powEvmBlock = .ok d) ∧ powEvmBlock.header.gasUsed < 2 ^ 64 ∧
    powEvmBlock.transactions = [.inl sampleTx] ∧ (wireBytes (.legacy sampleTx)).length < 2 ^ 62 ∧
    NoCollision sampleCrypto (hashedByRoot sampleCrypto false (indexEntries [wireBytes (.legacy sampleTx)]) ++
      hashedByRoot sampleCrypto false (indexEntries [wireBytes (.legacy sampleTx)])) := by
  obtain ⟨s', h1, h2⟩ := seal_accepts (C := sampleCrypto) (g := powEvmGenesis) (h := powEvmHead) (txs := [.inl sampleTx]) (st := powEvmState) (n := 1) (cb := 0xa)
    (p := fun s => getStorage s 88 1 == 7 && (getAccount s 77).nonce == 1) powEvm_fields.1 powEvm_fields.2.1 powEvm_rules powEvm_ommers powEvm_runs
  exact ⟨⟨_, h1⟩, by decide +kernel, rfl, by decide +kernel, by decide +kernel⟩

/-- The tool reports the receipt of the sample block of frontier; the hypotheses of `C80_mined_receipts` are met. -/
example : ∃ B s' r, ∃ rs : List (Transaction × Receipt), blockEnvironment sampleCrypto .frontier 1 minedInput = .ok (some B) ∧
    runBlockchainTest sampleCrypto B none [] minedInput.withdrawals powEvmState (readTxs .frontier 0 [.inl sampleTx]) = .ok (s', r) ∧
    rs.length = 1 ∧ r.receipts = rs.map fun p => (sampleCrypto.keccak256 (wireBytes p.1), p.2) := by
  obtain ⟨s', h1, h2⟩ := seal_accepts (C := sampleCrypto) (g := powEvmGenesis) (h := powEvmHead) (txs := [.inl sampleTx]) (st := powEvmState) (n := 1) (cb := 0xa)
    (p := fun s => getStorage s 88 1 == 7 && (getAccount s 77).nonce == 1) powEvm_fields.1 powEvm_fields.2.1 powEvm_rules powEvm_ommers powEvm_runs
  obtain ⟨B, r, k1, -, k2, -⟩ := C80_mined (C := sampleCrypto) (K := sampleK) (F := .frontier) (c := powEvmChain) (b := powEvmBlock) (d := minedInput)
    (fun h => by cases h) powEvm_fits powEvm_block_fits.1 mined_describes rfl rfl h1
  obtain ⟨rs, g1, -, -, -, g2, -⟩ := C80_mined_receipts (fun h => by cases h) powEvm_fits powEvm_block_fits.1 mined_describes rfl rfl h1 k1 k2
  refine ⟨B, s', r, rs, k1, k2, ?_, g2⟩
  have := congrArg List.length g1
  rw [List.length_map, List.length_map] at this
  exact this.symm

end Verif.Props
