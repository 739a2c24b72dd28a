import Verif.Lemmas.TxSeq
import Verif.Lemmas.SampleTx
import Verif.Spec.Deposit
/-! Property C27: the gas and blob gas of a block stay within their limits; one receipt per transaction, in order. -/
namespace Verif.Props
open Verif Verif.Spec

/-- The least gas a transaction pays for: 21000; before prague a refund can take off a fifth, before london half. -/
def leastGas (f : Fork) : Nat := if f.since .prague then 21000 else if f.since .london then 16800 else 10500

theorem least_le_charged {C : Crypto} {B : BlockEnv} {b b' : BlockState} {tx : Transaction} {i : Nat} {sender : Address}
    {msg : Message} {o : MessageCallOutput} {w : World} {s1 s2 : State} (h : Ran C B b tx i b' sender msg o w s1 s2) :
    leastGas b.state.fork ≤ gasCharged b.state.fork tx o := by
  unfold leastGas
  split
  · rename_i hf
    refine Nat.le_trans ?_ (Nat.le_max_right _ _)
    unfold floorGas
    rw [if_pos hf, Nat.add_assoc]
    exact Nat.le_add_right _ _
  · refine Nat.le_trans ?_ (Nat.le_max_left _ _)
    have h1 := gasLeft_le h.message h.run
    have h2 := h.includable.valid.gas
    have h3 : 21000 ≤ intrinsicGas b.state.fork tx := by
      unfold intrinsicGas; simp only [Nat.add_assoc]; exact Nat.le_add_right _ _
    unfold consumed refundShare
    split <;> omega

theorem leastGas_pos (f : Fork) : 0 < leastGas f := by unfold leastGas; split <;> (try split) <;> omega

theorem add_charged {a n m c x : Nat} (h : m ≤ x) (h1 : a + x + n ≤ c) : a + (n + m) ≤ c := by omega

/-- **C27.** However many transactions are included, the gas and the blob gas of the block stay within the limits: 9 blobs of 131072
units, 6 in cancun, none before. -/
theorem C27_limits {C : Crypto} {B : BlockEnv} (txs : List (LegacyTx ⊕ Bytes)) : ∀ {b b' : BlockState} {i : Nat},
    processTransactions C B b i txs = .ok b' → b.out.blockGasUsed ≤ B.blockGasLimit → b.out.blobGasUsed ≤ 131072 * maxBlobs b.state.fork →
    b'.out.blockGasUsed ≤ B.blockGasLimit ∧ b'.out.blobGasUsed ≤ 131072 * maxBlobs b.state.fork ∧
      b.out.blockGasUsed + leastGas b.state.fork * txs.length ≤ b'.out.blockGasUsed ∧ b.out.blobGasUsed ≤ b'.out.blobGasUsed := by
  induction txs with
  | nil => intro b b' i h h1 h2; cases h; exact ⟨h1, h2, by simp, Nat.le_refl _⟩
  | cons t r ih =>
    intro b b' i h h1 h2
    obtain ⟨tx, b1, -, hp, hr⟩ := processTransactions_cons h
    obtain ⟨sender, msg, o, w, s1, s2, hran⟩ := processTransaction_ok.mp hp
    have e1 : b1.out.blockGasUsed = b.out.blockGasUsed + gasCharged b.state.fork tx o := by rw [hran.result]; rfl
    have e2 : b1.out.blobGasUsed = b.out.blobGasUsed + blobGas tx := by rw [hran.result]; rfl
    have hu := gasCharged_le o hran.includable.valid.floor
    have hroom := hran.includable.room
    have hbroom : b.out.blobGasUsed + blobGas tx ≤ 131072 * maxBlobs b.state.fork := by
      by_cases hf : b.state.fork.since .cancun = true
      · exact hran.includable.blobRoom hf
      · unfold blobGas; rw [hran.includable.blobKnown (by simpa using hf)]; simpa using h2
    have hfloor := least_le_charged hran
    have hfk := ran_fork hran
    obtain ⟨g1, g2, g3, g4⟩ := ih hr (by omega) (by rw [hfk]; omega)
    rw [hfk] at g2 g3
    refine ⟨g1, g2, ?_, by omega⟩
    rw [List.length_cons, Nat.mul_add, Nat.mul_one]
    rw [e1] at g3
    exact add_charged hfloor g3

/-- The receipts of included transactions: for each of them one with the status (the state root before byzantium), the logs and their bloom filter, and the
cumulative gas, under the number of the transaction; nothing else changes. -/
structure ReceiptsAdded (C : Crypto) (f : Fork) (i : Nat) (txs : List (LegacyTx ⊕ Bytes)) (out out' : BlockOutput)
    (rs : List (Transaction × Receipt)) : Prop where
  length : rs.length = txs.length
  each : ∀ (j : Nat) (t : LegacyTx ⊕ Bytes) (p : Transaction × Receipt), txs[j]? = some t → rs[j]? = some p →
    decodeTransaction f t = .ok p.1 ∧ (f.since .byzantium = true → ∃ ok, p.2.status = .succeeded ok) ∧ p.2.bloom = logsBloom C p.2.logs ∧
    trieGet out'.receiptsTrie (indexKey (i + j)) = some (encodeReceipt p.1 p.2) ∧
    trieGet out'.transactionsTrie (indexKey (i + j)) = some (encodeTransaction p.1)
  keys : out'.receiptKeys = out.receiptKeys ++ (List.range txs.length).map fun j => indexKey (i + j)
  logs : out'.blockLogs = out.blockLogs ++ rs.flatMap fun p => p.2.logs
  cumulative : (out.blockGasUsed :: rs.map fun p => p.2.cumulativeGasUsed).Pairwise (· < ·)
  total : (out.blockGasUsed :: rs.map fun p => p.2.cumulativeGasUsed).getLast? = some out'.blockGasUsed
  others : ∀ k, (∀ j, j < txs.length → k ≠ indexKey (i + j)) →
    trieGet out'.receiptsTrie k = trieGet out.receiptsTrie k ∧ trieGet out'.transactionsTrie k = trieGet out.transactionsTrie k

/-- **C27.** The receipts of a block: one per transaction, in order, with increasing cumulative gas; the last is the gas used
by the block. -/
theorem C27_receipts {C : Crypto} {B : BlockEnv} (txs : List (LegacyTx ⊕ Bytes)) : ∀ {b b' : BlockState} {i : Nat},
    processTransactions C B b i txs = .ok b' → i + txs.length < 2 ^ 64 → ∃ rs, ReceiptsAdded C b.state.fork i txs b.out b'.out rs := by
  induction txs with
  | nil =>
    intro b b' i h _
    cases h
    exact ⟨[], rfl, fun j t p h _ => by simp at h, by simp, by simp, by simp, by simp, fun k _ => ⟨rfl, rfl⟩⟩
  | cons t r ih =>
    intro b b' i h hlen
    rw [List.length_cons] at hlen
    obtain ⟨tx, b1, hdec, hp, hr⟩ := processTransactions_cons h
    obtain ⟨sender, msg, o, w, s1, s2, hran⟩ := processTransaction_ok.mp hp
    obtain ⟨rs, q⟩ := ih hr (by omega)
    have e1 : b1.out = outAfter C b.state.fork b.out tx i o (statusOf C (finalDeletions s2 o) o.error) := by rw [hran.result]
    have hfloor := least_le_charged hran
    have hpos := leastGas_pos b.state.fork
    rw [ran_fork hran] at q
    have hother : ∀ j, j < r.length → indexKey i ≠ indexKey (i + 1 + j) := by
      intro j hj he
      have := indexKey_inj (by omega) (by omega) he
      omega
    refine ⟨(tx, ⟨statusOf C (finalDeletions s2 o) o.error, b.out.blockGasUsed + gasCharged b.state.fork tx o, logsBloom C o.logs, o.logs⟩) :: rs, ?_, ?_, ?_, ?_, ?_, ?_, ?_⟩
    · rw [List.length_cons, List.length_cons, q.length]
    · intro j t' p h1 h2
      match j with
      | 0 =>
        cases h1; cases h2
        refine ⟨hdec, fun hb => ⟨o.error.isNone, ?_⟩, rfl, ?_, ?_⟩
        · have hfk := ran_fork hran
          rw [hran.result] at hfk
          show statusOf C (finalDeletions s2 o) o.error = _
          unfold statusOf
          rw [if_pos (by rw [show (finalDeletions s2 o).fork = b.state.fork from hfk]; exact hb)]
        · rw [Nat.add_zero, (q.others _ hother).1, e1]
          show trieGet (trieSet b.out.receiptsTrie (indexKey i) _) (indexKey i) = _
          rw [trieGet_trieSet, if_pos rfl]; rfl
        · rw [Nat.add_zero, (q.others _ hother).2, e1]
          show trieGet (trieSet b.out.transactionsTrie (indexKey i) _) (indexKey i) = _
          rw [trieGet_trieSet, if_pos rfl]
      | j + 1 =>
        have := q.each j t' p h1 h2
        rw [show i + 1 + j = i + (j + 1) by omega] at this
        exact this
    · rw [q.keys, e1]
      show (b.out.receiptKeys ++ [indexKey i]) ++ _ = _
      rw [List.length_cons, List.range_succ_eq_map, List.append_assoc]
      simp only [List.map_cons, List.map_map, Nat.add_zero, List.singleton_append]
      congr 2
      apply List.map_congr_left
      intro j _
      simp only [Function.comp]
      congr 1; omega
    · rw [q.logs, e1]
      show (b.out.blockLogs ++ o.logs) ++ _ = _
      rw [List.append_assoc]; rfl
    · have hc := q.cumulative
      rw [e1] at hc
      change ((b.out.blockGasUsed + gasCharged b.state.fork tx o) :: _).Pairwise (· < ·) at hc
      rw [List.map_cons, List.pairwise_cons]
      refine ⟨fun x hx => ?_, hc⟩
      rcases List.mem_cons.mp hx with rfl | hx
      · show b.out.blockGasUsed < b.out.blockGasUsed + gasCharged b.state.fork tx o
        omega
      · have := (List.pairwise_cons.mp hc).1 x hx; omega
    · have ht := q.total
      rw [e1] at ht
      rw [List.map_cons, List.getLast?_cons_cons]
      exact ht
    · intro k hk
      have h0 : k ≠ indexKey i := by have := hk 0 (by simp); rwa [Nat.add_zero] at this
      have hk' : ∀ j, j < r.length → k ≠ indexKey (i + 1 + j) := by
        intro j hj
        have := hk (j + 1) (by rw [List.length_cons]; omega)
        rwa [show i + (j + 1) = i + 1 + j by omega] at this
      obtain ⟨o1, o2⟩ := q.others k hk'
      rw [o1, o2, e1]
      refine ⟨?_, ?_⟩
      · show trieGet (trieSet b.out.receiptsTrie (indexKey i) _) k = _
        rw [trieGet_trieSet, if_neg (Ne.symm h0)]
      · show trieGet (trieSet b.out.transactionsTrie (indexKey i) _) k = _
        rw [trieGet_trieSet, if_neg (Ne.symm h0)]

/-! ### Receipts decode to themselves -/

/-- **C38**, for receipts: decoding what `encode_receipt` returns gives back the receipt. (Receipts carry a status since byzantium;
before, no transaction has a type and no receipt is decoded.) -/
theorem C38_receipt (tx : Transaction) (r : Receipt) {b : Bool} (hb : r.status = .succeeded b) (h : (Rlp.encode (.ofReceipt r)).length < 2 ^ 64) :
    decodeReceipt (encodeReceipt tx r) = some r := by
  have hd : (Rlp.decode (Rlp.encode (.ofReceipt r))).bind Rlp.asReceipt = some r := by
    rw [Rlp.decode_encode _ (Rlp.small_of_length _ h)]
    exact Rlp.asReceipt_ofReceipt r hb
  cases tx with
  | legacy t => rfl
  | accessList t => simp only [encodeReceipt, decodeReceipt]; simpa using hd
  | feeMarket t => simp only [encodeReceipt, decodeReceipt]; simpa using hd
  | blob t => simp only [encodeReceipt, decodeReceipt]; simpa using hd
  | setCode t => simp only [encodeReceipt, decodeReceipt]; simpa using hd

/-- **C41.** The receipts from which the deposit requests of a block are read are those of its transactions (no receipt
being of 2^64 bytes or more). -/
theorem C41_block {C : Crypto} {f : Fork} {i : Nat} {txs : List (LegacyTx ⊕ Bytes)} {out out' : BlockOutput} {rs : List (Transaction × Receipt)}
    (h : ReceiptsAdded C f i txs out out' rs) (h0 : out.receiptKeys = []) (hb : f.since .byzantium = true)
    (hl : ∀ p ∈ rs, (Rlp.encode (.ofReceipt p.2)).length < 2 ^ 64) : ReceiptsAre out' (rs.map Prod.snd) := by
  have hk := h.keys
  rw [h0, List.nil_append] at hk
  refine ⟨by rw [hk]; simp [h.length], fun j k r h1 h2 => ?_⟩
  rw [List.getElem?_map, Option.map_eq_some_iff] at h2
  obtain ⟨p, hp, rfl⟩ := h2
  rw [hk, List.getElem?_map, Option.map_eq_some_iff] at h1
  obtain ⟨j', hj, rfl⟩ := h1
  have hjl : j < txs.length := by
    have := (List.getElem?_eq_some_iff.mp hj).1
    rwa [List.length_range] at this
  rw [List.getElem?_range hjl] at hj
  cases hj
  obtain ⟨-, hok, -, h3, -⟩ := h.each j txs[j] p (List.getElem?_eq_getElem hjl) hp
  exact ⟨_, h3, C38_receipt _ _ (hok hb).choose_spec (hl p (List.mem_of_getElem? hp))⟩

/-! ### A concrete case -/

/-- Two transactions of account 77. -/
example : (match processTransactions sampleCrypto sampleBlockEnv ⟨sampleState, BlockOutput.empty⟩ 0
      [.inl ⟨0, 10, 60000, some 88, 3, [1, 2], 27, 77, 1⟩, .inl ⟨1, 10, 21000, some 88, 3, [], 27, 77, 1⟩] with
    | .ok b => b.out.blockGasUsed == 43138 + 21000 && b.out.receiptKeys == [indexKey 0, indexKey 1]
    | .error _ => false) = true := by decide +kernel

end Verif.Props
