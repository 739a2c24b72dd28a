import Verif.Lemmas.RlpSize
import Verif.Lemmas.TxTotal
import Verif.Lemmas.LogBound
import Verif.Spec.Body
import Verif.Props.C27
import Verif.Props.C41
/-! No internal errors: the body of a block. -/
namespace Verif
open Spec Verif.Props

/-! ### Receipts are short -/

theorem topics_le (l : List Word) (f : Word → Rlp) (hf : ∀ w, (Rlp.encode (f w)).length ≤ 41) :
    (Rlp.encodeSeq (l.map f)).length ≤ 41 * l.length := by
  induction l with
  | nil => simp [Rlp.encodeSeq]
  | cons w r ih =>
    have := hf w
    rw [List.map_cons, Rlp.encodeSeq, List.length_append, List.length_cons]; omega

theorem log_le (g : Log) (h : 375 + 375 * g.topics.length + 8 * g.data.length < 2 ^ 60) :
    (Rlp.encode (.ofLog g)).length ≤ 375 + 375 * g.topics.length + 8 * g.data.length := by
  have h1 : ∀ w, (Rlp.encode (.ofWord32 w)).length ≤ 41 := fun w => by
    have := encodeBytes_le (wordBytes w) (by rw [wordBytes_length]; decide)
    rw [wordBytes_length] at this; exact this
  have h2 := topics_le g.topics Rlp.ofWord32 h1
  have h3 := encodeList_le (g.topics.map Rlp.ofWord32) (by omega)
  have h4 := encodeBytes_le (addressBytes g.address) (by rw [addressBytes_length]; decide)
  rw [addressBytes_length] at h4
  have h5 := encodeBytes_le g.data (by omega)
  have h6 : (Rlp.encodeSeq [.ofAddress g.address, .list (g.topics.map .ofWord32), .bytes g.data]).length ≤
      29 + (41 * g.topics.length + 9) + (g.data.length + 9) := by
    simp only [Rlp.encodeSeq, List.length_append, List.length_nil, Rlp.ofAddress]; omega
  have h7 := encodeList_le [.ofAddress g.address, .list (g.topics.map .ofWord32), .bytes g.data] (by omega)
  unfold Rlp.ofLog
  omega

theorem logs_le (l : List Log) (h : logsCost l < 2 ^ 60) : (Rlp.encodeSeq (l.map .ofLog)).length ≤ logsCost l := by
  induction l with
  | nil => simp [Rlp.encodeSeq]
  | cons g r ih =>
    have e : logsCost (g :: r) = 375 + 375 * g.topics.length + 8 * g.data.length + logsCost r := by simp [logsCost]
    rw [e] at h ⊢
    have h1 := log_le g (by omega)
    have h2 := ih (by omega)
    rw [List.map_cons, Rlp.encodeSeq, List.length_append]; omega

theorem receipt_small (r : Receipt) {b : Bool} (hb : r.status = .succeeded b) (h : logsCost r.logs < 2 ^ 60) (hg : r.cumulativeGasUsed < 2 ^ 256) :
    (Rlp.encode (.ofReceipt r)).length < 2 ^ 64 := by
  have hn : ∀ n, n < 2 ^ 256 → (Rlp.encode (.ofNat n)).length ≤ 41 := fun n hn => by
    have hb : byteLength n ≤ 32 := byteLength_le (Nat.lt_of_lt_of_le hn (by decide))
    have := encodeBytes_le (natBytes n) (by rw [natBytes_length]; omega)
    rw [natBytes_length] at this
    have e : Rlp.ofNat n = .bytes (natBytes n) := rfl
    rw [e]; omega
  have h1 := hn (if b then 1 else 0) (by split <;> decide)
  have h2 := hn _ hg
  have h3 : (Rlp.encode (.ofBloom r.bloom)).length ≤ 265 := by
    have hl : (toBE 256 r.bloom.toNat).length = 256 := toBE_length _ _
    have := encodeBytes_le (toBE 256 r.bloom.toNat) (by rw [hl]; decide)
    rw [hl] at this; exact this
  have h4 := logs_le r.logs h
  have h5 := encodeList_le (r.logs.map .ofLog) (by omega)
  have h6 : (Rlp.encodeSeq [.ofNat (if b then 1 else 0), .ofNat r.cumulativeGasUsed, .ofBloom r.bloom,
      .list (r.logs.map Rlp.ofLog)]).length ≤ 41 + 41 + 265 + (logsCost r.logs + 9) := by
    simp only [Rlp.encodeSeq, List.length_append, List.length_nil]; omega
  have h7 := encodeList_le [.ofNat (if b then 1 else 0), .ofNat r.cumulativeGasUsed, .ofBloom r.bloom,
      .list (r.logs.map Rlp.ofLog)] (by omega)
  unfold Rlp.ofReceipt
  rw [hb]
  exact Nat.lt_of_le_of_lt h7 (by omega)

/-- The logs of a message are paid for from its gas. -/
theorem top_logs {E : Env} {msg : Message} {w w' : World} {out : MessageCallOutput}
    (h : processMessageCall E msg w = .ok (out, w')) : logsCost out.logs + out.gasLeft ≤ msg.gas := by
  have h0 : logsCost [] = 0 := rfl
  have hout : ∀ (r : Word) (evm : Evm) o (g : Nat), messageCallOutput r evm = .ok o → evm.gasLeft ≤ g →
      (evm.error.isSome = false → logsCost evm.logs + evm.gasLeft ≤ g) → logsCost o.logs + o.gasLeft ≤ g := by
    intro r evm o g ho h1 h2
    obtain ⟨o1, -, -, o4, o5⟩ := messageCallOutput_ok ho
    by_cases he : evm.error.isSome = true
    · rw [(o4 he).1, h0, o1]; omega
    · have he' : evm.error.isSome = false := by simpa using he
      rw [(o5 (by simpa using he)).1, o1]; exact h2 he'
  unfold processMessageCall processMessageCallWith at h
  split at h
  · split at h
    · cases h; rw [h0]; exact Nat.zero_le _
    · split at h
      · cases h
      · rename_i evm w2 hc
        split at h
        · cases h
        · rename_i o ho; cases h
          exact hout _ _ _ _ ho (C07_create_message E _ _ _ _ hc) (processCreateMessage_log (exec_log E) _ _ _ _ hc)
  · split at h
    · cases h
    · rename_i r msg1 s1 hd
      simp only at h
      split at h
      · cases h
      · rename_i evm w2 hc
        split at h
        · cases h
        · rename_i o ho; cases h
          have hg : (resolveDelegation msg1 s1).gas = msg.gas := by
            have h1 : msg1.gas = msg.gas := by
              split at hd
              · unfold setDelegation at hd
                simp only at hd
                split at hd
                · cases hd
                · split at hd
                  · cases hd
                  · cases hd; rfl
              · cases hd; rfl
            unfold resolveDelegation; (repeat' split) <;> simp [h1]
          rw [← hg]
          have hg1 := C07_message E _ _ _ _ hc
          have hl1 := processMessage_log (exec_log E) _ _ _ _ hc
          exact hout _ _ _ _ ho hg1 hl1

/-! ### What stays true from transaction to transaction -/

/-- All receipts recorded so far can be decoded. -/
def Readable (out : BlockOutput) : Prop := ∀ k ∈ out.receiptKeys, ∃ x r, trieGet out.receiptsTrie k = some x ∧ decodeReceipt x = some r

/-- Every value of the trie is stored, with an encoding that is not empty. -/
def Stored {V : Type} (enc : V → Bytes) (t : Trie Bytes (Option V)) : Prop := ∀ k v, t.data.get? k = some v → ∃ x, v = some x ∧ enc x ≠ []

theorem stored_set {V : Type} [DecidableEq V] {enc : V → Bytes} {t : Trie Bytes (Option V)} (h : Stored enc t) (k : Bytes) (x : V)
    (hx : enc x ≠ []) : Stored enc (trieSet t k (some x)) := by
  intro k' v hv
  unfold trieSet at hv
  split at hv
  · simp only [Dict.get?_del] at hv
    split at hv
    · cases hv
    · exact h k' v hv
  · simp only [Dict.get?_set] at hv
    split at hv
    · exact ⟨x, (Option.some.inj hv).symm, hx⟩
    · exact h k' v hv

/-- The values of the three tries of a block can be hashed. -/
structure AllStored (out : BlockOutput) : Prop where
  transactions : Stored encodeTxNode out.transactionsTrie
  receipts : Stored encodeReceiptNode out.receiptsTrie
  withdrawals : Stored id out.withdrawalsTrie

theorem encodeTx_ne (tx : Transaction) : encodeTxNode (encodeTransaction tx) ≠ [] := by
  cases tx with
  | legacy t => exact encode_ne _
  | accessList t => exact fun h => by cases h
  | feeMarket t => exact fun h => by cases h
  | blob t => exact fun h => by cases h
  | setCode t => exact fun h => by cases h

theorem encodeReceipt_ne (tx : Transaction) (r : Receipt) : encodeReceiptNode (encodeReceipt tx r) ≠ [] := by
  cases tx with
  | legacy t => exact encode_ne _
  | accessList t => exact fun h => by cases h
  | feeMarket t => exact fun h => by cases h
  | blob t => exact fun h => by cases h
  | setCode t => exact fun h => by cases h

structure BodyInv (B : BlockEnv) (b : BlockState) : Prop where
  idle : Idle b.state
  fits : StateFits b.state
  within : Within b.state.fork B b.out
  readable : Readable b.out
  stored : AllStored b.out

theorem stateFits_of {s s' : State} (h : StateFits s) (hf : s'.fork = s.fork) (hs : supply s' ≤ supply s)
    (hc : ∀ a, (getAccount s' a).code = (getAccount s a).code ∨ (getAccount s' a).code.length ≤ 24576) : StateFits s' :=
  ⟨by rw [hf]; exact Nat.lt_of_le_of_lt hs h.supply, fun a => by
    rcases hc a with h1 | h1
    · rw [h1]; exact h.codes a
    · exact Nat.lt_of_le_of_lt h1 (by decide)⟩

theorem inv_of_ran {C : Crypto} {B : BlockEnv} {b b' : BlockState} {tx : Transaction} {i : Nat} {sender : Address}
    {msg : Message} {o : MessageCallOutput} {w : World} {s1 s2 : State} (hB : BlockFits b.state.fork B)
    (hz : b.state.fork.since .byzantium = true) (hb : BodyInv B b) (h : Ran C B b tx i b' sender msg o w s1 s2) : BodyInv B b' := by
  have hs := hb.idle
  obtain ⟨q1, q2, -⟩ := supply_of_ran hs h
  have htop := prepared_top h.message (prepaid_idle hs)
  have hwf : World.WF ⟨prepaid B b.state tx sender, TransientStorage.empty⟩ := ⟨prepaid_wf hs.wf, TransientStorage.empty_wf⟩
  obtain ⟨b1, b2, b3, b4⟩ := h.includable.bounds hB
  have hrf := ran_fork h
  have hfk : (finalDeletions s2 o).fork = b.state.fork := by
    have := hrf
    rw [h.result] at this; exact this
  have hst : statusOf C (finalDeletions s2 o) o.error = .succeeded o.error.isNone := by
    unfold statusOf; rw [hfk, if_pos hz]
  have hf0 : (prepaid B b.state tx sender).fork.since .spuriousDragon = true := by rw [prepaid_fork]; exact hs.fork
  have hout : b'.out = outAfter C b.state.fork b.out tx i o (.succeeded o.error.isNone) := by rw [h.result, hst]
  have hu := gasCharged_le o h.includable.valid.floor
  have e1 : b'.out.blockGasUsed = b.out.blockGasUsed + gasCharged b.state.fork tx o := by rw [hout]; rfl
  have e2 : b'.out.blobGasUsed = b.out.blobGasUsed + blobGas tx := by rw [hout]; rfl
  have r1 := h.includable.room
  have r2 := h.includable.blobRoom
  have hw : Within b'.state.fork B b'.out := ⟨by omega, by rw [hrf, e2]; exact r2⟩
  refine ⟨q1, stateFits_of hb.fits hrf (by omega) fun a => ?_, hw, ?_, ?_⟩
  · have hc := top_codes htop hf0 (show tx.authorizations.length < 2 ^ 240 by omega) h.run a
    rw [prepaid_code] at hc
    have p1 := (refundSender_ok h.refund).2
    have p2 := (payCoinbase_ok h.pay).2
    have p3 := finalDeletions_ok s2 o
    have hres : b'.state = finalDeletions s2 o := by rw [h.result]
    by_cases ha : a ∈ o.accountsToDelete
    · right
      have : getAccount b'.state a = emptyAccount := by rw [hres]; unfold getAccount; rw [(p3.gone a ha).1]
      rw [this]; exact Nat.zero_le _
    · have : getAccount b'.state a = getAccount s2 a := by rw [hres]; exact p3.keep a ha
      rw [this, (p2.rest a).2, (p1.rest a).2]
      exact hc
  · have hl := top_logs h.run
    have hmg : msg.gas ≤ tx.gas := by
      rw [(prepareMessage_ok h.message).2.2.1]; exact Nat.sub_le _ _
    have hgl := Nat.lt_of_lt_of_le hB.gasLimit (gasLimitBound_le _)
    have hr : decodeReceipt (makeReceipt C tx (.succeeded o.error.isNone) (b.out.blockGasUsed + gasCharged b.state.fork tx o) o.logs) =
        some ⟨.succeeded o.error.isNone, b.out.blockGasUsed + gasCharged b.state.fork tx o, logsBloom C o.logs, o.logs⟩ := by
      unfold makeReceipt
      exact C38_receipt _ _ rfl (receipt_small _ rfl (show logsCost o.logs < 2 ^ 60 by omega)
        (show b.out.blockGasUsed + gasCharged b.state.fork tx o < 2 ^ 256 by omega))
    intro k hk
    rw [hout] at hk ⊢
    change k ∈ b.out.receiptKeys ++ [indexKey i] at hk
    show ∃ x r, trieGet (trieSet b.out.receiptsTrie (indexKey i) (some _)) k = some x ∧ _
    rw [trieGet_trieSet]
    by_cases he : indexKey i = k
    · rw [if_pos he]; exact ⟨_, _, rfl, hr⟩
    · rw [if_neg he]
      rcases List.mem_append.mp hk with hk | hk
      · exact hb.readable k hk
      · simp only [List.mem_cons, List.not_mem_nil, or_false] at hk; exact absurd hk.symm he
  · rw [hout]
    exact ⟨stored_set hb.stored.transactions _ _ (encodeTx_ne tx),
      stored_set hb.stored.receipts _ _ (by unfold makeReceipt; exact encodeReceipt_ne _ _), hb.stored.withdrawals⟩

theorem transactions_total {C : Crypto} {B : BlockEnv} {f : Fork} (hB : BlockFits f B) (hz : f.since .byzantium = true) :
    ∀ (txs : List (LegacyTx ⊕ Bytes)) (b : BlockState) (i : Nat), b.state.fork = f →
    BodyInv B b → (∀ t ∈ txs, ∀ tx, decodeTransaction f t = .ok tx → blobGas tx < 2 ^ 64) →
    match processTransactions C B b i txs with
    | .ok b' => BodyInv B b' ∧ b'.out.requests = b.out.requests ∧ supply b'.state ≤ supply b.state ∧ b'.state.fork = f
    | .error (e, _) => Refused e ∨ Tolerated f e := by
  intro txs
  induction txs with
  | nil => intro b i hf hb _; exact ⟨hb, rfl, Nat.le_refl _, hf⟩
  | cons t r ih =>
    intro b i hf hb ht
    rw [processTransactions]
    rw [hf]
    match hd : decodeTransaction f t with
    | .error d => exact .inl (.inr ⟨d, rfl⟩)
    | .ok tx =>
      dsimp only
      match hp : processTransaction C B b tx i with
      | .error (e, b') =>
        rcases rejected hb.idle.quiet (by rw [hf]; exact hB) hb.fits hb.within (ht t List.mem_cons_self tx hd) hp with h | h
        · exact .inl (.inl h.1)
        · exact .inr (hf ▸ h.1)
      | .ok b1 =>
        dsimp only
        obtain ⟨sender, msg, o, w, s1, s2, hran⟩ := processTransaction_ok.mp hp
        have := ih b1 (i + 1) ((ran_fork hran).trans hf) (inv_of_ran (by rw [hf]; exact hB) (by rw [hf]; exact hz) hb hran) fun t' ht' => ht t' (List.mem_cons_of_mem _ ht')
        have hsup := (supply_of_ran hb.idle hran).2.1
        have hreq : b1.out.requests = b.out.requests := by rw [hran.result]; rfl
        match hq : processTransactions C B b1 (i + 1) r with
        | .ok b' => rw [hq] at this; exact ⟨this.1, this.2.1.trans hreq, by have := this.2.2.1; omega, this.2.2.2⟩
        | .error (e, b') => rw [hq] at this; exact this

/-! ### System calls -/

theorem system_total {C : Crypto} {B : BlockEnv} {s : State} (hB : BlockFits s.fork B) (hs : Idle s) (hS : StateFits s) (target : Address)
    (data : Bytes) (hd : data.length ≤ 32) :
    (OldModexp s.fork ∧ ∃ s', processSystemTransaction C B s target (getAccount s target).code data = .error (.exn (.crash .overflowError), s')) ∨
    ∃ o s', processSystemTransaction C B s target (getAccount s target).code data = .ok (o, s') ∧ SystemCall s s' ∧ StateFits s' := by
  have htop := systemMessage_top target data hs
  have hwf : World.WF ⟨s, TransientStorage.empty⟩ := ⟨hs.wf, TransientStorage.empty_wf⟩
  have hsane : Sane ⟨C, B, systemTxEnv B⟩ (systemMessage target (getAccount s target).code data) ⟨s, TransientStorage.empty⟩ :=
    ⟨⟨hB.number, Nat.lt_of_lt_of_le hB.gasLimit (gasLimitBound_le _), hB.baseFee, hB.baseFee, hB.blobPrice, hB.hashes, hB.difficulty⟩, (show (30000000 : Nat) < 2 ^ 240 by decide), hS.codes target,
      Nat.lt_of_le_of_lt hd (by decide), hS.codes, (show ([] : List Authorization).length < 2 ^ 240 by decide),
      hS.supply, fun h => by cases h⟩
  rcases C20_message _ _ _ hwf htop hsane with ⟨ho, w', hcrash⟩ | ⟨o, w, hrun⟩
  · exact .inl ⟨ho, by unfold processSystemTransaction; rw [hcrash]; exact ⟨_, rfl⟩⟩
  right
  have hq : processSystemTransaction C B s target (getAccount s target).code data = .ok (o, w.state) := by
    unfold processSystemTransaction; rw [hrun]
  have hok := (processSystem_ok hs hq).1
  exact ⟨o, w.state, hq, hok, stateFits_of hS hok.fork hok.supply fun a => top_codes htop hs.fork (show ([] : List Authorization).length < 2 ^ 240 by decide) hrun a⟩

theorem checked_total {C : Crypto} {B : BlockEnv} {s : State} (hB : BlockFits s.fork B) (hs : Idle s) (hS : StateFits s) (target : Address) :
    match processCheckedSystemTransaction C B s target [] with
    | .ok (_, s') => SystemCall s s' ∧ StateFits s'
    | .error (e, _) => e = .invalidBlock ∨ Tolerated s.fork e := by
  unfold processCheckedSystemTransaction
  dsimp only
  by_cases hc : (getAccount s target).code.length = 0
  · rw [if_pos hc]; exact .inl rfl
  · rw [if_neg hc]
    rcases system_total (C := C) hB hs hS target [] (by decide) with ⟨ho, s', h1⟩ | ⟨o, s', h1, h2, h3⟩
    · rw [h1]; exact .inr ⟨ho, rfl⟩
    · rw [h1]
      dsimp only
      by_cases he : o.error.isSome = true
      · rw [if_pos he]; exact .inl rfl
      · rw [if_neg he]; exact ⟨h2, h3⟩

theorem parseDeposit_total (t : Trie Bytes (Option (Receipt ⊕ Bytes))) : ∀ (ks : List Bytes) (acc : Bytes),
    (∀ k ∈ ks, ∃ x r, trieGet t k = some x ∧ decodeReceipt x = some r) →
    ∀ e, parseDepositKeys t acc ks = .error e → e = .invalidBlock := by
  intro ks
  induction ks with
  | nil => intro acc _ e h; cases h
  | cons k r ih =>
    intro acc hk e h
    obtain ⟨x, rc, h1, h2⟩ := hk k List.mem_cons_self
    rw [parseDepositKeys, h1] at h
    dsimp only at h
    rw [h2] at h
    dsimp only at h
    split at h
    · cases h; rfl
    · exact ih _ (fun k' hk' => hk k' (List.mem_cons_of_mem _ hk')) e h

theorem requests_total {C : Crypto} {B : BlockEnv} {b : BlockState} (hB : BlockFits b.state.fork B) (hs : Idle b.state) (hS : StateFits b.state)
    (hr : Readable b.out) :
    match processGeneralPurposeRequests C B b with
    | .ok b' => StateFits b'.state
    | .error (e, _) => e = .invalidBlock ∨ Tolerated b.state.fork e := by
  unfold processGeneralPurposeRequests
  match hp : parseDepositRequests b.out with
  | .error e => exact .inl (parseDeposit_total _ _ _ hr e hp)
  | .ok deposits =>
    dsimp only
    have h1 := checked_total (C := C) hB hs hS WITHDRAWAL_REQUEST_PREDEPLOY_ADDRESS
    match hq : processCheckedSystemTransaction C B b.state WITHDRAWAL_REQUEST_PREDEPLOY_ADDRESS [] with
    | .error (e, s) => rw [hq] at h1; exact h1
    | .ok (o1, s1) =>
      rw [hq] at h1
      dsimp only at h1 ⊢
      have h2 := checked_total (C := C) (by rw [h1.1.fork]; exact hB) h1.1.idle h1.2 CONSOLIDATION_REQUEST_PREDEPLOY_ADDRESS
      match hq2 : processCheckedSystemTransaction C B s1 CONSOLIDATION_REQUEST_PREDEPLOY_ADDRESS [] with
      | .error (e, s) => rw [hq2, h1.1.fork] at h2; exact h2
      | .ok (o2, s2) => rw [hq2] at h2; exact h2.2

/-! ### The body -/

theorem withdrawals_total (ws : List Withdrawal) : ∀ (b : BlockState) (i : Nat), b.state.fork.since .paris = true → b.state.WF → supply b.state + (ws.map wei).sum < 2 ^ 256 →
    ∃ b', processWithdrawalsFrom b i ws = .ok b' := by
  induction ws with
  | nil => intro b i _ _ _; exact ⟨b, rfl⟩
  | cons w r ih =>
    intro b i hp hw hlt
    rw [List.map_cons, List.sum_cons] at hlt
    rw [processWithdrawalsFrom_cons _ hp]
    have hb := balance_le_supply hw.main.1 w.address
    rw [if_pos (by omega)]
    have hw1 : (credit b.state w).WF := hw.modifyState' _ _
    refine ih _ _ (by rw [credit_fork]; exact hp) hw1 ?_
    have := supply_modifyState' hw.main.1 w.address
      (fun acc => { acc with balance := BitVec.ofNat 256 (acc.balance.toNat + wei w) })
    simp only at this
    rw [BitVec.toNat_ofNat, Nat.mod_eq_of_lt (by omega)] at this
    change supply (credit b.state w) + _ = _ at this
    show supply (credit b.state w) + _ < _
    omega

theorem withdrawals_stored (ws : List Withdrawal) : ∀ {b b' : BlockState} {i : Nat}, b.state.fork.since .paris = true →
    processWithdrawalsFrom b i ws = .ok b' → Stored id b.out.withdrawalsTrie → Stored id b'.out.withdrawalsTrie := by
  induction ws with
  | nil => intro b b' i _ h hw; cases h; exact hw
  | cons w r ih =>
    intro b b' i hp h hw
    rw [processWithdrawalsFrom_cons _ hp] at h
    split at h
    · exact ih (by rw [credit_fork]; exact hp) h (stored_set hw _ _ (encode_ne _))
    · cases h

/-- A system call of the start of a block, without the check of its result. -/
theorem start_total {C : Crypto} {B : BlockEnv} {s : State} (hB : BlockFits s.fork B) (hs : Idle s) (hS : StateFits s) (target : Address)
    (v : Word) : (∃ s', processUncheckedSystemTransaction C B s target (wordBytes v) = .error (.exn (.crash .overflowError), s') ∧ OldModexp s.fork) ∨
    ∃ o s', processUncheckedSystemTransaction C B s target (wordBytes v) = .ok (o, s') ∧ SystemCall s s' ∧ StateFits s' := by
  rcases system_total (C := C) hB hs hS target (wordBytes v) (by rw [wordBytes_length]) with ⟨ho, s', h⟩ | h
  · exact .inl ⟨s', h, ho⟩
  · exact .inr h

/-- What is kept by the start of a block. -/
structure Started (s s' : State) : Prop where
  idle : Idle s'
  fits : StateFits s'
  supply : supply s' ≤ supply s
  fork : s'.fork = s.fork

theorem beacon_total {C : Crypto} {B : BlockEnv} {s : State} (hB : BlockFits s.fork B) (hs : Idle s) (hS : StateFits s) :
    match storeBeaconRoot C B s with
    | .ok s' => Started s s'
    | .error (e, _) => Tolerated s.fork e := by
  unfold storeBeaconRoot
  by_cases hc : s.fork.since .cancun = true
  · rw [if_pos hc]
    rcases start_total (C := C) hB hs hS BEACON_ROOTS_ADDRESS B.parentBeaconBlockRoot with ⟨s', h, ho⟩ | ⟨o, s', h, h1, h2⟩
    · rw [h]; exact ⟨ho, rfl⟩
    · rw [h]; exact ⟨h1.idle, h2, h1.supply, h1.fork⟩
  · rw [if_neg hc]; exact ⟨hs, hS, Nat.le_refl _, rfl⟩

theorem parentHash_total {C : Crypto} {B : BlockEnv} {s : State} (hn : 1 ≤ B.number) (hB : BlockFits s.fork B) (hs : Idle s) (hS : StateFits s) :
    match storeParentHash C B s with
    | .ok s' => Started s s'
    | .error (e, _) => Tolerated s.fork e := by
  unfold storeParentHash
  by_cases hc : s.fork.since .prague = true
  · rw [if_pos hc]
    match hl : B.blockHashes.getLast? with
    | none =>
      exfalso
      have := hB.hashes
      rw [List.getLast?_eq_none_iff.mp hl] at this
      simp only [List.length_nil] at this
      omega
    | some ph =>
      dsimp only
      rcases start_total (C := C) hB hs hS HISTORY_STORAGE_ADDRESS ph with ⟨s', h, ho⟩ | ⟨o, s', h, h1, h2⟩
      · rw [h]; exact ⟨ho, rfl⟩
      · rw [h]; exact ⟨h1.idle, h2, h1.supply, h1.fork⟩
  · rw [if_neg hc]; exact ⟨hs, hS, Nat.le_refl _, rfl⟩

/-- What is true of a block when its withdrawals have been credited. -/
structure Credit (B : BlockEnv) (b3 b4 : BlockState) : Prop where
  idle : Idle b4.state
  fits : StateFits b4.state
  stored : AllStored b4.out
  readable : Readable b4.out
  blobGas : b4.out.blobGasUsed = b3.out.blobGasUsed
  fork : b4.state.fork = b3.state.fork

theorem credit_total {B : BlockEnv} {b3 : BlockState} {ws : List Withdrawal} (i3 : BodyInv B b3)
    (hsup : supply b3.state + withdrawn b3.state.fork ws < supplyLimit b3.state.fork) :
    ∃ b4, (if b3.state.fork.since .shanghai then processWithdrawals b3 ws else .ok b3) = .ok b4 ∧ Credit B b3 b4 := by
  have hlim := supplyLimit_le b3.state.fork
  by_cases sh3 : b3.state.fork.since .shanghai = true
  · have p3 := shanghai_paris sh3
    unfold withdrawn at hsup
    rw [if_pos sh3] at hsup
    obtain ⟨b4, h4⟩ := withdrawals_total ws b3 0 p3 i3.idle.wf (by omega)
    have h4' : processWithdrawals b3 ws = .ok b4 := h4
    rw [if_pos sh3]
    have hf4 := withdrawals_fork ws p3 h4
    have e := (C40_credit sh3 h4').2
    have e1 : b4.out.transactionsTrie = b3.out.transactionsTrie := (congrArg BlockOutput.transactionsTrie e : _)
    have e2 : b4.out.receiptsTrie = b3.out.receiptsTrie := (congrArg BlockOutput.receiptsTrie e : _)
    have e3 : b4.out.receiptKeys = b3.out.receiptKeys := (congrArg BlockOutput.receiptKeys e : _)
    refine ⟨b4, h4', withdrawals_idle sh3 h4' i3.idle, ⟨?_, fun a => ?_⟩, ⟨by rw [e1]; exact i3.stored.transactions, by rw [e2]; exact i3.stored.receipts,
          withdrawals_stored ws p3 h4 i3.stored.withdrawals⟩, ?_, (congrArg BlockOutput.blobGasUsed e : _), hf4⟩
    · rw [(withdrawals_wf ws p3 h4 i3.idle.wf).2, hf4]; omega
    · rw [(C40_credit sh3 h4').1.codes a]; exact i3.fits.codes a
    · unfold Readable
      rw [e3, e2]; exact i3.readable
  · rw [if_neg sh3]
    exact ⟨b3, rfl, i3.idle, i3.fits, i3.stored, i3.readable, rfl, rfl⟩

theorem body_total {C : Crypto} {B : BlockEnv} {s : State} {txs : List (LegacyTx ⊕ Bytes)} {ws : List Withdrawal} (hB : BlockFits s.fork B)
    (hz : s.fork.since .byzantium = true) (hn : 1 ≤ B.number) (hs : Idle s) (hS : StateFits s)
    (hsup : supply s + withdrawn s.fork ws < supplyLimit s.fork)
    (ht : ∀ t ∈ txs, ∀ tx, decodeTransaction s.fork t = .ok tx → blobGas tx < 2 ^ 64) :
    match applyBody C B s txs ws with
    | .ok b => Idle b.state ∧ AllStored b.out ∧ StateFits b.state ∧ (s.fork.since .cancun = true → b.out.blobGasUsed ≤ 131072 * maxBlobs s.fork) ∧
        b.state.fork = s.fork
    | .error (e, _) => Refused e ∨ Tolerated s.fork e := by
  unfold applyBody
  dsimp only
  have h1 := beacon_total (C := C) hB hs hS
  match hq1 : storeBeaconRoot C B s with
  | .error (e, s1) => rw [hq1] at h1; exact .inr h1
  | .ok s1 =>
    rw [hq1] at h1
    dsimp only at h1 ⊢
    have f1 := h1.fork
    have h2 := parentHash_total (C := C) hn (by rw [f1]; exact hB) h1.idle h1.fits
    match hq2 : storeParentHash C B s1 with
    | .error (e, s2) => rw [hq2, f1] at h2; exact .inr h2
    | .ok s2 =>
      rw [hq2] at h2
      dsimp only at h2 ⊢
      have f2 := h2.fork.trans f1
      have hinv : BodyInv B ⟨s2, BlockOutput.empty⟩ :=
        ⟨h2.idle, h2.fits, ⟨Nat.zero_le _, fun _ => Nat.zero_le _⟩, fun k hk => by simp [BlockOutput.empty] at hk,
          fun k v h => by simp [BlockOutput.empty] at h, fun k v h => by simp [BlockOutput.empty] at h,
          fun k v h => by simp [BlockOutput.empty] at h⟩
      have h3 := transactions_total (C := C) hB hz txs ⟨s2, BlockOutput.empty⟩ 0 f2 hinv ht
      match hp : processTransactions C B ⟨s2, BlockOutput.empty⟩ 0 txs with
      | .error (e, b3) => rw [hp] at h3; exact h3
      | .ok b3 =>
        rw [hp] at h3
        dsimp only at h3 ⊢
        obtain ⟨i3, -, l3, f3⟩ := h3
        have := h1.supply
        have := h2.supply
        obtain ⟨b4, hq4, h4⟩ := credit_total (ws := ws) i3 (by rw [f3]; omega)
        rw [f3] at hq4
        rw [hq4]
        dsimp only
        have w4 : s.fork.since .cancun = true → b4.out.blobGasUsed ≤ 131072 * maxBlobs s.fork := by
          rw [h4.blobGas, ← f3]; exact i3.within.blobGas
        have f4 := h4.fork.trans f3
        by_cases hpr : s.fork.since .prague = true
        · rw [if_pos hpr]
          have h5 := requests_total (C := C) (by rw [f4]; exact hB) h4.idle h4.fits h4.readable
          match hq : processGeneralPurposeRequests C B b4 with
          | .ok b5 =>
            obtain ⟨k5, e5⟩ := requests_ok h4.idle hq
            have e1 : b5.out.transactionsTrie = b4.out.transactionsTrie := (congrArg BlockOutput.transactionsTrie e5 : _)
            have e2 : b5.out.receiptsTrie = b4.out.receiptsTrie := (congrArg BlockOutput.receiptsTrie e5 : _)
            have e3 : b5.out.withdrawalsTrie = b4.out.withdrawalsTrie := (congrArg BlockOutput.withdrawalsTrie e5 : _)
            have e4 : b5.out.blobGasUsed = b4.out.blobGasUsed := (congrArg BlockOutput.blobGasUsed e5 : _)
            rw [hq] at h5
            exact ⟨k5.idle, ⟨by rw [e1]; exact h4.stored.transactions, by rw [e2]; exact h4.stored.receipts, by rw [e3]; exact h4.stored.withdrawals⟩, h5,
              by rw [e4]; exact w4, k5.fork.trans f4⟩
          | .error (e, b5) =>
            rw [hq, f4] at h5
            rcases h5 with h5 | h5
            · exact .inl (.inl (.inl h5))
            · exact .inr h5
        · rw [if_neg hpr]
          exact ⟨h4.idle, h4.stored, h4.fits, w4, f4⟩

end Verif
