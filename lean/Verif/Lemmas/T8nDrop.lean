import Verif.Lemmas.T8nRun
import Verif.Lemmas.Hollow
/-! Lemmas: the transition tool without the transactions it rejected. -/
namespace Verif.T8n
open Verif Spec Verif.Props Verif.Pow Ethash

variable {C : Crypto} {B : BlockEnv}

abbrev TxTrie := Trie Bytes (Option (LegacyTx ⊕ Bytes))

/-- The trie has the transactions of the receipts. -/
def Agree (out : BlockOutput) (t : TxTrie) : Prop := ∀ k ∈ out.receiptKeys, trieGet t k = trieGet out.transactionsTrie k

/-- Those that are not listed. -/
def keep (rej : List Nat) (txs : List (Nat × Transaction)) : List (Nat × Transaction) := txs.filter fun x => decide (x.1 ∉ rej)

theorem keep_cons_in {rej : List Nat} {x : Nat × Transaction} {r : List (Nat × Transaction)} (h : x.1 ∉ rej) : keep rej (x :: r) = x :: keep rej r := by
  unfold keep; rw [List.filter_cons, if_pos (decide_eq_true h)]

theorem keep_cons_out {i : Nat} {tx : Transaction} {rej : List Nat} {r : List (Nat × Transaction)} (h : i ∉ r.map Prod.fst) :
    keep (i :: rej) ((i, tx) :: r) = keep rej r := by
  unfold keep
  rw [List.filter_cons, if_neg (by simp)]
  apply List.filter_congr
  intro x hx
  have : x.1 ≠ i := fun e => h (e ▸ List.mem_map_of_mem hx)
  simp [this]

theorem agree_add {out : BlockOutput} {t : TxTrie} {x : Nat × Transaction} (h : Agree out t) :
    ∀ k ∈ out.receiptKeys ++ [indexKey x.1], trieGet (addTx t x) k = trieGet (addTx out.transactionsTrie x) k := by
  intro k hk
  unfold addTx
  rw [trieGet_trieSet, trieGet_trieSet]
  split
  · rfl
  · rename_i hne
    rcases List.mem_append.mp hk with hk | hk
    · exact h k hk
    · simp only [List.mem_cons, List.not_mem_nil, or_false] at hk; exact absurd hk.symm hne

/-- Without the rejected ones, the others do the same. -/
theorem runTxs_drop {f : Fork} (hB : BlockFits f B) : ∀ (txs : List (Nat × Transaction)) (p p' : Progress) (t : TxTrie), p.b.state.fork = f →
    ToolInv B p.b → Given f txs → (txs.map Prod.fst).Nodup → (∀ x ∈ txs, x.1 < 2 ^ 64) → (∀ x ∈ txs, indexKey x.1 ∉ p.b.out.receiptKeys) →
    Agree p.b.out t → runTxs C B p txs = .ok p' →
    ∃ new, p'.rejected = p.rejected ++ new ∧ Agree p'.b.out ((keep (new.map Prod.fst) txs).foldl addTx t) ∧
      ∀ rej, runTxs C B ⟨withTxs t p.b, rej⟩ (keep (new.map Prod.fst) txs) =
        .ok ⟨withTxs ((keep (new.map Prod.fst) txs).foldl addTx t) p'.b, rej⟩ := by
  intro txs
  induction txs with
  | nil => intro p p' t hf hp _ _ _ _ ha h; cases h; exact ⟨[], (List.append_nil _).symm, ha, fun rej => rfl⟩
  | cons x r ih =>
    obtain ⟨i, tx⟩ := x
    intro p p' t hf hp hg hnd hsm hfr ha h
    have hx := hg (i, tx) List.mem_cons_self
    have hg' : Given f r := fun y hy => hg y (List.mem_cons_of_mem _ hy)
    rw [List.map_cons, List.nodup_cons] at hnd
    have hi : i < 2 ^ 64 := hsm (i, tx) List.mem_cons_self
    have hsm' : ∀ x ∈ r, x.1 < 2 ^ 64 := fun y hy => hsm y (List.mem_cons_of_mem _ hy)
    have hne : ∀ x ∈ r, indexKey x.1 ≠ indexKey i := fun y hy e => hnd.1 (by
      have := indexKey_inj (hsm' y hy) hi e
      exact List.mem_map.mpr ⟨y, hy, this⟩)
    rcases runTxs_cons (C := C) (i := i) r (by rw [hf]; exact hB) hp hx.2 with ⟨b', h1, h2⟩ | ⟨e, h1, -, h2⟩ | ⟨e, b', h1, h2⟩
    · rw [h2] at h
      obtain ⟨sender, msg, o, w, s1, s2, hr⟩ := processTransaction_ok.mp h1
      have hinv := tool_of_ran (by rw [hf]; exact hB) (by rw [hf]; exact hx.1) hp hr
      have hk : b'.out.receiptKeys = p.b.out.receiptKeys ++ [indexKey i] := by rw [hr.result]; rfl
      obtain ⟨new, a1, a2, a3⟩ := ih ⟨b', p.rejected⟩ p' (addTx t (i, tx)) ((ran_fork hr).trans hf) hinv hg' hnd.2 hsm'
        (fun y hy hm => by
          rw [hk] at hm
          rcases List.mem_append.mp hm with hm | hm
          · exact hfr y (List.mem_cons_of_mem _ hy) hm
          · simp only [List.mem_cons, List.not_mem_nil, or_false] at hm; exact hne y hy hm)
        (by unfold Agree; rw [hk, ran_trie h1]; exact agree_add (x := (i, tx)) ha) h
      obtain ⟨l, l1, l2⟩ := runTxs_rejected _ _ _ h
      have hl : new = l := List.append_cancel_left (a1.symm.trans l1)
      have hin : i ∉ new.map Prod.fst := fun hm => by
        obtain ⟨y, hy, e⟩ := List.mem_map.mp hm
        exact hnd.1 (e ▸ l2 y (hl ▸ hy))
      refine ⟨new, a1, ?_, fun rej => ?_⟩
      · rw [keep_cons_in hin, List.foldl_cons]; exact a2
      · rw [keep_cons_in hin, List.foldl_cons, runTxs, processTransaction_withTxs h1 t]
        exact a3 rej
    · rw [h2] at h
      obtain ⟨new, a1, a2, a3⟩ := ih ⟨⟨p.b.state, recorded p.b.out tx i⟩, p.rejected ++ [(i, e)]⟩ p' t hf (tool_recorded hp) hg' hnd.2 hsm'
        (fun y hy => hfr y (List.mem_cons_of_mem _ hy))
        (by
          intro k hk
          show _ = trieGet (trieSet p.b.out.transactionsTrie (indexKey i) _) k
          rw [trieGet_trieSet, if_neg (fun e => hfr (i, tx) List.mem_cons_self (by rw [e]; exact hk))]
          exact ha k hk) h
      refine ⟨(i, e) :: new, by rw [a1]; simp, ?_, fun rej => ?_⟩
      · rw [List.map_cons, keep_cons_out hnd.1]; exact a2
      · rw [List.map_cons, keep_cons_out hnd.1]; exact a3 rej
    · rw [h2] at h; cases h

/-! ### The rest of the body -/

/-- The same result, with another trie of transactions. -/
def mapTxs (t : TxTrie) : Except (BlockExn × BlockState) BlockState → Except (BlockExn × BlockState) BlockState
  | .ok b => .ok (withTxs t b)
  | .error (e, b) => .error (e, withTxs t b)

theorem withdrawals_withTxs (t : TxTrie) (ws : List Withdrawal) : ∀ (b : BlockState) (i : Nat),
    processWithdrawalsFrom (withTxs t b) i ws = mapTxs t (processWithdrawalsFrom b i ws) := by
  induction ws with
  | nil => intro b i; rfl
  | cons w r ih =>
    intro b i
    simp only [processWithdrawalsFrom]
    show (match modifyState b.state w.address (withdrawalCredit w.amount) with | .error c => _ | .ok s => _) = _
    match modifyState b.state w.address (withdrawalCredit w.amount) with
    | .error c => rfl
    | .ok s => dsimp only; exact ih ⟨if accountExistsAndIsEmpty s w.address then destroyAccount s w.address else s, { b.out with
          withdrawalsTrie := trieSet b.out.withdrawalsTrie (indexKey i) (some (Rlp.encode (.ofWithdrawal w))) }⟩ (i + 1)

theorem append_withTxs (t : TxTrie) (out : BlockOutput) (ty data : Bytes) :
    appendRequest { out with transactionsTrie := t } ty data = { appendRequest out ty data with transactionsTrie := t } := by
  unfold appendRequest; split <;> rfl

theorem requests_withTxs (t : TxTrie) (b : BlockState) :
    processGeneralPurposeRequests C B (withTxs t b) = mapTxs t (processGeneralPurposeRequests C B b) := by
  unfold processGeneralPurposeRequests
  have e : parseDepositRequests (withTxs t b).out = parseDepositRequests b.out := rfl
  rw [e]
  match parseDepositRequests b.out with
  | .error e => rfl
  | .ok deposits =>
    dsimp only
    have e : (withTxs t b).state = b.state := rfl
    have e' : (withTxs t b).out = { b.out with transactionsTrie := t } := rfl
    rw [e, e', append_withTxs]
    match processCheckedSystemTransaction C B b.state WITHDRAWAL_REQUEST_PREDEPLOY_ADDRESS [] with
    | .error (e, s) => rfl
    | .ok (o1, s1) =>
      dsimp only
      rw [append_withTxs]
      match processCheckedSystemTransaction C B s1 CONSOLIDATION_REQUEST_PREDEPLOY_ADDRESS [] with
      | .error (e, s) => rfl
      | .ok (o2, s2) =>
        dsimp only
        rw [append_withTxs]
        rfl

/-- What comes after the transactions. -/
def finishBody (C : Crypto) (B : BlockEnv) (f : Fork) (ws : List Withdrawal) (b : BlockState) : Except (BlockExn × BlockState) BlockState :=
  match (if f.since .shanghai then processWithdrawals b ws else .ok b) with
  | .error e => .error e
  | .ok b4 => if f.since .prague then processGeneralPurposeRequests C B b4 else .ok b4

theorem finish_withTxs {f : Fork} {ws : List Withdrawal} (t : TxTrie) (b : BlockState) :
    finishBody C B f ws (withTxs t b) = mapTxs t (finishBody C B f ws b) := by
  unfold finishBody
  have h : (if f.since .shanghai = true then processWithdrawals (withTxs t b) ws else .ok (withTxs t b)) =
      mapTxs t (if f.since .shanghai = true then processWithdrawals b ws else .ok b) := by
    split
    · exact withdrawals_withTxs t ws b 0
    · rfl
  rw [h]
  match (if f.since .shanghai = true then processWithdrawals b ws else .ok b) with
  | .error (e, b4) => rfl
  | .ok b4 =>
    dsimp only [mapTxs]
    by_cases hp : f.since .prague = true
    · rw [if_pos hp, if_pos hp]; exact requests_withTxs t b4
    · rw [if_neg hp, if_neg hp]

/-- The whole run, from the transactions on. -/
theorem runBody_finish {r : Option Int} {om : List Ommer} {ws : List Withdrawal} {s s1 s2 : State} {txs : List (Nat × Transaction)} {p : Progress} {s3 : State}
    (h1 : storeParentHash C B s = .ok s1) (h2 : storeBeaconRoot C B s1 = .ok s2) (h3 : runTxs C B ⟨⟨s2, BlockOutput.empty⟩, []⟩ txs = .ok p)
    (h4 : payReward r p.b.state B.coinbase om = .ok s3) :
    runBody C B r om ws s txs = match finishBody C B s.fork ws { p.b with state := s3 } with
      | .ok b => .ok ⟨b, p.rejected⟩
      | .error (e, b) => .error (.fork e, ⟨b, p.rejected⟩) := by
  unfold runBody
  rw [raised_ok.mpr h1]
  dsimp only
  rw [raised_ok.mpr h2]
  dsimp only
  rw [h3]
  dsimp only
  rw [h4]
  dsimp only
  unfold finishBody
  match (if s.fork.since .shanghai = true then processWithdrawals { p.b with state := s3 } ws else .ok { p.b with state := s3 }) with
  | .error (e, b4) => rfl
  | .ok b4 =>
    dsimp only [raisedAt]
    match (if s.fork.since .prague = true then processGeneralPurposeRequests C B b4 else .ok b4) with
    | .error (e, b5) => rfl
    | .ok b5 => rfl

/-- What is known at the start of the transactions, in every fork. -/
structure Begun (s s' : State) : Prop where
  quiet : Quiet s'
  fits : StateFits s'
  supply : supply s' ≤ supply s
  fork : s'.fork = s.fork

theorem begin_parent {s : State} (hn : 1 ≤ B.number) (hB : BlockFits s.fork B) (hs : Quiet s) (hS : StateFits s) :
    match storeParentHash C B s with
    | .ok s' => Begun s s'
    | .error (e, _) => Tolerated s.fork e := by
  by_cases hc : s.fork.since .prague = true
  · have h := parentHash_total (C := C) hn hB (hs.idle (since_later hc rfl)) hS
    match hq : storeParentHash C B s with
    | .ok s' => rw [hq] at h; exact ⟨h.idle.quiet, h.fits, h.supply, h.fork⟩
    | .error (e, s') => rw [hq] at h; exact h
  · unfold storeParentHash
    rw [if_neg hc]
    exact ⟨hs, hS, Nat.le_refl _, rfl⟩

theorem begin_beacon {s : State} (hB : BlockFits s.fork B) (hs : Quiet s) (hS : StateFits s) :
    match storeBeaconRoot C B s with
    | .ok s' => Begun s s'
    | .error (e, _) => Tolerated s.fork e := by
  by_cases hc : s.fork.since .cancun = true
  · have h := beacon_total (C := C) hB (hs.idle (since_later hc rfl)) hS
    match hq : storeBeaconRoot C B s with
    | .ok s' => rw [hq] at h; exact ⟨h.idle.quiet, h.fits, h.supply, h.fork⟩
    | .error (e, s') => rw [hq] at h; exact h
  · unfold storeBeaconRoot
    rw [if_neg hc]
    exact ⟨hs, hS, Nat.le_refl _, rfl⟩

theorem payReward_err {r : Option Int} {s s' : State} {cb : Address} {om : List Ommer} {e : ToolExn} (h : payReward r s cb om = .error (e, s')) :
    e ≠ .fork .invalidBlock := by
  have hp : ∀ v, payBlockRewards v s cb om = .error (e, s') → e ≠ .fork .invalidBlock := by
    intro v hv
    unfold payBlockRewards at hv
    split at hv
    · cases hv; intro h; cases h
    · split at hv
      · cases hv; intro h; cases h
      · split at hv
        · cases hv
        · cases hv; intro h; cases h
  unfold payReward at h
  split at h
  · cases h
  · split at h
    · exact hp _ h
    · split at h
      · cases h
      · split at h
        · cases h; intro h; cases h
        · exact hp _ h

/-- A run that ends with a result: all the transactions were run. -/
structure Ended (C : Crypto) (B : BlockEnv) (r : Option Int) (om : List Ommer) (ws : List Withdrawal) (s : State) (txs : List (Nat × Transaction)) (q : Progress) (x : Bool)
    (s1 s2 : State) (p : Progress) (s3 : State) : Prop where
  history : storeParentHash C B s = .ok s1
  roots : storeBeaconRoot C B s1 = .ok s2
  begun : Begun s s2
  transactions : runTxs C B ⟨⟨s2, BlockOutput.empty⟩, []⟩ txs = .ok p
  reward : payReward r p.b.state B.coinbase om = .ok s3
  finish : finishBody C B s.fork ws { p.b with state := s3 } = if x then .error (.invalidBlock, q.b) else .ok q.b
  rejected : q.rejected = p.rejected

theorem ended_of_run {r : Option Int} {om : List Ommer} {ws : List Withdrawal} {s s' : State} {txs : List (Nat × Transaction)} {res : Result}
    (hn : 1 ≤ B.number) (hB : BlockFits s.fork B) (hs : Quiet s) (hS : StateFits s) (hg : Given s.fork txs)
    (h : runBlockchainTest C B r om ws s txs = .ok (s', res)) :
    ∃ q x s1 s2 p s3, Ended C B r om ws s txs q x s1 s2 p s3 ∧ s' = q.b.state ∧ update C B q x = .ok res := by
  have hnone : ∀ {e : ToolExn} {q : Progress}, runBody C B r om ws s txs = .error (e, q) → e = .fork .invalidBlock := by
    intro e q hq
    unfold runBlockchainTest at h
    rw [hq] at h
    match e, h with
    | .fork .invalidBlock, h => rfl
  have a1 := begin_parent (C := C) hn hB hs hS
  match h1 : storeParentHash C B s with
  | .error (e, s1) =>
    exfalso
    rw [h1] at a1
    have hr : runBody C B r om ws s txs = .error (.fork e, ⟨⟨s1, BlockOutput.empty⟩, []⟩) := by unfold runBody; rw [h1]; rfl
    have := hnone hr
    rw [a1.2] at this; cases this
  | .ok s1 =>
    rw [h1] at a1
    have a1 : Begun s s1 := a1
    have a2 := begin_beacon (C := C) (by rw [a1.fork]; exact hB) a1.quiet a1.fits
    match h2 : storeBeaconRoot C B s1 with
    | .error (e, s2) =>
      exfalso
      rw [h2] at a2
      have hr : runBody C B r om ws s txs = .error (.fork e, ⟨⟨s2, BlockOutput.empty⟩, []⟩) := by
        unfold runBody; rw [raised_ok.mpr h1]; dsimp only; rw [h2]; rfl
      have := hnone hr
      rw [a2.2] at this; cases this
    | .ok s2 =>
      rw [h2] at a2
      have a2 : Begun s1 s2 := a2
      have b2 : Begun s s2 := ⟨a2.quiet, a2.fits, Nat.le_trans a2.supply a1.supply, a2.fork.trans a1.fork⟩
      have a3 := runTxs_total (C := C) hB txs ⟨⟨s2, BlockOutput.empty⟩, []⟩ b2.fork (empty_inv b2.quiet b2.fits) hg
      match h3 : runTxs C B ⟨⟨s2, BlockOutput.empty⟩, []⟩ txs with
      | .error (e, p) =>
        exfalso
        rw [h3] at a3
        obtain ⟨y, rfl, hy⟩ := a3
        have hr : runBody C B r om ws s txs = .error (.fork y, p) := by
          unfold runBody; rw [raised_ok.mpr h1]; dsimp only; rw [raised_ok.mpr h2]; dsimp only; rw [h3]
        have := hnone hr
        rw [hy.2] at this; cases this
      | .ok p =>
        match h4 : payReward r p.b.state B.coinbase om with
        | .error (e, s3) =>
          exfalso
          have hr : runBody C B r om ws s txs = .error (e, { p with b := { p.b with state := s3 } }) := by
            unfold runBody; rw [raised_ok.mpr h1]; dsimp only; rw [raised_ok.mpr h2]; dsimp only; rw [h3]; dsimp only; rw [h4]
          exact payReward_err h4 (hnone hr)
        | .ok s3 =>
          have hfin := runBody_finish (ws := ws) h1 h2 h3 h4
          match h5 : finishBody C B s.fork ws { p.b with state := s3 } with
          | .ok b =>
            rw [h5] at hfin
            dsimp only at hfin
            unfold runBlockchainTest at h
            rw [hfin] at h
            dsimp only at h
            split at h
            · cases h
            · rename_i r' hr'
              cases h
              exact ⟨⟨b, p.rejected⟩, false, s1, s2, p, s3, ⟨h1, h2, b2, h3, h4, h5, rfl⟩, rfl, hr'⟩
          | .error (e, b) =>
            rw [h5] at hfin
            dsimp only at hfin
            have he := hnone hfin
            cases he
            unfold runBlockchainTest at h
            rw [hfin] at h
            dsimp only at h
            split at h
            · cases h
            · rename_i r' hr'
              cases h
              exact ⟨⟨b, p.rejected⟩, true, s1, s2, p, s3, ⟨h1, h2, b2, h3, h4, h5, rfl⟩, rfl, hr'⟩

theorem run_of_ended {r : Option Int} {om : List Ommer} {ws : List Withdrawal} {s : State} {txs : List (Nat × Transaction)} {q : Progress} {x : Bool}
    {s1 s2 : State} {p : Progress} {s3 : State} {res : Result} (h : Ended C B r om ws s txs q x s1 s2 p s3) (hu : update C B q x = .ok res) :
    runBlockchainTest C B r om ws s txs = .ok (q.b.state, res) := by
  have hfin := runBody_finish (ws := ws) h.history h.roots h.transactions h.reward
  rw [h.finish, ← h.rejected] at hfin
  unfold runBlockchainTest
  rw [hfin]
  cases x with
  | true => rw [if_pos rfl]; dsimp only; rw [hu]
  | false => rw [if_neg (by decide)]; dsimp only; rw [hu]

/-! ### The result -/

theorem receipts_agree {out : BlockOutput} {t : TxTrie} : ∀ (keys : List Bytes), (∀ k ∈ keys, trieGet t k = trieGet out.transactionsTrie k) →
    receiptsFromOutput C { out with transactionsTrie := t } keys = receiptsFromOutput C out keys := by
  intro keys
  induction keys with
  | nil => intro _; rfl
  | cons k r ih =>
    intro h
    rw [receiptsFromOutput, receiptsFromOutput, ih fun k' hk' => h k' (List.mem_cons_of_mem _ hk')]
    dsimp only
    rw [h k List.mem_cons_self]

theorem update_withTxs {q : Progress} {t : TxTrie} {x : Bool} {res : Result} {root : Word} (ha : Agree q.b.out t)
    (hroot : indexTrieRoot C encodeTxNode t = .ok root) (h : update C B q x = .ok res) :
    update C B ⟨withTxs t q.b, []⟩ x = .ok { res with txRoot := root, rejected := [] } := by
  unfold update at h ⊢
  have hk : ∀ k, commitments C q.b = .ok k → commitments C (withTxs t q.b) = .ok { k with transactionsRoot := root } := by
    intro k hk
    unfold commitments at hk ⊢
    have e : (withTxs t q.b).state = q.b.state := rfl
    have e' : (withTxs t q.b).out = { q.b.out with transactionsTrie := t } := rfl
    rw [e, e']
    dsimp only
    rw [hroot]
    match g1 : stateRoot C q.b.state, hk with
    | .ok r1, hk =>
      match g2 : indexTrieRoot C encodeTxNode q.b.out.transactionsTrie, hk with
      | .ok r2, hk =>
        match g3 : indexTrieRoot C encodeReceiptNode q.b.out.receiptsTrie, hk with
        | .ok r3, hk =>
          match g4 : indexTrieRoot C id q.b.out.withdrawalsTrie, hk with
          | .ok r4, hk => cases hk; rfl
  match g : commitments C q.b with
  | .error c => rw [g] at h; cases h
  | .ok k =>
    rw [g] at h
    rw [hk k g]
    dsimp only at h ⊢
    have e : receiptsFromOutput C (withTxs t q.b).out (withTxs t q.b).out.receiptKeys = receiptsFromOutput C q.b.out q.b.out.receiptKeys :=
      receipts_agree q.b.out.receiptKeys ha
    rw [e]
    match hl : receiptsFromOutput C q.b.out q.b.out.receiptKeys with
    | .error c => rw [hl] at h; cases h
    | .ok l =>
      rw [hl] at h
      dsimp only at h
      cases h
      rfl

theorem stored_add : ∀ (txs : List (Nat × Transaction)) (t : TxTrie), Stored encodeTxNode t → Stored encodeTxNode (txs.foldl addTx t) := by
  intro txs
  induction txs with
  | nil => intro t h; exact h
  | cons x r ih => intro t h; exact ih _ (stored_set h _ _ (encodeTx_ne x.2))

/-- What comes after the transactions leaves the tries of transactions and receipts and the blob gas alone, also when it fails. -/
theorem finish_out {f : Fork} {ws : List Withdrawal} {b : BlockState} :
    match finishBody C B f ws b with
    | .ok b' | .error (_, b') => b'.out.transactionsTrie = b.out.transactionsTrie ∧ b'.out.receiptsTrie = b.out.receiptsTrie ∧ b'.out.receiptKeys = b.out.receiptKeys ∧
        b'.out.blobGasUsed = b.out.blobGasUsed := by
  have hw : ∀ (ws : List Withdrawal) (b : BlockState) (i : Nat), match processWithdrawalsFrom b i ws with
      | .ok b' | .error (_, b') => b'.out.transactionsTrie = b.out.transactionsTrie ∧ b'.out.receiptsTrie = b.out.receiptsTrie ∧ b'.out.receiptKeys = b.out.receiptKeys ∧
        b'.out.blobGasUsed = b.out.blobGasUsed := by
    intro ws
    induction ws with
    | nil => intro b i; exact ⟨rfl, rfl, rfl, rfl⟩
    | cons w r ih =>
      intro b i
      rw [processWithdrawalsFrom]
      dsimp only
      match modifyState b.state w.address (withdrawalCredit w.amount) with
      | .error c => exact ⟨rfl, rfl, rfl, rfl⟩
      | .ok s => exact ih _ _
  have ha : ∀ (out : BlockOutput) ty data, (appendRequest out ty data).transactionsTrie = out.transactionsTrie ∧
      (appendRequest out ty data).receiptsTrie = out.receiptsTrie ∧ (appendRequest out ty data).receiptKeys = out.receiptKeys ∧
      (appendRequest out ty data).blobGasUsed = out.blobGasUsed := by
    intro out ty data; unfold appendRequest; split <;> exact ⟨rfl, rfl, rfl, rfl⟩
  have hq : ∀ b : BlockState, match processGeneralPurposeRequests C B b with
      | .ok b' | .error (_, b') => b'.out.transactionsTrie = b.out.transactionsTrie ∧ b'.out.receiptsTrie = b.out.receiptsTrie ∧ b'.out.receiptKeys = b.out.receiptKeys ∧
        b'.out.blobGasUsed = b.out.blobGasUsed := by
    intro b
    unfold processGeneralPurposeRequests
    match parseDepositRequests b.out with
    | .error e => exact ⟨rfl, rfl, rfl, rfl⟩
    | .ok deposits =>
      dsimp only
      match processCheckedSystemTransaction C B b.state WITHDRAWAL_REQUEST_PREDEPLOY_ADDRESS [] with
      | .error (e, s) => exact ha _ _ _
      | .ok (o1, s1) =>
        dsimp only
        match processCheckedSystemTransaction C B s1 CONSOLIDATION_REQUEST_PREDEPLOY_ADDRESS [] with
        | .error (e, s) => simp only [ha]; exact ⟨trivial, trivial, trivial, trivial⟩
        | .ok (o2, s2) => simp only [ha]; exact ⟨trivial, trivial, trivial, trivial⟩
  unfold finishBody
  have h4 : match (if f.since .shanghai = true then processWithdrawals b ws else .ok b) with
      | .ok b' | .error (_, b') => b'.out.transactionsTrie = b.out.transactionsTrie ∧ b'.out.receiptsTrie = b.out.receiptsTrie ∧ b'.out.receiptKeys = b.out.receiptKeys ∧
        b'.out.blobGasUsed = b.out.blobGasUsed := by
    by_cases hs : f.since .shanghai = true
    · rw [if_pos hs]; exact hw ws b 0
    · rw [if_neg hs]; exact ⟨rfl, rfl, rfl, rfl⟩
  match hq4 : (if f.since .shanghai = true then processWithdrawals b ws else .ok b) with
  | .error (e, b4) => rw [hq4] at h4; exact h4
  | .ok b4 =>
    rw [hq4] at h4
    dsimp only at h4 ⊢
    obtain ⟨g1, g2, g3, g4⟩ := h4
    by_cases hp : f.since .prague = true
    · rw [if_pos hp]
      have h5 := hq b4
      match hq5 : processGeneralPurposeRequests C B b4 with
      | .ok b5 => rw [hq5] at h5; exact ⟨h5.1.trans g1, h5.2.1.trans g2, h5.2.2.1.trans g3, h5.2.2.2.trans g4⟩
      | .error (e, b5) => rw [hq5] at h5; exact ⟨h5.1.trans g1, h5.2.1.trans g2, h5.2.2.1.trans g3, h5.2.2.2.trans g4⟩
    · rw [if_neg hp]; exact ⟨g1, g2, g3, g4⟩

theorem ended_out {r : Option Int} {om : List Ommer} {ws : List Withdrawal} {s : State} {txs : List (Nat × Transaction)} {q : Progress} {x : Bool}
    {s1 s2 : State} {p : Progress} {s3 : State} (h : Ended C B r om ws s txs q x s1 s2 p s3) :
    q.b.out.transactionsTrie = p.b.out.transactionsTrie ∧ q.b.out.receiptsTrie = p.b.out.receiptsTrie ∧ q.b.out.receiptKeys = p.b.out.receiptKeys := by
  have hf := finish_out (C := C) (B := B) (f := s.fork) (ws := ws) (b := { p.b with state := s3 })
  rw [h.finish] at hf
  cases x with
  | true => exact ⟨hf.1, hf.2.1, hf.2.2.1⟩
  | false => exact ⟨hf.1, hf.2.1, hf.2.2.1⟩

theorem ended_drop {r : Option Int} {om : List Ommer} {ws : List Withdrawal} {s : State} {txs : List (Nat × Transaction)} {q : Progress} {x : Bool}
    {s1 s2 : State} {p : Progress} {s3 : State} (hB : BlockFits s.fork B) (hg : Given s.fork txs) (hnd : (txs.map Prod.fst).Nodup) (hsm : ∀ x ∈ txs, x.1 < 2 ^ 64)
    (h : Ended C B r om ws s txs q x s1 s2 p s3) :
    Agree q.b.out (allTransactions (keep (q.rejected.map Prod.fst) txs)) ∧
    Ended C B r om ws s (keep (q.rejected.map Prod.fst) txs) ⟨withTxs (allTransactions (keep (q.rejected.map Prod.fst) txs)) q.b, []⟩ x s1 s2
      ⟨withTxs (allTransactions (keep (q.rejected.map Prod.fst) txs)) p.b, []⟩ s3 := by
  obtain ⟨new, a1, a2, a3⟩ := runTxs_drop (C := C) hB txs ⟨⟨s2, BlockOutput.empty⟩, []⟩ p BlockOutput.empty.transactionsTrie h.begun.fork
    (empty_inv h.begun.quiet h.begun.fits) hg hnd hsm (fun x hx hm => by simp [BlockOutput.empty] at hm) (fun k hk => rfl) h.transactions
  have e : q.rejected = new := by rw [h.rejected, a1]; rfl
  rw [e]
  obtain ⟨o1, o2, o3⟩ := ended_out h
  refine ⟨?_, h.history, h.roots, h.begun, a3 [], h.reward, ?_, rfl⟩
  · unfold Agree; rw [o3, o1]; exact a2
  · have := finish_withTxs (C := C) (B := B) (f := s.fork) (ws := ws) (allTransactions (keep (new.map Prod.fst) txs)) { p.b with state := s3 }
    rw [h.finish] at this
    refine Eq.trans this ?_
    cases x <;> rfl

end Verif.T8n
