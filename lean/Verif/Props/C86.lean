import Verif.Lemmas.Requests
import Verif.Lemmas.Header
import Verif.Lemmas.SampleBlock
import Verif.Props.C41
import Verif.Props.C27
/-! Property C86: what a block asks of the consensus layer, and that its header commits to it. -/
namespace Verif.Props
open Verif Verif.Spec

/-- The requests of a body: the deposits are those of the logs of its receipts, the other two are the answers of the two contracts, called one
after the other after the transactions and the withdrawals; each kind is there once or, without data, not at all. -/
structure RequestsOf (C : Crypto) (B : BlockEnv) (s : State) (txs : List (LegacyTx ⊕ Bytes)) (ws : List Withdrawal) (b' : BlockState)
    (requests : List Bytes) : Prop where
  asked : ∃ (s2 : State) (b3 b4 : BlockState) (rs : List (Transaction × Receipt)),
    processTransactions C B ⟨s2, BlockOutput.empty⟩ 0 txs = .ok b3 ∧ processWithdrawals b3 ws = .ok b4 ∧
    ReceiptsAdded C s.fork 0 txs BlockOutput.empty b3.out rs ∧
    ((∀ p ∈ rs, (Rlp.encode (.ofReceipt p.2)).length < 2 ^ 64) →
      ∃ deposits withdrawals consolidations s5, Deposits (rs.flatMap fun p => p.2.logs) deposits ∧
        Answered C B b4.state withdrawalContract withdrawals s5 ∧ Answered C B s5 consolidationContract consolidations b'.state ∧
        requests = requestList deposits withdrawals consolidations)

/-- **C86.** The requests of the body of a block. (The proviso on receipts of 2^64 bytes or more is in `RequestsOf`.) -/
theorem C86_body {C : Crypto} {B : BlockEnv} {s : State} {txs : List (LegacyTx ⊕ Bytes)} {ws : List Withdrawal} {b' : BlockState}
    (h : applyBody C B s txs ws = .ok b') (hf : s.fork.since .prague = true) (hl : txs.length < 2 ^ 64) :
    RequestsOf C B s txs ws b' b'.out.requests := by
  obtain ⟨s1, s2, b3, b4, hr⟩ := applyBody_ok h
  have hsh : s.fork.since .shanghai = true := since_later hf (by decide)
  have hw := hr.withdrawals
  rw [if_pos hsh] at hw
  have hq := hr.requests
  rw [if_pos hf] at hq
  obtain ⟨rs, hrs⟩ := C27_receipts txs hr.transactions (by omega)
  have hfk : (BlockState.mk s2 BlockOutput.empty).state.fork = s.fork := hr.forks.2.1
  rw [hfk] at hrs
  refine ⟨s2, b3, b4, rs, hr.transactions, hw, hrs, fun hsmall => ?_⟩
  obtain ⟨d, w, c, s5, hd, h1, h2, h3⟩ := requests_answered hq
  obtain ⟨g1, g2, g3, -⟩ := withdrawals_rest ws hw
  have hre := C41_block hrs rfl (since_later hf (by decide)) hsmall
  have hre4 : ReceiptsAre b4.out (rs.map Prod.snd) := by
    unfold ReceiptsAre at hre ⊢
    rw [g2, g3]; exact hre
  have hdep := ((C41_requests b4.out _ hre4).1 d).mp hd
  rw [List.flatMap_map] at hdep
  refine ⟨d, w, c, s5, hdep, h1, h2, ?_⟩
  rw [h3, g1, transactions_requests txs hr.transactions]
  rfl

/-- **C86.** An imported block: its header commits to its requests. -/
theorem C86_header {C : Crypto} {c c' : BlockChain} {b : Block} (h : stateTransition C c b = .ok c') (hf : c.state.fork.since .prague = true)
    (hl : b.transactions.length < 2 ^ 64) : ∃ (after : BlockState) (requests : List Bytes), after.state = c'.state ∧
      RequestsOf C (blockEnvOf C c b.header) c.state b.transactions b.withdrawals after requests ∧
      b.header.requestsHash = requestsCommitment C.sha256 requests := by
  obtain ⟨-, -, -, -, bs, k, hb, hs, hk, -, -, -, -, -, -, -, hreq⟩ := stateTransition_ok h
  refine ⟨bs, bs.out.requests, hs.symm, C86_body hb hf hl, ?_⟩
  rw [← hreq hf]
  have : k.requestsHash = computeRequestsHash C bs.out.requests := by
    unfold commitments at hk
    cases e1 : stateRoot C bs.state with
    | error x => rw [e1] at hk; cases hk
    | ok r1 =>
      cases e2 : indexTrieRoot C encodeTxNode bs.out.transactionsTrie with
      | error x => rw [e1, e2] at hk; cases hk
      | ok r2 =>
        cases e3 : indexTrieRoot C encodeReceiptNode bs.out.receiptsTrie with
        | error x => rw [e1, e2, e3] at hk; cases hk
        | ok r3 =>
          cases e4 : indexTrieRoot C id bs.out.withdrawalsTrie with
          | error x => rw [e1, e2, e3, e4] at hk; cases hk
          | ok r4 => rw [e1, e2, e3, e4] at hk; cases hk; rfl
  rw [this]
  unfold computeRequestsHash requestsCommitment
  rw [List.flatMap_def]
  rfl

/-- **C86.** The commitment determines the requests: deposits, withdrawals and consolidations, each for itself. (The hash function has no
collision among what is hashed.) -/
theorem C86_commitment (sha256 : Bytes → BitVec 256) (d w c d' w' c' : Bytes)
    (h : requestsCommitment sha256 (requestList d w c) = requestsCommitment sha256 (requestList d' w' c'))
    (hc : ∀ x ∈ hashedByRequests sha256 (requestList d w c) ++ hashedByRequests sha256 (requestList d' w' c'),
      ∀ y ∈ hashedByRequests sha256 (requestList d w c) ++ hashedByRequests sha256 (requestList d' w' c'), sha256 x = sha256 y → x = y) :
    d = d' ∧ w = w' ∧ c = c' := by
  have e1 := hc _ (List.mem_append_left _ (List.mem_cons_self ..)) _ (List.mem_append_right _ (List.mem_cons_self ..)) h
  have hlen : ∀ (l : List Bytes), ∀ x ∈ l.map (fun r => toBE 32 (sha256 r).toNat), x.length = 32 := by
    intro l x hx
    obtain ⟨r, -, rfl⟩ := List.mem_map.mp hx
    exact toBE_length _ _
  have e2 := flatten_inj (by decide) (hlen _) (hlen _) e1
  have e3 : requestList d w c = requestList d' w' c' := by
    have hc' : ∀ x ∈ requestList d w c, ∀ y ∈ requestList d' w' c', sha256 x = sha256 y → x = y := fun x hx y hy =>
      hc x (List.mem_append_left _ (List.mem_cons_of_mem _ hx)) y (List.mem_append_right _ (List.mem_cons_of_mem _ hy))
    revert e2 hc'
    generalize requestList d w c = l
    generalize requestList d' w' c' = l'
    clear hc h e1
    intro e2 hc'
    induction l generalizing l' with
    | nil => cases l' with
      | nil => rfl
      | cons x r => cases e2
    | cons x r ih => cases l' with
      | nil => cases e2
      | cons y q =>
        simp only [List.map_cons, List.cons.injEq] at e2
        have hxy : x = y := hc' x (by simp) y (by simp)
          (BitVec.eq_of_toNat_eq (toBE_inj (by have := (sha256 x).isLt; omega) (by have := (sha256 y).isLt; omega) e2.1))
        rw [hxy, ih _ e2.2 fun a ha b hb => hc' a (by simp [ha]) b (by simp [hb])]
  revert e3
  unfold requestList request
  cases d <;> cases w <;> cases c <;> cases d' <;> cases w' <;> cases c' <;> simp

/-! ### A concrete case

Account 77 sends a deposit to the deposit contract, whose code here logs its input; the contracts for withdrawals and consolidations answer with
32 bytes and with nothing. -/

def asksState : State :=
  let s := setAccount sampleState withdrawalContract (some ⟨1, 0, [0x60, 0x20, 0x60, 0x00, 0xf3]⟩)
  setAccount s DEPOSIT_CONTRACT_ADDRESS (some ⟨1, 0, [0x61, 0x02, 0x40, 0x60, 0x00, 0x60, 0x00, 0x37, 0x7f] ++ wordBytes DEPOSIT_EVENT_SIGNATURE_HASH ++
    [0x61, 0x02, 0x40, 0x60, 0x00, 0xa1, 0x00]⟩)

def asksDeposit : Bytes :=
  depositLayout (List.replicate 48 1) (List.replicate 16 0) (List.replicate 32 2) (List.replicate 8 3) (List.replicate 24 0)
    (List.replicate 96 4) (List.replicate 8 5) (List.replicate 24 0)

def asksTx : LegacyTx := ⟨0, 7, 100000, some DEPOSIT_CONTRACT_ADDRESS, 0, asksDeposit, 27, 77, 1⟩

def asksBody : Except (BlockExn × BlockState) BlockState := applyBody sampleCrypto sampleBlockEnv asksState [.inl asksTx] []

example : (match asksBody with
    | .ok b => b.out.requests == requestList
        (List.replicate 48 1 ++ List.replicate 32 2 ++ List.replicate 8 3 ++ List.replicate 96 4 ++ List.replicate 8 5) (List.replicate 32 0) []
    | .error _ => false) = true := by decide +kernel

/-- The sample block meets the hypotheses of `C86_header`. -/
example : sampleChain.state.fork.since .prague = true ∧ sampleBlock.transactions.length < 2 ^ 64 ∧
    ∃ c', stateTransition sampleCrypto sampleChain sampleBlock = .ok c' := by
  refine ⟨rfl, by decide, ?_⟩
  have h := sample_runs
  match hs : stateTransition sampleCrypto sampleChain sampleBlock with
  | .error e => rw [hs] at h; cases h
  | .ok c => exact ⟨c, rfl⟩

/-- A toy hash function. -/
def commitSha (b : Bytes) : BitVec 256 := BitVec.ofNat 256 (fromBE (7 :: b) % (2 ^ 256 - 189))

/-- There is a hash function without collisions among these inputs. -/
example : ∀ x ∈ hashedByRequests commitSha (requestList [1, 2] [3] []) ++ hashedByRequests commitSha (requestList [] [9] [4]),
    ∀ y ∈ hashedByRequests commitSha (requestList [1, 2] [3] []) ++ hashedByRequests commitSha (requestList [] [9] [4]),
      commitSha x = commitSha y → x = y := by decide +kernel

end Verif.Props
