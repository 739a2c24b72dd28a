import Verif.Spec.Requests
import Verif.Lemmas.Body
import Verif.Lemmas.Withdrawals
/-! Lemmas about the requests of a block. -/
namespace Verif
open Spec

theorem answered_of {C : Crypto} {B : BlockEnv} {s s' : State} {a : Address} {o : MessageCallOutput}
    (h : processCheckedSystemTransaction C B s a [] = .ok (o, s')) : Answered C B s a o.returnData s' := by
  unfold processCheckedSystemTransaction at h
  dsimp only at h
  split at h
  · cases h
  · rename_i hc
    refine ⟨fun e => hc (by rw [e]; rfl), ?_⟩
    split at h
    · cases h
    · rename_i out s1 hrun
      split at h
      · cases h
      · rename_i he
        cases h
        unfold processSystemTransaction at hrun
        split at hrun
        · cases hrun
        · rename_i out w hp
          cases hrun
          exact ⟨_, w, hp, by simpa using he, rfl, rfl⟩

theorem append_request (out : BlockOutput) (k : UInt8) (d : Bytes) :
    appendRequest out [k] d = { out with requests := out.requests ++ request k d } := by
  unfold appendRequest request
  cases d with
  | nil => simp
  | cons x r => simp

theorem requests_answered {C : Crypto} {B : BlockEnv} {b b' : BlockState} (h : processGeneralPurposeRequests C B b = .ok b') :
    ∃ d w c s, parseDepositRequests b.out = .ok d ∧ Answered C B b.state withdrawalContract w s ∧
      Answered C B s consolidationContract c b'.state ∧ b'.out = { b.out with requests := b.out.requests ++ requestList d w c } := by
  unfold processGeneralPurposeRequests at h
  split at h
  · cases h
  · rename_i d hd
    dsimp only at h
    split at h
    · cases h
    · rename_i o1 s1 h1
      split at h
      · cases h
      · rename_i o2 s2 h2
        cases h
        refine ⟨d, o1.returnData, o2.returnData, s1, hd, answered_of h1, answered_of h2, ?_⟩
        show appendRequest (appendRequest (appendRequest _ [0] _) [1] _) [2] _ = _
        rw [append_request, append_request, append_request]
        simp only [requestList, List.append_assoc]

theorem transactions_requests {C : Crypto} {B : BlockEnv} (txs : List (LegacyTx ⊕ Bytes)) : ∀ {b b' : BlockState} {i : Nat},
    processTransactions C B b i txs = .ok b' → b'.out.requests = b.out.requests := by
  induction txs with
  | nil => intro b b' i h; cases h; rfl
  | cons t r ih =>
    intro b b' i h
    obtain ⟨tx, b1, -, hp, hr⟩ := processTransactions_cons h
    obtain ⟨sender, msg, o, w, s1, s2, hran⟩ := processTransaction_ok.mp hp
    exact (ih hr).trans (by rw [hran.result]; rfl)

theorem withdrawals_rest (ws : List Withdrawal) : ∀ {b b' : BlockState} {i : Nat}, processWithdrawalsFrom b i ws = .ok b' →
    b'.out.requests = b.out.requests ∧ b'.out.receiptKeys = b.out.receiptKeys ∧ b'.out.receiptsTrie = b.out.receiptsTrie ∧
      b'.out.blockLogs = b.out.blockLogs := by
  induction ws with
  | nil => intro b b' i h; cases h; exact ⟨rfl, rfl, rfl, rfl⟩
  | cons w r ih =>
    intro b b' i h
    unfold processWithdrawalsFrom at h
    dsimp only at h
    split at h
    · cases h
    · have := ih h; exact this

/-- The parts of equally long pieces. -/
theorem flatten_inj {n : Nat} (hn : 0 < n) : ∀ {l l' : List Bytes}, (∀ x ∈ l, x.length = n) → (∀ x ∈ l', x.length = n) → l.flatten = l'.flatten → l = l' := by
  intro l
  induction l with
  | nil =>
    intro l' _ h' h
    cases l' with
    | nil => rfl
    | cons x r =>
      have := congrArg List.length h
      simp only [List.flatten_nil, List.length_nil, List.flatten_cons, List.length_append, h' x (by simp)] at this
      omega
  | cons y q ih =>
    intro l' h0 h' h
    cases l' with
    | nil =>
      have := congrArg List.length h
      simp only [List.flatten_nil, List.length_nil, List.flatten_cons, List.length_append, h0 y (by simp)] at this
      omega
    | cons x r =>
      rw [List.flatten_cons, List.flatten_cons] at h
      obtain ⟨e1, e2⟩ := List.append_inj h (by rw [h0 y (by simp), h' x (by simp)])
      rw [e1, ih (fun x hx => h0 x (by simp [hx])) (fun x hx => h' x (by simp [hx])) e2]

end Verif
