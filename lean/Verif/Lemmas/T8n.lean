import Verif.Model.T8n
import Verif.Lemmas.HashWindow
import Verif.Lemmas.MinedTotal
/-! Lemmas: the transition tool. -/
namespace Verif.T8n
open Verif Spec Verif.Props Verif.Pow Ethash

theorem restore_self (s : State) : restoreState s s = s := rfl

/-- An output with another trie of transactions. -/
def withTxs (t : Trie Bytes (Option (LegacyTx ⊕ Bytes))) (b : BlockState) : BlockState := { b with out := { b.out with transactionsTrie := t } }

/-- The trie after one more transaction. -/
def addTx (t : Trie Bytes (Option (LegacyTx ⊕ Bytes))) (x : Nat × Transaction) : Trie Bytes (Option (LegacyTx ⊕ Bytes)) :=
  trieSet t (indexKey x.1) (some (encodeTransaction x.2))

theorem ran_withTxs {C : Crypto} {B : BlockEnv} {b b' : BlockState} {tx : Transaction} {i : Nat} {sender : Address}
    {msg : Message} {o : MessageCallOutput} {w : World} {s1 s2 : State} (h : Ran C B b tx i b' sender msg o w s1 s2)
    (t : Trie Bytes (Option (LegacyTx ⊕ Bytes))) : Ran C B (withTxs t b) tx i (withTxs (addTx t (i, tx)) b') sender msg o w s1 s2 :=
  ⟨h.includable, h.message, h.run, h.refund, h.pay, h.status, by rw [h.result]; rfl⟩

theorem processTransaction_withTxs {C : Crypto} {B : BlockEnv} {b b' : BlockState} {tx : Transaction} {i : Nat}
    (h : processTransaction C B b tx i = .ok b') (t : Trie Bytes (Option (LegacyTx ⊕ Bytes))) :
    processTransaction C B (withTxs t b) tx i = .ok (withTxs (addTx t (i, tx)) b') := by
  obtain ⟨sender, msg, o, w, s1, s2, hr⟩ := processTransaction_ok.mp h
  exact processTransaction_ok.mpr ⟨sender, msg, o, w, s1, s2, ran_withTxs hr t⟩

theorem ran_trie {C : Crypto} {B : BlockEnv} {b b' : BlockState} {tx : Transaction} {i : Nat}
    (h : processTransaction C B b tx i = .ok b') :
    b'.out.transactionsTrie = addTx b.out.transactionsTrie (i, tx) := by
  obtain ⟨sender, msg, o, w, s1, s2, hr⟩ := processTransaction_ok.mp h
  rw [hr.result]; rfl

/-! ### What stays true from transaction to transaction -/

/-- A transaction that the fork can decode. -/
def Known (f : Fork) (tx : Transaction) : Prop := (∃ t, tx = .legacy t) ∨ f.since .byzantium = true

theorem readable_of_ran {C : Crypto} {B : BlockEnv} {b b' : BlockState} {tx : Transaction} {i : Nat} {sender : Address}
    {msg : Message} {o : MessageCallOutput} {w : World} {s1 s2 : State} (hB : BlockFits b.state.fork B)
    (hk : Known b.state.fork tx) (hb : Readable b.out) (h : Ran C B b tx i b' sender msg o w s1 s2) : Readable b'.out := by
  obtain ⟨b1, b2, b3, b4⟩ := h.includable.bounds hB
  have hu := gasCharged_le o h.includable.valid.floor
  have r1 := h.includable.room
  have hl := top_logs h.run
  have hmg : msg.gas ≤ tx.gas := by
    rw [(prepareMessage_ok h.message).2.2.1]; exact Nat.sub_le _ _
  have hgl := Nat.lt_of_lt_of_le hB.gasLimit (gasLimitBound_le _)
  have hr : ∃ r, decodeReceipt (makeReceipt C tx (statusOf C (finalDeletions s2 o) o.error) (b.out.blockGasUsed + gasCharged b.state.fork tx o) o.logs) =
      some r := by
    rcases hk with ⟨t, rfl⟩ | hz
    · exact ⟨_, rfl⟩
    · have hfk : (finalDeletions s2 o).fork = b.state.fork := by
        have := ran_fork h
        rw [h.result] at this; exact this
      have hst : statusOf C (finalDeletions s2 o) o.error = .succeeded o.error.isNone := by
        unfold statusOf; rw [hfk, if_pos hz]
      rw [hst]
      unfold makeReceipt
      refine ⟨_, C38_receipt _ _ rfl (receipt_small _ rfl (show logsCost o.logs < 2 ^ 60 by omega)
        (show b.out.blockGasUsed + gasCharged b.state.fork tx o < 2 ^ 256 by omega))⟩
  intro k hk
  rw [h.result] at hk ⊢
  change k ∈ b.out.receiptKeys ++ [indexKey i] at hk
  show ∃ x r, trieGet (trieSet b.out.receiptsTrie (indexKey i) (some _)) k = some x ∧ _
  rw [trieGet_trieSet]
  by_cases he : indexKey i = k
  · rw [if_pos he]
    obtain ⟨r, hr⟩ := hr
    exact ⟨_, r, rfl, hr⟩
  · rw [if_neg he]
    rcases List.mem_append.mp hk with hk | hk
    · exact hb k hk
    · simp only [List.mem_cons, List.not_mem_nil, or_false] at hk; exact absurd hk.symm he

/-- Every receipt has its transaction. -/
def Paired (out : BlockOutput) : Prop := ∀ k ∈ out.receiptKeys, trieGet out.transactionsTrie k ≠ none

theorem paired_add {out : BlockOutput} {t : Trie Bytes (Option (LegacyTx ⊕ Bytes))} {x : Nat × Transaction}
    (h : ∀ k ∈ out.receiptKeys, trieGet t k ≠ none) : ∀ k ∈ out.receiptKeys ++ [indexKey x.1], trieGet (addTx t x) k ≠ none := by
  intro k hk
  unfold addTx
  rw [trieGet_trieSet]
  split
  · exact fun h => by cases h
  · rename_i hne
    rcases List.mem_append.mp hk with hk | hk
    · exact h k hk
    · simp only [List.mem_cons, List.not_mem_nil, or_false] at hk; exact absurd hk.symm hne

/-- What stays true while the tool runs transactions. -/
structure ToolInv (B : BlockEnv) (b : BlockState) : Prop where
  inv : MinedInv B b
  readable : Readable b.out
  paired : Paired b.out

theorem tool_of_ran {C : Crypto} {B : BlockEnv} {b b' : BlockState} {tx : Transaction} {i : Nat} {sender : Address}
    {msg : Message} {o : MessageCallOutput} {w : World} {s1 s2 : State} (hB : BlockFits b.state.fork B)
    (hk : Known b.state.fork tx) (hb : ToolInv B b) (h : Ran C B b tx i b' sender msg o w s1 s2) : ToolInv B b' :=
  ⟨(mined_of_ran hB hb.inv h).1, readable_of_ran hB hk hb.readable h, by
    rw [h.result]; exact paired_add (x := (i, tx)) hb.paired⟩

/-- A rejected transaction is only recorded. -/
theorem tool_recorded {B : BlockEnv} {b : BlockState} {tx : Transaction} {i : Nat} (hb : ToolInv B b) : ToolInv B ⟨b.state, recorded b.out tx i⟩ :=
  ⟨⟨hb.inv.quiet, hb.inv.fits, ⟨hb.inv.within.gas, hb.inv.within.blobGas⟩,
    ⟨stored_set hb.inv.stored.transactions _ _ (encodeTx_ne tx), hb.inv.stored.receipts, hb.inv.stored.withdrawals⟩⟩, hb.readable, by
    intro k hk
    exact paired_add (x := (i, tx)) hb.paired k (List.mem_append_left _ hk)⟩

theorem caught_declared {e : BlockExn} (h : Declared e) : caught e = true := by
  rcases h with rfl | ⟨x, rfl⟩ <;> rfl

theorem caught_tolerated {f : Fork} {e : BlockExn} (h : Tolerated f e) : caught e = false := by
  rw [h.2]; rfl

/-- Transactions that the tool may be given: the fork can decode them, and their blob gas fits 64 bits. -/
def Given (f : Fork) (txs : List (Nat × Transaction)) : Prop := ∀ x ∈ txs, Known f x.2 ∧ blobGas x.2 < 2 ^ 64

/-- One transaction in the tool: it is included, and then it could be; or it is rejected and only recorded; or MODEXP overflows. -/
theorem runTxs_cons {C : Crypto} {B : BlockEnv} {p : Progress} {i : Nat} {tx : Transaction} (r : List (Nat × Transaction))
    (hB : BlockFits p.b.state.fork B) (hp : ToolInv B p.b) (hb : blobGas tx < 2 ^ 64) :
    (∃ b', processTransaction C B p.b tx i = .ok b' ∧ runTxs C B p ((i, tx) :: r) = runTxs C B ⟨b', p.rejected⟩ r) ∨
    (∃ e, Declared e ∧ (∀ sender, ¬ Includable C B p.b.state p.b.out.blockGasUsed p.b.out.blobGasUsed tx sender) ∧
      runTxs C B p ((i, tx) :: r) = runTxs C B ⟨⟨p.b.state, recorded p.b.out tx i⟩, p.rejected ++ [(i, e)]⟩ r) ∨
    (∃ e b', Tolerated p.b.state.fork e ∧ runTxs C B p ((i, tx) :: r) = .error (.fork e, ⟨b', p.rejected⟩)) := by
  match h : processTransaction C B p.b tx i with
  | .ok b' => exact .inl ⟨b', rfl, by rw [runTxs, h]⟩
  | .error (e, b') =>
    rcases rejected hp.inv.quiet hB hp.inv.fits hp.inv.within hb h with ⟨h1, rfl, h2⟩ | ⟨h1, -⟩
    · refine .inr (.inl ⟨e, h1, h2, ?_⟩)
      rw [runTxs, h]
      dsimp only
      rw [if_pos (caught_declared h1)]
      rfl
    · refine .inr (.inr ⟨e, b', h1, ?_⟩)
      rw [runTxs, h]
      dsimp only
      rw [if_neg (by rw [caught_tolerated h1]; decide)]

/-- The whole loop. -/
theorem runTxs_total {C : Crypto} {B : BlockEnv} {f : Fork} (hB : BlockFits f B) :
    ∀ (txs : List (Nat × Transaction)) (p : Progress), p.b.state.fork = f → ToolInv B p.b → Given f txs →
    match runTxs C B p txs with
    | .ok p' => ToolInv B p'.b ∧ p'.b.state.fork = f ∧ supply p'.b.state ≤ supply p.b.state ∧ p'.b.out.requests = p.b.out.requests ∧
        p'.b.out.transactionsTrie = txs.foldl addTx p.b.out.transactionsTrie
    | .error (e, _) => ∃ x, e = .fork x ∧ Tolerated f x := by
  intro txs
  induction txs with
  | nil => intro p hf hp _; exact ⟨hp, hf, Nat.le_refl _, rfl, rfl⟩
  | cons x r ih =>
    obtain ⟨i, tx⟩ := x
    intro p hf hp hg
    have hg' : Given f r := fun y hy => hg y (List.mem_cons_of_mem _ hy)
    have hx := hg (i, tx) List.mem_cons_self
    rcases runTxs_cons (C := C) (i := i) r (by rw [hf]; exact hB) hp hx.2 with ⟨b', h1, h2⟩ | ⟨e, h1, -, h2⟩ | ⟨e, b', h1, h2⟩
    · obtain ⟨sender, msg, o, w, s1, s2, hr⟩ := processTransaction_ok.mp h1
      have hfk := (ran_fork hr).trans hf
      have := ih ⟨b', p.rejected⟩ hfk (tool_of_ran (by rw [hf]; exact hB) (by rw [hf]; exact hx.1) hp hr) hg'
      have hsup := (mined_of_ran (by rw [hf]; exact hB) hp.inv hr).2
      have hreq : b'.out.requests = p.b.out.requests := by rw [hr.result]; rfl
      rw [h2]
      match hq : runTxs C B ⟨b', p.rejected⟩ r with
      | .ok p' =>
        rw [hq] at this
        obtain ⟨a1, a2, a3, a4, a5⟩ := this
        refine ⟨a1, a2, Nat.le_trans a3 hsup, a4.trans hreq, ?_⟩
        rw [a5, List.foldl_cons, ← ran_trie h1]
      | .error (e, p') => rw [hq] at this; exact this
    · have := ih ⟨⟨p.b.state, recorded p.b.out tx i⟩, p.rejected ++ [(i, e)]⟩ hf (tool_recorded hp) hg'
      rw [h2]
      match hq : runTxs C B ⟨⟨p.b.state, recorded p.b.out tx i⟩, p.rejected ++ [(i, e)]⟩ r with
      | .ok p' => rw [hq] at this; exact this
      | .error (e, p') => rw [hq] at this; exact this
    · rw [h2]; exact ⟨e, rfl, hf ▸ h1⟩

theorem runTxs_append {C : Crypto} {B : BlockEnv} : ∀ (a c : List (Nat × Transaction)) (p : Progress),
    runTxs C B p (a ++ c) = match runTxs C B p a with
      | .ok p' => runTxs C B p' c
      | .error e => .error e := by
  intro a
  induction a with
  | nil => intro c p; rfl
  | cons x r ih =>
    obtain ⟨i, tx⟩ := x
    intro c p
    rw [List.cons_append, runTxs, runTxs]
    match processTransaction C B p.b tx i with
    | .ok b' => exact ih c _
    | .error (e, b') =>
      dsimp only
      by_cases h : caught e = true
      · rw [if_pos h, if_pos h]; exact ih c _
      · rw [if_neg h, if_neg h]

/-- Rejections are only added to the list. -/
theorem runTxs_rejected {C : Crypto} {B : BlockEnv} : ∀ (txs : List (Nat × Transaction)) (p p' : Progress),
    runTxs C B p txs = .ok p' → ∃ l, p'.rejected = p.rejected ++ l ∧ ∀ x ∈ l, x.1 ∈ txs.map Prod.fst := by
  intro txs
  induction txs with
  | nil => intro p p' h; cases h; exact ⟨[], (List.append_nil _).symm, fun x hx => by cases hx⟩
  | cons x r ih =>
    obtain ⟨i, tx⟩ := x
    intro p p' h
    rw [runTxs] at h
    match hq : processTransaction C B p.b tx i with
    | .ok b' =>
      rw [hq] at h
      obtain ⟨l, h1, h2⟩ := ih _ _ h
      exact ⟨l, h1, fun x hx => List.mem_cons_of_mem _ (h2 x hx)⟩
    | .error (e, b') =>
      rw [hq] at h
      dsimp only at h
      by_cases hc : caught e = true
      · rw [if_pos hc] at h
        obtain ⟨l, h1, h2⟩ := ih _ _ h
        refine ⟨(i, e) :: l, by rw [h1]; simp, fun x hx => ?_⟩
        rcases List.mem_cons.mp hx with rfl | hx
        · exact List.mem_cons_self
        · exact List.mem_cons_of_mem _ (h2 x hx)
      · rw [if_neg hc] at h; cases h

/-! ### Reading the transactions -/

theorem readTxs_given {f : Fork} : ∀ (txs : List (LegacyTx ⊕ Bytes)) (i : Nat),
    (∀ t ∈ txs, ∀ tx, decodeTransaction f t = .ok tx → blobGas tx < 2 ^ 64) → Given f (readTxs f i txs) := by
  intro txs
  induction txs with
  | nil => intro i _ x hx; cases hx
  | cons t r ih =>
    intro i h
    rw [readTxs]
    match hd : decodeTransaction f t with
    | .error _ => exact ih _ fun t' ht' => h t' (List.mem_cons_of_mem _ ht')
    | .ok tx =>
      intro x hx
      rcases List.mem_cons.mp hx with rfl | hx
      · refine ⟨?_, h t List.mem_cons_self tx hd⟩
        match t with
        | .inl t => cases hd; exact .inl ⟨t, rfl⟩
        | .inr [] => cases hd
        | .inr (c :: l) =>
          right
          simp only [decodeTransaction] at hd
          by_cases h0 : ¬ f.since (txTypeFirstFork c) = true
          · rw [if_pos h0] at hd; cases hd
          · have h1 : f.since (txTypeFirstFork c) = true := Decidable.not_not.mp h0
            revert h1
            unfold txTypeFirstFork
            (repeat' split) <;> cases f <;> decide
      · exact ih _ (fun t' ht' => h t' (List.mem_cons_of_mem _ ht')) x hx

/-- If a block can be run, the tool runs it in the same way. -/
theorem runTxs_of_block {C : Crypto} {B : BlockEnv} {f : Fork} : ∀ (txs : List (LegacyTx ⊕ Bytes)) (b b' : BlockState) (i : Nat),
    b.state.fork = f → processTransactions C B b i txs = .ok b' → ∀ rej,
    runTxs C B ⟨b, rej⟩ (readTxs f i txs) = .ok ⟨b', rej⟩ ∧ unreadTxs f i txs = [] := by
  intro txs
  induction txs with
  | nil => intro b b' i hf h rej; cases h; exact ⟨rfl, rfl⟩
  | cons t r ih =>
    intro b b' i hf h rej
    rw [processTransactions, hf] at h
    rw [readTxs, unreadTxs]
    match hd : decodeTransaction f t with
    | .error _ => rw [hd] at h; cases h
    | .ok tx =>
      rw [hd] at h
      dsimp only at h ⊢
      match hp : processTransaction C B b tx i with
      | .error e => rw [hp] at h; cases h
      | .ok b1 =>
        rw [hp] at h
        obtain ⟨sender, msg, o, w, s1, s2, hr⟩ := processTransaction_ok.mp hp
        have := ih b1 b' (i + 1) ((ran_fork hr).trans hf) h rej
        rw [runTxs, hp]
        exact this

/-- And if the tool rejects nothing, the block can be run. -/
theorem block_of_runTxs {C : Crypto} {B : BlockEnv} {f : Fork} : ∀ (txs : List (LegacyTx ⊕ Bytes)) (b : BlockState) (p : Progress) (i : Nat)
    (rej : List (Nat × BlockExn)), b.state.fork = f → unreadTxs f i txs = [] →
    runTxs C B ⟨b, rej⟩ (readTxs f i txs) = .ok p → p.rejected = rej → processTransactions C B b i txs = .ok p.b := by
  intro txs
  induction txs with
  | nil => intro b p i rej hf _ h _; cases h; rfl
  | cons t r ih =>
    intro b p i rej hf hu h hr
    rw [processTransactions, hf]
    rw [readTxs] at h
    rw [unreadTxs] at hu
    match hd : decodeTransaction f t with
    | .error _ => rw [hd] at hu; cases hu
    | .ok tx =>
      rw [hd] at h hu
      dsimp only at h hu ⊢
      rw [runTxs] at h
      match hp : processTransaction C B b tx i with
      | .error (e, b1) =>
        exfalso
        simp only [hp] at h
        by_cases hc : caught e = true
        · rw [if_pos hc] at h
          obtain ⟨l, h1, -⟩ := runTxs_rejected _ _ _ h
          rw [hr] at h1
          have := congrArg List.length h1
          simp at this
        · rw [if_neg hc] at h; cases h
      | .ok b1 =>
        simp only [hp] at h
        obtain ⟨sender, msg, o, w, s1, s2, hran⟩ := processTransaction_ok.mp hp
        exact ih b1 p (i + 1) rej ((ran_fork hran).trans hf) hu h hr

end Verif.T8n
