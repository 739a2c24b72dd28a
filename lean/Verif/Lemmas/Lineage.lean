import Verif.Lemmas.Eoa
import Verif.Lemmas.PowEvm
import Verif.Props.C23_replay
/-! Nonces along histories of any fork. -/
namespace Verif
open Spec Pow

/-- Whatever fork recovers a sender, it is the same one. -/
theorem recover_agree {C : Crypto} {f g : Fork} {cid : U64} {tx : Transaction} {a b : Address}
    (h : recoverSender C f cid tx = .ok a) (h' : recoverSender C g cid tx = .ok b) : a = b := by
  unfold recoverSender at h h'
  split at h
  · cases h
  · rename_i hr
    rw [if_neg hr] at h'
    split at h
    · cases h
    · split at h'
      · cases h'
      · cases tx with
        | legacy t =>
          simp only at h h'
          split at h
          · rename_i hv
            rw [if_pos hv] at h'
            rw [h] at h'; exact Except.ok.inj h'
          · rename_i hv
            rw [if_neg hv] at h'
            split at h
            · cases h
            · split at h'
              · cases h'
              · rw [h] at h'; exact Except.ok.inj h'
        | _ => simp only at h h'; rw [h] at h'; exact Except.ok.inj h'

/-- `nonces_of_ran` for every fork. -/
theorem nonces_all {C : Crypto} {B : BlockEnv} {b b' : BlockState} {tx : Transaction} {i : Nat} {sender : Address}
    {msg : Message} {o : MessageCallOutput} {w : World} {s1 s2 : State} (hq : Quiet b.state)
    (h : Ran C B b tx i b' sender msg o w s1 s2) :
    (∀ a, NonceSafe b.state a → (getAccount b.state a).nonce ≤ (getAccount b'.state a).nonce ∧ NonceSafe b'.state a) ∧
    tx.nonce.toNat < (getAccount b'.state sender).nonce ∧ NonceSafe b'.state sender := by
  by_cases hsd : b.state.fork.since .spuriousDragon = true
  · exact nonces_of_ran (hq.idle hsd) h
  have hold : b.state.fork.since .cancun = false ∧ b.state.fork.since .prague = false := by
    revert hsd; cases b.state.fork <;> decide
  have hq' : Quiet (prepaid B b.state tx sender) :=
    ⟨prepaid_wf hq.wf, (prepaid_snapshots ..).trans hq.snapshots, (prepaid_created ..).trans hq.created⟩
  have htop : TopMessage msg ⟨prepaid B b.state tx sender, TransientStorage.empty⟩ := by
    obtain ⟨-, h2, -, -, h5, h6, -, h9, h8⟩ := prepareMessage_ok h.message
    exact ⟨h5, h6, ⟨hq'.snapshots, rfl⟩, hq'.created, fun t ht => h8 t (h2 ▸ ht), h9⟩
  have hm := Props.C23_execution _ _ _ _ _ h.run
  have r1 := (refundSender_ok h.refund).2
  have r2 := (payCoinbase_ok h.pay).2
  have hd := finalDeletions_ok s2 o
  have hres : b'.state = finalDeletions s2 o := by rw [h.result]
  have key : ∀ a, Eoa (prepaid B b.state tx sender) a →
      (getAccount (prepaid B b.state tx sender) a).nonce ≤ (getAccount b'.state a).nonce ∧ NonceSafe b'.state a := by
    intro a he
    obtain ⟨e1, e2⟩ := spares_top htop (by rw [prepaid_fork]; exact hold.2) h.run he
    have : getAccount b'.state a = getAccount s2 a := by rw [hres]; exact hd.keep a e2
    unfold NonceSafe
    rw [this, (r2.rest a).1, (r1.rest a).1, (r2.rest a).2, (r1.rest a).2]
    exact ⟨hm a, .inr e1⟩
  refine ⟨fun a hsafe => ?_, ?_⟩
  · have hs := hsafe.resolve_left (by rw [hold.1]; decide)
    have hn : (getAccount b.state a).nonce ≤ (getAccount (prepaid B b.state tx sender) a).nonce := by
      rw [getAccount_prepaid]
      split
      · exact Nat.le_succ _
      · exact Nat.le_refl _
    have hc : (getAccount (prepaid B b.state tx sender) a).code = (getAccount b.state a).code := by
      rw [getAccount_prepaid]
      split <;> rfl
    obtain ⟨h1, h2⟩ := key a ⟨hc.trans hs.1, by have := hs.2; omega⟩
    exact ⟨Nat.le_trans hn h1, h2⟩
  · have hn : (getAccount (prepaid B b.state tx sender) sender).nonce = (getAccount b.state sender).nonce + 1 := by
      rw [getAccount_prepaid, if_pos rfl]
    have hc : (getAccount (prepaid B b.state tx sender) sender).code = (getAccount b.state sender).code := by
      rw [getAccount_prepaid, if_pos rfl]
    obtain ⟨h1, h2⟩ := key sender ⟨by
        rw [hc]
        rcases h.includable.code with h1 | h1
        · exact h1
        · unfold delegateOf at h1
          rw [hold.2] at h1
          simp at h1, by omega⟩
    have := h.includable.nonce
    exact ⟨by omega, h2⟩

/-- The transactions `l` were included between the states `s` and `s'`, by the rules of any forks. -/
structure Lineage (C : Crypto) (chainId : U64) (s s' : State) (l : Txs) : Prop where
  quiet : Quiet s → Quiet s'
  mono : Quiet s → ∀ a, NonceSafe s a → (getAccount s a).nonce ≤ (getAccount s' a).nonce ∧ NonceSafe s' a
  each : Quiet s → ∀ t ∈ l, ∃ f tx a, decodeTransaction .osaka t = .ok tx ∧ recoverSender C f chainId tx = .ok a ∧
    (NonceSafe s a → (getAccount s a).nonce ≤ tx.nonce.toNat) ∧ tx.nonce.toNat < (getAccount s' a).nonce ∧ NonceSafe s' a
  order : Quiet s → l.Pairwise fun t t' => ∀ f f' tx tx' a, decodeTransaction .osaka t = .ok tx → decodeTransaction .osaka t' = .ok tx' →
    recoverSender C f chainId tx = .ok a → recoverSender C f' chainId tx' = .ok a → tx.nonce.toNat < tx'.nonce.toNat

theorem Lineage.append {C : Crypto} {cid : U64} {s s1 s2 : State} {l l' : Txs} (h : Lineage C cid s s1 l)
    (h' : Lineage C cid s1 s2 l') : Lineage C cid s s2 (l ++ l') := by
  refine ⟨fun hi => h'.quiet (h.quiet hi), fun hi a hs => ?_, fun hi t ht => ?_, fun hi => ?_⟩
  · obtain ⟨h1, h2⟩ := h.mono hi a hs
    obtain ⟨h3, h4⟩ := h'.mono (h.quiet hi) a h2
    exact ⟨Nat.le_trans h1 h3, h4⟩
  · rcases List.mem_append.mp ht with ht | ht
    · obtain ⟨f, tx, a, h1, h2, h3, h4, h5⟩ := h.each hi t ht
      obtain ⟨h6, h7⟩ := h'.mono (h.quiet hi) a h5
      exact ⟨f, tx, a, h1, h2, h3, Nat.lt_of_lt_of_le h4 h6, h7⟩
    · obtain ⟨f, tx, a, h1, h2, h3, h4⟩ := h'.each (h.quiet hi) t ht
      refine ⟨f, tx, a, h1, h2, fun hs => ?_, h4⟩
      obtain ⟨h6, h7⟩ := h.mono hi a hs
      exact Nat.le_trans h6 (h3 h7)
  · rw [List.pairwise_append]
    refine ⟨h.order hi, h'.order (h.quiet hi), fun t ht t' ht' f f' tx tx' a e1 e2 e3 e4 => ?_⟩
    obtain ⟨g, u, x, h1, h2, -, h4, h5⟩ := h.each hi t ht
    obtain ⟨g', u', x', h1', h2', h3', -⟩ := h'.each (h.quiet hi) t' ht'
    rw [e1] at h1; cases h1
    rw [e2] at h1'; cases h1'
    cases recover_agree e3 h2
    cases recover_agree e4 h2'
    exact Nat.lt_of_lt_of_le h4 (h3' h5)

theorem lineage_nil {C : Crypto} {cid : U64} {s s' : State} (h1 : Quiet s → Quiet s')
    (h2 : Quiet s → ∀ a, NonceSafe s a → (getAccount s a).nonce ≤ (getAccount s' a).nonce ∧ NonceSafe s' a) : Lineage C cid s s' [] :=
  ⟨h1, h2, fun _ t ht => by simp at ht, fun _ => List.Pairwise.nil⟩

/-- Nothing about nonces and codes changed, and the fork is not older. -/
theorem lineage_same {C : Crypto} {cid : U64} {s s' : State} (h1 : Quiet s → Quiet s') (hf : s'.fork.since s.fork = true)
    (h2 : Quiet s → ∀ a, (getAccount s' a).nonce = (getAccount s a).nonce ∧ (getAccount s' a).code = (getAccount s a).code) :
    Lineage C cid s s' [] := by
  refine lineage_nil h1 fun hq a hs => ?_
  obtain ⟨e1, e2⟩ := h2 hq a
  unfold NonceSafe at hs ⊢
  rw [e1, e2]
  exact ⟨Nat.le_refl _, hs.imp (fun h => since_later hf h) id⟩

theorem History.lineage {C : Crypto} {cid : U64} {s s' : State} {l : Txs} (h : History C cid s s' l)
    (hf : s.fork.since .spuriousDragon = true) : Lineage C cid s s' l := by
  refine ⟨fun hq => (h.idle (hq.idle hf)).quiet, fun hq => h.mono (hq.idle hf), fun hq t ht => ?_, fun hq => ?_⟩
  · obtain ⟨tx, a, e⟩ := h.each (hq.idle hf) t ht
    exact ⟨.osaka, tx, a, e⟩
  · refine List.Pairwise.imp_of_mem ?_ (h.order (hq.idle hf))
    intro t t' ht ht' hlt f f' tx tx' a e1 e2 e3 e4
    obtain ⟨u, x, h1, h2, -⟩ := h.each (hq.idle hf) t ht
    obtain ⟨u', x', h1', h2', -⟩ := h.each (hq.idle hf) t' ht'
    rw [e1] at h1; cases h1
    rw [e2] at h1'; cases h1'
    cases recover_agree e3 h2
    cases recover_agree e4 h2'
    exact hlt _ _ _ e1 e2 h2 h2'

theorem transactions_lineage {C : Crypto} {B : BlockEnv} (txs : Txs) : ∀ {b b' : BlockState} {i : Nat},
    processTransactions C B b i txs = .ok b' → Lineage C B.chainId b.state b'.state txs := by
  induction txs with
  | nil => intro b b' i h; cases h; exact lineage_nil id fun _ _ h => ⟨Nat.le_refl _, h⟩
  | cons t r ih =>
    intro b b' i h
    obtain ⟨tx, b1, hdec, hp, hr⟩ := processTransactions_cons h
    obtain ⟨sender, msg, o, w, s1, s2, hran⟩ := processTransaction_ok.mp hp
    have h1 : Lineage C B.chainId b.state b1.state [t] := by
      refine ⟨fun hi => (supply_all hi hran).1, fun hi => (nonces_all hi hran).1, fun hi t' ht' => ?_, fun _ => by simp⟩
      simp only [List.mem_cons, List.not_mem_nil, or_false] at ht'
      subst ht'
      exact ⟨_, tx, sender, decode_later hdec, hran.includable.signed, fun _ => Nat.le_of_eq hran.includable.nonce, (nonces_all hi hran).2⟩
    exact h1.append (ih hr)

end Verif
