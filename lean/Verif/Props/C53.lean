import Verif.Lemmas.BodyTotal
import Verif.Lemmas.SampleTx
/-! Property C53: logs are paid for, so the size of the receipts is bounded by the gas of a block. -/
namespace Verif.Props
open Verif Verif.Spec

/-- **C53.** For every message that returns, in the gas that is gone there were 375 for each log, 375 for each topic and 8
for each byte of data of the logs it leaves behind, those of its calls included. In every fork. -/
theorem C53_message {E : Env} {msg : Message} {w w' : World} {out : MessageCallOutput}
    (h : processMessageCall E msg w = .ok (out, w')) :
    (out.logs.map fun g => 375 + 375 * g.topics.length + 8 * g.data.length).sum + out.gasLeft ≤ msg.gas :=
  top_logs h

/-- **C53.** The logs of an included transaction cost no more than the gas of the transaction beyond the intrinsic gas. -/
theorem C53_transaction {C : Crypto} {B : BlockEnv} {b b' : BlockState} {tx : Transaction} {i : Nat}
    (h : processTransaction C B b tx i = .ok b') : ∃ logs, b'.out.blockLogs = b.out.blockLogs ++ logs ∧
      (logs.map fun g => 375 + 375 * g.topics.length + 8 * g.data.length).sum + intrinsicGas b.state.fork tx ≤ tx.gas := by
  obtain ⟨sender, msg, o, w, s1, s2, hran⟩ := processTransaction_ok.mp h
  refine ⟨o.logs, by rw [hran.result]; rfl, ?_⟩
  have hl := C53_message hran.run
  have hg : msg.gas = tx.gas - intrinsicGas b.state.fork tx := (prepareMessage_ok hran.message).2.2.1
  have hv := hran.includable.valid.gas
  omega

theorem add_costs {a c i g s n k : Nat} (h1 : a + i ≤ g) (h2 : k ≤ i) (h3 : c + k * n ≤ s) : a + c + k * (n + 1) ≤ g + s := by
  rw [Nat.mul_succ]; generalize k * n = x at *; omega
theorem intrinsic_ge (f : Fork) (tx : Transaction) : 21000 ≤ intrinsicGas f tx := by unfold intrinsicGas; omega

/-- **C53.** The logs of a block: 375 for each log and topic and 8 for each byte come to no more than the sum of the gas of
its transactions. -/
theorem C53_block {C : Crypto} {B : BlockEnv} (txs : List (LegacyTx ⊕ Bytes)) : ∀ {b b' : BlockState} {i : Nat},
    processTransactions C B b i txs = .ok b' → ∃ (logs : List Log) (limits : List Nat), b'.out.blockLogs = b.out.blockLogs ++ logs ∧
      txs.map (fun t => (decodeTransaction b.state.fork t).map Transaction.gas) = limits.map .ok ∧
      (logs.map fun g => 375 + 375 * g.topics.length + 8 * g.data.length).sum + 21000 * txs.length ≤ limits.sum := by
  induction txs with
  | nil => intro b b' i h; cases h; exact ⟨[], [], by simp, rfl, by simp⟩
  | cons t r ih =>
    intro b b' i h
    obtain ⟨tx, b1, hd, hp, hr⟩ := processTransactions_cons h
    obtain ⟨l1, e1, e2⟩ := C53_transaction hp
    obtain ⟨sender, msg, o, w, s1, s2, hran⟩ := processTransaction_ok.mp hp
    obtain ⟨l2, lim, f1, f2, f3⟩ := ih hr
    have h21 : 21000 ≤ intrinsicGas b.state.fork tx := intrinsic_ge _ tx
    rw [ran_fork hran] at f2
    refine ⟨l1 ++ l2, tx.gas :: lim, by rw [f1, e1, List.append_assoc], ?_, ?_⟩
    · rw [List.map_cons, hd, f2]; rfl
    · rw [List.map_append, List.sum_append, List.sum_cons, List.length_cons]; exact add_costs e2 h21 f3

/-- A transaction whose code logs four bytes with one topic. -/
example : (match processTransaction sampleCrypto sampleBlockEnv ⟨sampleState, BlockOutput.empty⟩
      (.legacy ⟨0, 10, 80000, none, 3, [0x60, 0x07, 0x60, 0x04, 0x60, 0x00, 0xa1], 27, 77, 1⟩) 0 with
    | .ok b => b.out.blockLogs.map (fun l => (l.topics.length, l.data.length)) == [(1, 4)]
    | .error _ => false) = true := by decide +kernel

end Verif.Props
