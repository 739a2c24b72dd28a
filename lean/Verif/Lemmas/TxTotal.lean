import Verif.Spec.TxSane
import Verif.Lemmas.RootTotal
import Verif.Props.C20
import Verif.Lemmas.AllForks
/-! No internal errors: transactions. -/
namespace Verif
open Spec Verif.Props

/-- The gas, capped or within that of the block, bounds the data and the authorizations. -/
theorem Spec.Includable.bounds {C : Crypto} {B : BlockEnv} {s : State} {g bg : Nat} {tx : Transaction} {sender : Address}
    (hi : Includable C B s g bg tx sender) (hB : BlockFits s.fork B) :
    tx.gas < 2 ^ 60 ∧ tx.data.length < 2 ^ 60 ∧ tx.authorizations.length < 2 ^ 60 ∧ 21000 ≤ tx.gas := by
  have h1 := hi.valid.gas
  have h3 := zeros_add tx.data
  have h2 : tx.gas < 2 ^ 60 := by
    by_cases ho : s.fork.since .osaka = true
    · have := hi.valid.cap ho; omega
    · have h4 := hB.gasLimit
      have h5 := hi.room
      unfold gasLimitBound at h4
      rw [if_neg ho] at h4
      omega
  unfold intrinsicGas at h1
  have hc : 4 * nonZeros tx.data ≤ (if s.fork.since .istanbul = true then 16 else 68) * nonZeros tx.data :=
    Nat.mul_le_mul_right _ (by split <;> omega)
  refine ⟨h2, by omega, by omega, by omega⟩

theorem Spec.StateFits.word {s : State} (h : StateFits s) : Verif.supply s < 2 ^ 256 := Nat.lt_of_lt_of_le h.supply (supplyLimit_le _)

theorem gasLimitBound_le (f : Fork) : gasLimitBound f ≤ 2 ^ 256 := by unfold gasLimitBound; split <;> decide

/-- The code of every account is as before, or short. -/
theorem top_codes {E : Env} {msg : Message} {w w' : World} {out : MessageCallOutput} (ht : TopMessage msg w)
    (hf : w.state.fork.since .spuriousDragon = true) (hl : E.tx.authorizations.length < 2 ^ 240) (h : processMessageCall E msg w = .ok (out, w')) (a : Address) :
    (getAccount w'.state a).code = (getAccount w.state a).code ∨ (getAccount w'.state a).code.length ≤ 24576 := by
  obtain ⟨r, msg1, s1, ha, -, hcodes⟩ := authorized_fits (E := E) ht hl
  have hfk : s1.fork = w.state.fork := (authorized_rel ha).1.fork
  rw [processMessageCall, processMessageCallWith_eq, ha] at h
  simp only at h
  have dep : ∀ {c : Bytes}, Deployable w.state.fork c → c.length ≤ 24576 := fun h => h.2 hf
  by_cases htar : msg.target = none
  · simp only [htar, if_true] at h
    split at h
    · cases h; exact .inl rfl
    · split at h
      · cases h
      · rename_i evm w2 hpm
        split at h <;> cases h
        exact ((createMessage_rel codes_closed codes_increment hpm).2 a).imp id dep
  · simp only [htar, if_false] at h
    split at h
    · cases h
    · rename_i evm w2 hpm
      split at h <;> cases h
      rcases (message_rel codes_closed hpm).2 a with h | h
      · rw [h]
        exact (hcodes a).imp id fun h => Nat.le_trans h (by decide)
      · exact .inr (dep (by rw [← hfk]; exact h))

theorem prepareMessage_sizes {C : Crypto} {txEnv : TxEnv} {s : State} {tx : Transaction} {msg : Message}
    (h : prepareMessage C txEnv s tx = .ok msg) :
    (msg.code = tx.data ∨ ∃ a, msg.code = (getAccount s a).code) ∧ msg.data.length ≤ tx.data.length := by
  unfold prepareMessage at h
  dsimp only at h
  split at h
  · split at h
    · cases h
    · cases h; exact ⟨.inl rfl, Nat.zero_le _⟩
  · cases h; exact ⟨.inr ⟨_, rfl⟩, Nat.le_refl _⟩

theorem prepaid_code (B : BlockEnv) (s : State) (tx : Transaction) (sender a : Address) :
    (getAccount (prepaid B s tx sender) a).code = (getAccount s a).code := by
  rw [getAccount_prepaid]; split <;> rfl

theorem le_of_mul_le {a b c : Nat} (ha : 21000 ≤ a) (h : a * b ≤ c) : b ≤ c :=
  Nat.le_trans (Nat.le_mul_of_pos_left b (by omega)) h

theorem sane_of_includable {C : Crypto} {B : BlockEnv} {s : State} {g bg : Nat} {tx : Transaction} {sender : Address} {msg : Message}
    (hs : Quiet s) (hB : BlockFits s.fork B) (hS : StateFits s) (hi : Includable C B s g bg tx sender)
    (hm : prepareMessage C (txEnvOf s.fork B tx sender) (prepaid B s tx sender) tx = .ok msg) :
    Sane ⟨C, B, txEnvOf s.fork B tx sender⟩ msg ⟨prepaid B s tx sender, TransientStorage.empty⟩ := by
  obtain ⟨b1, b2, b3, b4⟩ := hi.bounds hB
  have hp := can_pay hi
  have hlt : (getAccount s sender).balance.toNat < 2 ^ 256 := BitVec.isLt _
  obtain ⟨m1, m2, m3, m4, m5, m6, m7, m8⟩ := prepareMessage_ok hm
  obtain ⟨z1, z2⟩ := prepareMessage_sizes hm
  have hsup := supply_prepaid hs.wf hi
  have hprice : price B.baseFeePerGas tx ≤ (getAccount s sender).balance.toNat := le_of_mul_le b4 (by omega)
  have hcodes : ∀ a, (getAccount (prepaid B s tx sender) a).code.length < 2 ^ 240 := fun a => by
    rw [prepaid_code]; exact hS.codes a
  have hsup0 := hS.supply
  refine ⟨⟨hB.number, Nat.lt_of_lt_of_le hB.gasLimit (gasLimitBound_le _), hB.baseFee, ?_, by rw [prepaid_fork]; exact hB.blobPrice, hB.hashes, hB.difficulty⟩, ?_, ?_, ?_, hcodes, ?_, ?_, fun _ => ?_⟩
  · show price B.baseFeePerGas tx < 2 ^ 256
    omega
  · rw [m3]
    show tx.gas - intrinsicGas s.fork tx < 2 ^ 240
    omega
  · rcases z1 with h | ⟨a, h⟩
    · rw [h]; omega
    · rw [h]; exact hcodes a
  · omega
  · show tx.authorizations.length < 2 ^ 240
    omega
  · show supply (prepaid B s tx sender) < supplyLimit (prepaid B s tx sender).fork
    rw [prepaid_fork]
    omega
  · rw [m1, m4]
    show tx.value ≤ (getAccount (prepaid B s tx sender) sender).balance
    rw [getAccount_prepaid, if_pos rfl]
    rw [BitVec.le_def, BitVec.toNat_ofNat, Nat.mod_eq_of_lt (by omega)]
    omega

/-- Everything after the message has run succeeds. -/
theorem settle_succeeds {C : Crypto} {B : BlockEnv} {s : State} {g bg : Nat} {tx : Transaction} {sender : Address} {w : World}
    {o : MessageCallOutput} (hs : Quiet s) (hS : StateFits s) (hi : Includable C B s g bg tx sender)
    (hw : w.state.WF) (hle : supply w.state ≤ supply (prepaid B s tx sender)) :
    ∃ s1 s2, refundSender w.state sender ((tx.gas - gasCharged s.fork tx o) * price B.baseFeePerGas tx) = .ok s1 ∧
      payCoinbase s1 B.coinbase (gasCharged s.fork tx o * tip B.baseFeePerGas tx) = .ok s2 := by
  have hsup := supply_prepaid hs.wf hi
  have hu : gasCharged s.fork tx o ≤ tx.gas := gasCharged_le o hi.valid.floor
  have e : (tx.gas - gasCharged s.fork tx o) * price B.baseFeePerGas tx + gasCharged s.fork tx o * tip B.baseFeePerGas tx +
      gasCharged s.fork tx o * B.baseFeePerGas = tx.gas * price B.baseFeePerGas tx := by
    rw [Nat.add_assoc, ← Nat.mul_add, show tip B.baseFeePerGas tx + B.baseFeePerGas = price B.baseFeePerGas tx by unfold price; omega,
      ← Nat.add_mul]
    congr 1; omega
  have hsup0 := hS.word
  have l1 := balance_le_supply hw.main.1 sender
  obtain ⟨s1, h1⟩ := refundSender_succeeds (s := w.state) (a := sender)
    (n := (tx.gas - gasCharged s.fork tx o) * price B.baseFeePerGas tx) (by omega)
  have r1 := (refundSender_ok h1).2
  have q1 := r1.supply hw
  have l2 := balance_le_supply (r1.wf hw).main.1 B.coinbase
  obtain ⟨s2, h2⟩ := payCoinbase_succeeds (s := s1) (a := B.coinbase) (n := gasCharged s.fork tx o * tip B.baseFeePerGas tx) (by omega)
  exact ⟨s1, s2, h1, h2⟩

/-- A transaction that may be included is included, or MODEXP overflows. -/
theorem includable_runs {C : Crypto} {B : BlockEnv} {b : BlockState} {tx : Transaction} {sender : Address} (i : Nat) (hs : Quiet b.state)
    (hB : BlockFits b.state.fork B) (hS : StateFits b.state)
    (hi : Includable C B b.state b.out.blockGasUsed b.out.blobGasUsed tx sender) :
    (OldModexp b.state.fork ∧ ∃ b', processTransaction C B b tx i = .error (.exn (.crash .overflowError), b')) ∨
    ∃ b', processTransaction C B b tx i = .ok b' := by
  obtain ⟨msg, hm, hbeg⟩ := beginTx_accepts i hi
  have htop := prepared_quiet hm (prepaid_quiet hs)
  have hwf : World.WF ⟨prepaid B b.state tx sender, TransientStorage.empty⟩ := ⟨prepaid_wf hs.wf, TransientStorage.empty_wf⟩
  rcases C20_message _ _ _ hwf htop (sane_of_includable hs hB hS hi hm) with ⟨ho, w', hcrash⟩ | ⟨o, w, hrun⟩
  · left
    refine ⟨by have := ho; rwa [show (World.state ⟨prepaid B b.state tx sender, TransientStorage.empty⟩).fork = b.state.fork from prepaid_fork ..] at this, ?_⟩
    unfold processTransaction
    rw [hbeg]
    dsimp only
    rw [hcrash]
    exact ⟨_, rfl⟩
  right
  have hidle := top_quiet (w := ⟨prepaid B b.state tx sender, TransientStorage.empty⟩) (prepaid_quiet hs) hrun
  have hle := (top_rel noMint_closed hrun hwf.state.main.1).2
  obtain ⟨s1, s2, h1, h2⟩ := settle_succeeds (o := o) hs hS hi hidle.wf hle
  refine ⟨_, processTransaction_ok.mpr ⟨sender, msg, o, w, s1, s2, hi, hm, hrun, h1, h2, ?_, rfl⟩⟩
  have q1 := (refundSender_ok h1).2
  have q2 := (payCoinbase_ok h2).2
  have q3 := finalDeletions_ok s2 o
  obtain ⟨root, hroot⟩ := stateRoot_total_wf C (finalDeletions s2 o) (q3.wf (q2.wf (q1.wf hidle.wf)))
    (q3.snapshots.trans (q2.snapshots.trans (q1.snapshots.trans hidle.snapshots)))
  have hst : ∃ st, receiptStatus C (finalDeletions s2 o) o.error = .ok st := by
    unfold receiptStatus
    split
    · exact ⟨_, rfl⟩
    · rw [hroot]; exact ⟨_, rfl⟩
  obtain ⟨st, hst⟩ := hst
  rw [hst, receiptStatus_ok hst]

theorem blobAvailable_total {f : Fork} {B : BlockEnv} {out : BlockOutput} (hw : Within f B out) : ∃ n, blobGasAvailable f out = .ok n := by
  unfold blobGasAvailable
  split
  · rename_i hc
    have := hw.blobGas hc
    have hle : out.blobGasUsed ≤ maxBlobGasPerBlock f := by
      unfold maxBlobGasPerBlock
      unfold maxBlobs at this
      rw [if_pos hc] at this
      split <;> simp_all
    rw [usub_ok.mpr ⟨hle, rfl⟩]; exact ⟨_, rfl⟩
  · exact ⟨_, rfl⟩


/-- `check_transaction` raises declared errors only. -/
theorem check_declared {C : Crypto} {B : BlockEnv} {s : State} {out : BlockOutput} {tx : Transaction} {e : BlockExn}
    (hw : Within s.fork B out) (hb : blobGas tx < 2 ^ 64) (h : checkTransaction C B s out tx = .error e) : Declared e := by
  have d1 : ∀ {α : Type} {x : Except TxError α}, txErr x = .error e → Declared e := by
    intro α x hx
    cases x with
    | ok a => cases hx
    | error y => cases hx; exact .inr ⟨_, rfl⟩
  have h1 : usub B.blockGasLimit out.blockGasUsed = .ok (B.blockGasLimit - out.blockGasUsed) := usub_ok.mpr ⟨hw.gas, rfl⟩
  obtain ⟨avail, h2⟩ := blobAvailable_total hw
  have h3 : calculateTotalBlobGas tx = .ok (blobGas tx) := totalBlobGas_ok.mpr ⟨hb, rfl⟩
  have hprices : ∀ {e : BlockExn}, gasPrices B.baseFeePerGas tx = .error e → Declared e := by
    intro e h
    cases tx <;> simp only [gasPrices, legacyPrices, feeMarketPrices] at h <;> split at h
    all_goals first
      | (cases h; done)
      | (cases h; exact .inl rfl)
      | (cases h; exact .inr ⟨_, rfl⟩)
      | (split at h
         · cases h; exact .inr ⟨_, rfl⟩
         · cases h)
  have hblob : ∀ {e : BlockExn} {n : Nat}, blobChecks s.fork B.excessBlobGas n tx = .error e → Declared e := by
    intro e n h
    cases tx <;> simp only [blobChecks] at h
    case blob t => repeat' (split at h; · cases h; exact .inr ⟨_, rfl⟩)
                   cases h
    all_goals cases h
  have hshape : ∀ {e : BlockExn}, shapeChecks tx = .error e → Declared e := by
    intro e h
    cases tx <;> simp only [shapeChecks] at h
    case blob t =>
      split at h
      · cases h; exact .inr ⟨_, rfl⟩
      · cases h
    case setCode t =>
      split at h
      · cases h; exact .inr ⟨_, rfl⟩
      · split at h
        · cases h; exact .inr ⟨_, rfl⟩
        · cases h
    all_goals cases h
  have hsender : ∀ {e : BlockExn} {acc : Account} {n : Word} {c : Nat}, senderChecks s.fork acc n c = .error e → Declared e := by
    intro e acc n c h
    unfold senderChecks at h
    repeat' (split at h; · cases h; exact .inr ⟨_, rfl⟩)
    cases h
  unfold checkTransaction at h
  simp only [h1, h2, h3, pyErr, bind, Except.bind] at h
  by_cases c1 : tx.gas > B.blockGasLimit - out.blockGasUsed
  · rw [if_pos c1] at h; cases h; exact .inr ⟨_, rfl⟩
  rw [if_neg c1] at h
  by_cases c2 : blobGas tx > avail
  · rw [if_pos c2] at h; cases h; exact .inr ⟨_, rfl⟩
  rw [if_neg c2] at h
  split at h
  · rename_i he; cases h; exact d1 he
  split at h
  · rename_i he; cases h; exact hprices he
  split at h
  · rename_i he; cases h; exact hblob he
  split at h
  · rename_i he; cases h; exact hshape he
  split at h
  · rename_i he; cases h; exact hsender he
  cases h

/-- An error of a transaction is a rejection: declared, and nothing but the record of the transaction has changed; or MODEXP overflows. -/
theorem rejected {C : Crypto} {B : BlockEnv} {b b' : BlockState} {tx : Transaction} {i : Nat} {e : BlockExn} (hs : Quiet b.state)
    (hB : BlockFits b.state.fork B) (hS : StateFits b.state) (hw : Within b.state.fork B b.out) (hb : blobGas tx < 2 ^ 64)
    (h : processTransaction C B b tx i = .error (e, b')) :
    (Declared e ∧ b' = ⟨b.state, recorded b.out tx i⟩ ∧
      ∀ sender, ¬ Includable C B b.state b.out.blockGasUsed b.out.blobGasUsed tx sender) ∨
    (Tolerated b.state.fork e ∧ ∃ sender, Includable C B b.state b.out.blockGasUsed b.out.blobGasUsed tx sender) := by
  by_cases hn : ∃ sender, Includable C B b.state b.out.blockGasUsed b.out.blobGasUsed tx sender
  · obtain ⟨sender, hi⟩ := hn
    rcases includable_runs i hs hB hS hi with ⟨ho, b1, h1⟩ | ⟨b1, h1⟩
    · rw [h] at h1; cases h1; exact .inr ⟨⟨ho, rfl⟩, sender, hi⟩
    · rw [h] at h1; cases h1
  left
  have hn : ∀ sender, ¬ Includable C B b.state b.out.blockGasUsed b.out.blobGasUsed tx sender := fun s hs => hn ⟨s, hs⟩
  match hbeg : beginTx C B b tx i with
  | .ok (p, b1) =>
    obtain ⟨sender, hi, -⟩ := beginTx_iff hbeg
    exact absurd hi (hn sender)
  | .error (e', b1) =>
    have : (e', b1) = (e, b') := by
      unfold processTransaction at h
      rw [hbeg] at h
      exact Except.error.inj h
    cases this
    obtain ⟨h1, -, h2⟩ := beginTx_rejects hbeg
    refine ⟨?_, h1, hn⟩
    rcases h2 with ⟨x, -, rfl⟩ | h2
    · exact .inr ⟨x, rfl⟩
    · exact check_declared ⟨hw.gas, hw.blobGas⟩ hb h2

end Verif
