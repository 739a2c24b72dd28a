import Verif.Lemmas.TxRun
import Verif.Lemmas.SampleTx
import Verif.Props.C09_C11
import Verif.Props.C37_C39
/-!
Properties C24 and C25: what an included transaction pays, and how much gas it is charged for.

`Executed` and `FeesPaid` (in `Verif/Spec/TxOutcome.lean`) relate the states before the transaction, before and after its
execution, and in the end; `price`, `tip` and `blobFee` are in `Verif/Spec/TxRules.lean`.
-/
namespace Verif.Props
open Verif Verif.Spec

theorem executed_of_ran {C : Crypto} {B : BlockEnv} {b b' : BlockState} {tx : Transaction} {i : Nat} {sender : Address}
    {msg : Message} {o : MessageCallOutput} {w : World} {s1 s2 : State} (hs : Quiet b.state)
    (h : Ran C B b tx i b' sender msg o w s1 s2) :
    Executed C B b.state tx sender (txEnvOf b.state.fork B tx sender) msg (prepaid B b.state tx sender) o w.state := by
  obtain ⟨h1, h2, h3, h4, -, -, -, -, -⟩ := prepareMessage_ok h.message
  obtain ⟨m1, m2, m3, m4⟩ := prepareMessage_rest h.message
  have hn : (getAccount (prepaid B b.state tx sender) sender).nonce = tx.nonce.toNat + 1 := by
    rw [getAccount_prepaid, if_pos rfl]
    show (getAccount b.state sender).nonce + 1 = _
    rw [h.includable.nonce]
  refine ⟨⟨w.transient, h.run⟩, h.includable.signed, fun a ha => ?_, fun he a k => ?_, ⟨h.includable.nonce, hn⟩, ?_, ⟨rfl, h1⟩, h3,
    ⟨h4, (prepareMessage_ok h.message).2.2.2.2.2.2.1⟩, h2, prepared_quiet h.message (prepaid_quiet hs), m1, fun ht => ?_, rfl, rfl, rfl,
    fun a => ?_, fun a k => ?_⟩
  · simp only [prepaid, setAccountBalance, incrementNonce, getAccountOptional_modifyState', Ne.symm ha, if_false]
  · have e1 : ∀ k, getStorage (incrementNonce b.state sender) a k = getStorage b.state a k := by
      intro k
      unfold incrementNonce
      rw [getStorage_modifyState', if_neg]
      rintro ⟨-, h⟩
      have := congrArg Account.nonce h.2
      simp [emptyAccount] at this
    unfold prepaid setAccountBalance
    rw [getStorage_modifyState', if_neg, e1]
    rintro ⟨-, h⟩
    have := congrArg Account.nonce h.2
    unfold incrementNonce at this
    rw [getAccount_modifyState', if_pos rfl] at this
    simp [emptyAccount] at this
  · rw [getAccount_prepaid, if_pos rfl]
  · obtain ⟨c1, c2, c3⟩ := m2 ht
    refine ⟨c1, c2, ?_⟩
    rw [c3]
    show computeContractAddress C sender ((getAccount (prepaid B b.state tx sender) sender).nonce - 1) = _
    rw [hn, Nat.add_sub_cancel]
  · rw [m3, mem_setAdd, mem_setUpdate, mem_setUpdate]
    simp only [txEnvOf, prepaid_fork, mem_accessAddresses, mem_precompileAddresses, List.mem_cons, List.not_mem_nil, or_false]
    grind
  · rw [m4]; exact mem_accessKeys tx a k

theorem fees_of_ran {C : Crypto} {B : BlockEnv} {b b' : BlockState} {tx : Transaction} {i : Nat} {sender : Address}
    {msg : Message} {o : MessageCallOutput} {w : World} {s1 s2 : State} (h : Ran C B b tx i b' sender msg o w s1 s2) :
    FeesPaid B tx sender (gasCharged b.state.fork tx o) o.accountsToDelete b.state (prepaid B b.state tx sender) w.state b'.state := by
  have hp := can_pay h.includable
  have r1 := (refundSender_ok h.refund).2
  have r2 := (payCoinbase_ok h.pay).2
  have hd := finalDeletions_ok s2 o
  have hres : b'.state = finalDeletions s2 o := by rw [h.result]
  have keep : ∀ a, a ∉ o.accountsToDelete → getAccount b'.state a = getAccount s2 a := by
    intro a ha
    rw [hres]; exact hd.keep a ha
  refine ⟨fun a => ?_, fun a ha => ?_, fun a ha => ?_, fun a ha => ?_⟩
  · rw [getAccount_prepaid]
    by_cases e : sender = a
    · subst e
      rw [if_pos rfl, if_pos rfl]
      have hlt : (getAccount b.state sender).balance.toNat < 2 ^ 256 := BitVec.isLt _
      show _ = (BitVec.ofNat 256 _).toNat + _
      rw [BitVec.toNat_ofNat, Nat.mod_eq_of_lt (by omega)]
      omega
    · rw [if_neg e, if_neg (Ne.symm e)]; rfl
  · rw [keep a ha, r2.balance, r1.balance]
  · rw [hres]
    exact hd.gone a ha
  · rw [keep a ha]
    exact ⟨(r2.rest a).1.trans (r1.rest a).1, (r2.rest a).2.trans (r1.rest a).2⟩

/-- **C24.** An included transaction is executed as the message it describes; the sender pays for all its gas in advance and
gets back the part that is not charged, the producer of the block gets its tip for what is charged. In every fork. -/
theorem C24_fees {C : Crypto} {B : BlockEnv} {b b' : BlockState} {tx : Transaction} {i : Nat} (hs : Quiet b.state)
    (h : processTransaction C B b tx i = .ok b') :
    ∃ sender env msg start out finish, Executed C B b.state tx sender env msg start out finish ∧
      FeesPaid B tx sender (gasCharged b.state.fork tx out) out.accountsToDelete b.state start finish b'.state ∧
      b'.out.blockGasUsed = b.out.blockGasUsed + gasCharged b.state.fork tx out := by
  obtain ⟨sender, msg, o, w, s1, s2, hr⟩ := processTransaction_ok.mp h
  exact ⟨sender, _, msg, _, o, _, executed_of_ran hs hr, fees_of_ran hr, by rw [hr.result]; rfl⟩

/-- **C24**, the net charge of the sender, beyond what the execution did to its balance. -/
theorem C24_charge {B : BlockEnv} {tx : Transaction} {sender : Address} {used : Nat} {deleted : List Address}
    {s start finish s' : State} (h : FeesPaid B tx sender used deleted s start finish s') (hu : used ≤ tx.gas)
    (hd : sender ∉ deleted) (hc : sender ≠ B.coinbase) :
    ((getAccount s' sender).balance.toNat : Int) - (getAccount s sender).balance.toNat =
      ((getAccount finish sender).balance.toNat - (getAccount start sender).balance.toNat) -
      (used * price B.baseFeePerGas tx + blobFee s.fork B tx) := by
  have h1 := h.advance sender
  have h2 := h.settle sender hd
  rw [if_pos rfl] at h1 h2
  rw [if_neg hc] at h2
  have e : (tx.gas - used) * price B.baseFeePerGas tx + used * price B.baseFeePerGas tx = tx.gas * price B.baseFeePerGas tx := by
    rw [← Nat.add_mul]; congr 1; omega
  rw [h1, h2]
  have e' := congrArg (Int.ofNat) e
  simp only [Int.ofNat_eq_natCast, Int.natCast_add] at e'
  simp only [Int.natCast_add] at *
  rw [← Int.natCast_mul]
  omega

theorem supply_prepaid {C : Crypto} {B : BlockEnv} {s : State} {g bg : Nat} {tx : Transaction} {a : Address} (hw : s.WF)
    (h : Includable C B s g bg tx a) :
    supply (prepaid B s tx a) + tx.gas * price B.baseFeePerGas tx + blobFee s.fork B tx = supply s := by
  have hp := can_pay h
  have h1 := supply_modifyState' hw.main.1 a (fun acc => { acc with nonce := acc.nonce + 1 })
  have h2 := supply_modifyState' (s := incrementNonce s a) (by unfold incrementNonce; rw [modifyState'_default]; exact hw.main.1) a
    (fun acc => { acc with balance := BitVec.ofNat 256 ((getAccount s a).balance.toNat - (tx.gas * price B.baseFeePerGas tx + blobFee s.fork B tx)) })
  have e : (getAccount (incrementNonce s a) a).balance = (getAccount s a).balance := by
    unfold incrementNonce; rw [getAccount_modifyState', if_pos rfl]
  rw [e] at h2
  simp only at h1 h2
  have hlt : (getAccount s a).balance.toNat < 2 ^ 256 := BitVec.isLt _
  rw [BitVec.toNat_ofNat, Nat.mod_eq_of_lt (by omega)] at h2
  change supply (incrementNonce s a) + _ = _ at h1
  change supply (prepaid B s tx a) + _ = _ at h2
  omega

theorem supply_of_ran {C : Crypto} {B : BlockEnv} {b b' : BlockState} {tx : Transaction} {i : Nat} {sender : Address}
    {msg : Message} {o : MessageCallOutput} {w : World} {s1 s2 : State} (hs : Idle b.state)
    (h : Ran C B b tx i b' sender msg o w s1 s2) :
    Idle b'.state ∧
    supply b'.state + (gasCharged b.state.fork tx o * B.baseFeePerGas + blobFee b.state.fork B tx) ≤ supply b.state ∧
    (o.accountsToDelete = [] → supply b'.state + (gasCharged b.state.fork tx o * B.baseFeePerGas + blobFee b.state.fork B tx) = supply b.state) := by
  have htop := prepared_top h.message (prepaid_idle hs)
  have hwf : World.WF ⟨prepaid B b.state tx sender, TransientStorage.empty⟩ := ⟨prepaid_wf hs.wf, TransientStorage.empty_wf⟩
  have hsd : (prepaid B b.state tx sender).fork.since .spuriousDragon = true := by rw [prepaid_fork]; exact hs.fork
  have hidle := top_idle hwf hsd htop h.run
  obtain ⟨hle, heq⟩ := C11_transaction _ _ _ _ _ hwf hsd htop h.run
  have hpre := supply_prepaid hs.wf h.includable
  have r1 := (refundSender_ok h.refund).2
  have r2 := (payCoinbase_ok h.pay).2
  have q1 := r1.supply hidle.wf
  have q2 := r2.supply (r1.wf hidle.wf)
  have hd := finalDeletions_ok s2 o
  have d6 := hd.wf (r2.wf (r1.wf hidle.wf))
  have d7 := hd.supplyLe (r2.wf (r1.wf hidle.wf))
  have hres : b'.state = finalDeletions s2 o := by rw [h.result]
  have hu : gasCharged b.state.fork tx o ≤ tx.gas := gasCharged_le o h.includable.valid.floor
  have e : (tx.gas - gasCharged b.state.fork tx o) * price B.baseFeePerGas tx + gasCharged b.state.fork tx o * tip B.baseFeePerGas tx +
      gasCharged b.state.fork tx o * B.baseFeePerGas = tx.gas * price B.baseFeePerGas tx := by
    rw [Nat.add_assoc, ← Nat.mul_add, show tip B.baseFeePerGas tx + B.baseFeePerGas = price B.baseFeePerGas tx by unfold price; omega,
      ← Nat.add_mul]
    congr 1; omega
  rw [hres]
  refine ⟨⟨by rw [hd.fork, r2.fork, r1.fork]; exact hidle.fork, d6,
    hd.snapshots.trans (r2.snapshots.trans (r1.snapshots.trans hidle.snapshots)), hd.created.trans (r2.created.trans (r1.created.trans hidle.created))⟩, ?_, fun hz => ?_⟩
  · simp only at hle; omega
  · have := heq hz
    have d8 := hd.supplyEq (r2.wf (r1.wf hidle.wf)) hz
    simp only at *
    omega

/-- **C24**, the rest disappears: the total supply falls by at least the base fee of the gas charged and the fee for the
blobs, and by exactly that much if no account is deleted. -/
theorem C24_supply {C : Crypto} {B : BlockEnv} {b b' : BlockState} {tx : Transaction} {i : Nat} (hs : Idle b.state)
    (h : processTransaction C B b tx i = .ok b') :
    ∃ sender env msg start out finish, Executed C B b.state tx sender env msg start out finish ∧
      supply b'.state + (gasCharged b.state.fork tx out * B.baseFeePerGas + blobFee b.state.fork B tx) ≤ supply b.state ∧
      (out.accountsToDelete = [] → supply b'.state + (gasCharged b.state.fork tx out * B.baseFeePerGas + blobFee b.state.fork B tx) = supply b.state) := by
  obtain ⟨sender, msg, o, w, s1, s2, hr⟩ := processTransaction_ok.mp h
  exact ⟨sender, _, msg, _, o, _, executed_of_ran hs.quiet hr, (supply_of_ran hs hr).2⟩

/-- The state after an included transaction is again one between transactions. -/
theorem C24_idle {C : Crypto} {B : BlockEnv} {b b' : BlockState} {tx : Transaction} {i : Nat} (hs : Idle b.state)
    (h : processTransaction C B b tx i = .ok b') : Idle b'.state := by
  obtain ⟨sender, msg, o, w, s1, s2, hr⟩ := processTransaction_ok.mp h
  exact (supply_of_ran hs hr).1

/-- **C25.** The gas charged is within its bounds, it is what the block's counter grows by, and the receipt of the
transaction has the cumulative gas, the logs and the status; before byzantium it has the state root in place of the status. In every
fork. -/
theorem C25_gas {C : Crypto} {B : BlockEnv} {b b' : BlockState} {tx : Transaction} {i : Nat} (hs : Quiet b.state)
    (h : processTransaction C B b tx i = .ok b') :
    ∃ sender env msg start out finish used, Executed C B b.state tx sender env msg start out finish ∧
      b'.out.blockGasUsed = b.out.blockGasUsed + used ∧
      used ≤ tx.gas ∧ floorGas b.state.fork tx ≤ used ∧ 
      (if b.state.fork.since .london then 4 * (tx.gas - out.gasLeft) ≤ 5 * used else tx.gas - out.gasLeft ≤ 2 * used) ∧
      (used ≤ max (tx.gas - out.gasLeft) (floorGas b.state.fork tx)) ∧ out.gasLeft ≤ tx.gas - intrinsicGas b.state.fork tx ∧
      ∃ status, trieGet b'.out.receiptsTrie (indexKey i) =
          some (encodeReceipt tx ⟨status, b'.out.blockGasUsed, logsBloom C out.logs, out.logs⟩) ∧
        (b.state.fork.since .byzantium = true → status = .succeeded out.error.isNone) ∧
        (b.state.fork.since .byzantium = false → ∃ root, stateRoot C b'.state = .ok root ∧ status = .postState root) := by
  obtain ⟨sender, msg, o, w, s1, s2, hr⟩ := processTransaction_ok.mp h
  have hg := gasLeft_le hr.message hr.run
  refine ⟨sender, _, msg, _, o, _, gasCharged b.state.fork tx o, executed_of_ran hs hr, by rw [hr.result]; rfl,
    gasCharged_le o hr.includable.valid.floor, ?_, ?_, ?_, hg,
    statusOf C (finalDeletions s2 o) o.error, ?_, fun hb => ?_, fun hb => ?_⟩
  · unfold gasCharged; omega
  · unfold gasCharged consumed refundShare; split <;> omega
  · exact Nat.max_le.mpr ⟨Nat.le_trans (Nat.sub_le _ _) (Nat.le_max_left _ _), Nat.le_max_right _ _⟩
  · rw [hr.result]
    show trieGet (trieSet b.out.receiptsTrie (indexKey i) (some _)) (indexKey i) = _
    rw [trieGet_trieSet, if_pos rfl]
    rfl
  · have hfk := ran_fork hr
    rw [hr.result] at hfk
    unfold statusOf
    rw [if_pos (by rw [show (finalDeletions s2 o).fork = b.state.fork from hfk]; exact hb)]
  · have hst := hr.status
    have hfk := ran_fork hr
    rw [hr.result] at hfk ⊢
    have hb' : ¬ (finalDeletions s2 o).fork.since .byzantium = true := by
      rw [show (finalDeletions s2 o).fork = b.state.fork from hfk, hb]; decide
    unfold receiptStatus at hst
    rw [if_neg hb'] at hst
    split at hst
    · cases hst
    · rename_i r hroot
      exact ⟨r, hroot, (Except.ok.inj hst).symm⟩

/-! ### A concrete case

In the sample block (base fee 7, producer 99), account 77 with 1000000 wei and nonce 0 sends 3 wei to 88, at 10 wei per unit
of gas; 43138 units are charged. -/

example : Idle sampleState := sample_idle
example : (match processTransaction sampleCrypto sampleBlockEnv ⟨sampleState, BlockOutput.empty⟩ (.legacy sampleTx) 0 with
    | .ok b => b.out.blockGasUsed == 43138 && (getAccount b.state 77).balance.toNat == 1000000 - 43138 * 10 - 3 &&
        (getAccount b.state 99).balance.toNat == 43138 * 3 && (getAccount b.state 88).balance.toNat == 5 + 3 &&
        supply b.state + 43138 * 7 == supply sampleState && (getAccount b.state 77).nonce == 1
    | .error _ => false) = true := by decide +kernel

/-- A creation whose code destroys the new account in favour of itself: 3 wei disappear, and the account. -/
example : (match processTransaction sampleCrypto sampleBlockEnv ⟨sampleState, BlockOutput.empty⟩
      (.legacy ⟨0, 10, 80000, none, 3, [0x30, 0xff], 27, 77, 1⟩) 0 with
    | .ok b => supply b.state + 3 + b.out.blockGasUsed * 7 == supply sampleState &&
        (getAccountOptional b.state (computeContractAddress sampleCrypto 77 0)).isNone
    | .error _ => false) = true := by decide +kernel

/-- The charge of a sender that is not the producer. -/
example : (77 : Address) ≠ sampleBlockEnv.coinbase := by decide +kernel

end Verif.Props
