import Verif.Lemmas.Payment
import Verif.Lemmas.SamplePowEvm
/-!
Property C93: what a payment, and what a failed transaction, does to the state, to the last wei.

`Booked` (in `Verif/Spec/Payment.lean`) lists the changes of balances, nonces, code and storage; `price`, `tip`, `blobFee`,
`intrinsicGas` and `floorGas` are in `Verif/Spec/TxRules.lean` and `Verif/Spec/Intrinsic.lean`.
-/
namespace Verif.Props
open Verif Verif.Spec

theorem booked_of_ran {C : Crypto} {B : BlockEnv} {b b' : BlockState} {tx : Transaction} {i : Nat} {sender t : Address}
    {msg : Message} {o : MessageCallOutput} {w : World} {s1 s2 : State} {v : Word} (h : Ran C B b tx i b' sender msg o w s1 s2)
    (hd : o.accountsToDelete = []) (hh : Handed sender t v (prepaid B b.state tx sender) w.state) :
    Booked B tx sender (some t) v.toNat (gasCharged b.state.fork tx o) b.state b'.state := by
  have hf := fees_of_ran h
  have hu : gasCharged b.state.fork tx o ≤ tx.gas := gasCharged_le o h.includable.valid.floor
  rw [hd] at hf
  have hnp : (getAccount (prepaid B b.state tx sender) sender).nonce ≠ 0 := by
    rw [getAccount_prepaid, if_pos rfl]; exact Nat.succ_ne_zero _
  refine ⟨fun a => ?_, fun a => ?_, fun a => ?_, fun a k hne => ?_⟩
  · have h1 := hf.advance a
    have h2 := hf.settle a List.not_mem_nil
    have h3 := hh.balance a
    have e : (tx.gas - gasCharged b.state.fork tx o) * price B.baseFeePerGas tx +
        gasCharged b.state.fork tx o * price B.baseFeePerGas tx = tx.gas * price B.baseFeePerGas tx := by
      rw [← Nat.add_mul, Nat.sub_add_cancel hu]
    rw [h1, h2]
    by_cases ea : a = sender
    · subst ea
      simp only [if_true] at h3 ⊢
      by_cases et : a = t
      · subst et; simp only [if_true] at h3 ⊢; omega
      · rw [if_neg et] at h3
        rw [if_neg (fun h => et (Option.some.inj h).symm)]; omega
    · rw [if_neg ea] at h3
      simp only [if_neg ea]
      by_cases et : a = t
      · subst et; simp only [if_true] at h3 ⊢; omega
      · rw [if_neg et] at h3
        rw [if_neg (fun h => et (Option.some.inj h).symm)]; omega
  · rw [(hf.rest a List.not_mem_nil).1, (hh.rest a).1, getAccount_prepaid]
    by_cases ea : sender = a
    · rw [if_pos ea, if_pos ea.symm]
    · rw [if_neg ea, if_neg (Ne.symm ea)]; rfl
  · rw [(hf.rest a List.not_mem_nil).2, (hh.rest a).2, getAccount_prepaid]
    split <;> rfl
  · have hres : b'.state = finalDeletions s2 o := by rw [h.result]
    rw [hres] at hne ⊢
    have h2 : getAccount s2 a ≠ emptyAccount := by
      rw [← (finalDeletions_ok s2 o).keep a (by rw [hd]; exact List.not_mem_nil)]; exact hne
    rw [storage_final _ _ hd _ _ hne, storage_pay h.pay _ _ h2]
    have hs1 : getStorage s1 a k = getStorage w.state a k := by
      by_cases ea : a = sender
      · refine storage_refund h.refund _ _ fun he => ?_
        have := ((refundSender_ok h.refund).2.rest a).1
        rw [he, (hh.rest a).1, ea] at this
        exact hnp this.symm
      · have hr := h.refund
        unfold refundSender at hr
        split at hr
        · cases hr
        · split at hr
          · cases hr
          · cases hr
            unfold setAccountBalance
            rw [getStorage_modifyState', if_neg (fun hq => ea hq.1.symm)]
    rw [hs1, hh.storage hnp, storage_prepaid]

/-- **C93.** A transaction that runs no code, to an account without code or one delegating to such an account or to a precompiled
contract (`Inert`), and that carries no authorizations: it succeeds,
is charged exactly the intrinsic gas (or the floor, if that is more), hands the value to the recipient, and changes nothing else.
In every fork. -/
theorem C93_payment {C : Crypto} {B : BlockEnv} {b b' : BlockState} {tx : Transaction} {i : Nat} {t : Address} (hs : Quiet b.state)
    (h : processTransaction C B b tx i = .ok b') (ht : tx.to = some t) (hi : Inert b.state t)
    (ha : tx.authorizations = []) :
    ∃ sender used status, recoverSender C b.state.fork B.chainId tx = .ok sender ∧
      used = max (intrinsicGas b.state.fork tx) (floorGas b.state.fork tx) ∧
      b'.out.blockGasUsed = b.out.blockGasUsed + used ∧ b'.out.blockLogs = b.out.blockLogs ∧
      trieGet b'.out.receiptsTrie (indexKey i) = some (encodeReceipt tx ⟨status, b'.out.blockGasUsed, logsBloom C [], []⟩) ∧
      (b.state.fork.since .byzantium = true → status = .succeeded true) ∧
      Booked B tx sender (some t) tx.value.toNat used b.state b'.state := by
  obtain ⟨sender, msg, o, w, s1, s2, hr⟩ := processTransaction_ok.mp h
  obtain ⟨m1, m2, m3, m4, -, -, m7, -, m9⟩ := prepareMessage_ok hr.message
  obtain ⟨n1, n2, n3⟩ := m9 t ht
  have hcode : ∀ a, (getAccount (prepaid B b.state tx sender) a).code = (getAccount b.state a).code := by
    intro a
    rw [getAccount_prepaid]
    split <;> rfl
  have hrun := hr.run
  have hcall : (o = ⟨msg.gas, 0, [], [], none, [], o.touchedAccounts⟩) ∧
      Handed sender t tx.value (prepaid B b.state tx sender) w.state := by
    unfold processMessageCall processMessageCallWith at hrun
    rw [m2, ht] at hrun
    dsimp only at hrun
    rw [if_neg (by rintro ⟨-, hq⟩; exact hq (show tx.authorizations = [] from ha))] at hrun
    dsimp only at hrun
    have hres : ∃ msg2, resolveDelegation msg (prepaid B b.state tx sender) = msg2 ∧ msg2.caller = msg.caller ∧
        msg2.currentTarget = msg.currentTarget ∧ msg2.value = msg.value ∧ msg2.shouldTransferValue = msg.shouldTransferValue ∧
        msg2.gas = msg.gas ∧ ∀ w2 : World, w2.state.fork = b.state.fork →
          executeCode ⟨C, B, txEnvOf b.state.fork B tx sender⟩ (exec ⟨C, B, txEnvOf b.state.fork B tx sender⟩) msg2 w2 = .ok (initEvm msg2, w2) := by
      unfold Inert delegateOf at hi
      rw [delegate_eq] at hi
      unfold resolveDelegation
      rw [prepaid_fork, n3, hcode]
      by_cases hpr : b.state.fork.since .prague = true
      · rw [if_pos hpr] at hi
        rw [if_pos hpr]
        match hdel : getDelegatedCodeAddress (getAccount b.state t).code with
        | none =>
          rw [hdel] at hi
          exact ⟨msg, rfl, rfl, rfl, rfl, rfl, rfl, fun w2 hw2 =>
            (C66_precompiles _ msg w2 t n2).1 (by rw [hw2]; exact hi.2) (by rw [n3, hcode]; exact hi.1)⟩
        | some d =>
          rw [hdel] at hi
          refine ⟨_, rfl, rfl, rfl, rfl, rfl, rfl, fun w2 hw2 => ?_⟩
          by_cases hpd : HasPrecompile b.state.fork d.toNat
          · have hp2 := (precompile_iff ⟨C, B, txEnvOf b.state.fork B tx sender⟩ w2.state.fork d).mpr (by rw [← hw2] at hpd; exact hpd)
            obtain ⟨p, hp2⟩ := Option.isSome_iff_exists.mp hp2
            unfold executeCode precompileOf
            dsimp only
            rw [hp2]
            rfl
          · exact (C66_precompiles _ _ w2 d rfl).1 (by rw [hw2]; exact hpd) (by dsimp only; rw [hcode]; exact hi.resolve_right hpd)
      · rw [if_neg hpr] at hi
        rw [if_neg hpr]
        exact ⟨msg, rfl, rfl, rfl, rfl, rfl, rfl, fun w2 hw2 =>
          (C66_precompiles _ msg w2 t n2).1 (by rw [hw2]; exact hi.2) (by rw [n3, hcode]; exact hi.1)⟩
    obtain ⟨msg2, hm2, c1, c2, c3, c4, c5, hex⟩ := hres
    rw [hm2] at hrun
    split at hrun
    · cases hrun
    · rename_i evm w' hm
      obtain ⟨rfl, hh⟩ := plain_message (fun w2 hw2 => hex w2 (hw2.trans (prepaid_fork ..))) (c4.trans m7) hm
      split at hrun
      · cases hrun
      · rename_i out ho
        cases hrun
        have e1 : msg.caller = sender := m1
        rw [c1, c2, c3, e1, n1, m4] at hh
        refine ⟨?_, hh⟩
        unfold messageCallOutput at ho
        rw [if_neg (by exact Bool.false_ne_true), if_neg (by show ¬ ((0 : Int) < 0); omega), if_pos (by show (0 : Nat) + 0 < 2 ^ 256; decide)] at ho
        cases ho
        rw [← c5]
        rfl
  obtain ⟨ho, hh⟩ := hcall
  have hused : gasCharged b.state.fork tx o = max (intrinsicGas b.state.fork tx) (floorGas b.state.fork tx) := by
    have hv := hr.includable.valid.gas
    have h0 : consumed tx o = intrinsicGas b.state.fork tx := by
      unfold consumed
      have : o.gasLeft = tx.gas - intrinsicGas b.state.fork tx := by rw [ho]; exact m3
      rw [this]; omega
    have h1 : o.refundCounter.toNat = 0 := by rw [ho]; rfl
    unfold gasCharged
    rw [h0, h1, Nat.zero_min, Nat.sub_zero]
  have hlog : o.logs = [] := by rw [ho]
  refine ⟨sender, _, statusOf C (finalDeletions s2 o) o.error, hr.includable.signed, rfl, ?_, ?_, ?_, fun hb => ?_, ?_⟩
  · rw [hr.result, ← hused]; rfl
  · rw [hr.result]
    show b.out.blockLogs ++ o.logs = _
    rw [hlog, List.append_nil]
  · rw [hr.result, ← hlog]
    show trieGet (trieSet b.out.receiptsTrie (indexKey i) (some _)) (indexKey i) = _
    rw [trieGet_trieSet, if_pos rfl]
    rfl
  · have hfk := ran_fork hr
    rw [hr.result] at hfk
    unfold statusOf
    rw [if_pos (by rw [show (finalDeletions s2 o).fork = b.state.fork from hfk]; exact hb), ho]
    rfl
  · rw [← hused]
    exact booked_of_ran hr (by rw [ho]) hh

/-- **C93**, a transaction without authorizations whose code ends with an error: it pays for its gas, its nonce is used up, it leaves
no log, and nothing else changes. In every fork. -/
theorem C93_failed {C : Crypto} {B : BlockEnv} {b b' : BlockState} {tx : Transaction} {i : Nat} (hs : Quiet b.state)
    (h : processTransaction C B b tx i = .ok b') (ha : tx.authorizations = []) :
    ∃ sender env msg start out finish used status, Executed C B b.state tx sender env msg start out finish ∧
      used = max (tx.gas - out.gasLeft - min out.refundCounter.toNat ((tx.gas - out.gasLeft) / refundShare b.state.fork)) (floorGas b.state.fork tx) ∧
      b'.out.blockGasUsed = b.out.blockGasUsed + used ∧
      trieGet b'.out.receiptsTrie (indexKey i) =
        some (encodeReceipt tx ⟨status, b'.out.blockGasUsed, logsBloom C out.logs, out.logs⟩) ∧
      (b.state.fork.since .byzantium = true → status = .succeeded out.error.isNone) ∧
      (out.error ≠ none → out.refundCounter = 0 ∧ b'.out.blockLogs = b.out.blockLogs ∧ out.logs = [] ∧
        Booked B tx sender none 0 used b.state b'.state) := by
  obtain ⟨sender, msg, o, w, s1, s2, hr⟩ := processTransaction_ok.mp h
  refine ⟨sender, _, msg, _, o, _, gasCharged b.state.fork tx o, statusOf C (finalDeletions s2 o) o.error, executed_of_ran hs hr, rfl,
    by rw [hr.result]; rfl, ?_, fun hb => ?_, fun he => ?_⟩
  · rw [hr.result]
    show trieGet (trieSet b.out.receiptsTrie (indexKey i) (some _)) (indexKey i) = _
    rw [trieGet_trieSet, if_pos rfl]
    rfl
  · have hfk := ran_fork hr
    rw [hr.result] at hfk
    unfold statusOf
    rw [if_pos (by rw [show (finalDeletions s2 o).fork = b.state.fork from hfk]; exact hb)]
  · obtain ⟨h1, h2, r, msg1, st, h3, h4, h5⟩ := C09_transaction _ _ _ _ _ hr.run he
    have hst : r = 0 ∧ st = prepaid B b.state tx sender := by
      unfold authorized at h3
      split at h3
      · cases h3; exact ⟨rfl, rfl⟩
      · rw [if_neg (by rintro ⟨-, hq⟩; exact hq (show tx.authorizations = [] from ha))] at h3
        cases h3; exact ⟨rfl, rfl⟩
    obtain ⟨rfl, rfl⟩ := hst
    have hacc : ∀ a, getAccount w.state a = getAccount (prepaid B b.state tx sender) a := by
      intro a; unfold getAccount; rw [h5.1 a]
    have hh : Handed sender sender 0 (prepaid B b.state tx sender) w.state :=
      ⟨fun a => by rw [hacc], fun a => by rw [hacc]; exact ⟨rfl, rfl⟩, fun _ a k => h5.2.1 a k⟩
    have hb := booked_of_ran hr h2 hh
    refine ⟨h4, ?_, h1, ⟨fun a => ?_, hb.nonce, hb.code, hb.storage⟩⟩
    · rw [hr.result]
      show b.out.blockLogs ++ o.logs = _
      rw [h1, List.append_nil]
    · have := hb.balance a
      have h0 : (0 : Word).toNat = 0 := rfl
      rw [h0, ite_self] at this
      rw [ite_self]
      exact this

/-! ### Concrete cases

In the sample block (base fee 7, producer 99), account 77 with 1000000 wei and nonce 0 sends 3 wei to 1234, which does not exist, at
10 wei per unit of gas; and 5 wei with 40000 units of gas to a creation whose code is an invalid opcode. -/

example : (match processTransaction sampleCrypto sampleBlockEnv ⟨sampleState, BlockOutput.empty⟩ (.legacy ⟨0, 10, 30000, some 1234, 3, [], 27, 77, 1⟩) 0 with
    | .ok b => b.out.blockGasUsed == 21000 && (getAccount b.state 77).balance.toNat == 1000000 - 21000 * 10 - 3 &&
        (getAccount b.state 99).balance.toNat == 21000 * 3 && (getAccount b.state 1234).balance.toNat == 3 && (getAccount b.state 77).nonce == 1
    | .error _ => false) = true ∧ Inert sampleState 1234 :=
  ⟨by decide +kernel, show _ ∧ _ from ⟨by decide +kernel, by unfold HasPrecompile; decide +kernel⟩⟩

/-- The recipient delegates to the precompiled contract at 2: it is not run, and nothing is paid for it. -/
example :
    let s := setAccount sampleState 1234 (some ⟨1, 0, [0xef, 0x01, 0x00] ++ List.replicate 19 0 ++ [2]⟩)
    Inert s 1234 ∧ (match processTransaction sampleCrypto sampleBlockEnv ⟨s, BlockOutput.empty⟩ (.legacy ⟨0, 10, 30000, some 1234, 3, [], 27, 77, 1⟩) 0 with
    | .ok b => b.out.blockGasUsed == 21000 && (getAccount b.state 1234).balance.toNat == 3
    | .error _ => false) = true :=
  ⟨.inr (.inl (by decide +kernel)), by decide +kernel⟩

example : (match processTransaction sampleCrypto sampleBlockEnv ⟨sampleState, BlockOutput.empty⟩
      (.legacy ⟨0, 10, 80000, none, 3, [0xfe], 27, 77, 1⟩) 0 with
    | .ok b => b.out.blockGasUsed == 80000 && (getAccount b.state 77).balance.toNat == 1000000 - 800000 &&
        (getAccount b.state 99).balance.toNat == 240000 && (getAccount b.state 77).nonce == 1
    | .error _ => false) = true := by decide +kernel

end Verif.Props
