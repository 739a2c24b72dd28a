import Verif.Lemmas.Top
import Verif.Lemmas.SameMsg
import Verif.Lemmas.SampleFrame
import Verif.Props.C06_C07
/-!
Properties C09, C10 and C11: failed messages leave no trace, static calls change nothing, no ether is created.

`SameReads w' w` (in `Verif/Spec/StateProg.lean`) says that every account, storage slot and transient slot reads the same
in both worlds; `supply` (in `Verif/Spec/Supply.lean`) is the sum of all balances.
-/
namespace Verif.Props
open Verif Verif.Spec

/-- All frames of all executions that start from a well-formed world are well formed (stack, memory and depth within
their limits, a snapshot to return to, and running code belongs to an account with code or nonce). Theorems about single
instructions below are stated for well-formed frames. -/
theorem C09_frames_good (E : Env) (bad : Loop) (msg : Message) (w : World) (hw : w.WF)
    (hf : w.state.fork.since .spuriousDragon = true) (ht : TopMessage msg w) :
    processMessageCallWith E (execChecked E GoodFrame bad) msg w = processMessageCall E msg w := by
  rw [processMessageCall, processMessageCallWith_eq, processMessageCallWith_eq]
  match ha : authorized E msg w with
  | .error c => rfl
  | .ok (r, msg1, s1) =>
    obtain ⟨hrel, hmsg⟩ := authorized_rel ha
    simp only
    by_cases htar : msg.target = none
    · simp only [htar, if_true]
      by_cases hcol : (accountHasCodeOrNonce w.state msg.currentTarget || accountHasStorage w.state msg.currentTarget) = true
      · rw [if_pos hcol, if_pos hcol]
      · rw [if_neg hcol, if_neg hcol, (goodFrame_invariant E).createMessage bad]
        refine ⟨hw, by rw [ht.depth]; omega, ht.static, ?_, hf, by simp [ht.parents]⟩
        intro ho; simp only [Owned] at ho; simp [ho] at hcol
    · simp only [htar, if_false]
      obtain ⟨t, htt⟩ : ∃ t, msg.target = some t := by
        cases hq : msg.target with
        | none => exact absurd hq htar
        | some t => exact ⟨t, rfl⟩
      have hr := resolveDelegation_msg msg1 s1
      rw [(goodFrame_invariant E).message bad]
      refine .ofCode ⟨hrel.wf hw.state, hw.transient⟩ (fun hc => ?_) ?_ (by rw [hrel.fork]; exact hf)
        ((hr.parents.trans hmsg.parents).trans ht.parents)
      · have hc1 := resolveDelegation_code hc
        rw [authorized_code ht htt ha] at hc1
        have : (resolveDelegation msg1 s1).currentTarget = t := by
          rw [hr.currentTarget, hmsg.currentTarget]; exact (ht.call t htt).1
        rw [this]
        exact hc1
      · have : (resolveDelegation msg1 s1).depth = msg.depth := hr.depth.trans hmsg.depth
        rw [this, ht.depth]; omega

/-! ### C09 -/

/-- **C09**, for any message whatever, in any world: if the frame ends with an error, everything reads as before, and
the nesting of snapshots is what it was. -/
theorem C09_message (E : Env) (msg : Message) (w w' : World) (child : Evm)
    (h : processMessage E (exec E) msg w = .ok (child, w')) :
    nesting w' = nesting w ∧ (child.error ≠ none → SameReads w' w) := by
  obtain ⟨h1, h2⟩ := processMessage_snap' (exec_snap E) h
  exact ⟨by simp [nesting, h1.1, h1.2.1], fun he => (h2 (by cases hq : child.error <;> simp_all)).sameReads⟩

/-- **C09**, and for any creation whatever, including one whose init code succeeds but whose code cannot be deployed. -/
theorem C09_create_message (E : Env) (msg : Message) (w w' : World) (child : Evm)
    (h : processCreateMessage E (exec E) msg w = .ok (child, w')) :
    nesting w' = nesting w ∧ (child.error ≠ none → SameReads w' w) := by
  obtain ⟨h1, h2⟩ := processCreateMessage_snap' (exec_snap E) h
  exact ⟨by simp [nesting, h1.1, h1.2.1], fun he => (h2 (by cases hq : child.error <;> simp_all)).sameReads⟩

theorem messageCallOutput_error {r : Word} {child : Evm} {out : MessageCallOutput}
    (h : messageCallOutput r child = .ok out) (he : out.error ≠ none) :
    child.error ≠ none ∧ out.logs = [] ∧ out.accountsToDelete = [] ∧ out.refundCounter = r := by
  obtain ⟨-, h1, -, h2, h3⟩ := messageCallOutput_ok h
  have : child.error ≠ none := by rw [← h1]; exact he
  exact ⟨this, h2 (by cases hq : child.error <;> simp_all)⟩

/-- **C09**, whole transactions: if the top-level message ends with an error, everything reads as it did after the
authorizations of the transaction (as before, if it has none, or is a creation), no log is kept, no account is scheduled
for deletion, and the only refund is that of the authorizations. No hypothesis on the message or the world. -/
theorem C09_transaction (E : Env) (msg : Message) (w w' : World) (out : MessageCallOutput)
    (h : processMessageCall E msg w = .ok (out, w')) (he : out.error ≠ none) :
    out.logs = [] ∧ out.accountsToDelete = [] ∧
    ∃ r msg1 s1, authorized E msg w = .ok (r, msg1, s1) ∧ out.refundCounter = r ∧ SameReads w' { w with state := s1 } := by
  rw [processMessageCall, processMessageCallWith_eq] at h
  match ha : authorized E msg w with
  | .error c => rw [ha] at h; cases h
  | .ok (r, msg1, s1) =>
    rw [ha] at h
    simp only at h
    by_cases htar : msg.target = none
    · have haeq : r = 0 ∧ msg1 = msg ∧ s1 = w.state := by
        unfold authorized at ha; rw [htar] at ha; cases ha; exact ⟨rfl, rfl, rfl⟩
      obtain ⟨rfl, rfl, rfl⟩ := haeq
      simp only [htar, if_true] at h
      split at h
      · cases h; exact ⟨rfl, rfl, _, _, _, rfl, rfl, SameReads.refl _⟩
      · split at h
        · cases h
        · rename_i evm w2 hpm
          split at h
          · cases h
          · rename_i o ho; cases h
            obtain ⟨h1, h2, h3, h4⟩ := messageCallOutput_error ho he
            exact ⟨h2, h3, _, _, _, rfl, h4, (C09_create_message E _ _ _ _ hpm).2 h1⟩
    · simp only [htar, if_false] at h
      split at h
      · cases h
      · rename_i evm w2 hpm
        split at h
        · cases h
        · rename_i o ho; cases h
          obtain ⟨h1, h2, h3, h4⟩ := messageCallOutput_error ho he
          exact ⟨h2, h3, _, _, _, rfl, h4, (C09_message E _ _ _ _ hpm).2 h1⟩

/-- **C09**, seen by the caller: a call that pushes 0, because it was refused or because the callee failed, leaves
everything as it was: all reads, the logs, the refund counter, the deletions, the warm storage keys; the only addresses
that may have become warm are the callee and the account it delegates to (warm addresses exist since berlin). -/
theorem C09_call (E : Env) (k : CallKind) (m m' : Mach) (hm : WithinLimits m) (h : step E k.op m = .ok () m')
    (h0 : m'.evm.stack.head? = some 0) :
    SameReads m'.world m.world ∧ m'.evm.logs = m.evm.logs ∧ m'.evm.refundCounter = m.evm.refundCounter ∧
    m'.evm.accountsToDelete = m.evm.accountsToDelete ∧ m'.evm.accessedStorageKeys = m.evm.accessedStorageKeys ∧
    ∃ o, callOperands k m.evm.stack = some o ∧ (m.world.state.fork.since .berlin = true → ∀ a, a ∈ m'.evm.accessedAddresses ↔
      a ∈ m.evm.accessedAddresses ∨ a = o.address ∨ delegateOf m.world.state o.address = some a) := by
  have hwarm : ∀ o, m.world.state.fork.since .berlin = true → ∀ a, a ∈ (callMid k m o).evm.accessedAddresses ↔
      a ∈ m.evm.accessedAddresses ∨ a = o.address ∨ delegateOf m.world.state o.address = some a := by
    intro o hb a
    unfold delegateOf
    rw [delegate_eq]
    unfold callMid callFrame getDelegatedCodeAddress delWarm delegates
    rw [accWarm_berlin hb]
    by_cases hp : m.world.state.fork.since .prague = true
    · simp only [hp, Bool.true_and, if_true]
      split
      · rw [mem_setAdd, mem_setAdd]; simp only [Option.some.injEq]; grind
      · rw [mem_setAdd]; simp
    · simp only [hp, Bool.false_and, if_false, Bool.false_eq_true]
      rw [mem_setAdd]; simp
  have h : opStep E _ _ k.op m = .ok () m' := h
  rw [opStep_callOp] at h
  obtain ⟨o, ho, -, -, hc⟩ := callOp_inv hm.memory hm.stack h
  rcases hc with ⟨-, rfl⟩ | ⟨-, child, w, hp, rfl⟩
  · exact ⟨SameReads.refl _, rfl, rfl, rfl, rfl, o, ho, hwarm o⟩
  · have herr : child.error.isSome = true := by
      simp only [callDone, List.head?_cons] at h0
      by_cases he : child.error.isSome = true
      · exact he
      · simp [he] at h0
    have hw := (C09_message E _ _ _ _ hp).2 (by intro hn; simp [hn] at herr)
    simp only [callDone, incorporate, herr, if_true]
    exact ⟨hw, rfl, rfl, rfl, rfl, o, ho, hwarm o⟩

/-- **C09**, seen by the creator: a create that pushes 0 (refused, address taken, or failed) leaves everything as it was
except the creator's nonce, which may have been used up, and the new address, which may have become warm. The address
hashed from the creator is assumed not to be zero: a successful creation at address zero would push 0, too. -/
theorem C09_create (E : Env) (k : Bool) (m m' : Mach) (hm : WithinLimits m)
    (h : step E (createInstr k) m = .ok () m') (h0 : m'.evm.stack.head? = some 0)
    (hnz : ∀ o, createOperands k m.evm.stack = some o → createAddress E m o ≠ 0) :
    (∀ a, a ≠ m.evm.message.currentTarget →
      getAccountOptional m'.world.state a = getAccountOptional m.world.state a) ∧
    (let old := getAccount m.world.state m.evm.message.currentTarget
     let new := getAccount m'.world.state m.evm.message.currentTarget
     new.balance = old.balance ∧ new.code = old.code ∧ (new.nonce = old.nonce ∨ new.nonce = old.nonce + 1)) ∧
    (∀ a key, getStorage m'.world.state a key = getStorage m.world.state a key) ∧
    (∀ a key, getTransientStorage m'.world.transient a key = getTransientStorage m.world.transient a key) ∧
    m'.evm.logs = m.evm.logs ∧ m'.evm.refundCounter = m.evm.refundCounter ∧
    m'.evm.accountsToDelete = m.evm.accountsToDelete ∧ m'.evm.accessedStorageKeys = m.evm.accessedStorageKeys ∧
    ∃ o, createOperands k m.evm.stack = some o ∧
      ∀ a ∈ m'.evm.accessedAddresses, a ∈ m.evm.accessedAddresses ∨ a = createAddress E m o := by
  have h : opStep E _ _ (createInstr k) m = .ok () m' := h
  rw [opStep_createOp] at h
  obtain ⟨o, ho, -, -, -, hcase⟩ := createOp_inv hm.memory hm.stack h
  have hN : ∀ (w : World), SameReads w (creating (createMid m o) (createAddress E m o)).world →
      (∀ a, a ≠ m.evm.message.currentTarget → getAccountOptional w.state a = getAccountOptional m.world.state a) ∧
      (let old := getAccount m.world.state m.evm.message.currentTarget
       let new := getAccount w.state m.evm.message.currentTarget
       new.balance = old.balance ∧ new.code = old.code ∧ (new.nonce = old.nonce ∨ new.nonce = old.nonce + 1)) ∧
      (∀ a key, getStorage w.state a key = getStorage m.world.state a key) ∧
      (∀ a key, getTransientStorage w.transient a key = getTransientStorage m.world.transient a key) := by
    intro w hw
    have hst : (creating (createMid m o) (createAddress E m o)).world.state =
      modifyState' m.world.state m.evm.message.currentTarget (fun acc => { acc with nonce := acc.nonce + 1 }) := rfl
    refine ⟨fun a ha => ?_, ?_, fun a key => ?_, fun a key => hw.2.2 a key⟩
    · rw [hw.1, hst, getAccountOptional_modifyState', if_neg (Ne.symm ha)]
    · have : getAccount w.state m.evm.message.currentTarget = getAccount (creating (createMid m o) (createAddress E m o)).world.state
          m.evm.message.currentTarget := by unfold getAccount; rw [hw.1]
      simp only
      rw [this, hst, getAccount_modifyState', if_pos rfl]
      exact ⟨rfl, rfl, .inr rfl⟩
    · rw [hw.2.1, hst, getStorage_modifyState', if_neg]
      rintro ⟨-, he⟩; simp [emptyAccount] at he
  have hwarm : ∀ a ∈ (creating (createMid m o) (createAddress E m o)).evm.accessedAddresses,
      a ∈ m.evm.accessedAddresses ∨ a = createAddress E m o := by
    intro a ha
    have ha : a ∈ setAdd m.evm.accessedAddresses (createAddress E m o) := ha
    rw [mem_setAdd] at ha; grind
  rcases hcase with ⟨-, rfl⟩ | ⟨-, -, rfl⟩ | ⟨hyes, hfree, child, w, hp, rfl⟩
  · exact ⟨fun _ _ => rfl, ⟨rfl, rfl, .inl rfl⟩, fun _ _ => rfl, fun _ _ => rfl, rfl, rfl, rfl, rfl, o, ho, fun _ h => .inl h⟩
  · obtain ⟨h1, h2, h3, h4⟩ := hN _ (SameReads.refl _)
    exact ⟨h1, h2, h3, h4, rfl, rfl, rfl, rfl, o, ho, hwarm⟩
  · have herr : child.error.isSome = true := by
      simp only [List.head?_cons] at h0
      by_cases he : child.error.isSome = true
      · exact he
      · rw [if_neg he, msg_processCreateMessage (msg_exec E) _ _ _ _ hp (by simpa using he)] at h0
        refine absurd ?_ (hnz o ho)
        simp only [Option.some.injEq, createMessage, addressWord] at h0
        apply BitVec.eq_of_toNat_eq
        have := congrArg BitVec.toNat h0
        simp only [BitVec.toNat_setWidth] at this
        have hlt := (createAddress E m o).isLt
        simp only [BitVec.ofNat_eq_ofNat, BitVec.toNat_ofNat, Nat.zero_mod] at this ⊢
        omega
    obtain ⟨h1, h2, h3, h4⟩ := hN w ((C09_create_message E _ _ _ _ hp).2 (by intro hn; simp [hn] at herr))
    simp only [incorporate, herr, if_true]
    exact ⟨h1, h2, h3, h4, rfl, rfl, rfl, rfl, o, ho, hwarm⟩

/-! ### C10 -/

theorem step_frel {E : Env} {op : Op} {m m' : Mach} (hm : GoodFrame m) (hc : m.evm.code ≠ [])
    (h : step E op m = .ok () m') : FRel m m' := by
  have := step_ok (processMessage_ok (E := E) (exec_ok E)) (processCreateMessage_ok (E := E) (exec_ok E)) hm.toPre hc
    (opStep_effect E _ _ op m hm.stack)
  rw [show opStep E (processMessage E (exec E)) (processCreateMessage E (exec E)) op m = .ok () m' from h] at this
  exact this

/-- **C10**, one instruction of a static frame, with all the calls it makes: nothing that can be read changes, no log is
emitted, no account scheduled for deletion. -/
theorem C10_instruction (E : Env) (op : Op) (m m' : Mach) (hm : GoodFrame m) (hc : m.evm.code ≠ [])
    (hs : m.evm.message.isStatic = true) (h : step E op m = .ok () m') :
    StaticReads m'.world m.world ∧ m'.evm.logs = m.evm.logs ∧ m'.evm.accountsToDelete = m.evm.accountsToDelete :=
  (step_frel hm hc h).static hs

/-- **C10**, a whole static frame from any point on. -/
theorem C10_frame (E : Env) (m m' : Mach) (hm : GoodFrame m) (hs : m.evm.message.isStatic = true)
    (h : exec E m = .ok () m') :
    StaticReads m'.world m.world ∧ m'.evm.logs = m.evm.logs ∧ m'.evm.accountsToDelete = m.evm.accountsToDelete := by
  have := exec_ok E m hm.toPre
  rw [h] at this
  exact this.static hs

/-- **C10**, any static message that transfers no ether (those of STATICCALL never do), whatever its code does, and
whether it fails or not. If it succeeds, it emitted no log and scheduled no deletion (if it fails, these are dropped). -/
theorem C10_message (E : Env) (msg : Message) (w w' : World) (child : Evm) (hw : w.WF) (hd : msg.depth ≤ 1024)
    (hf : w.state.fork.since .spuriousDragon = true) (hp : msg.parentsToDelete = [])
    (hcode : msg.code ≠ [] → (getAccount w.state msg.currentTarget).code ≠ [] ∨ ((getAccount w.state msg.currentTarget).nonce ≠ 0 ∧
      (w.state.fork.since .cancun = true ∨ msg.currentTarget ∈ w.state.createdAccounts)))
    (hs : msg.isStatic = true) (hv : msg.value = 0 ∨ msg.shouldTransferValue = false)
    (h : processMessage E (exec E) msg w = .ok (child, w')) :
    StaticReads w' w ∧ (child.error = none → child.logs = [] ∧ child.accountsToDelete = []) := by
  have := processMessage_ok (E := E) (exec_ok E) msg w (.of hw hcode hd hf hp)
  rw [h] at this
  refine this.static hs fun ht => ?_
  rcases hv with hv | hv
  · exact .inl hv
  · rw [hv] at ht; cases ht

/-- **C10**, seen by the caller: STATICCALL changes nothing, whatever the callee, in static and other frames. -/
theorem C10_staticcall (E : Env) (m m' : Mach) (hm : GoodFrame m) (hc : m.evm.code ≠ [])
    (h : step E .staticcall m = .ok () m') :
    StaticReads m'.world m.world ∧ m'.evm.logs = m.evm.logs ∧ ∀ a, a ∈ m'.evm.accountsToDelete ↔ a ∈ m.evm.accountsToDelete := by
  have h : opStep E _ _ (CallKind.staticcall).op m = .ok () m' := h
  rw [opStep_callOp] at h
  obtain ⟨o, ho, -, -, hcase⟩ := callOp_inv hm.memory hm.stack h
  rcases hcase with ⟨-, rfl⟩ | ⟨hyes, child, w, hp, rfl⟩
  · exact ⟨StaticReads.refl _, rfl, fun _ => Iff.rfl⟩
  · have hd : m.evm.message.depth + 1 ≤ 1024 := by
      have : ¬ (m.evm.message.depth + 1 > STACK_DEPTH_LIMIT) := fun hh => hyes (.inr hh)
      simp only [STACK_DEPTH_LIMIT] at this; omega
    have hok := processMessage_ok (E := E) (exec_ok E) _ _ (call_preMsg (k := .staticcall) (o := o) hm.toPre hc hd)
    rw [hp] at hok
    have hval : o.value = 0 := by
      match hst : m.evm.stack with
      | g :: a :: i :: l :: p :: q :: rest => rw [hst] at ho; cases ho; rfl
      | [] | [_] | [_, _] | [_, _, _] | [_, _, _, _] | [_, _, _, _, _] => rw [hst] at ho; cases ho
    obtain ⟨h1, h2⟩ := hok.static rfl (fun _ => .inl hval)
    refine ⟨h1, ?_⟩
    by_cases he : child.error.isSome = true
    · simp only [callDone, incorporate, he, if_true]
      exact ⟨rfl, fun _ => Iff.rfl⟩
    · obtain ⟨h3, h4⟩ := h2 (by simpa using he)
      simp only [callDone, incorporate, he, if_false, h3, h4]
      exact ⟨List.append_nil _, fun a => Iff.rfl⟩

/-- **C10**, staticness is inherited: an instruction of a static frame sends only static messages, none of which is a
creation, and which transfer ether from the frame's account to itself at most (CALLCODE): what the processors of messages
do with any other message does not matter. -/
theorem C10_inherited (E : Env) (op : Op) (m : Mach) (hm : WithinLimits m) (hs : m.evm.message.isStatic = true)
    (pm pm' pcm pcm' : Sub)
    (h : ∀ msg w, msg.isStatic = true → msg.target ≠ none →
      (msg.value = 0 ∨ msg.shouldTransferValue = false ∨
        (msg.caller = m.evm.message.currentTarget ∧ msg.currentTarget = m.evm.message.currentTarget)) →
      pm msg w = pm' msg w) :
    opStep E pm pcm op m = opStep E pm' pcm' op m := by
  by_cases h1 : ∃ k : CallKind, op = k.op
  · obtain ⟨k, rfl⟩ := h1
    match ho : callOperands k m.evm.stack with
    | none => exact call_agree pm pm' pcm pcm' hm.memory hm.stack fun o ho' => by rw [ho] at ho'; cases ho'
    | some o =>
      by_cases hbad : k = .call ∧ m.evm.message.isStatic = true ∧ o.value ≠ 0
      · by_cases hg : forwarded k m o + callCharges k m o ≤ m.evm.gasLeft
        · rw [opStep_callOp, opStep_callOp, callOp_cases hm.memory hm.stack ho hg, callOp_cases hm.memory hm.stack ho hg,
            if_pos hbad, if_pos hbad]
        · exact call_agree pm pm' pcm pcm' hm.memory hm.stack fun o' ho' hg' => by rw [ho] at ho'; cases ho'; exact absurd hg' hg
      · refine call_agree pm pm' pcm pcm' hm.memory hm.stack fun o' ho' _ _ => h _ _ ?_ (by simp [callMessage]) ?_
        · show (if _ then true else m.evm.message.isStatic) = true
          rw [hs]; simp
        · rw [ho] at ho'; cases ho'
          cases k with
          | call =>
            left
            show o.value = 0
            by_cases hv : o.value = 0
            · exact hv
            · exact absurd ⟨rfl, hs, hv⟩ hbad
          | callcode => exact .inr (.inr ⟨rfl, rfl⟩)
          | delegatecall => exact .inr (.inl rfl)
          | staticcall =>
            left
            show o.value = 0
            match hst : m.evm.stack with
            | g :: a :: i :: l :: p :: q :: rest => rw [hst] at ho; cases ho; rfl
            | [] | [_] | [_, _] | [_, _, _] | [_, _, _, _] | [_, _, _, _, _] => rw [hst] at ho; cases ho
  · by_cases h2 : ∃ k, op = createInstr k
    · obtain ⟨k, rfl⟩ := h2
      exact create_agree pm pm' pcm pcm' hm.memory hm.stack fun o _ _ _ hns => by rw [hs] at hns; cases hns
    · rw [other_agree E pm pm' pcm pcm' op (fun k hk => h1 ⟨k, hk⟩) (fun k hk => h2 ⟨k, hk⟩)]

/-! ### C11 -/

/-- **C11**, one instruction with all the calls it makes. Ether disappears only when an account that is scheduled for
deletion destroys itself in its own favour. -/
theorem C11_instruction (E : Env) (op : Op) (m m' : Mach) (hm : GoodFrame m) (hc : m.evm.code ≠ [])
    (h : step E op m = .ok () m') :
    supply m'.world.state ≤ supply m.world.state ∧
    (m'.evm.accountsToDelete = [] → supply m'.world.state = supply m.world.state) :=
  ⟨(step_frel hm hc h).w.supply hm.wf, (step_frel hm hc h).supplyEq⟩

/-- **C11**, any call message in any well-formed world. -/
theorem C11_message (E : Env) (msg : Message) (w w' : World) (child : Evm) (hw : w.WF) (hd : msg.depth ≤ 1024)
    (hf : w.state.fork.since .spuriousDragon = true) (hp : msg.parentsToDelete = [])
    (hcode : msg.code ≠ [] → (getAccount w.state msg.currentTarget).code ≠ [] ∨ ((getAccount w.state msg.currentTarget).nonce ≠ 0 ∧
      (w.state.fork.since .cancun = true ∨ msg.currentTarget ∈ w.state.createdAccounts)))
    (h : processMessage E (exec E) msg w = .ok (child, w')) :
    supply w'.state ≤ supply w.state ∧
    (child.error ≠ none ∨ child.accountsToDelete = [] → supply w'.state = supply w.state) := by
  have := processMessage_ok (E := E) (exec_ok E) msg w (.of hw hcode hd hf hp)
  rw [h] at this
  refine ⟨this.rel.supply hw, fun hh => ?_⟩
  cases he : child.error with
  | some x => exact sameContents_supply (this.fail (by simp [he]))
  | none => exact this.supplyEq he (hh.resolve_left fun hn => hn he)

/-- **C11**, any creation at an address without code and nonce. -/
theorem C11_create_message (E : Env) (msg : Message) (w w' : World) (child : Evm) (hw : w.WF) (hd : msg.depth ≤ 1024)
    (hf : w.state.fork.since .spuriousDragon = true) (hp : msg.parentsToDelete = []) (hs : msg.isStatic = false)
    (hfree : (getAccount w.state msg.currentTarget).nonce = 0 ∧ (getAccount w.state msg.currentTarget).code = [])
    (h : processCreateMessage E (exec E) msg w = .ok (child, w')) :
    supply w'.state ≤ supply w.state ∧
    (child.error ≠ none ∨ child.accountsToDelete = [] → supply w'.state = supply w.state) := by
  have := processCreateMessage_ok (E := E) (exec_ok E) msg w ⟨hw, hd, hs, by rw [owned_iff]; simp [hfree], hf, by simp [hp]⟩
  rw [h] at this
  refine ⟨this.rel.supply hw, fun hh => ?_⟩
  cases he : child.error with
  | some x => exact sameContents_supply (this.fail (by simp [he]))
  | none => exact this.supplyEq he (hh.resolve_left fun hn => hn he)

/-- **C11**, whole transactions (before fees): the total of all balances never grows, and it is the same if no account is
scheduled for deletion, in particular if the transaction fails. -/
theorem C11_transaction (E : Env) (msg : Message) (w w' : World) (out : MessageCallOutput) (hw : w.WF)
    (hf : w.state.fork.since .spuriousDragon = true) (ht : TopMessage msg w) (h : processMessageCall E msg w = .ok (out, w')) :
    supply w'.state ≤ supply w.state ∧ (out.accountsToDelete = [] → supply w'.state = supply w.state) := by
  rcases top_cases hw hf ht h with ⟨-, rfl, -⟩ | ⟨r, msg1, s1, msg2, child, -, -, hrel, -, hok, hout, -, -⟩
  · exact ⟨Nat.le_refl _, fun _ => rfl⟩
  · have hsup : supply s1 = supply w.state := hrel.supply hw.state
    have h1 := hok.rel.supply ⟨hrel.wf hw.state, hw.transient⟩
    obtain ⟨-, -, -, -, ho⟩ := messageCallOutput_ok hout
    refine ⟨by rw [← hsup]; exact h1, fun hd => ?_⟩
    rw [← hsup]
    cases he : child.error with
    | some x => exact sameContents_supply (hok.fail (by simp [he]))
    | none => exact hok.supplyEq he (by rw [← (ho he).2.1]; exact hd)

/-! ### Concrete cases -/
section Examples
open Verif.Sample

/-- `0xaa` stores 7 in slot 0 and in transient slot 0, logs, and reverts: PUSH1 7, PUSH0, SSTORE, PUSH1 7, PUSH0, TSTORE,
PUSH0, PUSH0, LOG0, PUSH0, PUSH0, REVERT; `0xbb` does the same but stops. -/
def busy (last : UInt8) : Bytes := [0x60, 7, 0x5f, 0x55, 0x60, 7, 0x5f, 0x5d, 0x5f, 0x5f, 0xa0, 0x5f, 0x5f, last]
def busyWorld : World := worldOf [eoa, (0xaa, ⟨1, 50, busy 0xfd⟩), (0xbb, ⟨1, 50, busy 0⟩), (0xcc, ⟨1, 50, [0xff]⟩)] [(0xaa, 0, 1)]

/-- A failing top-level message that has sent 5 wei and written storage: the balances and the slot are as before. -/
example : TopMessage (callTo busyWorld 0xaa 50000 5) busyWorld ∧ busyWorld.WF :=
  ⟨top_callTo (by decide +kernel) (by decide +kernel) _ _ _, worldOf_wf _ _⟩
example : (match processMessageCall env (callTo busyWorld 0xaa 50000 5) busyWorld with
    | .ok (o, w) => some (o.error, o.logs.length, getStorage w.state 0xaa 0, (getAccount w.state 0xaa).balance)
    | .error _ => none) = some (some .revert, 0, 1, 50) := by decide +kernel
/-- The one that succeeds does leave traces. -/
example : (match processMessageCall env (callTo busyWorld 0xbb 50000 5) busyWorld with
    | .ok (o, w) => some (o.error, o.logs.length, getStorage w.state 0xbb 0, (getAccount w.state 0xbb).balance)
    | .error _ => none) = some (none, 1, 7, 55) := by decide +kernel

/-- A frame of `0xcc` whose CALL to `0xaa` pushes 0. -/
example : GoodFrame (frameOf busyWorld 0xcc 60000 false [50000, 0xaa, 5, 0, 0, 0, 0]) := frameOf_good (worldOf_wf _ _) (by decide)
example : (match step env (CallKind.call).op (frameOf busyWorld 0xcc 60000 false [50000, 0xaa, 5, 0, 0, 0, 0]) with
    | .ok _ m => some (m.evm.stack.head?, m.evm.accessedAddresses)
    | .err _ _ => none) = some (some 0, [0xaa]) := by decide +kernel
/-- A frame of `0xcc` whose CREATE pushes 0: memory holds init code `0xfe`. -/
def creator : Mach :=
  let m := frameOf busyWorld 0xcc 60000 false [5, 0, 1]
  { m with evm := { m.evm with memory := 0xfe :: List.replicate 31 0 } }
example : (match step env (createInstr false) creator with
    | .ok _ m => some (m.evm.stack, (getAccount m.world.state 0xcc).nonce, (getAccount m.world.state 0xcc).balance)
    | .err _ _ => none) = some ([0], 2, 50) := by decide +kernel
example : createOperands false creator.evm.stack = some ⟨5, 0, 1, none, []⟩ ∧ createAddress env creator ⟨5, 0, 1, none, []⟩ ≠ 0 := by
  decide +kernel

/-- A static frame calling `0xbb`, which would write: the call fails; STATICCALL from a frame that is not static, too. -/
example : GoodFrame (frameOf busyWorld 0xcc 60000 true [50000, 0xbb, 0, 0, 0, 0, 0]) := frameOf_good (worldOf_wf _ _) (by decide)
example : (match step env .call (frameOf busyWorld 0xcc 60000 true [50000, 0xbb, 0, 0, 0, 0, 0]) with
    | .ok _ m => some (m.evm.stack, getStorage m.world.state 0xbb 0)
    | .err _ _ => none) = some ([0], 0) := by decide +kernel
example : (match step env .staticcall (frameOf busyWorld 0xcc 60000 false [50000, 0xbb, 0, 0, 0, 0]) with
    | .ok _ m => some (m.evm.stack, getStorage m.world.state 0xbb 0)
    | .err _ _ => none) = some ([0], 0) := by decide +kernel
/-- A static call that succeeds: CALLCODE with value in a static frame, to an account without code. -/
example : (match step env .callcode (frameOf busyWorld 0xcc 60000 true [50000, 0xdd, 5, 0, 0, 0, 0]) with
    | .ok _ m => some (m.evm.stack, (getAccount m.world.state 0xcc).balance)
    | .err _ _ => none) = some ([1], 50) := by decide +kernel

/-- Ether is burnt when a contract created in the same transaction destroys itself in its own favour (init code ADDRESS,
SELFDESTRUCT), so the first part of C11 cannot be an equality. -/
example : (match processMessageCall env (createAt 0xdd 100000 5 [0x30, 0xff]) busyWorld with
    | .ok (o, w) => some (o.error, o.accountsToDelete, supply busyWorld.state - supply w.state)
    | .error _ => none) = some (none, [0xdd], 5) := by decide +kernel

end Examples
end Verif.Props
