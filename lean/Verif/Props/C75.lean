import Verif.Spec.Messages
import Verif.Lemmas.MemoryRun
import Verif.Lemmas.Create
import Verif.Lemmas.Agree
import Verif.Spec.Sample
/-!
Property C75: calls and creates send exactly the message that they should, and take back exactly what they should, in every fork that has
them. The hypotheses on the frame are those that C12 proves for all frames.
-/
namespace Verif.Props
open Verif Spec

variable (E : Env) (pm pcm : Sub) (m : Mach) (hm : WithinLimits m)

private theorem delegates_iff (s : State) (a : Address) :
    (delegateOf s a).isSome = delegates s a ∧ (delegateOf s a).getD a = delAddr s a := by
  unfold delegateOf delegates delAddr delegates
  rw [delegate_eq]
  unfold getDelegatedCodeAddress
  cases s.fork.since .prague <;> cases isValidDelegation (getAccount s a).code <;> simp

private theorem warm_iff (k : CallKind) (o : CallOperands) (hb : m.world.state.fork.since .berlin = true) (a : Address) :
    a ∈ (callMid k m o).evm.accessedAddresses ↔ WarmForCallee m o a := by
  unfold WarmForCallee delegateOf
  rw [delegate_eq]
  unfold callMid callFrame getDelegatedCodeAddress delWarm delegates
  rw [accWarm_berlin hb]
  by_cases hp : m.world.state.fork.since .prague = true
  · simp only [hp, Bool.true_and, if_true]
    split
    · rw [mem_setAdd, mem_setAdd]; simp only [Option.some.injEq]; grind
    · rw [mem_setAdd]; simp
  · simp only [hp, Bool.false_and, if_false, Bool.false_eq_true]
    rw [mem_setAdd]; simp

private theorem incorporate_takes (m0 : Mach) (child : Evm) (w : World) (m' : Mach) (warm0 : Address → Prop)
    (h1 : m'.evm.logs = (incorporate m0 child w).logs) (h2 : m'.evm.refundCounter = (incorporate m0 child w).refundCounter)
    (h3 : m'.evm.accountsToDelete = (incorporate m0 child w).accountsToDelete)
    (h4 : m'.evm.accessedAddresses = (incorporate m0 child w).accessedAddresses)
    (h5 : m'.evm.accessedStorageKeys = (incorporate m0 child w).accessedStorageKeys)
    (e1 : m0.evm.logs = m.evm.logs) (e2 : m0.evm.refundCounter = m.evm.refundCounter) (e3 : m0.evm.accountsToDelete = m.evm.accountsToDelete)
    (e4 : m.world.state.fork.since .berlin = true → ∀ a, a ∈ m0.evm.accessedAddresses ↔ warm0 a)
    (e5 : m0.evm.accessedStorageKeys = m.evm.accessedStorageKeys) : TakesOver m m' warm0 child := by
  unfold incorporate at h1 h2 h3 h4 h5
  cases he : child.error with
  | none =>
    simp only [he, Option.isSome_none, Bool.false_eq_true, if_false] at h1 h2 h3 h4 h5
    refine ⟨by simp [h1, e1, he], by simp [h2, e2, he], fun a => ?_, fun hb a => ?_, fun x => ?_⟩
    · rw [h3, mem_setUpdate, e3]; simp [he]
    · rw [h4, mem_setUpdate, e4 hb]; simp [he]
    · rw [h5, mem_setUpdate, e5]; simp [he]
  | some x =>
    simp only [he, Option.isSome_some, if_true] at h1 h2 h3 h4 h5
    refine ⟨by simp [h1, e1, he], by simp [h2, e2, he], fun a => ?_, fun hb a => ?_, fun x => ?_⟩
    · rw [h3, e3]; simp [he]
    · rw [h4, e4 hb]; simp [he]
    · rw [h5, e5]; simp [he]

private theorem written_none {mem : Bytes} {n : Nat} (h : mem.length ≤ 32 * n) : Written mem (grown mem n) n 0 0 (fun _ => 0) :=
  ⟨grown_length h, fun i => by rw [cell_grown, if_neg (by omega)]⟩

private theorem sentCall (ha : Aligned m.evm.memory) (k : CallKind) (o : CallOperands) (ho : callOperands k m.evm.stack = some o) :
    SentCall k m o (callMessage (callMid k m o) (callArgs k m o)) := by
  have hd := delegates_iff m.world.state o.address
  have hfit : m.evm.memory.length ≤ 32 * callWords m o := memory_le_after ha _
  have hv0 : k = .delegatecall ∨ k = .staticcall → o.value = 0 := by
    intro hk
    unfold callOperands at ho
    split at ho <;> cases ho <;> simp at hk ⊢
  refine ⟨rfl, ?_, rfl, ?_, ?_, ?_, ?_, ?_, ?_, ?_, ?_, rfl, fun hb a => warm_iff m k o hb a, rfl, fun a => mem_setUpdate _ _ _⟩
  · show (if k = .callcode ∨ k = .delegatecall then m.self else o.address) = _
    cases k <;> rfl
  · show (if k = .delegatecall then m.evm.message.caller else m.self) = _
    cases k <;> rfl
  · show (if k = .delegatecall then m.evm.message.value else o.value) = _
    cases k <;> first | rfl | exact hv0 (.inr rfl)
  · show decide (k ≠ .delegatecall) = true ↔ _
    simp
  · exact read_grown hfit (range_fits (Nat.le_trans (Nat.le_max_left _ _) (Nat.le_max_right _ _)))
  · show some (delAddr m.world.state o.address) = _
    rw [hd.2]
  · show (getAccount m.world.state (delAddr m.world.state o.address)).code = _
    rw [hd.2]
  · exact hd.1.symm
  · show (if decide (k = .staticcall) = true then true else m.evm.message.isStatic) = true ↔ _
    cases k <;> simp

private theorem sentCreate (ha : Aligned m.evm.memory) (o : CreateOperands) :
    SentCreate E m o (createMessage (createMid m o) o.value (createAddress E m o) (initCode m o)) := by
  refine ⟨rfl, createAddress_eq ha, rfl, rfl, rfl, rfl, rfl, rfl, ?_, rfl, rfl, rfl, fun _ a => ?_, rfl, fun a => mem_setUpdate _ _ _⟩
  · exact read_grown (memory_le_after ha _) (range_fits (Nat.le_max_right _ _))
  · show a ∈ setAdd m.evm.accessedAddresses (createAddress E m o) ↔ _
    rw [mem_setAdd, createAddress_eq ha]

include hm

/-- **C75**, the calls send no other message than the one of the specification. -/
theorem C75_call_sends (k : CallKind) (o : CallOperands) (ho : callOperands k m.evm.stack = some o) :
    OnlySends (SentCall k m o) (fun pm => opStep E pm pcm k.op m) := by
  intro pm pm' h
  refine call_agree pm pm' pcm pcm hm.memory hm.stack fun o' ho' _ _ => h _ _ ?_
  rw [ho] at ho'; cases ho'
  exact sentCall m hm.memory k o ho

/-- **C75**, outcome of the calls when the charges can be paid (C08 has the other case). A CALL with value in a static frame halts. A call
that the balance or the depth does not allow is refused. Otherwise the message is run, and with what it leaves the frame goes on; an
exception of the program is passed on, and an output of 2^256 bytes is an OverflowError. -/
theorem C75_call (k : CallKind) (o : CallOperands) (ho : callOperands k m.evm.stack = some o)
    (hg : forwarded k m o + callCharges k m o ≤ m.evm.gasLeft) :
    if k = .call ∧ m.evm.message.isStatic = true ∧ o.value ≠ 0 then ∃ m', opStep E pm pcm k.op m = .err (.halt .writeInStaticContext) m'
    else if (getAccount m.world.state m.evm.message.currentTarget).balance < o.value ∨ m.evm.message.depth ≥ 1024 then
      ∃ m', opStep E pm pcm k.op m = .ok () m' ∧ CallRefused k m o m'
    else ∃ msg, SentCall k m o msg ∧
      match pm msg m.world with
      | .error (e, _) => ∃ m', opStep E pm pcm k.op m = .err e m'
      | .ok (child, w) =>
        if 2 ^ 256 ≤ child.output.length then ∃ m', opStep E pm pcm k.op m = .err (.crash .overflowError) m'
        else ∃ m', opStep E pm pcm k.op m = .ok () m' ∧ CallReturned k m o child w m' := by
  have ha : Aligned m.evm.memory := hm.memory
  have hfit : m.evm.memory.length ≤ 32 * callWords m o := memory_le_after ha _
  rw [opStep_callOp, callOp_cases ha hm.stack ho hg]
  have hd : m.evm.message.depth + 1 > STACK_DEPTH_LIMIT ↔ m.evm.message.depth ≥ 1024 := by simp only [STACK_DEPTH_LIMIT]; omega
  by_cases h1 : k = .call ∧ m.evm.message.isStatic = true ∧ o.value ≠ 0
  · rw [if_pos h1, if_pos h1]; exact ⟨_, rfl⟩
  rw [if_neg h1, if_neg h1]
  by_cases h2 : (getAccount m.world.state m.evm.message.currentTarget).balance < o.value ∨ m.evm.message.depth ≥ 1024
  · rw [if_pos h2, if_pos (c := (getAccount m.world.state m.self).balance < o.value ∨ m.evm.message.depth + 1 > STACK_DEPTH_LIMIT) (h2.imp id hd.mpr)]
    refine ⟨_, rfl, ⟨rfl, rfl, rfl, rfl, rfl, rfl⟩, rfl, rfl, rfl, ?_, rfl, written_none hfit, rfl, rfl, rfl, fun hb a => warm_iff m k o hb a, rfl⟩
    show m.evm.gasLeft - callCharges k m o + stipend o + callCharges k m o = _
    omega
  rw [if_neg h2, if_neg (c := (getAccount m.world.state m.self).balance < o.value ∨ m.evm.message.depth + 1 > STACK_DEPTH_LIMIT)
    (fun h => h2 (h.imp id hd.mp))]
  refine ⟨_, sentCall m ha k o ho, ?_⟩
  match hp : pm (callMessage (callMid k m o) (callArgs k m o)) m.world with
  | .error (e, w) => exact ⟨_, rfl⟩
  | .ok (child, w) =>
    dsimp only
    by_cases hl : 2 ^ 256 ≤ child.output.length
    · rw [if_pos hl, if_neg (Nat.not_lt.mpr hl)]; exact ⟨_, rfl⟩
    rw [if_neg hl, if_pos (Nat.lt_of_not_le hl)]
    have hstack : (if child.error.isSome = true then (0 : Word) else 1) = if child.error = none then 1 else 0 := by
      cases child.error <;> rfl
    refine ⟨_, rfl, ?_, rfl, rfl, ?_, ?_, rfl, ?_, ?_⟩
    · constructor <;> (unfold callDone incorporate; dsimp only; split <;> rfl)
    · show (if child.error.isSome = true then (0 : Word) else 1) :: o.rest = _
      rw [hstack]
    · have : (callDone (callMid k m o) (callArgs k m o) child w).evm.gasLeft =
          m.evm.gasLeft - (forwarded k m o + callCharges k m o) + child.gasLeft := by
        unfold callDone incorporate; dsimp only; split <;> rfl
      omega
    · show Written m.evm.memory (memoryWrite (grown m.evm.memory (callWords m o)) o.outStart.toNat
        (child.output.take (min o.outSize.toNat child.output.length))) _ _ _ _
      refine write_grown hfit ?_ ?_ fun i hi => ?_
      · have := range_fits (start := o.outStart) (size := o.outSize) (n := callWords m o)
          (Nat.le_trans (Nat.le_max_right _ _) (Nat.le_max_right _ _))
        omega
      · rw [List.length_take]; omega
      · rw [cell_eq, cell_eq, List.getElem?_take, if_pos hi]
    · exact incorporate_takes m (callMid k m o) child w _ _ rfl rfl rfl rfl rfl rfl rfl rfl (fun hb a => warm_iff m k o hb a) rfl

/-- **C75**, the creates send no other message than the one of the specification. -/
theorem C75_create_sends (k : Bool) (o : CreateOperands) (ho : createOperands k m.evm.stack = some o) :
    OnlySends (SentCreate E m o) (fun pcm => opStep E pm pcm (createInstr k) m) := by
  intro pcm pcm' h
  refine create_agree pm pm pcm pcm' hm.memory hm.stack fun o' ho' _ _ _ => h _ _ ?_
  rw [ho] at ho'; cases ho'
  exact sentCreate E m hm.memory o

/-- **C75**, outcome of the creates when the charges can be paid. Init code over 49152 bytes runs out of gas, since shanghai. A static frame
halts. A create that is refused, or whose address is taken, pushes 0. Otherwise the init code is run in a world where the nonce of the
creator is one more, and with what it leaves the frame goes on. -/
theorem C75_create (hw : m.world.WF) (k : Bool) (o : CreateOperands) (ho : createOperands k m.evm.stack = some o)
    (hg : createCharges m o ≤ m.evm.gasLeft) :
    if m.world.state.fork.since .shanghai = true ∧ 49152 < o.size.toNat then
      ∃ m', opStep E pm pcm (createInstr k) m = .err (.halt .outOfGas) m'
    else if m.evm.message.isStatic = true then ∃ m', opStep E pm pcm (createInstr k) m = .err (.halt .writeInStaticContext) m'
    else (CreateRefused m o → ∃ m', opStep E pm pcm (createInstr k) m = .ok () m' ∧ CreateStopped E m o false m' ∧ m'.world = m.world) ∧
      (¬ CreateRefused m o → Taken m.world.state (newAddress E m o) →
        ∃ m', opStep E pm pcm (createInstr k) m = .ok () m' ∧ CreateStopped E m o true m' ∧ NonceUsed m m'.world) ∧
      (¬ CreateRefused m o → ¬ Taken m.world.state (newAddress E m o) →
        ∃ msg w0, SentCreate E m o msg ∧ NonceUsed m w0 ∧
          match pcm msg w0 with
          | .error (e, _) => ∃ m', opStep E pm pcm (createInstr k) m = .err e m'
          | .ok (child, w) => ∃ m', opStep E pm pcm (createInstr k) m = .ok () m' ∧ CreateReturned E m o child w m') := by
  have ha : Aligned m.evm.memory := hm.memory
  have hfit : m.evm.memory.length ≤ 32 * wordsAfter m (wordsFor o.start o.size) := memory_le_after ha _
  have hcode : initCode m o = bytesAt m.evm.memory o.start.toNat o.size.toNat :=
    read_grown hfit (range_fits (Nat.le_max_right _ _))
  have hle : createForwarded m o ≤ m.evm.gasLeft - createCharges m o := by
    unfold createForwarded allButOne64th; split <;> omega
  have hused : NonceUsed m (creating (createMid m o) (createAddress E m o)).world := by
    refine ⟨?_, fun x hx => ?_, fun x key => ?_, rfl⟩
    · show getAccount (incrementNonce m.world.state m.self) m.self = _
      rw [incrementNonce, getAccount_modifyState', if_pos rfl]
    · show getAccountOptional (incrementNonce m.world.state m.self) x = _
      rw [incrementNonce, getAccountOptional_modifyState', if_neg (Ne.symm hx)]
    · show getStorage (incrementNonce m.world.state m.self) x key = _
      rw [incrementNonce, getStorage_modifyState', if_neg]
      rintro ⟨-, he⟩; simp [emptyAccount] at he
  have hno : ((getAccount m.world.state m.self).balance < o.value ∨
        (getAccount m.world.state m.self).nonce = 2 ^ 64 - 1 ∨ m.evm.message.depth + 1 > STACK_DEPTH_LIMIT) ↔ CreateRefused m o := by
    unfold CreateRefused
    have : m.evm.message.depth + 1 > STACK_DEPTH_LIMIT ↔ m.evm.message.depth ≥ 1024 := by
      simp only [STACK_DEPTH_LIMIT]; omega
    rw [this]
  rw [opStep_createOp, createOp_cases ha hm.stack ho hg]
  rw [← hno, ← createAddress_eq ha, ← taken_iff hw.state]
  dsimp only
  rw [show (initCode m o).length = o.size.toNat by rw [hcode, bytesAt_length]]
  by_cases h1 : m.world.state.fork.since .shanghai = true ∧ 49152 < o.size.toNat
  · rw [if_pos h1, if_pos (c := m.world.state.fork.since .shanghai = true ∧ o.size.toNat > MAX_INIT_CODE_SIZE) h1]; exact ⟨_, rfl⟩
  rw [if_neg h1, if_neg (c := m.world.state.fork.since .shanghai = true ∧ o.size.toNat > MAX_INIT_CODE_SIZE) h1]
  by_cases h2 : m.evm.message.isStatic = true
  · rw [if_pos h2, if_pos h2]; exact ⟨_, rfl⟩
  rw [if_neg h2, if_neg h2]
  refine ⟨fun h3 => ?_, fun h3 h4 => ?_, fun h3 h4 => ?_⟩
  · rw [if_pos h3]
    refine ⟨_, rfl, ⟨⟨rfl, rfl, rfl, rfl, rfl, rfl⟩, rfl, rfl, ?_, rfl, written_none hfit, rfl, rfl, rfl, fun _ a => ?_, rfl⟩, rfl⟩
    · show m.evm.gasLeft - createCharges m o + (if false = true then _ else 0) + _ = _
      rw [if_neg (by simp)]; omega
    · simp; rfl
  · rw [if_neg h3, if_pos h4]
    refine ⟨_, rfl, ⟨⟨rfl, rfl, rfl, rfl, rfl, rfl⟩, rfl, rfl, ?_, rfl, written_none hfit, rfl, rfl, rfl, fun _ a => ?_, rfl⟩, hused⟩
    · show m.evm.gasLeft - createCharges m o - createForwarded m o + (if true = true then _ else 0) + _ = _
      rw [if_pos rfl]; omega
    · show a ∈ setAdd m.evm.accessedAddresses (createAddress E m o) ↔ _
      rw [mem_setAdd, createAddress_eq ha]; simp
  · rw [if_neg h3, if_neg h4]
    refine ⟨_, _, sentCreate E m ha o, hused, ?_⟩
    match hp : pcm (createMessage (createMid m o) o.value (createAddress E m o) (initCode m o))
        (creating (createMid m o) (createAddress E m o)).world with
    | .error (e, w) => exact ⟨_, rfl⟩
    | .ok (child, w) =>
      refine ⟨_, rfl, ?_, rfl, rfl, ?_, ?_, ?_, ?_, ?_⟩
      · constructor <;> (unfold incorporate; dsimp only; split <;> rfl)
      · dsimp only; cases child.error <;> rfl
      · have : (incorporate (creating (createMid m o) (createAddress E m o)) child w).gasLeft =
            m.evm.gasLeft - createCharges m o - createForwarded m o + child.gasLeft := by
          unfold incorporate; split <;> rfl
        dsimp only; omega
      · dsimp only; cases child.error <;> rfl
      · have : (incorporate (creating (createMid m o) (createAddress E m o)) child w).memory =
            grown m.evm.memory (wordsAfter m (wordsFor o.start o.size)) := by
          unfold incorporate; split <;> rfl
        dsimp only; rw [this]; exact written_none hfit
      · refine incorporate_takes m (creating (createMid m o) (createAddress E m o)) child w _ _ rfl rfl rfl rfl rfl rfl rfl rfl (fun _ a => ?_) rfl
        show a ∈ setAdd m.evm.accessedAddresses (createAddress E m o) ↔ _
        rw [mem_setAdd, createAddress_eq ha]

/-! ### Concrete cases -/
omit hm

/-- Account 0xaa runs; 0xbb delegates to 0xcc. The memory is one word, holding the bytes 1 to 32. -/
def sendingFrame (stack : List Word) : Mach :=
  let w := Sample.worldOf [(0xaa, ⟨1, 55, [0x60, 0x61]⟩), (0xbb, ⟨1, 5, [0xef, 0x01, 0x00] ++ List.replicate 19 0 ++ [0xcc]⟩), (0xcc, ⟨1, 0, [0x5b, 0]⟩)] []
  { evm := { initEvm (Sample.callTo w 0xaa 100000 3) with
      stack := stack, memory := (List.range 32).map fun i => UInt8.ofNat (i + 1) }
    world := w }

/-- A child that returns three bytes and 7 gas, with or without an error, whatever it is asked. -/
def answer (e : Option Exn) : Sub := fun msg w =>
  .ok ({ initEvm msg with gasLeft := 7, output := [0xa1, 0xa2, 0xa3], error := e, logs := [⟨msg.currentTarget, [], msg.data⟩] }, w)

def sent (e : Option Exn) (op : Op) (m : Mach) : Option (List Word × Nat × Bytes × Bytes × List Log) :=
  match opStep Sample.env (answer e) (answer e) op m with
  | .ok _ m' => some (m'.evm.stack, m'.evm.gasLeft, m'.evm.returnData, m'.evm.memory.take 6, m'.evm.logs)
  | .err _ _ => none

example : WithinLimits (sendingFrame []) := ⟨by decide, by decide, by decide⟩
example : callOperands .call (sendingFrame [50000, 0xbb, 5, 30, 3, 1, 2, 9]).evm.stack = some ⟨50000, 0xbb, 5, 30, 3, 1, 2, [9]⟩ := rfl
example : forwarded .call (sendingFrame [50000, 0xbb, 5, 30, 3, 1, 2, 9]) ⟨50000, 0xbb, 5, 30, 3, 1, 2, [9]⟩ +
    callCharges .call (sendingFrame [50000, 0xbb, 5, 30, 3, 1, 2, 9]) ⟨50000, 0xbb, 5, 30, 3, 1, 2, [9]⟩ = 64203 ∧
    delegateOf (sendingFrame []).world.state 0xbb = some 0xcc := by constructor <;> decide +kernel
/-- Success and failure of a CALL with room for two bytes; a DELEGATECALL, which logs for the account that calls; and a CREATE. -/
example : sent none .call (sendingFrame [50000, 0xbb, 5, 30, 3, 1, 2, 9]) =
      some ([1, 9], 35804, [0xa1, 0xa2, 0xa3], [1, 0xa1, 0xa2, 4, 5, 6], [⟨0xbb, [], [31, 32, 0]⟩]) ∧
    sent (some .revert) .call (sendingFrame [50000, 0xbb, 5, 30, 3, 1, 2, 9]) =
      some ([0, 9], 35804, [0xa1, 0xa2, 0xa3], [1, 0xa1, 0xa2, 4, 5, 6], []) ∧
    sent none .delegatecall (sendingFrame [50000, 0xbb, 30, 3, 1, 8, 9]) =
      some ([1, 9], 44804, [0xa1, 0xa2, 0xa3], [1, 0xa1, 0xa2, 0xa3, 5, 6], [⟨0xaa, [], [31, 32, 0]⟩]) ∧
    (sent none .create (sendingFrame [5, 1, 2, 9])).map (fun x => (x.2.1, x.2.2.1)) = some (1069, []) ∧
    (sent (some .revert) .create (sendingFrame [5, 1, 2, 9])).map (fun x => (x.1, x.2.2.1)) = some ([0, 9], [0xa1, 0xa2, 0xa3]) ∧
    (sent none .create (sendingFrame [56, 1, 2, 9])).map (fun x => (x.1, x.2.1)) = some ([0, 9], 67998) := by
  refine ⟨?_, ?_, ?_, ?_, ?_, ?_⟩ <;> decide +kernel

end Verif.Props
