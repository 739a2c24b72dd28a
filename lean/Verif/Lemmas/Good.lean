import Verif.Lemmas.Monitor
import Verif.Lemmas.Snap
/-! Invariants of all frames that depend on the world, and the well-formedness of all frames. -/
namespace Verif
open Spec

/-- The world in which the first instruction of a message runs. -/
def messageStart (msg : Message) (w : World) : Except Crash State :=
  if msg.shouldTransferValue = true ∧ msg.value ≠ 0
  then moveEther (touchIn (beginTransaction w).state msg.currentTarget) msg.caller msg.currentTarget msg.value
  else .ok (touchIn (beginTransaction w).state msg.currentTarget)

theorem processMessage_congr_start {E : Env} {l l' : Loop} {msg : Message} {w : World}
    (h : msg.depth ≤ 1024 → ∀ s, messageStart msg w = .ok s →
      l ⟨initEvm msg, { beginTransaction w with state := s }⟩ = l' ⟨initEvm msg, { beginTransaction w with state := s }⟩) :
    processMessage E l msg w = processMessage E l' msg w := by
  unfold processMessage
  split
  · rfl
  · rename_i hd
    have hd : msg.depth ≤ 1024 := by simpa [STACK_DEPTH_LIMIT] using hd
    simp only
    match hs : messageStart msg w with
    | .error c => unfold messageStart at hs; simp only [hs]
    | .ok s =>
      have := h hd s hs
      unfold messageStart at hs; simp only [hs]
      unfold executeCode
      simp only [this]

/-- Requirements on an invariant of frames (`I`) and on the messages given to the two processors (`J`, `K`). -/
structure Invariant (E : Env) (I : Mach → Prop) (J K : Message → World → Prop) : Prop where
  limits : ∀ m, I m → WithinLimits m
  start : ∀ msg w s, J msg w → msg.depth ≤ 1024 → messageStart msg w = .ok s →
    I ⟨initEvm msg, { beginTransaction w with state := s }⟩
  create : ∀ msg w, K msg w → J msg (createStart w msg.currentTarget)
  call : ∀ (k : CallKind) m o, I m → m.evm.code ≠ [] → callOperands k m.evm.stack = some o →
    forwarded k m o + callCharges k m o ≤ m.evm.gasLeft → m.evm.message.depth + 1 ≤ 1024 →
    ¬ (k = .call ∧ m.evm.message.isStatic = true ∧ o.value ≠ 0) →
    ¬ ((getAccount m.world.state m.self).balance < o.value) →
    J (callMessage (callMid k m o) (callArgs k m o)) m.world
  creates : ∀ (k : Bool) m o, I m → m.evm.code ≠ [] → createOperands k m.evm.stack = some o →
    createCharges m o ≤ m.evm.gasLeft → m.evm.message.depth + 1 ≤ 1024 → m.evm.message.isStatic = false →
    (m.world.state.fork.since .shanghai = true → (initCode m o).length ≤ MAX_INIT_CODE_SIZE) →
    ¬ ((getAccount m.world.state m.self).balance < o.value) →
    (getAccount m.world.state m.self).nonce ≠ 2 ^ 64 - 1 →
    (accountHasCodeOrNonce m.world.state (createAddress E m o) || accountHasStorage m.world.state (createAddress E m o)) = false →
    K (createMessage (createMid m o) o.value (createAddress E m o) (initCode m o))
      (creating (createMid m o) (createAddress E m o)).world
  step : ∀ n op m m', I m → m.evm.code ≠ [] → 
    opStep E (processMessage E (run E n)) (processCreateMessage E (run E n)) op m = .ok () m' → I m'

section
variable {E : Env} {I : Mach → Prop} {J K : Message → World → Prop}

/-- Two processors that agree on the messages of `J` and `K` give the same results in frames satisfying `I`. -/
theorem Invariant.agree (hI : Invariant E I J K) {pm pm' pcm pcm' : Sub} (h : ∀ msg w, J msg w → pm msg w = pm' msg w)
    (h' : ∀ msg w, K msg w → pcm msg w = pcm' msg w) (op : Op) (m : Mach) (hm : I m) (hc : m.evm.code ≠ []) :
    opStep E pm pcm op m = opStep E pm' pcm' op m := by
  have hl := hI.limits m hm
  by_cases h1 : ∃ k : CallKind, op = k.op
  · obtain ⟨k, rfl⟩ := h1
    match ho : callOperands k m.evm.stack with
    | none => exact call_agree pm pm' pcm pcm' hl.memory hl.stack fun o ho' => by rw [ho] at ho'; cases ho'
    | some o =>
      by_cases hg : forwarded k m o + callCharges k m o ≤ m.evm.gasLeft
      · rw [opStep_callOp, opStep_callOp, callOp_cases hl.memory hl.stack ho hg, callOp_cases hl.memory hl.stack ho hg]
        split
        · rfl
        · rename_i hst
          split
          · rfl
          · rename_i hno
            rw [h _ _ (hI.call k m o hm hc ho hg (by
              simp only [STACK_DEPTH_LIMIT] at hno; omega) hst (fun hh => hno (.inl hh)))]
      · exact call_agree pm pm' pcm pcm' hl.memory hl.stack fun o' ho' hg' => by rw [ho] at ho'; cases ho'; exact absurd hg' hg
  · by_cases h2 : ∃ k, op = createInstr k
    · obtain ⟨k, rfl⟩ := h2
      match ho : createOperands k m.evm.stack with
      | none => exact create_agree pm pm' pcm pcm' hl.memory hl.stack fun o ho' => by rw [ho] at ho'; cases ho'
      | some o =>
        by_cases hg : createCharges m o ≤ m.evm.gasLeft
        · rw [opStep_createOp, opStep_createOp, createOp_cases hl.memory hl.stack ho hg,
            createOp_cases hl.memory hl.stack ho hg]
          simp only
          split
          · rfl
          · rename_i hcode
            split
            · rfl
            · rename_i hst
              split
              · rfl
              · rename_i hno
                split
                · rfl
                · rename_i hfree
                  rw [h' _ _ (hI.creates k m o hm hc ho hg (by simp only [STACK_DEPTH_LIMIT] at hno; omega)
                    (by simpa using hst) (fun hf => Nat.le_of_not_gt fun h => hcode ⟨hf, h⟩) (fun hh => hno (.inl hh)) (fun hh => hno (.inr (.inl hh)))
                    (by simpa using hfree))]
        · exact create_agree pm pm' pcm pcm' hl.memory hl.stack fun o' ho' hg' => by
            rw [ho] at ho'; cases ho'; exact absurd hg' hg
    · rw [other_agree E pm pm' pcm pcm' op (fun k hk => h1 ⟨k, hk⟩) (fun k hk => h2 ⟨k, hk⟩)]

theorem Invariant.run (hI : Invariant E I J K) (bad : Loop) : ∀ n m, I m → runChecked E I bad n m = Verif.run E n m
  | 0, m, _ => rfl
  | n + 1, m, hm => by
    have ih := Invariant.run hI bad n
    have hpm : ∀ msg w, J msg w →
        processMessage E (runChecked E I bad n) msg w = processMessage E (Verif.run E n) msg w := by
      intro msg w hj
      exact processMessage_congr_start fun hd s hs => ih _ (hI.start msg w s hj hd hs)
    have hpcm : ∀ msg w, K msg w →
        processCreateMessage E (runChecked E I bad n) msg w = processCreateMessage E (Verif.run E n) msg w := by
      intro msg w hk
      unfold processCreateMessage
      rw [hpm _ _ (hI.create msg w hk)]
    show runChecked E I bad (n + 1) m = loopBody E (Verif.run E n) m
    unfold runChecked
    simp only [hm, if_true]
    unfold loopBody
    split
    · split
      · rfl
      · rename_i b hb
        split
        · rfl
        · rename_i op hop
          have hc : m.evm.code ≠ [] := by intro h; simp [h] at hb
          rw [hI.agree hpm hpcm op m hm hc]
          split
          · rfl
          · rename_i m' he
            exact ih m' (hI.step n op m m' hm hc he)
    · rfl

theorem Invariant.message (hI : Invariant E I J K) (bad : Loop) {msg : Message} {w : World} (h : J msg w) :
    processMessage E (execChecked E I bad) msg w = processMessage E (exec E) msg w :=
  processMessage_congr_start fun hd s hs => hI.run bad _ _ (hI.start msg w s h hd hs)

theorem Invariant.createMessage (hI : Invariant E I J K) (bad : Loop) {msg : Message} {w : World} (h : K msg w) :
    processCreateMessage E (execChecked E I bad) msg w = processCreateMessage E (exec E) msg w := by
  unfold processCreateMessage
  rw [hI.message bad (hI.create msg w h)]
end

/-! ### Well-formed frames -/

/-- A frame as it occurs in executions. -/
structure GoodFrame (m : Mach) : Prop extends Pre m where
  memory : Aligned m.evm.memory

theorem GoodFrame.limits {m : Mach} (h : GoodFrame m) : WithinLimits m := ⟨h.stack, h.memory, h.depth⟩

theorem delegated_code {s : State} {a : Address} (h : (getAccount s (delAddr s a)).code ≠ []) :
    (getAccount s a).code ≠ [] := by
  unfold delAddr at h
  split at h
  · rename_i hd
    intro he
    unfold delegates at hd
    rw [he] at hd
    simp [isValidDelegation, EOA_DELEGATED_CODE_LENGTH] at hd
  · exact h

theorem call_preMsg {k : CallKind} {m : Mach} {o : CallOperands} (hm : Pre m) (hc : m.evm.code ≠ [])
    (hd : m.evm.message.depth + 1 ≤ 1024) : PreMsg (callMessage (callMid k m o) (callArgs k m o)) m.world := by
  refine ⟨hm.wf, fun hcode => ?_, hd, fun hcode hf => ?_, hm.fork, parents_ok hm rfl⟩
  · show Owned m.world.state (if k = .callcode ∨ k = .delegatecall then m.self else o.address)
    have hcode : (getAccount m.world.state (delAddr m.world.state o.address)).code ≠ [] := hcode
    split
    · exact hm.alive hc
    · exact owned_iff.mpr (.inr (delegated_code hcode))
  · show Doomable m.world.state (if k = .callcode ∨ k = .delegatecall then m.self else o.address)
    have hcode : (getAccount m.world.state (delAddr m.world.state o.address)).code ≠ [] := hcode
    split
    · exact hm.coded hc hf
    · exact .inr ⟨hf, delegated_code hcode⟩

theorem create_preCreate {E : Env} {m : Mach} {o : CreateOperands} (hm : Pre m) (hc : m.evm.code ≠ [])
    (hd : m.evm.message.depth + 1 ≤ 1024)
    (hfree : (accountHasCodeOrNonce m.world.state (createAddress E m o) ||
      accountHasStorage m.world.state (createAddress E m o)) = false) :
    PreCreate (createMessage (createMid m o) o.value (createAddress E m o) (initCode m o))
      (creating (createMid m o) (createAddress E m o)).world := by
  have hself := hm.alive hc
  have hno : ¬ Owned m.world.state (createAddress E m o) := by
    simp only [Bool.or_eq_false_iff] at hfree
    rw [Owned, hfree.1]; simp
  have hne : m.self ≠ createAddress E m o := fun h => hno (h ▸ hself)
  refine ⟨⟨hm.wf.state.incrementNonce _, hm.wf.transient⟩, hd, rfl, ?_, ?_, ?_⟩
  rotate_left
  · show (incrementNonce m.world.state m.self).fork.since _ = true
    rw [show (incrementNonce m.world.state m.self).fork = m.world.state.fork by unfold incrementNonce; simp]; exact hm.fork
  · intro a ha
    refine Doomable.same (s := m.world.state) (by show (incrementNonce m.world.state m.self).createdAccounts = _; unfold incrementNonce; simp) (by show (incrementNonce m.world.state m.self).fork = _; unfold incrementNonce; simp) ?_ (parents_ok hm rfl a ha)
    show (getAccount (incrementNonce m.world.state m.self) a).code = _
    unfold incrementNonce
    rw [getAccount_modifyState']
    split
    · rename_i h; subst h; rfl
    · rfl
  show ¬ Owned (incrementNonce m.world.state m.self) (createAddress E m o)
  rw [owned_iff]
  unfold incrementNonce
  rw [getAccount_modifyState', if_neg hne, ← owned_iff]
  exact hno

/-- All frames of executions that start well are well formed. -/
theorem goodFrame_invariant (E : Env) : Invariant E GoodFrame PreMsg PreCreate where
  limits _ h := h.limits
  start msg w s hp hd hs := by
    obtain ⟨hcore, hsn, hcr, -⟩ := transfer_ok hp hs
    exact ⟨⟨hcore.wf hp.wf, by show s.snapshots ≠ []; rw [hsn]; simp [beginTransaction], Nat.zero_le _, fun hc => hcore.owned (hp.alive hc), rfl, hp.depth,
        fun hc hf => (hp.coded hc (by rw [← hcore.fork]; exact hf)).mono hcore (fun a ha => by show a ∈ s.createdAccounts; rw [hcr]; exact ha),
        by rw [hcore.fork]; exact hp.fork, fun a ha => absurd ha (by simp [initEvm]),
        fun a ha => (hp.parents a ha).mono hcore (fun a ha => by show a ∈ s.createdAccounts; rw [hcr]; exact ha)⟩,
      by simp [Aligned, initEvm]⟩
  create msg w hp := by
    obtain ⟨hcore, -, hcr, -, -, hown⟩ := createStart_ok hp.wf hp.fresh hp.fork
    exact ⟨hcore.wf hp.wf, fun _ => hown, hp.depth, fun _ _ => .inl ((hcr _).mpr (.inr rfl)), by rw [hcore.fork]; exact hp.fork,
     fun a ha => (hp.parents a ha).mono hcore fun a ha => (hcr a).mpr (.inl ha)⟩
  call k m o hm hc _ _ hd _ _ := call_preMsg hm.toPre hc hd
  creates k m o hm hc _ _ hd _ _ _ _ hfree := create_preCreate hm.toPre hc hd hfree
  step n op m m' hm hc he := by
    have h := step_ok (processMessage_ok (E := E) (run_ok E n)) (processCreateMessage_ok (E := E) (run_ok E n)) hm.toPre hc
      (opStep_effect E _ _ op m hm.stack)
    rw [he] at h
    exact ⟨hm.toPre.mono h, opStep_aligned E _ _ op m () m' hm.memory he⟩

end Verif
