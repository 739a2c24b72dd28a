import Verif.Lemmas.Good
import Verif.Spec.Top
/-! Top-level messages. -/
namespace Verif
open Spec

/-- What the authorizations can do to a state. -/
structure AuthRel (s s' : State) : Prop where
  wf : s.WF → s'.WF
  snaps : s'.snapshots = s.snapshots
  created : s'.createdAccounts = s.createdAccounts
  supply : s.WF → supply s' = supply s
  nonce : ∀ a, (getAccount s a).nonce ≤ (getAccount s' a).nonce
  balance : ∀ a, (getAccount s' a).balance = (getAccount s a).balance
  fork : s'.fork = s.fork

theorem AuthRel.refl (s : State) : AuthRel s s := ⟨id, rfl, rfl, fun _ => rfl, fun _ => Nat.le_refl _, fun _ => rfl, rfl⟩
theorem AuthRel.trans {a b c : State} (h : AuthRel a b) (h' : AuthRel b c) : AuthRel a c :=
  ⟨fun w => h'.wf (h.wf w), h'.snaps.trans h.snaps, h'.created.trans h.created,
   fun w => (h'.supply (h.wf w)).trans (h.supply w), fun x => Nat.le_trans (h.nonce x) (h'.nonce x),
   fun x => (h'.balance x).trans (h.balance x), h'.fork.trans h.fork⟩

theorem authRel_setCode (s : State) (a : Address) (c : Bytes) : AuthRel s (setCode s a c) := by
  refine ⟨fun h => h.setCode a c, by simp [setCode], by simp [setCode], ?_, ?_, ?_, by simp [setCode]⟩
  · intro h
    have := supply_modifyState' h.main.1 a (fun acc => { acc with code := c })
    simp only at this; unfold setCode; omega
  · intro x; unfold setCode; rw [getAccount_modifyState']; split
    · rename_i h; subst h; exact Nat.le_refl _
    · exact Nat.le_refl _
  · intro x; unfold setCode; rw [getAccount_modifyState']; split
    · rename_i h; subst h; rfl
    · rfl

theorem authRel_incrementNonce (s : State) (a : Address) : AuthRel s (incrementNonce s a) := by
  refine ⟨fun h => h.incrementNonce a, by simp [incrementNonce], by simp [incrementNonce], ?_, ?_, ?_, by simp [incrementNonce]⟩
  · intro h; exact incNonce_supply h.main.1 a
  · intro x; unfold incrementNonce; rw [getAccount_modifyState']; split
    · rename_i h; subst h; exact Nat.le_succ _
    · exact Nat.le_refl _
  · intro x; unfold incrementNonce; rw [getAccount_modifyState']; split
    · rename_i h; subst h; rfl
    · rfl

theorem authRel_step (E : Env) (acc : DelegationAcc) (auth : Authorization) :
    AuthRel acc.state (delegationStep E acc auth).state := by
  unfold delegationStep
  split
  · exact .refl _
  split
  · exact .refl _
  split
  · exact .refl _
  · dsimp only
    split
    · exact .refl _
    split
    · exact .refl _
    · exact (authRel_setCode _ _ _).trans (authRel_incrementNonce _ _)

theorem authRel_fold (E : Env) : ∀ (l : List Authorization) (acc : DelegationAcc),
    AuthRel acc.state (l.foldl (delegationStep E) acc).state
  | [], _ => .refl _
  | a :: r, acc => (authRel_step E acc a).trans (authRel_fold E r _)

/-- The message after the authorizations. -/
structure AuthMsg (msg msg1 : Message) : Prop where
  caller : msg1.caller = msg.caller
  target : msg1.target = msg.target
  currentTarget : msg1.currentTarget = msg.currentTarget
  gas : msg1.gas = msg.gas
  value : msg1.value = msg.value
  data : msg1.data = msg.data
  codeAddress : msg1.codeAddress = msg.codeAddress
  depth : msg1.depth = msg.depth
  transfer : msg1.shouldTransferValue = msg.shouldTransferValue
  static : msg1.isStatic = msg.isStatic
  keys : msg1.accessedStorageKeys = msg.accessedStorageKeys
  parents : msg1.parentsToDelete = msg.parentsToDelete

theorem authorized_rel {E : Env} {msg msg1 : Message} {w : World} {r : Word} {s1 : State}
    (h : authorized E msg w = .ok (r, msg1, s1)) : AuthRel w.state s1 ∧ AuthMsg msg msg1 := by
  unfold authorized at h
  split at h
  · cases h; exact ⟨.refl _, ⟨rfl, rfl, rfl, rfl, rfl, rfl, rfl, rfl, rfl, rfl, rfl, rfl⟩⟩
  · split at h
    · unfold setDelegation at h
      simp only at h
      split at h
      · cases h
      · split at h
        · cases h
        · cases h
          exact ⟨authRel_fold E E.tx.authorizations ⟨w.state, msg.accessedAddresses, 0⟩, ⟨rfl, rfl, rfl, rfl, rfl, rfl, by simp_all, rfl, rfl, rfl, rfl, rfl⟩⟩
    · cases h; exact ⟨.refl _, ⟨rfl, rfl, rfl, rfl, rfl, rfl, rfl, rfl, rfl, rfl, rfl, rfl⟩⟩

/-- The message of a call has the code of its target also after the authorizations. -/
theorem authorized_code' {E : Env} {msg msg1 : Message} {w : World} {r : Word} {s1 : State}
    (ht : ∀ t, msg.target = some t → msg.currentTarget = t ∧ msg.codeAddress = some t ∧ msg.code = (getAccount w.state t).code)
    {t : Address} (htar : msg.target = some t) (h : authorized E msg w = .ok (r, msg1, s1)) :
    msg1.code = (getAccount s1 t).code := by
  obtain ⟨-, hca, hcode⟩ := ht t htar
  unfold authorized at h
  rw [htar] at h
  simp only at h
  split at h
  · unfold setDelegation at h
    simp only [hca] at h
    split at h <;> cases h
    rfl
  · cases h; exact hcode

theorem authorized_code {E : Env} {msg msg1 : Message} {w : World} {r : Word} {s1 : State} (ht : TopMessage msg w)
    {t : Address} (htar : msg.target = some t) (h : authorized E msg w = .ok (r, msg1, s1)) :
    msg1.code = (getAccount s1 t).code := authorized_code' ht.call htar h

theorem resolveDelegation_msg (msg : Message) (s : State) : AuthMsg msg { resolveDelegation msg s with codeAddress := msg.codeAddress } := by
  unfold resolveDelegation
  (repeat' split) <;> exact ⟨rfl, rfl, rfl, rfl, rfl, rfl, rfl, rfl, rfl, rfl, rfl, rfl⟩

theorem resolveDelegation_code {msg : Message} {s : State} (h : (resolveDelegation msg s).code ≠ []) : msg.code ≠ [] := by
  unfold resolveDelegation at h
  split at h
  · split at h
    · exact h
    · rename_i a hd
      intro he
      rw [he] at hd
      simp [getDelegatedCodeAddress, isValidDelegation, EOA_DELEGATED_CODE_LENGTH] at hd
  · exact h

/-- How a top-level message is processed. -/
theorem processMessageCallWith_eq (E : Env) (loop : Loop) (msg : Message) (w : World) :
    processMessageCallWith E loop msg w =
      match authorized E msg w with
      | .error c => .error (.crash c, w)
      | .ok (r, msg1, s1) =>
        if msg.target = none then
          if accountHasCodeOrNonce w.state msg.currentTarget || accountHasStorage w.state msg.currentTarget then
            .ok (⟨0, 0, [], [], some (.halt .addressCollision), [], []⟩, w)
          else match processCreateMessage E loop msg w with
            | .error e => .error e
            | .ok (evm, w') => match messageCallOutput 0 evm with
              | .error c => .error (.crash c, w')
              | .ok out => .ok (out, w')
        else match processMessage E loop (resolveDelegation msg1 s1) { w with state := s1 } with
          | .error e => .error e
          | .ok (evm, w') => match messageCallOutput r { evm with touchedAccounts := topTouched msg w' evm } with
            | .error c => .error (.crash c, w')
            | .ok out => .ok (out, w') := by
  unfold processMessageCallWith authorized topTouched touchTarget
  cases htar : msg.target with
  | none => simp only [if_true]; rfl
  | some t =>
    simp only [reduceCtorEq, if_false, ne_eq]
    by_cases ha : w.state.fork.since .prague = true ∧ ¬ E.tx.authorizations = []
    · rw [if_pos ha]
      match setDelegation E msg w.state with
      | .error _ => rfl
      | .ok (r, msg1, s1) => rfl
    · rw [if_neg ha]
      match processMessage E loop (resolveDelegation msg w.state) w with
      | .error _ => rfl
      | .ok _ => rfl

/-- Outcomes of a top-level message: the world after the authorizations (`w1`), the top frame's message and result. -/
theorem top_cases {E : Env} {msg : Message} {w w' : World} {out : MessageCallOutput} (hw : w.WF)
    (hf : w.state.fork.since .spuriousDragon = true) (ht : TopMessage msg w)
    (h : processMessageCall E msg w = .ok (out, w')) :
    (Collides msg w ∧ w' = w ∧ out = ⟨0, 0, [], [], some (.halt .addressCollision), [], []⟩) ∨
    ∃ r msg1 s1 msg2 child, ¬ Collides msg w ∧ authorized E msg w = .ok (r, msg1, s1) ∧ AuthRel w.state s1 ∧
      AuthMsg msg { msg2 with codeAddress := msg.codeAddress } ∧
      MsgRel msg2 { w with state := s1 } child w' ∧ messageCallOutput r { child with touchedAccounts := topTouched msg w' child } = .ok out ∧
      (msg.target = none → msg1 = msg ∧ msg2 = msg ∧ s1 = w.state ∧ PreCreate msg w ∧
        processCreateMessage E (exec E) msg w = .ok (child, w')) ∧
      (msg.target ≠ none → msg2 = resolveDelegation msg1 s1 ∧ PreMsg msg2 { w with state := s1 } ∧
        processMessage E (exec E) msg2 { w with state := s1 } = .ok (child, w')) := by
  rw [processMessageCall, processMessageCallWith_eq] at h
  match ha : authorized E msg w with
  | .error c => rw [ha] at h; cases h
  | .ok (r, msg1, s1) =>
    obtain ⟨hrel, hmsg⟩ := authorized_rel ha
    rw [ha] at h
    simp only at h
    by_cases htar : msg.target = none
    · simp only [htar, if_true] at h
      by_cases hcol : (accountHasCodeOrNonce w.state msg.currentTarget || accountHasStorage w.state msg.currentTarget) = true
      · rw [if_pos hcol] at h
        cases h
        exact .inl ⟨⟨htar, by simpa using hcol⟩, rfl, rfl⟩
      · rw [if_neg hcol] at h
        have hno : ¬ Owned w.state msg.currentTarget := by
          intro ho; simp only [Owned] at ho; simp [ho] at hcol
        have hpc : PreCreate msg w := ⟨hw, by rw [ht.depth]; omega, ht.static, hno, hf, by simp [ht.parents]⟩
        have hok := processCreateMessage_ok (E := E) (exec_ok E) msg w hpc
        match hpm : processCreateMessage E (exec E) msg w with
        | .error e => rw [hpm] at h; cases h
        | .ok (child, w2) =>
          rw [hpm] at h hok
          simp only at h hok
          have haeq : r = 0 ∧ msg1 = msg ∧ s1 = w.state := by
            unfold authorized at ha; rw [htar] at ha; cases ha; exact ⟨rfl, rfl, rfl⟩
          obtain ⟨rfl, rfl, rfl⟩ := haeq
          match hout : messageCallOutput 0 child with
          | .error c => rw [hout] at h; cases h
          | .ok o =>
            rw [hout] at h; cases h
            refine .inr ⟨_, _, _, msg1, child, ?_, rfl, hrel, hmsg, hok, by unfold topTouched; rw [htar]; exact hout, fun _ => ⟨rfl, rfl, rfl, hpc, rfl⟩,
              fun hn => absurd htar hn⟩
            rintro ⟨-, hc⟩; exact hcol (by simpa using hc)
    · simp only [htar, if_false] at h
      obtain ⟨t, htt⟩ : ∃ t, msg.target = some t := by
        cases hq : msg.target with
        | none => exact absurd hq htar
        | some t => exact ⟨t, rfl⟩
      have hr := resolveDelegation_msg msg1 s1
      have hpm : PreMsg (resolveDelegation msg1 s1) { w with state := s1 } := by
        refine .ofCode ⟨hrel.wf hw.state, hw.transient⟩ (fun hc => ?_) ?_ (by show s1.fork.since _ = true; rw [hrel.fork]; exact hf)
          ((hr.parents.trans hmsg.parents).trans ht.parents)
        · have hc1 := resolveDelegation_code hc
          rw [authorized_code ht htt ha] at hc1
          have : (resolveDelegation msg1 s1).currentTarget = t := by
            rw [hr.currentTarget, hmsg.currentTarget]; exact (ht.call t htt).1
          rw [this]
          exact hc1
        · have : (resolveDelegation msg1 s1).depth = msg.depth := hr.depth.trans hmsg.depth
          rw [this, ht.depth]; omega
      have hok := processMessage_ok (E := E) (exec_ok E) _ _ hpm
      match hp : processMessage E (exec E) (resolveDelegation msg1 s1) { w with state := s1 } with
      | .error e => rw [hp] at h; cases h
      | .ok (child, w2) =>
        rw [hp] at h hok
        simp only at h hok
        match hout : messageCallOutput r { child with touchedAccounts := topTouched msg w2 child } with
        | .error c => rw [hout] at h; cases h
        | .ok o =>
          rw [hout] at h; cases h
          refine .inr ⟨_, _, _, _, child, fun hc => htar hc.1, rfl, hrel, ?_, hok, hout, fun hn => absurd hn htar,
            fun _ => ⟨rfl, hpm, hp⟩⟩
          exact ⟨hr.caller.trans hmsg.caller, hr.target.trans hmsg.target, hr.currentTarget.trans hmsg.currentTarget,
            hr.gas.trans hmsg.gas, hr.value.trans hmsg.value, hr.data.trans hmsg.data, rfl, hr.depth.trans hmsg.depth,
            hr.transfer.trans hmsg.transfer, hr.static.trans hmsg.static, hr.keys.trans hmsg.keys, hr.parents.trans hmsg.parents⟩

/-- The result read off the top frame. -/
theorem messageCallOutput_ok {r : Word} {child : Evm} {ts : List Address} {out : MessageCallOutput}
    (h : messageCallOutput r { child with touchedAccounts := ts } = .ok out) :
    out.gasLeft = child.gasLeft ∧ out.error = child.error ∧ out.returnData = child.output ∧
    (child.error.isSome = true → out.logs = [] ∧ out.accountsToDelete = [] ∧ out.refundCounter = r) ∧
    (child.error = none → out.logs = child.logs ∧ out.accountsToDelete = child.accountsToDelete ∧
      (out.refundCounter.toNat : Int) = r.toNat + child.refundCounter) := by
  unfold messageCallOutput at h
  split at h
  · rename_i he; cases h
    exact ⟨rfl, rfl, rfl, fun _ => ⟨rfl, rfl, rfl⟩, fun hn => by simp [hn] at he⟩
  · rename_i he
    have hn : child.error = none := by simpa using he
    split at h
    · cases h
    · rename_i hneg
      split at h <;> cases h
      rename_i hlt
      refine ⟨rfl, hn.symm, rfl, fun hh => absurd hh he, fun _ => ⟨rfl, rfl, ?_⟩⟩
      simp only at hneg hlt
      simp only [BitVec.toNat_ofNat, Nat.mod_eq_of_lt hlt]
      omega

end Verif
