import Verif.Props.C09_C11
import Verif.Lemmas.Create
import Verif.Lemmas.AccessRun
/-!
C21: contracts are created at free addresses only, and only with valid code. C22: only contracts created in the same
transaction are deleted. C23: nonces never decrease (see C23_replay.lean for transactions and chains).
-/
namespace Verif.Props
open Verif Verif.Spec

/-! ### C21 -/

/-- **C21**, the end of a creation: the init code, run by `process_message` in the prepared world, has succeeded with some
output. If the output is valid code and the remaining gas pays 200 per byte for it, then it becomes the code of the new
account, nothing else changes, and that is what is charged; else the creation fails, all gas is gone, and everything
reads as before the creation. In frontier it does not fail, but the account is left as the init code left it, without code, and
nothing is charged. For any message and world. -/
theorem C21_deploy (E : Env) (msg : Message) (w w0 : World) (c0 : Evm)
    (h : processMessage E (exec E) msg (createStart w msg.currentTarget) = .ok (c0, w0)) (hn : c0.error = none) :
    ∃ child w', processCreateMessage E (exec E) msg w = .ok (child, w') ∧
      if ValidCode w.state.fork c0.output ∧ 200 * c0.output.length ≤ c0.gasLeft then
        child.error = none ∧ child.gasLeft + 200 * c0.output.length = c0.gasLeft ∧
        getAccount w'.state msg.currentTarget = { getAccount w0.state msg.currentTarget with code := c0.output } ∧
        (∀ a, a ≠ msg.currentTarget → getAccountOptional w'.state a = getAccountOptional w0.state a)
      else if w.state.fork.since .homestead then
        child.error ≠ none ∧ child.gasLeft = 0 ∧ (w.state.fork.since .byzantium = true → child.output = []) ∧ SameReads w' w
      else child.error = none ∧ child.gasLeft = c0.gasLeft ∧ child.output = [] ∧ SameReads w' w0 := by
  obtain ⟨child, w', h1, h2⟩ := create_end h hn
  refine ⟨child, w', h1, ?_⟩
  by_cases hc : ValidCode w.state.fork c0.output ∧ 200 * c0.output.length ≤ c0.gasLeft
  · rw [if_pos hc] at h2 ⊢
    obtain ⟨rfl, h3⟩ := h2
    have h4 := h3.sameReads
    refine ⟨hn, by simp only; omega, ?_, fun a ha => ?_⟩
    · have : getAccount w'.state msg.currentTarget = getAccount (setCode w0.state msg.currentTarget c0.output) msg.currentTarget := by
        unfold getAccount; rw [h4.1]
      rw [this, setCode, getAccount_modifyState', if_pos rfl]
    · rw [h4.1, setCode, getAccountOptional_modifyState', if_neg (Ne.symm ha)]
  · rw [if_neg hc] at h2 ⊢
    by_cases hh : w.state.fork.since .homestead = true
    · rw [if_pos hh] at h2 ⊢
      obtain ⟨⟨x, rfl⟩, h3⟩ := h2
      exact ⟨by simp, rfl, fun hb => if_pos hb, h3.sameReads⟩
    · rw [if_neg hh] at h2 ⊢
      obtain ⟨rfl, h3⟩ := h2
      exact ⟨hn, rfl, rfl, h3.sameReads⟩

/-- After a successful creation the new account has a nonce and valid code. -/
theorem created_account {E : Env} {msg : Message} {w w' : World} {child : Evm}
    (h : processCreateMessage E (exec E) msg w = .ok (child, w')) (hn : child.error = none)
    (hf : w.state.fork.since .spuriousDragon = true) :
    ValidCode w.state.fork (getAccount w'.state msg.currentTarget).code ∧
    (getAccount w.state msg.currentTarget).nonce + 1 ≤ (getAccount w'.state msg.currentTarget).nonce := by
  obtain ⟨c0, w0, h1, h2, h3, h4, -, h6⟩ := create_success h hn (by revert hf; cases w.state.fork <;> decide)
  have : getAccount w'.state msg.currentTarget = { getAccount w0.state msg.currentTarget with code := c0.output } := by
    have : getAccount w'.state msg.currentTarget = getAccount (setCode w0.state msg.currentTarget c0.output) msg.currentTarget := by
      unfold getAccount; rw [h6.sameReads.1]
    rw [this, setCode, getAccount_modifyState', if_pos rfl]
  rw [this]
  have hnon := message_rel nonces_closed h1 msg.currentTarget
  rw [createStart_nonce _ hf] at hnon
  exact ⟨h3, hnon⟩

/-- **C21**, the create instructions. Either the create is refused, and nothing happens; or the address is taken, and then
0 is pushed, the forwarded gas is gone, and all that changes in the state is that the creator's nonce is used up; or the
address is free and the result is 0 or the address, which then has valid code and, since spurious_dragon, a nonce of at least 1. In
every fork. -/
theorem C21_create (E : Env) (k : Bool) (m m' : Mach) (hm : WithinLimits m) (hw : m.world.WF)
    (h : step E (createInstr k) m = .ok () m') :
    ∃ o, createOperands k m.evm.stack = some o ∧
      let a := newAddress E m o
      let self := m.evm.message.currentTarget
      (CreateRefused m o ∧ m'.evm.stack = 0 :: o.rest ∧ m'.world = m.world ∧
        m'.evm.gasLeft = m.evm.gasLeft - createCharges m o) ∨
      (¬ CreateRefused m o ∧ Taken m.world.state a ∧ m'.evm.stack = 0 :: o.rest ∧
        m'.evm.gasLeft = m.evm.gasLeft - createCharges m o - createForwarded m o ∧
        getAccount m'.world.state self =
          { getAccount m.world.state self with nonce := (getAccount m.world.state self).nonce + 1 } ∧
        (∀ x, x ≠ self → getAccountOptional m'.world.state x = getAccountOptional m.world.state x) ∧
        (∀ x key, getStorage m'.world.state x key = getStorage m.world.state x key) ∧
        m'.world.transient = m.world.transient) ∨
      (¬ CreateRefused m o ∧ ¬ Taken m.world.state a ∧
        (m'.evm.stack = 0 :: o.rest ∨
         m'.evm.stack = a.setWidth 256 :: o.rest ∧ ValidCode m.world.state.fork (getAccount m'.world.state a).code ∧
          (m.world.state.fork.since .spuriousDragon = true → 1 ≤ (getAccount m'.world.state a).nonce))) := by
  have h : opStep E _ _ (createInstr k) m = .ok () m' := h
  rw [opStep_createOp] at h
  obtain ⟨o, ho, hg, -, -, hcase⟩ := createOp_inv hm.memory hm.stack h
  refine ⟨o, ho, ?_⟩
  have hno : ((getAccount m.world.state m.self).balance < o.value ∨
        (getAccount m.world.state m.self).nonce = 2 ^ 64 - 1 ∨ m.evm.message.depth + 1 > STACK_DEPTH_LIMIT) ↔ CreateRefused m o := by
    unfold CreateRefused
    have : m.evm.message.depth + 1 > STACK_DEPTH_LIMIT ↔ m.evm.message.depth ≥ 1024 := by
      simp only [STACK_DEPTH_LIMIT]; omega
    rw [this]
  rw [← createAddress_eq hm.memory]
  dsimp only
  simp only [← hno]
  have hfull := taken_iff hw.state (createAddress E m o)
  rcases hcase with ⟨h1, rfl⟩ | ⟨h1, h2, rfl⟩ | ⟨h1, h2, child, w, hp, rfl⟩
  · exact .inl ⟨h1, rfl, rfl, rfl⟩
  · refine .inr (.inl ⟨h1, hfull.mp h2, rfl, ?_, ?_, fun x hx => ?_, fun x key => ?_, rfl⟩)
    · rfl
    · show getAccount (incrementNonce m.world.state m.self) m.self = _
      rw [incrementNonce, getAccount_modifyState', if_pos rfl]
    · show getAccountOptional (incrementNonce m.world.state m.self) x = _
      rw [incrementNonce, getAccountOptional_modifyState', if_neg (Ne.symm hx)]
    · show getStorage (incrementNonce m.world.state m.self) x key = _
      rw [incrementNonce, getStorage_modifyState', if_neg]
      rintro ⟨-, he⟩; simp [emptyAccount] at he
  · refine .inr (.inr ⟨h1, fun hh => h2 (hfull.mpr hh), ?_⟩)
    by_cases he : child.error = none
    · right
      have hfk : (creating (createMid m o) (createAddress E m o)).world.state.fork = m.world.state.fork := by
        simp [creating, createMid, createFrame, incrementNonce]
      refine ⟨?_, ?_, fun hf => Nat.le_trans (Nat.le_add_left 1 _) (created_account hp he (by rw [hfk]; exact hf)).2⟩
      · simp only [he, Option.isSome_none, Bool.false_eq_true, if_false]
        rw [msg_processCreateMessage (msg_exec E) _ _ _ _ hp (by rw [he]; rfl)]; rfl
      · have hcl := (createMessage_rel codes_closed codes_increment hp).2 (createAddress E m o)
        rw [hfk] at hcl
        rcases hcl with e | e
        · show ValidCode _ (getAccount w.state _).code
          rw [e]
          have : (getAccount (creating (createMid m o) (createAddress E m o)).world.state (createAddress E m o)).code = [] := by
            have hn : ¬ Taken m.world.state (createAddress E m o) := fun hh => h2 (hfull.mpr hh)
            have h0 : (getAccount m.world.state (createAddress E m o)).code = [] := Classical.byContradiction fun h => hn (.inr (.inl h))
            show (getAccount (incrementNonce m.world.state m.self) (createAddress E m o)).code = []
            rw [incrementNonce, getAccount_modifyState']; split
            · rename_i e; rw [e]; exact h0
            · exact h0
          rw [this]; exact ⟨fun _ => Nat.zero_le _, fun _ => by simp⟩
        · exact (deployable_iff _ _).mp e
    · left
      have : child.error.isSome = true := by cases hq : child.error <;> simp_all
      simp [this]

/-- **C21**, creation transactions: if the address is taken nothing changes and no gas is left; else a transaction without
error has put valid code there. -/
theorem C21_transaction (E : Env) (msg : Message) (w w' : World) (out : MessageCallOutput) (hw : w.WF)
    (hf : w.state.fork.since .spuriousDragon = true) (ht : TopMessage msg w) (htar : msg.target = none) (h : processMessageCall E msg w = .ok (out, w')) :
    (Taken w.state msg.currentTarget → w' = w ∧ out.gasLeft = 0 ∧ out.error ≠ none) ∧
    (¬ Taken w.state msg.currentTarget → out.error = none →
      ValidCode w.state.fork (getAccount w'.state msg.currentTarget).code ∧ 1 ≤ (getAccount w'.state msg.currentTarget).nonce) := by
  have hfull := taken_iff hw.state msg.currentTarget
  have hcol : Collides msg w ↔ Taken w.state msg.currentTarget := by
    rw [← hfull, Bool.or_eq_true]; exact ⟨fun h => h.2, fun h => ⟨htar, h⟩⟩
  rcases top_cases hw hf ht h with ⟨hc, rfl, rfl⟩ | ⟨r, msg1, s1, msg2, child, hc, -, -, -, -, hout, hcr, -⟩
  · exact ⟨fun _ => ⟨rfl, rfl, by simp⟩, fun hn => absurd (hcol.mp hc) hn⟩
  · refine ⟨fun ht => absurd (hcol.mpr ht) hc, fun _ he => ?_⟩
    obtain ⟨-, -, -, -, hp⟩ := hcr htar
    have he' : child.error = none := by rw [← (messageCallOutput_ok hout).2.1]; exact he
    obtain ⟨h3, h4⟩ := created_account hp he' hf
    exact ⟨h3, Nat.le_trans (Nat.le_add_left 1 _) h4⟩

/-- **C21**, everything together: whatever a transaction executes, an account whose code it changes (not counting the
authorizations, after which the state is `s1`) had neither code nor nonce, and now has valid code. -/
theorem C21_codes (E : Env) (msg msg1 : Message) (w w' : World) (out : MessageCallOutput) (r : Word) (s1 : State) (hw : w.WF)
    (hf : w.state.fork.since .spuriousDragon = true) (ht : TopMessage msg w) (ha : authorized E msg w = .ok (r, msg1, s1)) (h : processMessageCall E msg w = .ok (out, w'))
    (a : Address) (hne : (getAccount w'.state a).code ≠ (getAccount s1 a).code) :
    (getAccount s1 a).code = [] ∧ (getAccount s1 a).nonce = 0 ∧ ValidCode w.state.fork (getAccount w'.state a).code := by
  rcases top_cases hw hf ht h with ⟨hc, rfl, -⟩ | ⟨r', msg1', s1', msg2, child, -, ha', hrel, -, hok, -, hcr, hca⟩
  · unfold authorized at ha; rw [hc.1] at ha; cases ha; exact absurd rfl hne
  · rw [ha] at ha'; cases ha'
    have hno : ¬ Owned s1 a := fun ho => hne (hok.rel.keep a ho).1
    rw [owned_iff] at hno
    have hcode : (getAccount w'.state a).code = (getAccount s1 a).code ∨ Deployable w.state.fork (getAccount w'.state a).code := by
      by_cases htar : msg.target = none
      · obtain ⟨-, -, rfl, -, hp⟩ := hcr htar
        exact (createMessage_rel codes_closed codes_increment hp).2 a
      · obtain ⟨-, -, hp⟩ := hca htar
        have := (message_rel codes_closed hp).2 a
        rwa [hrel.fork] at this
    refine ⟨?_, ?_, (deployable_iff _ _).mp (hcode.resolve_left hne)⟩
    · by_cases hq : (getAccount s1 a).code = []
      · exact hq
      · exact absurd (.inr hq) hno
    · by_cases hq : (getAccount s1 a).nonce = 0
      · exact hq
      · exact absurd (.inl hq) hno

/-! ### C22 -/

/-- **C22**, the instruction: since cancun the executing account is scheduled for deletion if and only if it was created in this
transaction; before, always. (Before london a frame also takes over what the frames around it have scheduled.) Its whole balance goes to the beneficiary. If it is its own beneficiary, the balance is burnt if it is
scheduled for deletion and stays otherwise. -/
theorem C22_selfdestruct (E : Env) (m m' : Mach) (h : step E .selfdestruct m = .ok () m') :
    ∃ x rest, m.evm.stack = x :: rest ∧ m.evm.message.isStatic = false ∧
      let self := m.evm.message.currentTarget
      let b : Address := x.setWidth 160
      let bal (m : Mach) (a : Address) := (getAccount m.world.state a).balance
      m'.evm.running = false ∧
      (∀ a, a ∈ m'.evm.accountsToDelete ↔
        a ∈ m.evm.accountsToDelete ∨ (m.world.state.fork.since .london = false ∧ a ∈ m.evm.message.parentsToDelete) ∨
        (a = self ∧ (m.world.state.fork.since .cancun = true → self ∈ m.world.state.createdAccounts))) ∧
      (b ≠ self → bal m' self = 0 ∧ (bal m' b).toNat = (bal m b).toNat + (bal m self).toNat) ∧
      (b = self → bal m' self =
        if m.world.state.fork.since .cancun = true ∧ ¬ self ∈ m.world.state.createdAccounts then bal m self else 0) ∧
      (∀ a, a ≠ self → a ≠ b → getAccount m'.world.state a = getAccount m.world.state a) ∧
      (∀ a, (getAccount m'.world.state a).nonce = (getAccount m.world.state a).nonce ∧
        (getAccount m'.world.state a).code = (getAccount m.world.state a).code) := by
  obtain ⟨x, rest, s1, hst, hstat, hmove, -, rfl⟩ := opSelfdestruct_inv h
  refine ⟨x, rest, hst, hstat, rfl, fun a => ?_, ?_⟩
  · dsimp only
    have hb : a ∈ m.sdBase ↔ a ∈ m.evm.accountsToDelete ∨ (m.world.state.fork.since .london = false ∧ a ∈ m.evm.message.parentsToDelete) := by
      unfold Mach.sdBase
      split
      · rename_i hl; simp [hl]
      · rename_i hl; rw [mem_setUpdate]; simp [hl]
    split
    · rw [mem_setAdd, hb]; simp_all [Mach.self, selfdestructDeletes]; grind
    · rw [hb]; simp_all [Mach.self, selfdestructDeletes]
  · dsimp only
    simp only [Mach.self] at *
    unfold selfdestructState at hmove
    by_cases hcan : ¬ m.world.state.fork.since .cancun = true
    · rw [if_neg hcan] at hmove
      split at hmove
      · cases hmove
      rename_i v hv
      cases hmove
      have hov := checkedAdd_ok hv
      simp only [hcan, false_and, if_false]
      refine ⟨fun hb => ⟨by simp [setAccountBalance, getAccount_modifyState'], ?_⟩, fun hb => ?_, fun a ha1 ha2 => ?_, fun a => ?_⟩
      · have : (x.setWidth 160 : Address) ≠ m.evm.message.currentTarget := hb
        simp only [setAccountBalance, getAccount_modifyState', if_neg (Ne.symm hb), if_true]
        exact hov
      · simp [setAccountBalance, getAccount_modifyState']
      · simp [setAccountBalance, getAccount_modifyState', Ne.symm ha1, Ne.symm ha2]
      · simp only [setAccountBalance, getAccount_modifyState']
        grind
    have hcan := Decidable.not_not.mp hcan
    rw [if_pos hcan] at hmove
    split at hmove
    · cases hmove
    rename_i s2 hmv
    cases hmove
    simp only [hcan, true_and]
    have hacc := moveEther_account hmv
    obtain ⟨hle, s0, rfl, hov, rfl⟩ := moveEther_ok hmv
    refine ⟨fun hb => ?_, fun hb => ?_, fun a ha1 ha2 => ?_, fun a => ?_⟩
    · simp only [getAccount_modifyState', if_neg (Ne.symm hb)] at hov
      constructor
      · split
        · simp [setAccountBalance, getAccount_modifyState']
        · simp [getAccount_modifyState', hb]
      · have : (x.setWidth 160 : Address) ≠ m.evm.message.currentTarget := hb
        split
        · simp only [setAccountBalance, getAccount_modifyState', if_neg (Ne.symm hb), if_true]
          rw [BitVec.toNat_add]; omega
        · simp only [getAccount_modifyState', if_neg (Ne.symm hb), if_true]
          rw [BitVec.toNat_add]; omega
    · split
      · rename_i hcr; rw [if_neg (fun h => h (by simpa using hcr))]; simp [setAccountBalance, getAccount_modifyState']
      · rename_i hcr; rw [if_pos (by simpa using hcr)]; simp [getAccount_modifyState', hb]
    · split <;> simp [setAccountBalance, getAccount_modifyState', Ne.symm ha1, Ne.symm ha2]
    · split
      · simp only [setAccountBalance, getAccount_modifyState']
        grind
      · exact hacc a

/-- **C22**, whole transactions: since cancun, an address that a transaction schedules for deletion had neither code nor nonce before
the transaction. Before cancun it may also have been a contract. -/
theorem C22_transaction (E : Env) (msg : Message) (w w' : World) (out : MessageCallOutput) (hw : w.WF)
    (hf : w.state.fork.since .spuriousDragon = true) (ht : TopMessage msg w) (h : processMessageCall E msg w = .ok (out, w')) (a : Address)
    (ha : a ∈ out.accountsToDelete) :
    ((getAccount w.state a).nonce = 0 ∧ (getAccount w.state a).code = []) ∨
    (w.state.fork.since .cancun = false ∧ (getAccount w.state a).code ≠ []) := by
  rcases top_cases hw hf ht h with ⟨-, rfl, rfl⟩ | ⟨r, msg1, s1, msg2, child, -, hau, hrel, -, hok, hout, -, -⟩
  · cases ha
  · obtain ⟨-, h1, -, h2, h3⟩ := messageCallOutput_ok hout
    cases he : child.error with
    | some x => rw [(h2 (by simp [he])).2.1] at ha; cases ha
    | none =>
      rw [(h3 he).2.1] at ha
      by_cases hold : w.state.fork.since .cancun = false ∧ (getAccount w.state a).code ≠ []
      · exact .inr hold
      left
      have hno : ¬ Owned w.state a := by
        intro ho
        rcases hok.delFresh he a ha with (hc | ⟨hf, hc⟩) | hc
        · have : a ∈ s1.createdAccounts := hc
          rw [hrel.created, ht.created] at this; cases this
        · have hf : w.state.fork.since .cancun = false := by rw [← hrel.fork]; exact hf
          have hs1 : s1 = w.state := authorized_old hau (by revert hf; cases w.state.fork <;> decide)
          subst hs1
          exact hold ⟨hf, hc⟩
        · exact hc (authorized_owned hau ho)
      rw [owned_iff] at hno
      constructor
      · by_cases hq : (getAccount w.state a).nonce = 0
        · exact hq
        · exact absurd (.inl hq) hno
      · by_cases hq : (getAccount w.state a).code = []
        · exact hq
        · exact absurd (.inr hq) hno

/-! ### C23 -/

/-- **C23**, first half, for any message in any world. -/
theorem C23_message (E : Env) (msg : Message) (w w' : World) (child : Evm)
    (h : processMessage E (exec E) msg w = .ok (child, w')) (a : Address) :
    (getAccount w.state a).nonce ≤ (getAccount w'.state a).nonce := message_rel nonces_closed h a

/-- **C23**, first half, for any creation in any world. -/
theorem C23_create_message (E : Env) (msg : Message) (w w' : World) (child : Evm)
    (h : processCreateMessage E (exec E) msg w = .ok (child, w')) (a : Address) :
    (getAccount w.state a).nonce ≤ (getAccount w'.state a).nonce := createMessage_rel nonces_closed nonces_increment h a

/-- **C23**, first half, for any top-level message, with its authorizations, in any world. -/
theorem C23_execution (E : Env) (msg : Message) (w w' : World) (out : MessageCallOutput)
    (h : processMessageCall E msg w = .ok (out, w')) (a : Address) :
    (getAccount w.state a).nonce ≤ (getAccount w'.state a).nonce := by
  rw [processMessageCall, processMessageCallWith_eq] at h
  match ha : authorized E msg w with
  | .error c => rw [ha] at h; cases h
  | .ok (r, msg1, s1) =>
    rw [ha] at h
    simp only at h
    have hrel := (authorized_rel ha).1.nonce a
    by_cases htar : msg.target = none
    · simp only [htar, if_true] at h
      split at h
      · cases h; exact Nat.le_refl _
      · split at h
        · cases h
        · rename_i evm w2 hpm
          split at h <;> cases h
          exact C23_create_message E _ _ _ _ hpm a
    · simp only [htar, if_false] at h
      split at h
      · cases h
      · rename_i evm w2 hpm
        split at h <;> cases h
        exact Nat.le_trans hrel (C23_message E _ _ _ _ hpm a)

/-! ### Concrete cases -/
section Examples
open Verif.Sample

/-- A frame of `0xcc` whose memory holds init code; the stack asks for CREATE with 5 wei. -/
def maker (w : World) (code : Bytes) (gas : Nat) : Mach :=
  let m := frameOf w 0xcc gas false [5, 0, BitVec.ofNat 256 code.length]
  { m with evm := { m.evm with memory := code ++ List.replicate (32 - code.length) 0 } }

def made (m : Mach) : Option (List Word × Bytes × Nat × Nat) :=
  match step env (createInstr false) m with
  | .ok _ m' => some (m'.evm.stack, (getAccount m'.world.state 0xcc01).code, (getAccount m'.world.state 0xcc).nonce, m'.evm.gasLeft)
  | .err _ _ => none

/-- The hypotheses of `C21_create`; init code that returns one zero byte (PUSH1 1, PUSH0, RETURN). -/
example : WithinLimits (maker busyWorld [0x60, 1, 0x5f, 0xf3] 60000) ∧ (maker busyWorld [0x60, 1, 0x5f, 0xf3] 60000).world.WF :=
  ⟨⟨by decide +kernel, by decide +kernel, by decide +kernel⟩, (worldOf_wf _ _).begin⟩
example : newAddress env (maker busyWorld [0x60, 1, 0x5f, 0xf3] 60000) ⟨5, 0, 4, none, []⟩ = 0xcc01 := by decide +kernel
/-- It is deployed. -/
example : made (maker busyWorld [0x60, 1, 0x5f, 0xf3] 60000) = some ([0xcc01], [0], 2, 27790) := by decide +kernel
/-- Output `0xef` is not, nor are 32 bytes that cannot be paid for. -/
example : made (maker busyWorld [0x60, 0xef, 0x5f, 0x53, 0x60, 1, 0x5f, 0xf3] 60000) = some ([0], [], 2, 437) := by decide +kernel
example : made (maker busyWorld [0x60, 0x20, 0x5f, 0xf3] 34000) = some ([0], [], 2, 31) := by decide +kernel
/-- The address has nothing but a storage slot: taken. -/
def takenWorld : World := worldOf [eoa, (0xcc, ⟨1, 50, [0xff]⟩)] [(0xcc01, 3, 4)]
example : made (maker takenWorld [0x60, 1, 0x5f, 0xf3] 60000) = some ([0], [], 2, 437) := by decide +kernel
example : Taken takenWorld.state 0xcc01 := .inr (.inr ⟨3, by decide +kernel⟩)

/-- Creation transactions at a taken and at a free address. -/
example : TopMessage (createAt 0xcc01 50000 5 [0x60, 1, 0x5f, 0xf3]) takenWorld ∧ takenWorld.WF :=
  ⟨top_createAt (by decide +kernel) (by decide +kernel) _ _ _ _, worldOf_wf _ _⟩
example : (match processMessageCall env (createAt 0xcc01 50000 5 [0x60, 1, 0x5f, 0xf3]) takenWorld with
    | .ok (o, w) => some (o.error, o.gasLeft, (getAccount w.state 0xcc01).code)
    | .error _ => none) = some (some (.halt .addressCollision), 0, []) := by decide +kernel
example : (match processMessageCall env (createAt 0xcc02 50000 5 [0x60, 1, 0x5f, 0xf3]) takenWorld with
    | .ok (o, w) => some (o.error, o.gasLeft, (getAccount w.state 0xcc02).code)
    | .error _ => none) = some (none, 49792, [0]) := by decide +kernel

/-- SELFDESTRUCT of an old account and of one created in the transaction, and in its own favour. -/
def destroyer (created : List Address) (b : Word) : Mach :=
  let m := frameOf takenWorld 0xcc 60000 false [b]
  { m with world := { m.world with state := { m.world.state with createdAccounts := created } } }
def destroyed (m : Mach) : Option (List Address × Word × Word) :=
  match step env .selfdestruct m with
  | .ok _ m' => some (m'.evm.accountsToDelete, (getAccount m'.world.state 0xcc).balance, (getAccount m'.world.state 0xee).balance)
  | .err _ _ => none
example : destroyed (destroyer [] 0xee) = some ([], 0, 1000050) := by decide +kernel
example : destroyed (destroyer [0xcc] 0xee) = some ([0xcc], 0, 1000050) := by decide +kernel
example : destroyed (destroyer [] 0xcc) = some ([], 50, 1000000) := by decide +kernel
example : destroyed (destroyer [0xcc] 0xcc) = some ([0xcc], 0, 1000000) := by decide +kernel

end Examples
end Verif.Props
