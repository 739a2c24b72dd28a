import Verif.Lemmas.Trace
import Verif.Lemmas.Top
import Verif.Lemmas.Keep
import Verif.Lemmas.SampleFrame
import Verif.Props.C09_C11
/-!
Properties C18 and C19: exceptional halts burn all gas and reverts keep it; the refund of a transaction is never negative.
-/
namespace Verif.Props
open Verif Verif.Spec

/-- The frame of a message, as left by the code that runs the message. -/
theorem processMessage_end {E : Env} {msg : Message} {w w' : World} {child : Evm}
    (h : processMessage E (exec E) msg w = .ok (child, w')) :
    ∃ w1 w2, w1.transient = (beginTransaction w).transient ∧
      (if msg.shouldTransferValue = true ∧ msg.value ≠ 0
        then moveEther (touchIn (beginTransaction w).state msg.currentTarget) msg.caller msg.currentTarget msg.value
        else .ok (touchIn (beginTransaction w).state msg.currentTarget)) = .ok w1.state ∧
      executeCode E (exec E) msg w1 = .ok (child, w2) ∧
      (if child.error.isSome then rollbackTransaction w2 else commitTransaction w2) = .ok w' := by
  unfold processMessage at h
  split at h
  · cases h
  · simp only at h
    split at h
    · cases h
    · rename_i s hs
      split at h
      · cases h
      · rename_i evm w2 hx
        split at h
        · cases h
        · rename_i w3 h3
          cases h
          exact ⟨{ beginTransaction w with state := s }, w2, rfl, hs, hx, h3⟩

/-- **C18**, the only errors a message can end with are an exceptional halt and a revert. -/
theorem C18_error_kinds (E : Env) (msg : Message) (w w' : World) (child : Evm) (e : Exn)
    (h : processMessage E (exec E) msg w = .ok (child, w') ∨ processCreateMessage E (exec E) msg w = .ok (child, w'))
    (he : child.error = some e) : e = .revert ∨ ∃ x, e = .halt x := by
  have key : ∀ w w' child, processMessage E (exec E) msg w = .ok (child, w') → child.error = some e →
      e = .revert ∨ ∃ x, e = .halt x := by
    intro w w' child h he
    obtain ⟨w1, w2, -, -, hx, -⟩ := processMessage_end h
    cases executeCode_end hx with
    | disabled _ => cases he
    | ok m' hn _ => rw [hn] at he; cases he
    | halt x m' => cases he; exact .inr ⟨x, rfl⟩
    | revert m0 m' _ _ _ _ => cases he; exact .inl rfl
  rcases h with h | h
  · exact key _ _ _ h he
  · unfold processCreateMessage at h
    split at h
    · cases h
    · rename_i evm w2 hp
      split at h
      · split at h <;> cases h
        exact key _ _ _ hp he
      · rename_i hne
        split at h
        · split at h
          · split at h <;> cases h
            cases he; exact .inr ⟨_, rfl⟩
          · split at h <;> cases h
            simp only at he
            rw [he] at hne; simp at hne
        · simp only at h
          split at h <;> cases h
          simp only at he
          rw [he] at hne; simp at hne

/-- **C18**, any message that ends with an exceptional halt reports no gas and, since byzantium, no output, and everything reads as
before. -/
theorem C18_halt (E : Env) (msg : Message) (w w' : World) (child : Evm) (x : Halt)
    (h : processMessage E (exec E) msg w = .ok (child, w')) (he : child.error = some (.halt x)) :
    child.gasLeft = 0 ∧ (w.state.fork.since .byzantium = true → child.output = []) ∧ SameReads w' w := by
  have hfork : w'.state.fork = w.state.fork := (message_rel codes_closed h).1
  have key : child.gasLeft = 0 ∧ (w.state.fork.since .byzantium = true → child.output = []) := by
    obtain ⟨w1, w2, -, -, hx, hend⟩ := processMessage_end h
    rw [he] at hend
    have hf2 : w2.state.fork = w.state.fork := (rollback_fork hend).symm.trans hfork
    cases executeCode_end hx with
    | disabled _ => cases he
    | ok m' hn _ => rw [hn] at he; cases he
    | halt x m' =>
      refine ⟨rfl, fun hb => ?_⟩
      show haltOutput m'.world.state.fork m'.evm.output = []
      unfold haltOutput
      rw [hf2, if_pos hb]
    | revert m0 m' _ _ _ _ => cases he
  exact ⟨key.1, key.2, (C09_message E _ _ _ _ h).2 (by rw [he]; simp)⟩

/-- **C18**, and so does any creation, also when the init code succeeded but its result is refused. -/
theorem C18_create_halt (E : Env) (msg : Message) (w w' : World) (child : Evm) (x : Halt)
    (h : processCreateMessage E (exec E) msg w = .ok (child, w')) (he : child.error = some (.halt x)) :
    child.gasLeft = 0 ∧ (w.state.fork.since .byzantium = true → child.output = []) ∧ SameReads w' w := by
  have hr := (C09_create_message E _ _ _ _ h).2 (by rw [he]; simp)
  have hfork : w'.state.fork = w.state.fork := (createMessage_rel codes_closed codes_increment h).1
  suffices child.gasLeft = 0 ∧ (w.state.fork.since .byzantium = true → child.output = []) from ⟨this.1, this.2, hr⟩
  unfold processCreateMessage at h
  split at h
  · cases h
  · rename_i evm w2 hp
    split at h
    · split at h <;> cases h
      obtain ⟨h1, h2, -⟩ := C18_halt E _ _ _ _ x hp he
      exact ⟨h1, by rwa [show (createStart w msg.currentTarget).state.fork = w.state.fork from (createStart_snaps w _).2.2] at h2⟩
    · rename_i hne
      split at h
      · split at h
        · split at h
          · cases h
          · rename_i w3 hroll
            cases h
            refine ⟨rfl, fun hb => ?_⟩
            show haltOutput w2.state.fork evm.output = []
            rw [← rollback_fork hroll, hfork, haltOutput, if_pos hb]
        · split at h <;> cases h
          simp only at he
          rw [he] at hne; simp at hne
      · simp only at h
        split at h <;> cases h
        simp only at he
        rw [he] at hne; simp at hne

/-- What a frame that was left by REVERT reports: it had come to a REVERT instruction with a start and a size on the
stack; its gas is what was left then, less the price of the memory for the output; its output is that piece of the
memory, filled up with zeros. -/
def LeftByRevert (E : Env) (first : Mach) (child : Evm) : Prop :=
  ∃ last start size rest, Steps E first last ∧ AtOp last .revert ∧ last.evm.stack = start :: size :: rest ∧
    (let words := last.evm.memory.length / 32
     child.gasLeft + (memoryPrice (max words (wordsFor start size)) - memoryPrice words) = last.evm.gasLeft) ∧
    child.output.length = size.toNat ∧
    ∀ i < size.toNat, child.output[i]? = some ((last.evm.memory[start.toNat + i]?).getD 0)

theorem leftByRevert {E : Env} {msg : Message} {w w' : World} {child : Evm}
    (h : processMessage E (exec E) msg w = .ok (child, w')) (he : child.error = some .revert) (hd : msg.depth ≤ 1024) :
    ∃ w1, LeftByRevert E ⟨initEvm msg, w1⟩ child := by
  obtain ⟨w1, w2, -, -, hx, -⟩ := processMessage_end h
  refine ⟨w1, ?_⟩
  cases executeCode_end hx with
  | disabled _ => cases he
  | ok m' hn _ => rw [hn] at he; cases he
  | halt x m' => cases he
  | revert m0 m' _ hs hop hrev =>
    have hlim : WithinLimits m0 := hs.limits ⟨by simp [initEvm], by simp [initEvm], hd⟩
    obtain ⟨start, size, rest, h1, h2, h3, h4, -, -⟩ := opRevert_inv hlim.memory hrev
    exact ⟨m0, start, size, rest, hs, hop, h1, h2, h3, h4⟩

/-- **C18**, a message that ends with a revert: its frame was left by a REVERT instruction and reports the gas not yet
used and the output chosen there; everything reads as before. -/
theorem C18_revert (E : Env) (msg : Message) (w w' : World) (child : Evm) (hd : msg.depth ≤ 1024)
    (h : processMessage E (exec E) msg w = .ok (child, w')) (he : child.error = some .revert) :
    (∃ w1, LeftByRevert E ⟨initEvm msg, w1⟩ child) ∧ SameReads w' w :=
  ⟨leftByRevert h he hd, (C09_message E _ _ _ _ h).2 (by rw [he]; simp)⟩

/-- **C18**, and a creation that ends with a revert. -/
theorem C18_create_revert (E : Env) (msg : Message) (w w' : World) (child : Evm) (hd : msg.depth ≤ 1024)
    (h : processCreateMessage E (exec E) msg w = .ok (child, w')) (he : child.error = some .revert) :
    (∃ w1, LeftByRevert E ⟨initEvm msg, w1⟩ child) ∧ SameReads w' w := by
  have hr := (C09_create_message E _ _ _ _ h).2 (by rw [he]; simp)
  refine ⟨?_, hr⟩
  unfold processCreateMessage at h
  split at h
  · cases h
  · rename_i evm w2 hp
    split at h
    · split at h <;> cases h
      exact leftByRevert hp he hd
    · rename_i hne
      split at h
      · split at h
        · split at h <;> cases h
          cases he
        · split at h <;> cases h
          simp only at he
          rw [he] at hne; simp at hne
      · simp only at h
        split at h <;> cases h
        simp only at he
        rw [he] at hne; simp at hne

/-! ### C19 -/

/-- **C19**: if a top-level message succeeds, the refund counter of its frame is not negative. Here `child` is the frame
of the message, run in any well-formed world without open snapshots, in any fork (since spurious_dragon: with the code of a contract). -/
theorem C19_call (E : Env) (msg : Message) (w w' : World) (child : Evm) (hw : w.WF) (hd : msg.depth ≤ 1024) (hp : msg.parentsToDelete = [])
    (hcode : w.state.fork.since .spuriousDragon = true → msg.code ≠ [] → (getAccount w.state msg.currentTarget).code ≠ [] ∨ ((getAccount w.state msg.currentTarget).nonce ≠ 0 ∧
      (w.state.fork.since .cancun = true ∨ msg.currentTarget ∈ w.state.createdAccounts)))
    (hs : w.state.snapshots = []) (h : processMessage E (exec E) msg w = .ok (child, w')) (he : child.error = none) :
    0 ≤ child.refundCounter := by
  by_cases hf : w.state.fork.since .spuriousDragon = true
  case neg =>
    exact processMessage_pos (exec_pos E) _ _ _ _ h (by revert hf; cases w.state.fork <;> decide) (by rw [he]; rfl)
  have := processMessage_ok (E := E) (exec_ok E) msg w (.of hw (hcode hf) hd hf (by simp [hp]))
  rw [h] at this
  have hr := this.refund he
  rw [cleared_nil hs] at hr
  have := Int.mul_nonneg (clearUnit_nonneg w.state.fork) (Int.natCast_nonneg (cleared w'.state))
  simp at hr
  omega

/-- **C19**, the same for creations. -/
theorem C19_create (E : Env) (msg : Message) (w w' : World) (child : Evm) (hw : w.WF) (hd : msg.depth ≤ 1024) (hp : msg.parentsToDelete = [])
    (hst : msg.isStatic = false)
    (hfree : w.state.fork.since .spuriousDragon = true → (getAccount w.state msg.currentTarget).nonce = 0 ∧ (getAccount w.state msg.currentTarget).code = [])
    (hs : w.state.snapshots = []) (h : processCreateMessage E (exec E) msg w = .ok (child, w')) (he : child.error = none) :
    0 ≤ child.refundCounter := by
  by_cases hf : w.state.fork.since .spuriousDragon = true
  case neg =>
    exact processCreateMessage_pos (exec_pos E) _ _ _ _ h (by revert hf; cases w.state.fork <;> decide) (by rw [he]; rfl)
  have := processCreateMessage_ok (E := E) (exec_ok E) msg w ⟨hw, hd, hst, by rw [owned_iff]; simp [hfree hf], hf, by simp [hp]⟩
  rw [h] at this
  have hr := this.refund he
  rw [cleared_nil hs] at hr
  have := Int.mul_nonneg (clearUnit_nonneg w.state.fork) (Int.natCast_nonneg (cleared w'.state))
  simp at hr
  omega

/-- **C19**, so the conversion of the counter to an unsigned number is never the reason for `process_message_call` to
fail: if it fails with an overflow although authorizations and frame were fine, the sum of refunds is `2^256` or more. -/
theorem C19_conversion (E : Env) (msg : Message) (w w' : World) (child : Evm) (r : Word) (msg1 : Message) (s1 : State)
    (hw : w.WF) (ht : TopMessage msg w) (ha : authorized E msg w = .ok (r, msg1, s1)) (hcol : ¬ Collides msg w)
    (hrun : (msg.target = none ∧ processCreateMessage E (exec E) msg w = .ok (child, w')) ∨
      (msg.target ≠ none ∧ processMessage E (exec E) (resolveDelegation msg1 s1) { w with state := s1 } = .ok (child, w')))
    (hsmall : (r.toNat : Int) + child.refundCounter < 2 ^ 256 ∨ child.error ≠ none) :
    ∃ out, processMessageCall E msg w = .ok (out, w') ∧
      (child.error = none → (out.refundCounter.toNat : Int) = r.toNat + child.refundCounter) := by
  obtain ⟨hrel, hmsg⟩ := authorized_rel ha
  have hnn : child.error = none → 0 ≤ child.refundCounter := by
    intro he
    rcases hrun with ⟨htar, hp⟩ | ⟨htar, hp⟩
    · refine C19_create E msg w w' child hw (by rw [ht.depth]; omega) ht.parents ht.static (fun _ => ?_) ht.snapshots.1 hp he
      have : ¬ Owned w.state msg.currentTarget := fun ho => hcol ⟨htar, .inl ho⟩
      rw [owned_iff] at this
      exact ⟨Classical.byContradiction fun h => this (.inl h), Classical.byContradiction fun h => this (.inr h)⟩
    · obtain ⟨t, htt⟩ : ∃ t, msg.target = some t := by
        cases hq : msg.target with
        | none => exact absurd hq htar
        | some t => exact ⟨t, rfl⟩
      have hr := resolveDelegation_msg msg1 s1
      refine C19_call E (resolveDelegation msg1 s1) { w with state := s1 } w' child ⟨hrel.wf hw.state, hw.transient⟩ ?_ ((hr.parents.trans hmsg.parents).trans ht.parents) ?_ ?_ hp he
      · have : (resolveDelegation msg1 s1).depth = msg.depth := hr.depth.trans hmsg.depth
        rw [this, ht.depth]; omega
      · intro _ hc
        have hc1 := resolveDelegation_code hc
        rw [authorized_code ht htt ha] at hc1
        have : (resolveDelegation msg1 s1).currentTarget = t := by
          rw [hr.currentTarget, hmsg.currentTarget]; exact (ht.call t htt).1
        rw [this]; exact .inl hc1
      · show s1.snapshots = []
        rw [hrel.snaps]; exact ht.snapshots.1
  have hout : ∀ ts, ∃ out, messageCallOutput r { child with touchedAccounts := ts } = .ok out := by
    intro ts
    unfold messageCallOutput
    by_cases he : child.error.isSome = true
    · exact ⟨_, if_pos he⟩
    · rw [if_neg he]
      have hn : child.error = none := by simpa using he
      have h0 := hnn hn
      dsimp only
      rw [if_neg (by omega)]
      have : r.toNat + child.refundCounter.toNat < 2 ^ 256 := by
        rcases hsmall with h | h
        · omega
        · exact absurd hn h
      exact ⟨_, if_pos this⟩
  rw [processMessageCall, processMessageCallWith_eq, ha]
  rcases hrun with ⟨htar, hp⟩ | ⟨htar, hp⟩
  · obtain ⟨out, hout⟩ := hout child.touchedAccounts
    refine ⟨out, ?_, fun he => ((messageCallOutput_ok hout).2.2.2.2 he).2.2⟩
    simp only [htar, if_true]
    rw [if_neg, hp]
    · have : r = 0 := by unfold authorized at ha; rw [htar] at ha; cases ha; rfl
      subst this
      simp only [hout]
    · intro hc; exact hcol ⟨htar, by simpa using hc⟩
  · obtain ⟨out, hout⟩ := hout (topTouched msg w' child)
    exact ⟨out, by simp only [htar, if_false, hp, hout], fun he => ((messageCallOutput_ok hout).2.2.2.2 he).2.2⟩

/-! ### Concrete cases -/
section Examples
open Verif.Sample

/-- `0xaa` writes 1 to memory and reverts with 64 bytes from offset 31: PUSH1 1, PUSH0, MSTORE, PUSH1 64, PUSH1 31,
REVERT; `0xbb` runs into the invalid instruction. `0xcc` clears its slot 0 (1 at first), sets it again and clears it. -/
def endWorld : World := worldOf [eoa, (0xaa, ⟨1, 50, [0x60, 1, 0x5f, 0x52, 0x60, 64, 0x60, 31, 0xfd]⟩), (0xbb, ⟨1, 50, [0xfe]⟩),
  (0xcc, ⟨1, 0, [0x5f, 0x5f, 0x55, 0x60, 1, 0x5f, 0x55, 0x5f, 0x5f, 0x55]⟩),
  (0xdd, ⟨1, 0, [0x5f, 0x5f, 0x55, 0x60, 1, 0x5f, 0x55]⟩)] [(0xcc, 0, 1), (0xdd, 0, 1)]

/-- 1000 - (3 + 2 + 6 + 3 + 3) - 6: memory grows from one word to three. -/
example : (match processMessage env (exec env) (callTo endWorld 0xaa 1000 0) endWorld with
    | .ok (c, _) => some (c.error, c.gasLeft, c.output)
    | .error _ => none) = some (some .revert, 977, 1 :: List.replicate 63 0) := by decide +kernel
example : (match processMessage env (exec env) (callTo endWorld 0xbb 1000 0) endWorld with
    | .ok (c, _) => some (c.error, c.gasLeft, c.output)
    | .error _ => none) = some (some (.halt .invalidOpcode), 0, []) := by decide +kernel
/-- Refunds: +4800, -4800 + 2800, -2800 + 4800 in `0xcc`; +4800, -4800 + 2800 in `0xdd`. -/
example : (match processMessage env (exec env) (callTo endWorld 0xcc 50000 0) endWorld with
    | .ok (c, _) => some (c.error, c.refundCounter)
    | .error _ => none) = some (none, 7600) := by decide +kernel
example : (match processMessageCall env (callTo endWorld 0xcc 50000 0) endWorld with
    | .ok (o, _) => some (o.error, o.refundCounter)
    | .error _ => none) = some (none, 7600) := by decide +kernel
example : TopMessage (callTo endWorld 0xcc 50000 0) endWorld ∧ endWorld.WF ∧ ¬ Collides (callTo endWorld 0xcc 50000 0) endWorld ∧
    authorized env (callTo endWorld 0xcc 50000 0) endWorld = .ok (0, callTo endWorld 0xcc 50000 0, endWorld.state) :=
  ⟨top_callTo (by decide +kernel) (by decide +kernel) _ _ _, worldOf_wf _ _, fun h => (by cases h.1), rfl⟩
/-- A frame below the top may have a negative counter: after the slot was cleared by another frame, setting it again
takes back the 4800. -/
example : (let w0 := beginTransaction endWorld
    match processMessage env (exec env) (callTo endWorld 0xdd 50000 0)
        { w0 with state := { w0.state with storageTries := triesSet w0.state.storageTries 0xdd 0 0 } } with
    | .ok (c, _) => some (c.error, c.refundCounter)
    | .error _ => none) = some (none, -2000) := by decide +kernel

end Examples
end Verif.Props
