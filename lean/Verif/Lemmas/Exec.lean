import Verif.Lemmas.OpEffect2
import Verif.Lemmas.World
import Verif.Lemmas.Precompile
/-! The invariants of a whole execution, by induction on the fuel of the interpreter. -/
namespace Verif

/-- Exceptions that a frame turns into an error result. -/
def Caught : Exn → Prop
  | .halt _ => True
  | .revert => True
  | _ => False

/-- An account that SELFDESTRUCT can schedule for deletion: one created in this transaction or, before cancun, a contract. -/
def Doomable (s : State) (a : Address) : Prop :=
  a ∈ s.createdAccounts ∨ (s.fork.since .cancun = false ∧ (getAccount s a).code ≠ [])

theorem Doomable.mono {w w' : World} {a : Address} (h : WCore w w') (hc : ∀ a ∈ w.state.createdAccounts, a ∈ w'.state.createdAccounts)
    (hd : Doomable w.state a) : Doomable w'.state a := by
  rcases hd with hd | ⟨hf, hd⟩
  · exact .inl (hc a hd)
  · exact .inr ⟨by rw [h.fork]; exact hf, by rw [(h.keep a (owned_iff.mpr (.inr hd))).1]; exact hd⟩

theorem Doomable.fresh {w w' : World} {a : Address} (h : WCore w w') (hd : Doomable w'.state a) : Doomable w.state a ∨ ¬ Owned w.state a := by
  rcases hd with hd | ⟨hf, hd⟩
  · exact (h.fresh a hd).imp .inl id
  · by_cases ho : Owned w.state a
    · exact .inl (.inr ⟨by rw [← h.fork]; exact hf, by rw [← (h.keep a ho).1]; exact hd⟩)
    · exact .inr ho

theorem Doomable.same {s s' : State} {a : Address} (hc : s'.createdAccounts = s.createdAccounts) (hf : s'.fork = s.fork)
    (hcode : (getAccount s' a).code = (getAccount s a).code) (hd : Doomable s a) : Doomable s' a := by
  unfold Doomable at *; rw [hc, hf, hcode]; exact hd

/-- The refund that pays for one cleared slot: istanbul and berlin take the refund of a slot back when it is set again. -/
def clearUnit (f : Fork) : Int := if f.since .london then 4800 else if f.since .istanbul then 15000 else 0

theorem clearUnit_nonneg (f : Fork) : 0 ≤ clearUnit f := by unfold clearUnit; split <;> (try split) <;> decide

theorem clearUnit_mono (f : Fork) {a b : Nat} (h : a ≤ b) : clearUnit f * (a : Int) ≤ clearUnit f * (b : Int) :=
  Int.mul_le_mul_of_nonneg_left (by omega) (clearUnit_nonneg f)

/-- What holds when a frame is about to execute an instruction. -/
structure Pre (m : Mach) : Prop where
  wf : m.world.WF
  snaps : m.world.state.snapshots ≠ []
  stack : m.evm.stack.length ≤ 1024
  alive : m.evm.code ≠ [] → Owned m.world.state m.self
  err : m.evm.error = none
  depth : m.evm.message.depth ≤ 1024
  coded : m.evm.code ≠ [] → m.world.state.fork.since .cancun = false → Doomable m.world.state m.self
  fork : m.world.state.fork.since .spuriousDragon = true
  dels : ∀ a ∈ m.evm.accountsToDelete, Doomable m.world.state a
  parents : ∀ a ∈ m.evm.message.parentsToDelete, Doomable m.world.state a

/-- A frame now (`m`) and later, without an exception (`m'`). -/
structure FRel (m m' : Mach) : Prop where
  w : WRel m.world m'.world
  frame : FrameLoc m m'
  gas : m'.evm.gasLeft ≤ m.evm.gasLeft
  logs : m.evm.logs <+: m'.evm.logs
  deleted : ∀ a ∈ m.evm.accountsToDelete, a ∈ m'.evm.accountsToDelete
  delCreated : ∀ a ∈ m'.evm.accountsToDelete, a ∈ m.evm.accountsToDelete ∨ Doomable m'.world.state a
  supplyEq : m'.evm.accountsToDelete = [] → supply m'.world.state = supply m.world.state
  refund : m.evm.refundCounter + clearUnit m.world.state.fork * (cleared m'.world.state : Int) ≤
    m'.evm.refundCounter + clearUnit m.world.state.fork * (cleared m.world.state : Int)
  static : m.evm.message.isStatic = true → StaticReads m'.world m.world ∧ m'.evm.logs = m.evm.logs ∧
    m'.evm.accountsToDelete = m.evm.accountsToDelete

/-- A frame now and when an exception was raised. -/
structure ErrRel (m m' : Mach) : Prop where
  w : WRel m.world m'.world
  message : m'.evm.message = m.evm.message
  gas : m'.evm.gasLeft ≤ m.evm.gasLeft

theorem SameReads.refl (w : World) : SameReads w w := ⟨fun _ => rfl, fun _ _ => rfl, fun _ _ => rfl⟩
theorem SameReads.trans {a b c : World} (h : SameReads a b) (h' : SameReads b c) : SameReads a c :=
  ⟨fun x => (h.1 x).trans (h'.1 x), fun x k => (h.2.1 x k).trans (h'.2.1 x k), fun x k => (h.2.2 x k).trans (h'.2.2 x k)⟩

theorem SameReads.values {a b : World} (h : SameReads a b) : SameValues a b :=
  ⟨fun x => by unfold getAccount; rw [h.1 x], h.2.1, h.2.2⟩
theorem SameValues.trans {a b c : World} (h : SameValues a b) (h' : SameValues b c) : SameValues a c :=
  ⟨fun x => (h.1 x).trans (h'.1 x), fun x k => (h.2.1 x k).trans (h'.2.1 x k), fun x k => (h.2.2 x k).trans (h'.2.2 x k)⟩
theorem SameReads.static {a b : World} (hf : a.state.fork = b.state.fork) (h : SameReads a b) : StaticReads a b :=
  ⟨hf, h.values, fun _ => h⟩
theorem StaticReads.refl (w : World) : StaticReads w w := (SameReads.refl w).static rfl
theorem StaticReads.trans {a b c : World} (h : StaticReads a b) (h' : StaticReads b c) : StaticReads a c :=
  ⟨h.fork.trans h'.fork, h.values.trans h'.values, fun hp => (h.reads (by rw [h'.fork]; exact hp)).trans (h'.reads hp)⟩

theorem FrameLoc.refl (m : Mach) : FrameLoc m m := ⟨rfl, rfl, rfl, rfl, fun _ h => h, fun _ h => h, id⟩
theorem FrameLoc.trans {a b c : Mach} (h : FrameLoc a b) (h' : FrameLoc b c) : FrameLoc a c :=
  ⟨h'.message.trans h.message, h'.code.trans h.code, h'.jumps.trans h.jumps, h'.error.trans h.error,
   fun x hx => h'.addrs x (h.addrs x hx), fun x hx => h'.keys x (h.keys x hx), fun x => h'.stack (h.stack x)⟩

theorem FRel.refl (m : Mach) : FRel m m :=
  ⟨WRel.refl _, FrameLoc.refl _, Nat.le_refl _, List.prefix_refl _, fun _ h => h, fun _ h => .inl h, fun _ => rfl,
   by omega, fun _ => ⟨StaticReads.refl _, rfl, rfl⟩⟩

theorem FRel.trans {a b c : Mach} (hs : a.world.state.snapshots ≠ []) (h : FRel a b) (h' : FRel b c) : FRel a c := by
  have hsb : b.world.state.snapshots ≠ [] := by rw [h.w.snaps.1]; exact hs
  refine ⟨h.w.trans h'.w, h.frame.trans h'.frame, Nat.le_trans h'.gas h.gas, h.logs.trans h'.logs,
    fun x hx => h'.deleted x (h.deleted x hx), ?_, ?_, ?_, ?_⟩
  · intro x hx
    rcases h'.delCreated x hx with h1 | h1
    · rcases h.delCreated x h1 with h2 | h2
      · exact .inl h2
      · exact .inr (h2.mono h'.w.toWCore (h'.w.created hsb))
    · exact .inr h1
  · intro hd
    have hb : b.evm.accountsToDelete = [] := by
      cases hq : b.evm.accountsToDelete with
      | nil => rfl
      | cons x r => have := h'.deleted x (by rw [hq]; simp); rw [hd] at this; simp at this
    rw [h'.supplyEq hd, h.supplyEq hb]
  · have := h.refund; have h2 := h'.refund; rw [h.w.fork] at h2; omega
  · intro hst
    obtain ⟨h1, h2, h3⟩ := h.static hst
    obtain ⟨h4, h5, h6⟩ := h'.static (by rw [h.frame.message]; exact hst)
    exact ⟨h4.trans h1, h5.trans h2, h6.trans h3⟩

theorem Pre.mono {m m' : Mach} (h : Pre m) (hr : FRel m m') : Pre m' :=
  ⟨hr.w.wf h.wf, by rw [hr.w.snaps.1]; exact h.snaps, hr.frame.stack h.stack,
   fun hc => by
     have := hr.w.toWCore.owned (h.alive (by rw [← hr.frame.code]; exact hc))
     rw [Mach.self, hr.frame.message]; exact this,
   by rw [hr.frame.error]; exact h.err, by rw [hr.frame.message]; exact h.depth,
   fun hc hf => by
     have := (h.coded (by rw [← hr.frame.code]; exact hc) (by rw [← hr.w.fork]; exact hf)).mono hr.w.toWCore (hr.w.created h.snaps)
     rw [Mach.self, hr.frame.message]; exact this,
   by rw [hr.w.fork]; exact h.fork,
   fun a ha => (hr.delCreated a ha).elim (fun h' => (h.dels a h').mono hr.w.toWCore (hr.w.created h.snaps)) id,
   fun a ha => (h.parents a (by rw [← hr.frame.message]; exact ha)).mono hr.w.toWCore (hr.w.created h.snaps)⟩

theorem FRel.errRel {m m' : Mach} (h : FRel m m') : ErrRel m m' := ⟨h.w, h.frame.message, h.gas⟩
theorem ErrRel.trans {a b c : Mach} (h : ErrRel a b) (h' : ErrRel b c) : ErrRel a c :=
  ⟨h.w.trans h'.w, h'.message.trans h.message, Nat.le_trans h'.gas h.gas⟩

/-- Requirements on a message given to `process_message`. -/
structure PreMsg (msg : Message) (w : World) : Prop where
  wf : w.WF
  alive : msg.code ≠ [] → Owned w.state msg.currentTarget
  depth : msg.depth ≤ 1024
  coded : msg.code ≠ [] → w.state.fork.since .cancun = false → Doomable w.state msg.currentTarget
  fork : w.state.fork.since .spuriousDragon = true
  parents : ∀ a ∈ msg.parentsToDelete, Doomable w.state a

theorem PreMsg.ofCode {msg : Message} {w : World} (hw : w.WF) (hc : msg.code ≠ [] → (getAccount w.state msg.currentTarget).code ≠ [])
    (hd : msg.depth ≤ 1024) (hs : w.state.fork.since .spuriousDragon = true) (hpar : msg.parentsToDelete = []) : PreMsg msg w :=
  ⟨hw, fun h => owned_iff.mpr (.inr (hc h)), hd, fun h hf => .inr ⟨hf, hc h⟩, hs, by simp [hpar]⟩

theorem PreMsg.of {msg : Message} {w : World} (hw : w.WF) (hc : msg.code ≠ [] → (getAccount w.state msg.currentTarget).code ≠ [] ∨
      ((getAccount w.state msg.currentTarget).nonce ≠ 0 ∧ (w.state.fork.since .cancun = true ∨ msg.currentTarget ∈ w.state.createdAccounts)))
    (hd : msg.depth ≤ 1024) (hs : w.state.fork.since .spuriousDragon = true) (hpar : msg.parentsToDelete = []) : PreMsg msg w :=
  ⟨hw, fun h => owned_iff.mpr ((hc h).elim .inr fun h => .inl h.1), hd, fun h hf => (hc h).elim (fun h => .inr ⟨hf, h⟩) fun h =>
    .inl (h.2.resolve_left (by rw [hf]; decide)), hs, by simp [hpar]⟩

/-- What a finished message relates to. -/
structure MsgRel (msg : Message) (w : World) (child : Evm) (w' : World) : Prop where
  rel : WRel w w'
  message : child.message = msg
  gas : child.gasLeft ≤ msg.gas
  addrs : child.error = none → ∀ a ∈ msg.accessedAddresses, a ∈ child.accessedAddresses
  keys : child.error = none → ∀ a ∈ msg.accessedStorageKeys, a ∈ child.accessedStorageKeys
  fail : child.error.isSome = true → SameContents w' w
  delCreated : child.error = none → w.state.snapshots ≠ [] → ∀ a ∈ child.accountsToDelete, Doomable w'.state a
  delFresh : child.error = none → ∀ a ∈ child.accountsToDelete, Doomable w.state a ∨ ¬ Owned w.state a
  supplyEq : child.error = none → child.accountsToDelete = [] → supply w'.state = supply w.state
  refund : child.error = none → clearUnit w.state.fork * (Verif.cleared w'.state : Int) ≤
    child.refundCounter + clearUnit w.state.fork * (Verif.cleared w.state : Int)
  cleared : child.error.isSome = true → Verif.cleared w'.state ≤ Verif.cleared w.state
  static : msg.isStatic = true →
    (msg.shouldTransferValue = true → msg.value = 0 ∨ (msg.currentTarget = msg.caller ∧ Owned w.state msg.caller)) →
    StaticReads w' w ∧ (child.error = none → child.logs = [] ∧ child.accountsToDelete = [])

/-- Specification of a message processor. -/
def SubOK (pm : Sub) : Prop := ∀ msg w, PreMsg msg w →
  match pm msg w with
  | .ok (child, w') => MsgRel msg w child w'
  | .error (e, _) => ¬ Caught e

/-- Requirements on a message given to `process_create_message`. -/
structure PreCreate (msg : Message) (w : World) : Prop where
  wf : w.WF
  depth : msg.depth ≤ 1024
  notStatic : msg.isStatic = false
  fresh : ¬ Owned w.state msg.currentTarget
  fork : w.state.fork.since .spuriousDragon = true
  parents : ∀ a ∈ msg.parentsToDelete, Doomable w.state a

def CreateOK (pcm : Sub) : Prop := ∀ msg w, PreCreate msg w →
  match pcm msg w with
  | .ok (child, w') => MsgRel msg w child w'
  | .error (e, _) => ¬ Caught e

/-- Outcome of (part of) a frame that started at `m`. -/
def StepPost (m : Mach) : Res Unit → Prop
  | .ok _ m' => FRel m m'
  | .err e m' => Caught e → ErrRel m m'

/-- Specification of the main loop of a frame. -/
def LoopOK (loop : Loop) : Prop := ∀ m, Pre m → StepPost m (loop m)

/-! ### one instruction -/

theorem Loc.frel {m m' : Mach} (h : Loc m m') : FRel m m' :=
  ⟨by rw [h.world]; exact WRel.refl _, h.frameLoc, h.gas, by rw [h.logs]; exact List.prefix_refl _,
   by rw [h.deleted]; exact fun _ h => h, by rw [h.deleted]; exact fun _ h => .inl h, by rw [h.world]; exact fun _ => rfl,
   by rw [h.world, h.refund]; omega, fun _ => ⟨by rw [h.world]; exact StaticReads.refl _, h.logs, h.deleted⟩⟩

theorem sstoreRefund_ge (f : Fork) (orig cur new : Word) :
    clearUnit f * ((if orig ≠ 0 ∧ new = 0 then 1 else 0 : Int) - (if orig ≠ 0 ∧ cur = 0 then 1 else 0)) ≤
      sstoreRefund f orig cur new := by
  unfold sstoreRefund clearUnit storageClearRefund sstoreUpdate sstoreBase
  simp only [GAS_STORAGE_SET, GAS_WARM_ACCESS, GAS_STORAGE_UPDATE, GAS_COLD_SLOAD, GAS_STORAGE_CLEAR_REFUND]
  have hli : f.since .london = true → f.since .istanbul = true := by cases f <;> decide
  have hlb : f.since .london = true → f.since .berlin = true := by cases f <;> decide
  by_cases hl : f.since .london = true
  · simp only [hl, hli hl, hlb hl, if_true]
    by_cases h1 : cur = new
    · subst h1; simp
    · by_cases h2 : orig = 0 <;> by_cases h3 : cur = 0 <;> by_cases h4 : new = 0 <;> by_cases h5 : orig = new <;>
        simp_all <;> omega
  · by_cases hi : f.since .istanbul = true
    · simp only [hl, hi, if_true, Bool.false_eq_true, if_false]
      by_cases hb : f.since .berlin = true <;> simp only [hb, if_true, Bool.false_eq_true, if_false] <;>
        by_cases h1 : cur = new
      · subst h1; simp
      · by_cases h2 : orig = 0 <;> by_cases h3 : cur = 0 <;> by_cases h4 : new = 0 <;> by_cases h5 : orig = new <;>
          simp_all <;> omega
      · subst h1; simp
      · by_cases h2 : orig = 0 <;> by_cases h3 : cur = 0 <;> by_cases h4 : new = 0 <;> by_cases h5 : orig = new <;>
          simp_all <;> omega
    · simp only [hl, hi, Bool.false_eq_true, if_false, Int.zero_mul]
      split <;> simp

theorem sstore_cleared {s s' : State} (hwf : s.WF) {a : Address} {k v orig : Word} (ha : Owned s a)
    (horig : sstoreOriginal s a k = .ok orig) (hset : setStorage s a k v = .ok s') :
    clearUnit s.fork * (cleared s' : Int) ≤ sstoreRefund s.fork orig (getStorage s a k) v + clearUnit s.fork * (cleared s : Int) := by
  have hge := sstoreRefund_ge s.fork orig (getStorage s a k) v
  by_cases hi : s.fork.since .istanbul = true
  rotate_left
  · have h0 : clearUnit s.fork = 0 := by
      have : ∀ f : Fork, ¬ f.since .istanbul = true → clearUnit f = 0 := by intro f; cases f <;> decide
      exact this _ hi
    rw [h0] at hge ⊢; omega
  have horig : getStorageOriginal s a k = .ok orig := by simpa [sstoreOriginal, hi] using horig
  suffices hsuf : (cleared s' : Int) - cleared s = (if orig ≠ 0 ∧ v = 0 then 1 else 0 : Int) - (if orig ≠ 0 ∧ getStorage s a k = 0 then 1 else 0) by
    rw [← hsuf, Int.mul_sub] at hge; omega
  have hs' : s' = { s with storageTries := triesSet s.storageTries a k v } := by
    unfold setStorage at hset; split at hset <;> cases hset; rfl
  have hsn : origSlots s' = origSlots s := by subst hs'; rfl
  have hread : ∀ x y, getStorage s' x y = if a = x ∧ k = y then v else getStorage s x y := by
    intro x y; subst hs'; exact triesGet_triesSet hwf.storage a k v x y
  have hcr : s'.createdAccounts = s.createdAccounts := by subst hs'; rfl
  have hown : ∀ x, accountHasCodeOrNonce s' x = accountHasCodeOrNonce s x := by intro x; subst hs'; rfl
  have hother : ∀ y, y ≠ (a, k) → isCleared s y = isCleared s' y := by
    intro ⟨x, y⟩ hne
    simp only [isCleared, hcr, hread, Owned, hown]
    have : ¬ (a = x ∧ k = y) := by intro ⟨h1, h2⟩; exact hne (by simp [h1, h2])
    simp [this]
  have := countP_update (origSlots s) (origSlots_nodup s) (isCleared s) (isCleared s') (a, k) hother
  unfold cleared
  rw [hsn, this]
  have hm := mem_origSlots (origTries_wf hwf) a k
  have hro : isCleared s' (a, k) = decide (a ∉ s.createdAccounts ∧ v = 0) := by
    simp [isCleared, hcr, hread, hown, ha]
  have hri : isCleared s (a, k) = decide (a ∉ s.createdAccounts ∧ getStorage s a k = 0) := by
    simp [isCleared, ha]
  rw [hro, hri]
  unfold getStorageOriginal at horig
  by_cases hc : a ∈ s.createdAccounts
  · simp [hc] at horig ⊢; simp [← horig]
  · simp only [hc, if_false] at horig
    have horig' : orig = triesGet (origTries s) a k := by
      unfold origTries
      split at horig
      · cases horig
      · rename_i h; cases horig; simp [h]
    by_cases hin : (a, k) ∈ origSlots s
    · have h0 : orig ≠ 0 := by rw [horig']; exact hm.mp hin
      simp only [hin, hc, h0, if_true, not_false_eq_true, true_and, decide_eq_true_eq, ne_eq]
    · have h0 : orig = 0 := by
        rw [horig']; exact Classical.byContradiction fun h => hin (hm.mpr h)
      simp [hin, h0]

/-- The set of deleted accounts with a child's added. -/
theorem setUpdate_nil {α : Type} [DecidableEq α] {s t : List α} (h : setUpdate s t = []) : s = [] ∧ t = [] := by
  constructor
  · cases s with
    | nil => rfl
    | cons x r =>
      have h2 := (mem_setUpdate (x :: r) t x).mpr (.inl (by simp)); rw [h] at h2; exact absurd h2 (by simp)
  · cases t with
    | nil => rfl
    | cons x r =>
      have h2 := (mem_setUpdate s (x :: r) x).mpr (.inr (by simp)); rw [h] at h2; exact absurd h2 (by simp)

theorem setAdd_ne_nil {α : Type} [DecidableEq α] (s : List α) (a : α) : setAdd s a ≠ [] := by
  intro h; have := (mem_setAdd s a a).mpr (.inr rfl); rw [h] at this; simp at this

/-- The calling frame after its child. -/
theorem incorporated_frel {m m1 m2 : Mach} {msg : Message} {child : Evm} {w : World}
    (hs : m.world.state.snapshots ≠ []) (h1 : FRel m m1) (hm : MsgRel msg m1.world child w)
    (hinc : Incorporated m1 child w m2) (hgas : m1.evm.gasLeft + msg.gas ≤ m.evm.gasLeft)
    (hst : m.evm.message.isStatic = true → msg.isStatic = true ∧
      (msg.shouldTransferValue = true → msg.value = 0 ∨
        (msg.currentTarget = msg.caller ∧ Owned m1.world.state msg.caller))) : FRel m m2 := by
  have hs1 : m1.world.state.snapshots ≠ [] := by rw [h1.w.snaps.1]; exact hs
  have hg := hm.gas
  have hg2 : m2.evm.gasLeft ≤ m.evm.gasLeft := by rw [hinc.gas]; omega
  by_cases he : child.error.isSome = true
  · obtain ⟨e1, e2, e3, e4, e5⟩ := hinc.onError he
    have hc := hm.fail he
    refine ⟨h1.w.trans (by rw [hinc.world]; exact hm.rel), h1.frame.trans hinc.frame, hg2, by rw [e1]; exact h1.logs,
      by rw [e3]; exact h1.deleted, ?_, ?_, ?_, ?_⟩
    · rw [e3, hinc.world]; intro a ha
      rcases h1.delCreated a ha with h | h
      · exact .inl h
      · exact .inr (h.mono hm.rel.toWCore (hm.rel.created hs1))
    · rw [e3, hinc.world, sameContents_supply hc]; exact h1.supplyEq
    · rw [e2, hinc.world]; have := clearUnit_mono m.world.state.fork (hm.cleared he); have := h1.refund; omega
    · intro hstat
      obtain ⟨a1, a2, a3⟩ := h1.static hstat
      rw [e1, e3, hinc.world]
      exact ⟨(hc.sameReads.static hm.rel.fork).trans a1, a2, a3⟩
  · have he : child.error.isSome = false := by simpa using he
    have hn : child.error = none := by simpa using he
    obtain ⟨e1, e2, e3, e4, e5⟩ := hinc.onSuccess he
    refine ⟨h1.w.trans (by rw [hinc.world]; exact hm.rel), h1.frame.trans hinc.frame, hg2,
      by rw [e1]; exact h1.logs.trans (List.prefix_append _ _), ?_, ?_, ?_, ?_, ?_⟩
    · rw [e3]; intro a ha; exact (mem_setUpdate _ _ _).mpr (.inl (h1.deleted a ha))
    · rw [e3, hinc.world]; intro a ha
      rcases (mem_setUpdate _ _ _).mp ha with h | h
      · rcases h1.delCreated a h with h | h
        · exact .inl h
        · exact .inr (h.mono hm.rel.toWCore (hm.rel.created hs1))
      · exact .inr (hm.delCreated hn hs1 a h)
    · rw [e3, hinc.world]; intro hd
      obtain ⟨d1, d2⟩ := setUpdate_nil hd
      rw [hm.supplyEq hn d2, h1.supplyEq d1]
    · rw [e2, hinc.world]; have h2 := hm.refund hn; have := h1.refund; rw [h1.w.fork] at h2; omega
    · intro hstat
      obtain ⟨a1, a2, a3⟩ := h1.static hstat
      obtain ⟨b1, b2⟩ := hm.static (hst hstat).1 (hst hstat).2
      obtain ⟨b2, b3⟩ := b2 hn
      rw [e1, e3, hinc.world, b2, b3]
      exact ⟨b1.trans a1, by simpa using a2, by simpa [setUpdate] using a3⟩

theorem incNonce_account (s : State) (a x : Address) :
    (getAccount (incrementNonce s a) x).code = (getAccount s x).code ∧
    (getAccount s x).nonce ≤ (getAccount (incrementNonce s a) x).nonce ∧
    (getAccount (incrementNonce s a) x).balance = (getAccount s x).balance := by
  unfold incrementNonce
  rw [getAccount_modifyState']
  split
  · rename_i h; subst h; exact ⟨rfl, Nat.le_succ _, rfl⟩
  · exact ⟨rfl, Nat.le_refl _, rfl⟩

theorem incNonce_storage (s : State) (a x : Address) (k : Word) :
    getStorage (incrementNonce s a) x k = getStorage s x k := by
  unfold incrementNonce; rw [getStorage_modifyState']; simp [emptyAccount]

theorem incNonce_supply {s : State} (hd : s.mainTrie.default = none) (a : Address) :
    supply (incrementNonce s a) = supply s := by
  have := supply_modifyState' hd a (fun acc => { acc with nonce := acc.nonce + 1 })
  simp only at this; unfold incrementNonce; omega

theorem wrel_incNonce (w : World) (a : Address) : WRel w { w with state := incrementNonce w.state a } :=
  ⟨⟨fun h => ⟨h.state.incrementNonce a, h.transient⟩,
    fun x hx => .inl (by simpa [incrementNonce] using hx),
    fun x _ => ⟨(incNonce_account _ _ _).1, (incNonce_account _ _ _).2.1⟩,
    fun h => Nat.le_of_eq (incNonce_supply h.state.main.1 a), by simp [incrementNonce]⟩,
   ⟨by simp [incrementNonce], rfl, by simp [incrementNonce]⟩, fun _ x hx => by simpa [incrementNonce] using hx⟩

theorem incNonce_owned {s : State} {a x : Address} (ha : Owned s a) (hx : Owned (incrementNonce s a) x) : Owned s x := by
  by_cases h : a = x
  · subst h; exact ha
  · rw [owned_iff] at hx ⊢
    unfold incrementNonce at hx
    simpa [getAccount_modifyState', h] using hx

theorem incNonce_cleared {w : World} (hw : w.WF) {a : Address} (ha : Owned w.state a) :
    cleared (incrementNonce w.state a) ≤ cleared w.state :=
  cleared_le hw.state (by simp [incrementNonce]) (fun x hx => by simpa [incrementNonce] using hx)
    (fun x k _ ho h => ⟨incNonce_owned ha ho, by rw [incNonce_storage] at h; exact h⟩)

/-- A frame that only raised the nonce of its own account. -/
theorem create_frel {m m1 : Mach} (hp : Pre m) (hself : Owned m.world.state m.self) (hstat : m.evm.message.isStatic = false) (hf : FrameLoc m m1)
    (hw : m1.world = { m.world with state := incrementNonce m.world.state m.self })
    (hl : m1.evm.logs = m.evm.logs) (hr : m1.evm.refundCounter = m.evm.refundCounter)
    (hd : m1.evm.accountsToDelete = m.evm.accountsToDelete) (hg : m1.evm.gasLeft ≤ m.evm.gasLeft) : FRel m m1 := by
  refine ⟨by rw [hw]; exact wrel_incNonce _ _, hf, hg, by rw [hl]; exact List.prefix_refl _,
    by rw [hd]; exact fun _ h => h, by rw [hd]; exact fun _ h => .inl h, ?_, ?_, by simp [hstat]⟩
  · intro _; rw [hw]; exact incNonce_supply hp.wf.state.main.1 _
  · rw [hw, hr]; have := clearUnit_mono m.world.state.fork (incNonce_cleared hp.wf hself); simp only; omega

theorem create_fresh {m m1 : Mach} {msg : Message} (h : CreateMsg m m1 msg) (hself : Owned m.world.state m.self) :
    ¬ Owned m1.world.state msg.currentTarget := by
  have hf := h.fresh.1
  have hne : m.self ≠ msg.currentTarget := by intro he; rw [he] at hself; simp [hself] at hf
  rw [h.world, owned_iff]
  unfold incrementNonce
  simp only [getAccount_modifyState', hne, if_false]
  rw [← owned_iff]; simp [Owned, hf]

theorem mem_sdBase {m : Mach} {a : Address} (h : a ∈ m.sdBase) : a ∈ m.evm.accountsToDelete ∨ a ∈ m.evm.message.parentsToDelete := by
  unfold Mach.sdBase at h
  split at h
  · exact .inl h
  · exact (mem_setUpdate _ _ _).mp h

theorem mem_sdBase_of {m : Mach} {a : Address} (h : a ∈ m.evm.accountsToDelete) : a ∈ m.sdBase := by
  unfold Mach.sdBase
  split
  · exact h
  · exact (mem_setUpdate _ _ _).mpr (.inl h)

theorem sdRefund_nonneg (m : Mach) : 0 ≤ m.sdRefund := by unfold Mach.sdRefund; split <;> decide

theorem parents_ok {m1 : Mach} (hp : Pre m1) {l : List Address}
    (hl : l = setUpdate m1.evm.message.parentsToDelete m1.evm.accountsToDelete) : ∀ a ∈ l, Doomable m1.world.state a := by
  intro a ha
  rw [hl] at ha
  exact ((mem_setUpdate _ _ _).mp ha).elim (hp.parents a) (hp.dels a)

theorem step_ok {pm pcm : Sub} (hpm : SubOK pm) (hpcm : CreateOK pcm) {m : Mach} (hp : Pre m)
    (hcode : m.evm.code ≠ []) {r : Res Unit} {k : Kind} (h : OpEffect k pm pcm m r) : StepPost m r := by
  have hself := hp.alive hcode
  cases h with
  | ok m' h hk strict => exact h.frel
  | err e m' h he => intro _; exact ⟨by rw [h.world]; exact WRel.refl _, h.message, h.gas⟩
  | sstore hk m1 key new orig s' h hg hstatic hstip horig hset hwarm =>
    have hs' : s' = { m.world.state with storageTries := triesSet m.world.state.storageTries m.self key new } := by
      unfold setStorage at hset; split at hset <;> cases hset; rfl
    refine ⟨⟨⟨fun hw => ⟨hw.state.setStorage hset, hw.transient⟩, ?_, ?_, ?_, by subst hs'; rfl⟩, ?_, ?_⟩, ⟨h.message, h.code, h.jumps, h.error, h.addrs, h.keys, h.stack⟩,
      Nat.le_of_lt hg, by rw [h.logs]; exact List.prefix_refl _, by rw [h.deleted]; exact fun _ h => h,
      by rw [h.deleted]; exact fun _ h => .inl h, ?_, ?_, by simp [hstatic]⟩
    · intro a ha; subst hs'; exact .inl ha
    · intro a _; subst hs'; exact ⟨rfl, Nat.le_refl _⟩
    · intro _; subst hs'; exact Nat.le_refl _
    · subst hs'; exact ⟨rfl, rfl, rfl⟩
    · intro _ a ha; subst hs'; exact ha
    · intro _; subst hs'; rfl
    · have := sstore_cleared hp.wf.state hself horig hset
      simp only; omega
  | tstore hk m1 key new h hg hstatic =>
    refine ⟨⟨⟨fun hw => ⟨hw.state, hw.transient.set _ _ _⟩, fun _ h => .inl h, fun _ _ => ⟨rfl, Nat.le_refl _⟩,
      fun _ => Nat.le_refl _, rfl⟩, ⟨rfl, rfl, rfl⟩, fun _ _ h => h⟩, ⟨h.message, h.code, h.jumps, h.error, h.addrs, h.keys, h.stack⟩, Nat.le_of_lt hg,
      by rw [h.logs]; exact List.prefix_refl _, by rw [h.deleted]; exact fun _ h => h,
      by rw [h.deleted]; exact fun _ h => .inl h, fun _ => rfl, ?_, by simp [hstatic]⟩
    simp only [h.refund]; omega
  | log hk m1 topics data h hg hstatic =>
    refine ⟨by simp only [h.world]; exact WRel.refl _, ⟨h.message, h.code, h.jumps, h.error, h.addrs, h.keys, h.stack⟩,
      Nat.le_of_lt hg, List.prefix_append _ _, by simp only [h.deleted]; exact fun _ h => h,
      by simp only [h.deleted]; exact fun _ h => .inl h, fun _ => by simp only [h.world], ?_, by simp [hstatic]⟩
    simp only [h.refund, h.world]; omega
  | selfdestruct hk m1 b s1 h hg hstatic hrun hmove =>
    have hsd := selfdestructState_rel hmove
    refine ⟨⟨⟨fun hw => ⟨hsd.wf hw.state, hw.transient⟩, fun a ha => .inl (by simpa [hsd.created] using ha),
        fun a _ => ⟨(hsd.account a).2, Nat.le_of_eq (hsd.account a).1.symm⟩, fun hw => hsd.supply hw.state.main.1, hsd.fork⟩,
        ⟨hsd.snaps, rfl, hsd.fork⟩, fun _ a ha => by simpa [hsd.created] using ha⟩,
      ⟨h.message, h.code, h.jumps, h.error, h.addrs, h.keys, h.stack⟩,
      h.gas, by simp only [h.logs]; exact List.prefix_refl _, ?_, ?_, ?_, ?_, by simp [hstatic]⟩
    · intro a ha
      have ha := mem_sdBase_of ha
      simp only; split
      · exact (mem_setAdd _ _ _).mpr (.inl ha)
      · exact ha
    · intro a ha
      simp only at ha
      have hbase : a ∈ m.sdBase → a ∈ m.evm.accountsToDelete ∨ Doomable s1 a := fun h =>
        (mem_sdBase h).imp id fun h => Doomable.same hsd.created hsd.fork (hsd.account _).2 (hp.parents a h)
      split at ha
      · rename_i hdel
        rcases (mem_setAdd _ _ _).mp ha with h' | h'
        · exact hbase h'
        · right; subst h'
          refine Doomable.same hsd.created hsd.fork (hsd.account _).2 ?_
          cases hf : m.world.state.fork.since .cancun with
          | true => exact .inl (by simpa [selfdestructDeletes, hf] using hdel)
          | false => exact hp.coded hcode hf
      · exact hbase ha
    · intro hd
      simp only at hd
      split at hd
      · exact absurd hd (setAdd_ne_nil _ _)
      · rename_i hdel; exact hsd.supplyEq hp.wf.state (by simpa using hdel)
    · have : cleared s1 ≤ cleared m.world.state :=
        cleared_le hp.wf.state hsd.snaps (fun a ha => by simpa [hsd.created] using ha)
          (fun a k _ ho hk => by
            have ho' := (hsd.owned a).mp ho
            rw [hsd.storage a ho'] at hk; exact ⟨ho', hk⟩)
      have h1 := clearUnit_mono m.world.state.fork this
      have h2 := sdRefund_nonneg m
      simp only; omega
  | collision hk m1 a h hg hgas hstatic hcol hnonce =>
    exact create_frel hp hself hstatic ⟨h.message, h.code, h.jumps, h.error, h.addrs, h.keys, h.stack⟩ rfl h.logs h.refund
      h.deleted (Nat.le_of_lt hg)
  | createErr hk m1 msg e w m' h hsub hw =>
    have hf := create_frel hp hself h.notStatic h.frame h.world h.logs h.refund h.deleted (by have := h.gas; omega)
    have hp1 := hp.mono hf
    have hpc : PreCreate msg m1.world :=
      ⟨hp1.wf, h.depthLe, h.msgStatic, create_fresh h hself, hp1.fork, parents_ok hp1 h.parents⟩
    have := hpcm msg m1.world hpc
    rw [hsub] at this
    exact fun hc => absurd hc this
  | create hk m1 msg child w m2 h hsub hinc =>
    have hf := create_frel hp hself h.notStatic h.frame h.world h.logs h.refund h.deleted (by have := h.gas; omega)
    have hp1 := hp.mono hf
    have hpc : PreCreate msg m1.world :=
      ⟨hp1.wf, h.depthLe, h.msgStatic, create_fresh h hself, hp1.fork, parents_ok hp1 h.parents⟩
    have := hpcm msg m1.world hpc
    rw [hsub] at this
    exact incorporated_frel hp.snaps hf this hinc (Nat.le_of_lt h.gas) (by simp [h.notStatic])
  | callErr hk m1 msg e w m' h hsub hw =>
    have hf := h.locals.frel
    have hp1 := hp.mono hf
    have hpc : PreMsg msg m1.world := by
      refine ⟨hp1.wf, fun hc => ?_, h.depthLe, fun hc hfk => ?_, hp1.fork, parents_ok hp1 h.parents⟩
      · rw [h.locals.world]
        rcases h.codeOwner hc with h1 | h1
        · rw [h1]; exact hself
        · exact owned_iff.mpr (.inr h1)
      · rw [h.locals.world] at hfk ⊢
        rcases h.codeOwner hc with h1 | h1
        · rw [h1]; exact hp.coded hcode hfk
        · exact .inr ⟨hfk, h1⟩
    have := hpm msg m1.world hpc
    rw [hsub] at this
    exact fun hc => absurd hc this
  | call hk m1 msg child w m2 h hsub hinc =>
    have hf := h.locals.frel
    have hp1 := hp.mono hf
    have hpc : PreMsg msg m1.world := by
      refine ⟨hp1.wf, fun hc => ?_, h.depthLe, fun hc hfk => ?_, hp1.fork, parents_ok hp1 h.parents⟩
      · rw [h.locals.world]
        rcases h.codeOwner hc with h1 | h1
        · rw [h1]; exact hself
        · exact owned_iff.mpr (.inr h1)
      · rw [h.locals.world] at hfk ⊢
        rcases h.codeOwner hc with h1 | h1
        · rw [h1]; exact hp.coded hcode hfk
        · exact .inr ⟨hfk, h1⟩
    have := hpm msg m1.world hpc
    rw [hsub] at this
    refine incorporated_frel hp.snaps hf this hinc (Nat.le_of_lt h.gas) ?_
    intro hst
    obtain ⟨s1, s2⟩ := h.static hst
    refine ⟨s1, fun ht => ?_⟩
    rw [(h.funds ht).1, h.locals.world]
    exact (s2 ht).imp id fun hh => ⟨hh, hself⟩
  | callOverflow hk m1 msg child w m' h hsub hlen => intro hc; exact hc.elim

end Verif
