import Verif.Lemmas.Agree
import Verif.Lemmas.Exec2
/-! Memory is paid for: a frame's memory plus 32 times its gas never grows. -/
namespace Verif
open Spec

/-- Expanding memory by a word costs at least three units. -/
theorem expand_price (n : Nat) (h : n % 32 = 0) (l : List (Word × Word)) :
    (calculateGasExtendMemory n l).expandBy ≤ 32 * (calculateGasExtendMemory n l).cost := by
  rw [extendMemory_eq n h]
  have h1 := neededSize_mod l n h
  have h2 := neededSize_ge l n
  generalize neededSize n l = k at h1 h2
  obtain ⟨a, rfl⟩ : ∃ a, n = 32 * a := ⟨n / 32, by omega⟩
  obtain ⟨b, rfl⟩ : ∃ b, k = 32 * b := ⟨k / 32, by omega⟩
  simp only [memory_price, memoryPrice]
  have hab : a ≤ b := by omega
  have h3 : a * a / 512 ≤ b * b / 512 := Nat.div_le_div_right (Nat.mul_le_mul hab hab)
  omega

theorem memoryPrice_diff {a b : Nat} (hab : a ≤ b) : 3 * (b - a) ≤ memoryPrice b - memoryPrice a := by
  have h3 : a * a / 512 ≤ b * b / 512 := Nat.div_le_div_right (Nat.mul_le_mul hab hab)
  unfold memoryPrice
  omega

section
variable {α β : Type}

/-- Leaves memory alone and does not produce gas. -/
def MemQuiet (x : M α) : Prop :=
  ∀ m a m', x m = .ok a m' → m'.evm.memory = m.evm.memory ∧ m'.evm.gasLeft ≤ m.evm.gasLeft

theorem Pres.quiet {x : M α} (h : Pres x) (hk : KeepMem x) : MemQuiet x := by
  intro m a m' hx
  refine ⟨hk _ _ _ hx, ?_⟩
  have := (h.run m).gas
  rw [hx] at this; exact this

theorem quiet_bind {x : M α} {f : α → M β} (hx : MemQuiet x) (hf : ∀ a, MemQuiet (f a)) : MemQuiet (x >>= f) := by
  intro m b m' h
  rw [bind_eq] at h
  match hxm : x m with
  | .ok a m1 =>
    rw [hxm] at h
    obtain ⟨h1, h2⟩ := hx _ _ _ hxm
    obtain ⟨h3, h4⟩ := hf a _ _ _ h
    exact ⟨h3.trans h1, Nat.le_trans h4 h2⟩
  | .err _ _ => rw [hxm] at h; cases h
theorem quiet_ite {c : Prop} [Decidable c] {x y : M α} (h : MemQuiet x) (h' : MemQuiet y) : MemQuiet (if c then x else y) := by
  split <;> assumption
theorem quiet_pure (a : α) : MemQuiet (pure a : M α) := by intro m b m' h; cases h; exact ⟨rfl, Nat.le_refl _⟩
theorem quiet_raise (e : Exn) : MemQuiet (raise e : M α) := by intro m b m' h; cases h
theorem quiet_raiseHalt (e : Halt) : MemQuiet (raiseHalt e : M α) := by intro m b m' h; cases h
theorem quiet_getEvm : MemQuiet getEvm := by intro m b m' h; cases h; exact ⟨rfl, Nat.le_refl _⟩
theorem quiet_getState : MemQuiet getState := by intro m b m' h; cases h; exact ⟨rfl, Nat.le_refl _⟩
theorem quiet_pop : MemQuiet pop := by
  intro m b m' h; unfold pop at h; split at h <;> cases h; exact ⟨rfl, Nat.le_refl _⟩
theorem quiet_push (w : Word) : MemQuiet (push w) := by
  intro m b m' h; unfold push at h; split at h <;> cases h; exact ⟨rfl, Nat.le_refl _⟩
theorem quiet_chargeGas (n : Nat) : MemQuiet (chargeGas n) := by
  intro m b m' h; rw [(chargeGas_ok h).2]; exact ⟨rfl, Nat.sub_le _ _⟩
theorem quiet_incPc (n : Nat) : MemQuiet (incPc n) := by intro m b m' h; cases h; exact ⟨rfl, Nat.le_refl _⟩
theorem quiet_stopRunning : MemQuiet stopRunning := by intro m b m' h; cases h; exact ⟨rfl, Nat.le_refl _⟩
theorem quiet_setOutput (b : Bytes) : MemQuiet (setOutput b) := by intro m b m' h; cases h; exact ⟨rfl, Nat.le_refl _⟩
theorem quiet_addLog (l : Log) : MemQuiet (addLog l) := by intro m b m' h; cases h; exact ⟨rfl, Nat.le_refl _⟩
theorem quiet_warmAddress (a : Address) : MemQuiet (warmAddress a) := by intro m b m' h; cases h; exact ⟨rfl, Nat.le_refl _⟩
theorem quiet_u256 (n : Nat) : MemQuiet (u256 n) := by
  intro m b m' h; unfold u256 at h; split at h <;> cases h; exact ⟨rfl, Nat.le_refl _⟩
theorem quiet_accessAddress (k : AccessKind) (a : Address) : MemQuiet (accessAddress k a) := by
  unfold accessAddress
  exact quiet_bind quiet_getEvm fun e => quiet_bind quiet_getState fun s => quiet_ite (quiet_pure _) (quiet_ite (quiet_pure _)
    (quiet_bind (quiet_warmAddress _) fun _ => quiet_pure _))
theorem quiet_popN : ∀ n, MemQuiet (popN n)
  | 0 => quiet_pure _
  | n + 1 => quiet_bind quiet_pop fun _ => quiet_bind (quiet_popN n) fun _ => quiet_pure _

/-- Memory and gas within the account `K`. -/
def SpA (K : Nat) (m : Mach) : Prop := Aligned m.evm.memory ∧ m.evm.memory.length + 32 * m.evm.gasLeft ≤ K
/-- The expansion for `l` is computed, not yet paid. -/
def SpP (K : Nat) (l : List (Word × Word)) (ext : ExtendMemory) (m : Mach) : Prop :=
  SpA K m ∧ Planned l ext m.evm.memory ∧ ext.expandBy ≤ 32 * ext.cost
/-- The expansion is paid. -/
def SpQ (K : Nat) (l : List (Word × Word)) (ext : ExtendMemory) (m : Mach) : Prop :=
  Planned l ext m.evm.memory ∧ m.evm.memory.length + ext.expandBy + 32 * m.evm.gasLeft ≤ K
/-- The ranges lie within memory. -/
def SpC (K : Nat) (l : List (Word × Word)) (m : Mach) : Prop :=
  Covers l m.evm.memory ∧ m.evm.memory.length + 32 * m.evm.gasLeft ≤ K

variable {K : Nat} {l : List (Word × Word)} {ext : ExtendMemory}

theorem MemQuiet.a {x : M α} (h : MemQuiet x) : Tri (SpA K) x (fun _ => SpA K) := by
  intro m a m' hp hx
  obtain ⟨h1, h2⟩ := h _ _ _ hx
  exact ⟨by rw [h1]; exact hp.1, by have := hp.2; rw [h1]; omega⟩
theorem MemQuiet.p {x : M α} (h : MemQuiet x) : Tri (SpP K l ext) x (fun _ => SpP K l ext) := by
  intro m a m' hp hx
  obtain ⟨h1, h2⟩ := h _ _ _ hx
  exact ⟨MemQuiet.a h m a m' hp.1 hx, by rw [h1]; exact hp.2.1, hp.2.2⟩
theorem MemQuiet.q {x : M α} (h : MemQuiet x) : Tri (SpQ K l ext) x (fun _ => SpQ K l ext) := by
  intro m a m' hp hx
  obtain ⟨h1, h2⟩ := h _ _ _ hx
  exact ⟨by rw [h1]; exact hp.1, by have := hp.2; rw [h1]; omega⟩
theorem MemQuiet.c {x : M α} (h : MemQuiet x) : Tri (SpC K l) x (fun _ => SpC K l) := by
  intro m a m' hp hx
  obtain ⟨h1, h2⟩ := h _ _ _ hx
  exact ⟨by rw [h1]; exact hp.1, by have := hp.2; rw [h1]; omega⟩
theorem MemQuiet.ca {x : M α} (h : MemQuiet x) : Tri (SpC K l) x (fun _ => SpA K) := by
  intro m a m' hp hx
  have := MemQuiet.c h m a m' hp hx
  exact ⟨this.1.1, this.2⟩

theorem sp_extendCost (l : List (Word × Word)) : Tri (SpA K) (extendCost l) (fun ext => SpP K l ext) := by
  intro m a m' hp h
  have hpl := tri_extendCost l m a m' hp.1 h
  unfold extendCost at h
  cases h
  exact ⟨hp, hpl, expand_price _ hp.1 l⟩

theorem sp_charge {n : Nat} (hn : ext.cost ≤ n) : Tri (SpP K l ext) (chargeGas n) (fun _ => SpQ K l ext) := by
  intro m a m' hp h
  obtain ⟨h1, h2⟩ := chargeGas_ok h
  subst h2
  refine ⟨hp.2.1, ?_⟩
  have h3 := hp.1.2
  have h4 := hp.2.2
  simp only
  omega

theorem sp_expand : Tri (SpQ K l ext) (expandMemory ext.expandBy) (fun _ => SpC K l) := by
  intro m a m' hp h
  have hc := tri_expandMemory l ext m a m' hp.1 h
  cases h
  refine ⟨hc, ?_⟩
  have := hp.2
  simp only [List.length_append, List.length_replicate]
  omega

theorem sp_write {start size : Word} {v : Bytes} {rest : M Unit} (hv : v.length ≤ size.toNat)
    (hr : MemQuiet rest) (hl : (start, size) ∈ l) :
    Tri (SpC K l) (writeMemory start.toNat v >>= fun _ => rest) (fun _ => SpA K) := by
  refine tri_bind (Q := fun _ => SpA K) ?_ fun _ => hr.a
  intro m a m' hp hx
  have ha := tri_writeMemory (l := l) (start := start.toNat) (v := v) (by
    rcases word_zero_or size with h | h
    · left; subst h; exact List.length_eq_zero_iff.mp (by simpa using hv)
    · exact .inr ⟨(start, size), hl, h, rfl, hv⟩) m a m' hp.1 hx
  refine ⟨ha, ?_⟩
  cases hx
  have hlen : (memoryWrite m.evm.memory start.toNat v).length = m.evm.memory.length := by
    refine memoryWrite_length ?_
    rcases word_zero_or size with h | h
    · left; subst h; exact List.length_eq_zero_iff.mp (by simpa using hv)
    · right
      have := hp.1.2 _ hl h
      simp only at this
      omega
  simp only [hlen]
  exact hp.2
end

/-- Keeps the account `K`. -/
abbrev Spends (x : M Unit) : Prop := ∀ K, Tri (SpA K) x (fun _ => SpA K)

section
macro "qpop" x:ident : tactic => `(tactic| refine tri_bind (MemQuiet.a quiet_pop) fun $x => ?_)
theorem sp_calldatacopy : Spends opCalldatacopy := by
  intro K
  unfold opCalldatacopy
  refine tri_bind (MemQuiet.a quiet_pop) fun start => ?_
  refine tri_bind (MemQuiet.a quiet_pop) fun ds => ?_
  refine tri_bind (MemQuiet.a quiet_pop) fun size => ?_
  refine tri_bind (sp_extendCost [(start, size)]) fun ext => ?_
  refine tri_bind (sp_charge (by omega)) fun _ => ?_
  refine tri_bind sp_expand fun _ => ?_
  refine tri_bind (MemQuiet.c quiet_getEvm) fun evm => ?_
  exact sp_write (Nat.le_of_eq (bufferRead_length _ _ _)) (quiet_incPc 1) (by simp)

theorem sp_codecopy : Spends opCodecopy := by
  intro K
  unfold opCodecopy
  refine tri_bind (MemQuiet.a quiet_pop) fun start => ?_
  refine tri_bind (MemQuiet.a quiet_pop) fun ds => ?_
  refine tri_bind (MemQuiet.a quiet_pop) fun size => ?_
  refine tri_bind (sp_extendCost [(start, size)]) fun ext => ?_
  refine tri_bind (sp_charge (by omega)) fun _ => ?_
  refine tri_bind sp_expand fun _ => ?_
  refine tri_bind (MemQuiet.c quiet_getEvm) fun evm => ?_
  exact sp_write (Nat.le_of_eq (bufferRead_length _ _ _)) (quiet_incPc 1) (by simp)

theorem sp_extcodecopy : Spends opExtcodecopy := by
  intro K
  unfold opExtcodecopy
  refine tri_bind (MemQuiet.a quiet_pop) fun a => ?_
  refine tri_bind (MemQuiet.a quiet_pop) fun start => ?_
  refine tri_bind (MemQuiet.a quiet_pop) fun ds => ?_
  refine tri_bind (MemQuiet.a quiet_pop) fun size => ?_
  refine tri_bind (sp_extendCost [(start, size)]) fun ext => ?_
  refine tri_bind (MemQuiet.p (quiet_accessAddress _ _)) fun _ => ?_
  refine tri_bind (sp_charge (by omega)) fun _ => ?_
  refine tri_bind sp_expand fun _ => ?_
  refine tri_bind (MemQuiet.c quiet_getState) fun evm => ?_
  exact sp_write (Nat.le_of_eq (bufferRead_length _ _ _)) (quiet_incPc 1) (by simp)

theorem sp_returndatacopy : Spends opReturndatacopy := by
  intro K
  unfold opReturndatacopy
  refine tri_bind (MemQuiet.a quiet_pop) fun start => ?_
  refine tri_bind (MemQuiet.a quiet_pop) fun ds => ?_
  refine tri_bind (MemQuiet.a quiet_pop) fun size => ?_
  refine tri_bind (sp_extendCost [(start, size)]) fun ext => ?_
  refine tri_bind (sp_charge (by omega)) fun _ => ?_
  refine tri_bind (MemQuiet.q quiet_getEvm) fun evm => ?_
  split
  · exact tri_raiseHalt _ _
  refine tri_bind sp_expand fun _ => ?_
  intro m b m' hp hx
  rw [bind_eq] at hx
  rcases u256_cases (ds.toNat + size.toNat) m with ⟨hlt, he⟩ | ⟨hle, he⟩
  · rw [he] at hx
    simp only at hx
    have hs : (BitVec.ofNat 256 (ds.toNat + size.toNat)).toNat = ds.toNat + size.toNat := by
      simp [Nat.mod_eq_of_lt hlt]
    rw [hs] at hx
    exact sp_write (slice_length _ _ _) (quiet_incPc 1) (by simp) m b m' hp hx
  · rw [he] at hx; cases hx

theorem sp_mstore : Spends opMstore := by
  intro K
  unfold opMstore
  refine tri_bind (MemQuiet.a quiet_pop) fun start => ?_
  refine tri_bind (MemQuiet.a quiet_pop) fun v => ?_
  refine tri_bind (sp_extendCost [(start, 32)]) fun ext => ?_
  refine tri_bind (sp_charge (by omega)) fun _ => ?_
  refine tri_bind sp_expand fun _ => ?_
  exact sp_write (size := 32) (by simp [wordBytes, toBE_length]) (quiet_incPc 1) (by simp)

theorem sp_mstore8 : Spends opMstore8 := by
  intro K
  unfold opMstore8
  refine tri_bind (MemQuiet.a quiet_pop) fun start => ?_
  refine tri_bind (MemQuiet.a quiet_pop) fun v => ?_
  refine tri_bind (sp_extendCost [(start, 1)]) fun ext => ?_
  refine tri_bind (sp_charge (by omega)) fun _ => ?_
  refine tri_bind sp_expand fun _ => ?_
  exact sp_write (size := 1) (by simp) (quiet_incPc 1) (by simp)

theorem sp_mcopy : Spends opMcopy := by
  intro K
  unfold opMcopy
  refine tri_bind (MemQuiet.a quiet_pop) fun dst => ?_
  refine tri_bind (MemQuiet.a quiet_pop) fun src => ?_
  refine tri_bind (MemQuiet.a quiet_pop) fun size => ?_
  refine tri_bind (sp_extendCost [(src, size), (dst, size)]) fun ext => ?_
  refine tri_bind (sp_charge (by omega)) fun _ => ?_
  refine tri_bind sp_expand fun _ => ?_
  refine tri_bind (MemQuiet.c quiet_getEvm) fun evm => ?_
  exact sp_write (slice_length _ _ _) (quiet_incPc 1) (by simp)

theorem sp_mload : Spends opMload := by
  intro K
  unfold opMload
  refine tri_bind (MemQuiet.a quiet_pop) fun start => ?_
  refine tri_bind (sp_extendCost [(start, 32)]) fun ext => ?_
  refine tri_bind (sp_charge (by omega)) fun _ => ?_
  refine tri_bind sp_expand fun _ => ?_
  exact MemQuiet.ca (quiet_bind quiet_getEvm fun _ => quiet_bind (quiet_push _) fun _ => quiet_incPc _)

theorem sp_keccak (E : Env) : Spends (opKeccak E) := by
  intro K
  unfold opKeccak
  refine tri_bind (MemQuiet.a quiet_pop) fun start => ?_
  refine tri_bind (MemQuiet.a quiet_pop) fun size => ?_
  refine tri_bind (sp_extendCost [(start, size)]) fun ext => ?_
  refine tri_bind (sp_charge (by omega)) fun _ => ?_
  refine tri_bind sp_expand fun _ => ?_
  exact MemQuiet.ca (quiet_bind quiet_getEvm fun _ => quiet_bind (quiet_push _) fun _ => quiet_incPc _)

theorem sp_log (n : Nat) : Spends (opLog n) := by
  intro K
  unfold opLog
  refine tri_bind (MemQuiet.a quiet_pop) fun start => ?_
  refine tri_bind (MemQuiet.a quiet_pop) fun size => ?_
  refine tri_bind (MemQuiet.a (quiet_popN n)) fun topics => ?_
  refine tri_bind (sp_extendCost [(start, size)]) fun ext => ?_
  refine tri_bind (sp_charge (by omega)) fun _ => ?_
  refine tri_bind sp_expand fun _ => ?_
  exact MemQuiet.ca (quiet_bind quiet_getEvm fun _ => quiet_ite (quiet_raiseHalt _)
    (quiet_bind (quiet_addLog _) fun _ => quiet_incPc _))

theorem sp_return : Spends opReturn := by
  intro K
  unfold opReturn
  refine tri_bind (MemQuiet.a quiet_pop) fun start => ?_
  refine tri_bind (MemQuiet.a quiet_pop) fun size => ?_
  refine tri_bind (sp_extendCost [(start, size)]) fun ext => ?_
  refine tri_bind (sp_charge (by omega)) fun _ => ?_
  refine tri_bind sp_expand fun _ => ?_
  exact MemQuiet.ca (quiet_bind quiet_getEvm fun _ => quiet_bind (quiet_setOutput _) fun _ => quiet_stopRunning)
end

/-- Instructions that may change memory. -/
def memOp : Op → Bool
  | .calldatacopy | .codecopy | .extcodecopy | .returndatacopy | .mstore | .mstore8 | .mcopy | .mload | .keccak | .log _
  | .ret | .revert | .create | .create2 | .call | .callcode | .delegatecall | .staticcall => true
  | _ => false

set_option linter.unusedSimpArgs false in
set_option maxHeartbeats 2000000 in
theorem opStep_keepMem (E : Env) (pm pcm : Sub) (op : Op) (h : memOp op = false) : KeepMem (opStep E pm pcm op) := by
  cases op
  case calldatacopy | codecopy | extcodecopy | returndatacopy | mstore | mstore8 | mcopy | mload | keccak | log |
    ret | revert | create | create2 | call | callcode | delegatecall | staticcall => cases h
  all_goals
    clear h
    dsimp only [opStep]
    simp only [opStop, opAdd, opMul, opSub, opDiv, opSdiv, opMod, opSmod, opAddmod, opMulmod, opExp, opSignextend,
      opLt, opGt, opSlt, opSgt, opEq, opIszero, opAnd, opOr, opXor, opNot, opByte, opShl, opShr, opSar, opClz,
      opAddress, opBalance, opOrigin, opCaller, opCallvalue, opCalldataload, opCalldatasize,
      opCodesize, opGasprice, opExtcodesize, opReturndatasize,
      opExtcodehash, opBlockhash, opCoinbase, opTimestamp, opNumber, opPrevrandao, opGaslimit,
      opChainid, opSelfbalance, opBasefee, opBlobhash, opBlobbasefee, opPop, opSload,
      opJump, opJumpi, opPc, opMsize, opGas, opJumpdest, opTload, opPush, opDup, opSwap, opSstore, opTstore,
      opSelfdestruct]
    kwalk

theorem revert_not_ok (E : Env) (pm pcm : Sub) (m m' : Mach) : opStep E pm pcm .revert m ≠ .ok () m' := by
  intro h
  have key : Tri (fun _ => True) opRevert (fun _ _ => False) := by
    unfold opRevert
    refine tri_bind (Q := fun _ _ => True) (fun _ _ _ _ _ => trivial) fun _ => ?_
    refine tri_bind (Q := fun _ _ => True) (fun _ _ _ _ _ => trivial) fun _ => ?_
    refine tri_bind (Q := fun _ _ => True) (fun _ _ _ _ _ => trivial) fun _ => ?_
    refine tri_bind (Q := fun _ _ => True) (fun _ _ _ _ _ => trivial) fun _ => ?_
    refine tri_bind (Q := fun _ _ => True) (fun _ _ _ _ _ => trivial) fun _ => ?_
    refine tri_bind (Q := fun _ _ => True) (fun _ _ _ _ _ => trivial) fun _ => ?_
    refine tri_bind (Q := fun _ _ => True) (fun _ _ _ _ _ => trivial) fun _ => ?_
    exact tri_raise _ _
  exact key m () m' trivial h

/-- Any instruction that starts no other frame pays for the memory it adds. -/
theorem opStep_space (E : Env) (pm pcm : Sub) (op : Op) (h1 : ∀ k : CallKind, op ≠ k.op) (h2 : ∀ k, op ≠ createInstr k)
    {m m' : Mach} (ha : Aligned m.evm.memory) (hg : m'.evm.gasLeft ≤ m.evm.gasLeft)
    (h : opStep E pm pcm op m = .ok () m') :
    m'.evm.memory.length + 32 * m'.evm.gasLeft ≤ m.evm.memory.length + 32 * m.evm.gasLeft := by
  have key : ∀ x : M Unit, Spends x → x m = .ok () m' →
      m'.evm.memory.length + 32 * m'.evm.gasLeft ≤ m.evm.memory.length + 32 * m.evm.gasLeft := by
    intro x hx he
    exact (hx _ m () m' ⟨ha, Nat.le_refl _⟩ he).2
  cases op
  case calldatacopy => exact key _ sp_calldatacopy h
  case codecopy => exact key _ sp_codecopy h
  case extcodecopy => exact key _ sp_extcodecopy h
  case returndatacopy => exact key _ sp_returndatacopy h
  case mstore => exact key _ sp_mstore h
  case mstore8 => exact key _ sp_mstore8 h
  case mcopy => exact key _ sp_mcopy h
  case mload => exact key _ sp_mload h
  case keccak => exact key _ (sp_keccak E) h
  case log n => exact key _ (sp_log n) h
  case ret => exact key _ sp_return h
  case revert => exact absurd h (revert_not_ok E pm pcm m m')
  case create => exact absurd rfl (h2 false)
  case create2 => exact absurd rfl (h2 true)
  case call => exact absurd rfl (h1 .call)
  case callcode => exact absurd rfl (h1 .callcode)
  case delegatecall => exact absurd rfl (h1 .delegatecall)
  case staticcall => exact absurd rfl (h1 .staticcall)
  all_goals (rw [opStep_keepMem E pm pcm _ rfl m () m' h]; omega)
end Verif
