import Verif.Lemmas.OpEffect2
/-! Memory expansion: cost function, and alignment of memory. -/
namespace Verif

theorem ceil32_mod (n : Nat) : ceil32 n % 32 = 0 := by
  unfold ceil32; simp only; split <;> omega
theorem ceil32_ge (n : Nat) : n ≤ ceil32 n := by
  unfold ceil32; simp only; split <;> omega
theorem ceil32_lt (n : Nat) : ceil32 n < n + 32 := by
  unfold ceil32; simp only; split <;> omega
theorem ceil32_of_mod {n : Nat} (h : n % 32 = 0) : ceil32 n = n := by
  unfold ceil32; simp [h]
theorem ceil32_mono {a b : Nat} (h : a ≤ b) : ceil32 a ≤ ceil32 b := by
  unfold ceil32; simp only; split <;> split <;> omega
/-- `ceil32` is the least multiple of 32 that is at least its argument. -/
theorem ceil32_least {n k : Nat} (hk : k % 32 = 0) (h : n ≤ k) : ceil32 n ≤ k := by
  have := ceil32_mod n; have := ceil32_lt n; omega

theorem memory_cost_mono {a b : Nat} (h : a ≤ b) : calculateMemoryGasCost a ≤ calculateMemoryGasCost b := by
  unfold calculateMemoryGasCost
  simp only [GAS_MEMORY]
  have h1 : ceil32 a / 32 ≤ ceil32 b / 32 := Nat.div_le_div_right (ceil32_mono h)
  have h2 : (ceil32 a / 32) ^ 2 / 512 ≤ (ceil32 b / 32) ^ 2 / 512 := Nat.div_le_div_right (Nat.pow_le_pow_left h1 2)
  omega

theorem memory_cost_ceil (a : Nat) : calculateMemoryGasCost (ceil32 a) = calculateMemoryGasCost a := by
  unfold calculateMemoryGasCost
  rw [ceil32_of_mod (ceil32_mod a)]

/-- The size memory must have so that all non-empty ranges lie within it, and at least `n`. -/
def neededSize (n : Nat) : List (Word × Word) → Nat
  | [] => n
  | x :: r => neededSize (if x.2 = 0 then n else max n (ceil32 (x.1.toNat + x.2.toNat))) r

theorem neededSize_ge (l : List (Word × Word)) : ∀ n, n ≤ neededSize n l := by
  induction l with
  | nil => intro n; exact Nat.le_refl _
  | cons x r ih => intro n; refine Nat.le_trans ?_ (ih _); split <;> omega

theorem neededSize_mod (l : List (Word × Word)) : ∀ n, n % 32 = 0 → neededSize n l % 32 = 0 := by
  induction l with
  | nil => intro n h; exact h
  | cons x r ih =>
    intro n h; refine ih _ ?_
    split
    · exact h
    · have := ceil32_mod (x.1.toNat + x.2.toNat)
      rcases Nat.le_total n (ceil32 (x.1.toNat + x.2.toNat)) with h' | h'
      · rw [Nat.max_eq_right h']; exact this
      · rw [Nat.max_eq_left h']; exact h

theorem neededSize_covers (l : List (Word × Word)) : ∀ n, ∀ x ∈ l, x.2 ≠ 0 → x.1.toNat + x.2.toNat ≤ neededSize n l := by
  induction l with
  | nil => intro n x hx; cases hx
  | cons y r ih =>
    intro n x hx h0
    rcases List.mem_cons.mp hx with rfl | hx
    · refine Nat.le_trans ?_ (neededSize_ge r _)
      simp only [h0, if_false]
      have := ceil32_ge (x.1.toNat + x.2.toNat); omega
    · exact ih _ x hx h0

/-- The least such size. -/
theorem neededSize_least (l : List (Word × Word)) : ∀ n k, k % 32 = 0 → n ≤ k →
    (∀ x ∈ l, x.2 ≠ 0 → x.1.toNat + x.2.toNat ≤ k) → neededSize n l ≤ k := by
  induction l with
  | nil => intro n k _ h _; exact h
  | cons y r ih =>
    intro n k hk h hx
    refine ih _ k hk ?_ fun x hm => hx x (List.mem_cons_of_mem _ hm)
    split
    · exact h
    · rename_i h0
      have := ceil32_least hk (hx y (List.mem_cons_self ..) h0); omega

theorem neededSize_append (l r : List (Word × Word)) : ∀ n, neededSize n (l ++ r) = neededSize (neededSize n l) r := by
  induction l with
  | nil => intro n; rfl
  | cons x l ih => intro n; exact ih _

theorem extend_loop (l : List (Word × Word)) : ∀ e : ExtendLoop, e.currentSize % 32 = 0 →
    (l.foldl extendStep e).currentSize = neededSize e.currentSize l ∧
    (l.foldl extendStep e).sizeToExtend = e.sizeToExtend + (neededSize e.currentSize l - e.currentSize) ∧
    (l.foldl extendStep e).toBePaid =
      e.toBePaid + (calculateMemoryGasCost (neededSize e.currentSize l) - calculateMemoryGasCost e.currentSize) := by
  induction l with
  | nil => intro e _; simp [neededSize]
  | cons x r ih =>
    intro e he
    have hmod := ceil32_mod (x.1.toNat + x.2.toNat)
    simp only [List.foldl_cons]
    by_cases h0 : x.2 = 0
    · simp only [extendStep, h0, if_true, neededSize]; exact ih e he
    · by_cases hle : ceil32 (x.1.toNat + x.2.toNat) ≤ e.currentSize
      · have hs : extendStep e x = e := by simp [extendStep, h0, ceil32_of_mod he, hle]
        rw [hs]; simp only [neededSize, h0, if_false, Nat.max_eq_left hle]; exact ih e he
      · have hs : extendStep e x = ⟨e.sizeToExtend + (ceil32 (x.1.toNat + x.2.toNat) - e.currentSize),
            e.toBePaid + (calculateMemoryGasCost (ceil32 (x.1.toNat + x.2.toNat)) - calculateMemoryGasCost e.currentSize),
            ceil32 (x.1.toNat + x.2.toNat)⟩ := by simp only [extendStep, h0, if_false, ceil32_of_mod he, hle]
        have hlt : e.currentSize ≤ ceil32 (x.1.toNat + x.2.toNat) := by omega
        rw [hs]
        obtain ⟨h1, h2, h3⟩ := ih ⟨e.sizeToExtend + (ceil32 (x.1.toNat + x.2.toNat) - e.currentSize),
            e.toBePaid + (calculateMemoryGasCost (ceil32 (x.1.toNat + x.2.toNat)) - calculateMemoryGasCost e.currentSize),
            ceil32 (x.1.toNat + x.2.toNat)⟩ hmod
        have hge := neededSize_ge r (ceil32 (x.1.toNat + x.2.toNat))
        have hm1 := memory_cost_mono hge
        have hm2 := memory_cost_mono hlt
        simp only [neededSize, h0, if_false, Nat.max_eq_right hlt]
        simp only at h1 h2 h3
        refine ⟨h1, ?_, ?_⟩
        · rw [h2]; omega
        · rw [h3]; omega

theorem extendMemory_eq (n : Nat) (h : n % 32 = 0) (l : List (Word × Word)) :
    calculateGasExtendMemory n l =
      ⟨calculateMemoryGasCost (neededSize n l) - calculateMemoryGasCost n, neededSize n l - n⟩ := by
  obtain ⟨_, h2, h3⟩ := extend_loop l ⟨0, 0, n⟩ h
  unfold calculateGasExtendMemory
  simp only [h2, h3, Nat.zero_add]

/-! ### Hoare triples for successful runs -/

/-- If the operation returns, the postcondition holds. -/
def Tri {α : Type} (P : Mach → Prop) (x : M α) (Q : α → Mach → Prop) : Prop :=
  ∀ m a m', P m → x m = .ok a m' → Q a m'

section
variable {α β : Type} {P : Mach → Prop}

theorem tri_bind {x : M α} {f : α → M β} {Q : α → Mach → Prop} {R : β → Mach → Prop}
    (hx : Tri P x Q) (hf : ∀ a, Tri (Q a) (f a) R) : Tri P (x >>= f) R := by
  intro m b m' hP h
  rw [bind_eq] at h
  match hxm : x m with
  | .ok a m1 => rw [hxm] at h; exact hf a _ _ _ (hx _ _ _ hP hxm) h
  | .err _ _ => rw [hxm] at h; cases h
theorem tri_raise (e : Exn) (Q : α → Mach → Prop) : Tri P (raise e : M α) Q := by intro m b m' _ h; cases h
theorem tri_raiseHalt (e : Halt) (Q : α → Mach → Prop) : Tri P (raiseHalt e : M α) Q := by intro m b m' _ h; cases h
theorem tri_conseq {x : M α} {Q Q' : α → Mach → Prop} {P' : Mach → Prop} (h : Tri P' x Q') (hp : ∀ m, P m → P' m)
    (hq : ∀ a m, Q' a m → Q a m) : Tri P x Q := fun m a m' hP hx => hq _ _ (h m a m' (hp _ hP) hx)

/-- The operation leaves memory alone. -/
def KeepMem (x : M α) : Prop := ∀ m a m', x m = .ok a m' → m'.evm.memory = m.evm.memory

theorem km_bind {x : M α} {f : α → M β} (hx : KeepMem x) (hf : ∀ a, KeepMem (f a)) : KeepMem (x >>= f) := by
  intro m b m' h
  rw [bind_eq] at h
  match hxm : x m with
  | .ok a m1 => rw [hxm] at h; exact (hf a _ _ _ h).trans (hx _ _ _ hxm)
  | .err _ _ => rw [hxm] at h; cases h
theorem km_pure (a : α) : KeepMem (pure a : M α) := by intro m b m' h; cases h; rfl
theorem km_raise (e : Exn) : KeepMem (raise e : M α) := by intro m b m' h; cases h
theorem km_raiseHalt (e : Halt) : KeepMem (raiseHalt e : M α) := by intro m b m' h; cases h
theorem km_getEvm : KeepMem getEvm := by intro m b m' h; cases h; rfl
theorem km_getState : KeepMem getState := by intro m b m' h; cases h; rfl
theorem km_getTransient : KeepMem getTransient := by intro m b m' h; cases h; rfl
theorem km_liftCrash (x : Except Crash α) : KeepMem (liftCrash x) := by
  intro m b m' h; rw [(liftCrash_ok h).2]
theorem km_pop : KeepMem pop := by
  intro m b m' h; unfold pop at h; split at h <;> cases h; rfl
theorem km_push (w : Word) : KeepMem (push w) := by
  intro m b m' h; unfold push at h; split at h <;> cases h; rfl
theorem km_u256 (n : Nat) : KeepMem (u256 n) := by
  intro m b m' h; unfold u256 at h; split at h <;> cases h; rfl
theorem km_chargeGas (n : Nat) : KeepMem (chargeGas n) := by
  intro m b m' h; rw [(chargeGas_ok h).2]
theorem km_incPc (n : Nat) : KeepMem (incPc n) := by intro m b m' h; cases h; rfl
theorem km_setPc (n : Nat) : KeepMem (setPc n) := by intro m b m' h; cases h; rfl
theorem km_stopRunning : KeepMem stopRunning := by intro m b m' h; cases h; rfl
theorem km_setOutput (b : Bytes) : KeepMem (setOutput b) := by intro m b m' h; cases h; rfl
theorem km_setReturnData (b : Bytes) : KeepMem (setReturnData b) := by intro m b m' h; cases h; rfl
theorem km_addGas (n : Nat) : KeepMem (addGas n) := by intro m b m' h; cases h; rfl
theorem km_setStack (s : List Word) : KeepMem (setStack s) := by intro m b m' h; cases h; rfl
theorem km_warmAddress (a : Address) : KeepMem (warmAddress a) := by intro m b m' h; cases h; rfl
theorem km_warmSlot (a : Address) (k : Word) : KeepMem (warmSlot a k) := by intro m b m' h; cases h; rfl
theorem km_addRefund (n : Int) : KeepMem (addRefund n) := by intro m b m' h; cases h; rfl
theorem km_addLog (l : Log) : KeepMem (addLog l) := by intro m b m' h; cases h; rfl
theorem km_addDeleted (a : Address) : KeepMem (addDeleted a) := by intro m b m' h; cases h; rfl
theorem km_setState (s : State) : KeepMem (setState s) := by intro m b m' h; cases h; rfl
theorem km_setTransient (s : TransientStorage) : KeepMem (setTransient s) := by intro m b m' h; cases h; rfl
theorem km_incSuccess (c : Evm) : KeepMem (incorporateChildOnSuccess c) := by intro m b m' h; cases h; rfl
theorem km_incError (c : Evm) : KeepMem (incorporateChildOnError c) := by intro m b m' h; cases h; rfl
theorem km_runSub (s : Sub) (msg : Message) : KeepMem (runSub s msg) := by
  intro m b m' h; unfold runSub at h; split at h <;> cases h; rfl
theorem km_ite {c : Prop} [Decidable c] {x y : M α} (h : KeepMem x) (h' : KeepMem y) : KeepMem (if c then x else y) := by
  split <;> assumption
theorem km_extendCost (l : List (Word × Word)) : KeepMem (extendCost l) := by
  intro m b m' h; unfold extendCost at h; cases h; rfl
theorem km_touchIfEmpty (a : Address) : KeepMem (touchIfEmpty a) := by intro m b m' h; cases h; rfl
theorem km_selfdestructRefund (a : Address) : KeepMem (selfdestructRefund a) := by
  intro m b m' h; unfold selfdestructRefund at h; split at h <;> cases h <;> rfl
theorem km_randaoOrDifficulty (E : Env) : KeepMem (randaoOrDifficulty E) := by
  intro m b m' h; unfold randaoOrDifficulty at h
  split at h
  · cases h; rfl
  · exact km_u256 _ _ _ _ h
theorem km_accessAddress (k : AccessKind) (a : Address) : KeepMem (accessAddress k a) := by
  unfold accessAddress
  exact km_bind km_getEvm fun e => km_bind km_getState fun s => km_ite (km_pure _) (km_ite (km_pure _)
    (km_bind (km_warmAddress _) fun _ => km_pure _))
theorem km_accessDelegation (a : Address) : KeepMem (accessDelegation a) := by
  unfold accessDelegation
  refine km_bind km_getState fun e => ?_
  dsimp only
  exact km_ite (km_bind (km_accessAddress _ _) fun _ => km_pure _) (km_pure _)
theorem km_popN : ∀ n, KeepMem (popN n)
  | 0 => km_pure _
  | n + 1 => km_bind km_pop fun _ => km_bind (km_popN n) fun _ => km_pure _

theorem KeepMem.tri {x : M α} (h : KeepMem x) (P : Bytes → Prop) :
    Tri (fun m => P m.evm.memory) x (fun _ m => P m.evm.memory) :=
  fun m a m' hp hx => by dsimp only at hp ⊢; rw [h m a m' hx]; exact hp

/-- Walk through an operation that leaves memory alone. -/
macro "kwalk" : tactic => `(tactic| repeat' (first
  | exact km_pure _ | exact km_raise _ | exact km_raiseHalt _ | exact km_getEvm | exact km_getState | exact km_getTransient
  | exact km_liftCrash _ | exact km_pop | exact km_push _ | exact km_u256 _ | exact km_chargeGas _ | exact km_incPc _
  | exact km_setPc _ | exact km_stopRunning | exact km_setOutput _ | exact km_setReturnData _ | exact km_addGas _
  | exact km_setStack _ | exact km_warmAddress _ | exact km_warmSlot _ _ | exact km_addRefund _ | exact km_addLog _
  | exact km_addDeleted _ | exact km_setState _ | exact km_setTransient _ | exact km_incSuccess _ | exact km_incError _
  | exact km_touchIfEmpty _ | exact km_selfdestructRefund _ | exact km_randaoOrDifficulty _
  | exact km_runSub _ _ | exact km_extendCost _ | exact km_accessAddress _ _ | exact km_accessDelegation _ | exact km_popN _
  | (with_reducible refine km_bind ?_ fun _ => ?_)
  | (with_reducible refine km_ite ?_ ?_)
  | dsimp only
  | split))

/-- Memory is a whole number of words. -/
def Aligned (mem : Bytes) : Prop := mem.length % 32 = 0

/-- Memory is aligned and `ext` is the expansion computed for `l`. -/
def Planned (l : List (Word × Word)) (ext : ExtendMemory) (mem : Bytes) : Prop :=
  Aligned mem ∧ ext.expandBy = neededSize mem.length l - mem.length
/-- Memory is aligned and all non-empty ranges lie within it. -/
def Covers (l : List (Word × Word)) (mem : Bytes) : Prop :=
  Aligned mem ∧ ∀ x ∈ l, x.2 ≠ 0 → x.1.toNat + x.2.toNat ≤ mem.length

theorem tri_extendCost (l : List (Word × Word)) :
    Tri (fun m => Aligned m.evm.memory) (extendCost l) (fun ext m => Planned l ext m.evm.memory) := by
  intro m a m' hp h
  unfold extendCost at h
  cases h
  refine ⟨hp, ?_⟩
  rw [extendMemory_eq _ hp]

theorem tri_expandMemory (l : List (Word × Word)) (ext : ExtendMemory) :
    Tri (fun m => Planned l ext m.evm.memory) (expandMemory ext.expandBy) (fun _ m => Covers l m.evm.memory) := by
  intro m a m' hp h
  cases h
  have hge := neededSize_ge l m.evm.memory.length
  have hlen : (m.evm.memory ++ List.replicate ext.expandBy (0 : UInt8)).length = neededSize m.evm.memory.length l := by
    simp [hp.2]; omega
  refine ⟨?_, ?_⟩
  · simp only [Aligned]; rw [hlen]; exact neededSize_mod _ _ hp.1
  · intro x hx h0
    simp only; rw [hlen]; exact neededSize_covers l _ x hx h0

theorem memoryWrite_length {mem : Bytes} {start : Nat} {v : Bytes} (h : v = [] ∨ start + v.length ≤ mem.length) :
    (memoryWrite mem start v).length = mem.length := by
  unfold memoryWrite
  simp only [List.length_append, List.length_take, List.length_drop]
  rcases h with rfl | h
  · simp; omega
  · omega

theorem tri_writeMemory {l : List (Word × Word)} {start : Nat} {v : Bytes}
    (h : v = [] ∨ ∃ x ∈ l, x.2 ≠ 0 ∧ start = x.1.toNat ∧ v.length ≤ x.2.toNat) :
    Tri (fun m => Covers l m.evm.memory) (writeMemory start v) (fun _ m => Aligned m.evm.memory) := by
  intro m a m' hp hx
  cases hx
  simp only [Aligned]
  rw [memoryWrite_length, hp.1]
  rcases h with h | ⟨x, hx, h0, h1, h2⟩
  · exact .inl h
  · have := hp.2 x hx h0; right; omega

theorem rightPad_length (b : Bytes) (n : Nat) (h : b.length ≤ n) : (rightPad b n).length = n := by
  simp [rightPad]; omega
theorem slice_length (b : Bytes) (s n : Nat) : (slice b s (s + n)).length ≤ n := by
  simp only [slice, List.length_take]; omega
theorem bufferRead_length (b : Bytes) (s n : Nat) : (bufferRead b s n).length = n :=
  rightPad_length _ _ (slice_length b s n)
theorem toBE_length : ∀ n x, (toBE n x).length = n
  | 0, _ => rfl
  | n + 1, x => by simp [toBE, toBE_length n]

theorem word_zero_or (size : Word) : size = 0 ∨ size ≠ 0 := by
  by_cases h : size = 0
  · exact .inl h
  · exact .inr h

theorem tri_mem_of {P : Bytes → Prop} {x : M α} (h : KeepMem x) : Tri (fun m => P m.evm.memory) x (fun _ m => P m.evm.memory) :=
  h.tri P

/-- The copy instructions: ranges of the length of the written value. -/
theorem tri_write_same {start size : Word} {v : Bytes} {rest : M Unit} (hv : v.length = size.toNat ∨ v.length ≤ size.toNat)
    (hr : KeepMem rest) {l : List (Word × Word)} (hl : (start, size) ∈ l) :
    Tri (fun m => Covers l m.evm.memory) (writeMemory start.toNat v >>= fun _ => rest)
      (fun _ m => Aligned m.evm.memory) := by
  refine tri_bind (tri_writeMemory (l := l) ?_) fun _ => tri_mem_of (P := Aligned) hr
  have hle : v.length ≤ size.toNat := by omega
  rcases word_zero_or size with h | h
  · left; subst h; exact List.length_eq_zero_iff.mp (by simpa using hle)
  · exact .inr ⟨(start, size), hl, h, rfl, hle⟩
end

/-- The property of an instruction proved in this file. -/
abbrev KeepsAligned (x : M Unit) : Prop := Tri (fun m => Aligned m.evm.memory) x (fun _ m => Aligned m.evm.memory)

theorem KeepMem.aligned {x : M Unit} (h : KeepMem x) : KeepsAligned x := h.tri Aligned

theorem Covers.aligned {l : List (Word × Word)} {mem : Bytes} (h : Covers l mem) : Aligned mem := h.1

/-- Instructions that expand memory and then leave it alone. -/
theorem tri_covers_keep {α : Type} {l : List (Word × Word)} {x : M α} (h : KeepMem x) :
    Tri (fun m => Covers l m.evm.memory) x (fun _ m => Aligned m.evm.memory) :=
  fun m a m' hp hx => by dsimp only at hp ⊢; rw [h m a m' hx]; exact hp.1

macro "kal" : tactic => `(tactic| with_reducible refine tri_bind (tri_mem_of (P := Aligned) (by kwalk)) fun _ => ?_)
macro "kpl" l:term "," e:term : tactic =>
  `(tactic| with_reducible refine tri_bind (tri_mem_of (P := Planned $l $e) (by kwalk)) fun _ => ?_)
macro "kcov" l:term : tactic =>
  `(tactic| with_reducible refine tri_bind (tri_mem_of (P := Covers $l) (by kwalk)) fun _ => ?_)

theorem al_calldatacopy : KeepsAligned opCalldatacopy := by
  unfold opCalldatacopy
  refine tri_bind (tri_mem_of (P := Aligned) km_pop) fun start => ?_
  refine tri_bind (tri_mem_of (P := Aligned) km_pop) fun ds => ?_
  refine tri_bind (tri_mem_of (P := Aligned) km_pop) fun size => ?_
  refine tri_bind (tri_extendCost [(start, size)]) fun ext => ?_
  refine tri_bind (tri_mem_of (P := Planned [(start, size)] ext) (km_chargeGas _)) fun _ => ?_
  refine tri_bind (tri_expandMemory _ _) fun _ => ?_
  refine tri_bind (tri_mem_of (P := Covers [(start, size)]) km_getEvm) fun evm => ?_
  exact tri_write_same (.inl (bufferRead_length _ _ _)) (km_incPc 1) (by simp)

theorem al_codecopy : KeepsAligned opCodecopy := by
  unfold opCodecopy
  refine tri_bind (tri_mem_of (P := Aligned) km_pop) fun start => ?_
  refine tri_bind (tri_mem_of (P := Aligned) km_pop) fun ds => ?_
  refine tri_bind (tri_mem_of (P := Aligned) km_pop) fun size => ?_
  refine tri_bind (tri_extendCost [(start, size)]) fun ext => ?_
  refine tri_bind (tri_mem_of (P := Planned [(start, size)] ext) (km_chargeGas _)) fun _ => ?_
  refine tri_bind (tri_expandMemory _ _) fun _ => ?_
  refine tri_bind (tri_mem_of (P := Covers [(start, size)]) km_getEvm) fun evm => ?_
  exact tri_write_same (.inl (bufferRead_length _ _ _)) (km_incPc 1) (by simp)

theorem al_extcodecopy : KeepsAligned opExtcodecopy := by
  unfold opExtcodecopy
  refine tri_bind (tri_mem_of (P := Aligned) km_pop) fun a => ?_
  refine tri_bind (tri_mem_of (P := Aligned) km_pop) fun start => ?_
  refine tri_bind (tri_mem_of (P := Aligned) km_pop) fun ds => ?_
  refine tri_bind (tri_mem_of (P := Aligned) km_pop) fun size => ?_
  refine tri_bind (tri_extendCost [(start, size)]) fun ext => ?_
  refine tri_bind (tri_mem_of (P := Planned [(start, size)] ext) (km_accessAddress _ _)) fun _ => ?_
  refine tri_bind (tri_mem_of (P := Planned [(start, size)] ext) (km_chargeGas _)) fun _ => ?_
  refine tri_bind (tri_expandMemory _ _) fun _ => ?_
  refine tri_bind (tri_mem_of (P := Covers [(start, size)]) km_getState) fun evm => ?_
  exact tri_write_same (.inl (bufferRead_length _ _ _)) (km_incPc 1) (by simp)

theorem al_returndatacopy : KeepsAligned opReturndatacopy := by
  unfold opReturndatacopy
  refine tri_bind (tri_mem_of (P := Aligned) km_pop) fun start => ?_
  refine tri_bind (tri_mem_of (P := Aligned) km_pop) fun ds => ?_
  refine tri_bind (tri_mem_of (P := Aligned) km_pop) fun size => ?_
  refine tri_bind (tri_extendCost [(start, size)]) fun ext => ?_
  refine tri_bind (tri_mem_of (P := Planned [(start, size)] ext) (km_chargeGas _)) fun _ => ?_
  refine tri_bind (tri_mem_of (P := Planned [(start, size)] ext) km_getEvm) fun evm => ?_
  split
  · exact tri_raiseHalt _ _
  refine tri_bind (tri_expandMemory _ _) fun _ => ?_
  -- the slice has the length asked for, or is shorter
  intro m b m' hp hx
  rw [bind_eq] at hx
  rcases u256_cases (ds.toNat + size.toNat) m with ⟨hlt, he⟩ | ⟨hle, he⟩
  · rw [he] at hx
    simp only at hx
    have hs : (BitVec.ofNat 256 (ds.toNat + size.toNat)).toNat = ds.toNat + size.toNat := by
      simp [Nat.mod_eq_of_lt hlt]
    rw [hs] at hx
    exact tri_write_same (.inr (slice_length _ _ _)) (km_incPc 1) (by simp) m b m' hp hx
  · rw [he] at hx; cases hx

theorem al_mstore : KeepsAligned opMstore := by
  unfold opMstore
  refine tri_bind (tri_mem_of (P := Aligned) km_pop) fun start => ?_
  refine tri_bind (tri_mem_of (P := Aligned) km_pop) fun v => ?_
  refine tri_bind (tri_extendCost [(start, 32)]) fun ext => ?_
  refine tri_bind (tri_mem_of (P := Planned [(start, 32)] ext) (km_chargeGas _)) fun _ => ?_
  refine tri_bind (tri_expandMemory _ _) fun _ => ?_
  exact tri_write_same (size := 32) (.inl (by simp [wordBytes, toBE_length])) (km_incPc 1) (by simp)

theorem al_mstore8 : KeepsAligned opMstore8 := by
  unfold opMstore8
  refine tri_bind (tri_mem_of (P := Aligned) km_pop) fun start => ?_
  refine tri_bind (tri_mem_of (P := Aligned) km_pop) fun v => ?_
  refine tri_bind (tri_extendCost [(start, 1)]) fun ext => ?_
  refine tri_bind (tri_mem_of (P := Planned [(start, 1)] ext) (km_chargeGas _)) fun _ => ?_
  refine tri_bind (tri_expandMemory _ _) fun _ => ?_
  exact tri_write_same (size := 1) (.inl (by simp)) (km_incPc 1) (by simp)

theorem al_mcopy : KeepsAligned opMcopy := by
  unfold opMcopy
  refine tri_bind (tri_mem_of (P := Aligned) km_pop) fun dst => ?_
  refine tri_bind (tri_mem_of (P := Aligned) km_pop) fun src => ?_
  refine tri_bind (tri_mem_of (P := Aligned) km_pop) fun size => ?_
  refine tri_bind (tri_extendCost [(src, size), (dst, size)]) fun ext => ?_
  refine tri_bind (tri_mem_of (P := Planned [(src, size), (dst, size)] ext) (km_chargeGas _)) fun _ => ?_
  refine tri_bind (tri_expandMemory _ _) fun _ => ?_
  refine tri_bind (tri_mem_of (P := Covers [(src, size), (dst, size)]) km_getEvm) fun evm => ?_
  exact tri_write_same (.inr (slice_length _ _ _)) (km_incPc 1) (by simp)

theorem al_mload : KeepsAligned opMload := by
  unfold opMload
  refine tri_bind (tri_mem_of (P := Aligned) km_pop) fun start => ?_
  refine tri_bind (tri_extendCost [(start, 32)]) fun ext => ?_
  refine tri_bind (tri_mem_of (P := Planned [(start, 32)] ext) (km_chargeGas _)) fun _ => ?_
  refine tri_bind (tri_expandMemory _ _) fun _ => ?_
  exact tri_covers_keep (by kwalk)

theorem al_keccak (E : Env) : KeepsAligned (opKeccak E) := by
  unfold opKeccak
  refine tri_bind (tri_mem_of (P := Aligned) km_pop) fun start => ?_
  refine tri_bind (tri_mem_of (P := Aligned) km_pop) fun size => ?_
  refine tri_bind (tri_extendCost [(start, size)]) fun ext => ?_
  refine tri_bind (tri_mem_of (P := Planned [(start, size)] ext) (km_chargeGas _)) fun _ => ?_
  refine tri_bind (tri_expandMemory _ _) fun _ => ?_
  exact tri_covers_keep (by kwalk)

theorem al_log (n : Nat) : KeepsAligned (opLog n) := by
  unfold opLog
  refine tri_bind (tri_mem_of (P := Aligned) km_pop) fun start => ?_
  refine tri_bind (tri_mem_of (P := Aligned) km_pop) fun size => ?_
  refine tri_bind (tri_mem_of (P := Aligned) (km_popN n)) fun topics => ?_
  refine tri_bind (tri_extendCost [(start, size)]) fun ext => ?_
  refine tri_bind (tri_mem_of (P := Planned [(start, size)] ext) (km_chargeGas _)) fun _ => ?_
  refine tri_bind (tri_expandMemory _ _) fun _ => ?_
  exact tri_covers_keep (by kwalk)

theorem al_return : KeepsAligned opReturn := by
  unfold opReturn
  refine tri_bind (tri_mem_of (P := Aligned) km_pop) fun start => ?_
  refine tri_bind (tri_mem_of (P := Aligned) km_pop) fun size => ?_
  refine tri_bind (tri_extendCost [(start, size)]) fun ext => ?_
  refine tri_bind (tri_mem_of (P := Planned [(start, size)] ext) (km_chargeGas _)) fun _ => ?_
  refine tri_bind (tri_expandMemory _ _) fun _ => ?_
  exact tri_covers_keep (by kwalk)

theorem al_revert : KeepsAligned opRevert := by
  unfold opRevert
  refine tri_bind (tri_mem_of (P := Aligned) km_pop) fun start => ?_
  refine tri_bind (tri_mem_of (P := Aligned) km_pop) fun size => ?_
  refine tri_bind (tri_extendCost [(start, size)]) fun ext => ?_
  refine tri_bind (tri_mem_of (P := Planned [(start, size)] ext) (km_chargeGas _)) fun _ => ?_
  refine tri_bind (tri_expandMemory _ _) fun _ => ?_
  exact tri_covers_keep (by kwalk)

theorem km_genericCreate (pcm : Sub) (e : Word) (a : Address) (s z : Word) : KeepMem (genericCreate pcm e a s z) := by
  unfold genericCreate; kwalk

theorem al_create (E : Env) (pcm : Sub) : KeepsAligned (opCreate E pcm) := by
  unfold opCreate
  refine tri_bind (tri_mem_of (P := Aligned) km_pop) fun _ => ?_
  refine tri_bind (tri_mem_of (P := Aligned) km_pop) fun start => ?_
  refine tri_bind (tri_mem_of (P := Aligned) km_pop) fun size => ?_
  refine tri_bind (tri_extendCost [(start, size)]) fun ext => ?_
  refine tri_bind (tri_mem_of (P := Planned [(start, size)] ext) km_getState) fun _ => ?_
  refine tri_bind (tri_mem_of (P := Planned [(start, size)] ext) (km_chargeGas _)) fun _ => ?_
  refine tri_bind (tri_expandMemory _ _) fun _ => ?_
  exact tri_covers_keep (km_bind km_getEvm fun _ => km_bind km_getState fun _ =>
    km_bind (km_genericCreate _ _ _ _ _) fun _ => km_incPc _)

theorem al_create2 (E : Env) (pcm : Sub) : KeepsAligned (opCreate2 E pcm) := by
  unfold opCreate2
  refine tri_bind (tri_mem_of (P := Aligned) km_pop) fun _ => ?_
  refine tri_bind (tri_mem_of (P := Aligned) km_pop) fun start => ?_
  refine tri_bind (tri_mem_of (P := Aligned) km_pop) fun size => ?_
  refine tri_bind (tri_mem_of (P := Aligned) km_pop) fun salt => ?_
  refine tri_bind (tri_extendCost [(start, size)]) fun ext => ?_
  refine tri_bind (tri_mem_of (P := Planned [(start, size)] ext) km_getState) fun _ => ?_
  refine tri_bind (tri_mem_of (P := Planned [(start, size)] ext) (km_chargeGas _)) fun _ => ?_
  refine tri_bind (tri_expandMemory _ _) fun _ => ?_
  exact tri_covers_keep (km_bind km_getEvm fun _ => km_bind (km_genericCreate _ _ _ _ _) fun _ => km_incPc _)

theorem al_genericCall (pm : Sub) (a : CallArgs) (x : Word × Word) {os oz : Word} (ho : a.outputStart = os)
    (hz : a.outputSize = oz) :
    Tri (fun m => Covers [x, (os, oz)] m.evm.memory) (genericCall pm a >>= fun _ => incPc 1)
      (fun _ m => Aligned m.evm.memory) := by
  subst ho hz
  refine tri_bind ?_ fun _ => tri_mem_of (P := Aligned) (km_incPc 1)
  unfold genericCall
  refine tri_bind (tri_mem_of (P := Covers [x, (a.outputStart, a.outputSize)]) (km_setReturnData _)) fun _ => ?_
  refine tri_bind (tri_mem_of (P := Covers [x, (a.outputStart, a.outputSize)]) km_getEvm) fun evm => ?_
  split
  · exact tri_covers_keep (by kwalk)
  dsimp only
  refine tri_bind (tri_mem_of (P := Covers [x, (a.outputStart, a.outputSize)]) (km_runSub _ _)) fun child => ?_
  have hlast : Tri (fun m => Covers [x, (a.outputStart, a.outputSize)] m.evm.memory)
      (u256 child.output.length >>= fun outLen =>
        writeMemory a.outputStart.toNat (child.output.take (min a.outputSize.toNat outLen.toNat)))
      (fun _ m => Aligned m.evm.memory) := by
    refine tri_bind (tri_mem_of (P := Covers [x, (a.outputStart, a.outputSize)]) (km_u256 _)) fun outLen => ?_
    have := tri_write_same (start := a.outputStart) (size := a.outputSize) (rest := pure ())
      (v := child.output.take (min a.outputSize.toNat outLen.toNat)) (l := [x, (a.outputStart, a.outputSize)])
      (.inr (by simp only [List.length_take]; omega)) (km_pure _) (by simp)
    intro m b m' hp hx
    exact this m () m' hp (by rw [bind_eq, hx]; rfl)
  split
  · refine tri_bind (tri_mem_of (P := Covers [x, (a.outputStart, a.outputSize)]) (km_incError _)) fun _ => ?_
    refine tri_bind (tri_mem_of (P := Covers [x, (a.outputStart, a.outputSize)]) (km_setReturnData _)) fun _ => ?_
    exact tri_bind (tri_mem_of (P := Covers [x, (a.outputStart, a.outputSize)]) (km_push _)) fun _ => hlast
  · refine tri_bind (tri_mem_of (P := Covers [x, (a.outputStart, a.outputSize)]) (km_incSuccess _)) fun _ => ?_
    refine tri_bind (tri_mem_of (P := Covers [x, (a.outputStart, a.outputSize)]) (km_setReturnData _)) fun _ => ?_
    exact tri_bind (tri_mem_of (P := Covers [x, (a.outputStart, a.outputSize)]) (km_push _)) fun _ => hlast

theorem al_call (pm : Sub) : KeepsAligned (opCall pm) := by
  unfold opCall
  refine tri_bind (tri_mem_of (P := Aligned) km_pop) fun gas => ?_
  refine tri_bind (tri_mem_of (P := Aligned) km_pop) fun to => ?_
  refine tri_bind (tri_mem_of (P := Aligned) km_pop) fun value => ?_
  refine tri_bind (tri_mem_of (P := Aligned) km_pop) fun is => ?_
  refine tri_bind (tri_mem_of (P := Aligned) km_pop) fun iz => ?_
  refine tri_bind (tri_mem_of (P := Aligned) km_pop) fun os => ?_
  refine tri_bind (tri_mem_of (P := Aligned) km_pop) fun oz => ?_
  dsimp only
  refine tri_bind (tri_extendCost [(is, iz), (os, oz)]) fun ext => ?_
  refine tri_bind (tri_mem_of (P := Planned [(is, iz), (os, oz)] ext) (km_accessAddress _ _)) fun ac => ?_
  refine tri_bind (tri_mem_of (P := Planned [(is, iz), (os, oz)] ext) (km_accessDelegation _)) fun ⟨dp, ca, code, dc⟩ => ?_
  dsimp only
  refine tri_bind (tri_mem_of (P := Planned [(is, iz), (os, oz)] ext) km_getState) fun s => ?_
  refine tri_bind (tri_mem_of (P := Planned [(is, iz), (os, oz)] ext) km_getEvm) fun evm => ?_
  refine tri_bind (tri_mem_of (P := Planned [(is, iz), (os, oz)] ext) (km_chargeGas _)) fun _ => ?_
  split
  · exact tri_raiseHalt _ _
  refine tri_bind (tri_expandMemory _ _) fun _ => ?_
  split
  · exact tri_covers_keep (by kwalk)
  · exact al_genericCall _ _ _ rfl rfl

theorem al_callcode (pm : Sub) : KeepsAligned (opCallcode pm) := by
  unfold opCallcode
  refine tri_bind (tri_mem_of (P := Aligned) km_pop) fun gas => ?_
  refine tri_bind (tri_mem_of (P := Aligned) km_pop) fun to => ?_
  refine tri_bind (tri_mem_of (P := Aligned) km_pop) fun value => ?_
  refine tri_bind (tri_mem_of (P := Aligned) km_pop) fun is => ?_
  refine tri_bind (tri_mem_of (P := Aligned) km_pop) fun iz => ?_
  refine tri_bind (tri_mem_of (P := Aligned) km_pop) fun os => ?_
  refine tri_bind (tri_mem_of (P := Aligned) km_pop) fun oz => ?_
  dsimp only
  refine tri_bind (tri_extendCost [(is, iz), (os, oz)]) fun ext => ?_
  refine tri_bind (tri_mem_of (P := Planned [(is, iz), (os, oz)] ext) (km_accessAddress _ _)) fun ac => ?_
  refine tri_bind (tri_mem_of (P := Planned [(is, iz), (os, oz)] ext) (km_accessDelegation _)) fun ⟨dp, ca, code, dc⟩ => ?_
  dsimp only
  refine tri_bind (tri_mem_of (P := Planned [(is, iz), (os, oz)] ext) km_getEvm) fun evm => ?_
  refine tri_bind (tri_mem_of (P := Planned [(is, iz), (os, oz)] ext) km_getState) fun s => ?_
  refine tri_bind (tri_mem_of (P := Planned [(is, iz), (os, oz)] ext) (km_chargeGas _)) fun _ => ?_
  refine tri_bind (tri_expandMemory _ _) fun _ => ?_
  split
  · exact tri_covers_keep (by kwalk)
  · exact al_genericCall _ _ _ rfl rfl

theorem al_delegatecall (pm : Sub) : KeepsAligned (opDelegatecall pm) := by
  unfold opDelegatecall
  refine tri_bind (tri_mem_of (P := Aligned) km_pop) fun gas => ?_
  refine tri_bind (tri_mem_of (P := Aligned) km_pop) fun to => ?_
  refine tri_bind (tri_mem_of (P := Aligned) km_pop) fun is => ?_
  refine tri_bind (tri_mem_of (P := Aligned) km_pop) fun iz => ?_
  refine tri_bind (tri_mem_of (P := Aligned) km_pop) fun os => ?_
  refine tri_bind (tri_mem_of (P := Aligned) km_pop) fun oz => ?_
  dsimp only
  refine tri_bind (tri_extendCost [(is, iz), (os, oz)]) fun ext => ?_
  refine tri_bind (tri_mem_of (P := Planned [(is, iz), (os, oz)] ext) (km_accessAddress _ _)) fun ac => ?_
  refine tri_bind (tri_mem_of (P := Planned [(is, iz), (os, oz)] ext) (km_accessDelegation _)) fun ⟨dp, ca, code, dc⟩ => ?_
  dsimp only
  refine tri_bind (tri_mem_of (P := Planned [(is, iz), (os, oz)] ext) km_getEvm) fun evm => ?_
  refine tri_bind (tri_mem_of (P := Planned [(is, iz), (os, oz)] ext) km_getState) fun s => ?_
  refine tri_bind (tri_mem_of (P := Planned [(is, iz), (os, oz)] ext) (km_chargeGas _)) fun _ => ?_
  refine tri_bind (tri_expandMemory _ _) fun _ => ?_
  exact al_genericCall _ _ _ rfl rfl

theorem al_staticcall (pm : Sub) : KeepsAligned (opStaticcall pm) := by
  unfold opStaticcall
  refine tri_bind (tri_mem_of (P := Aligned) km_pop) fun gas => ?_
  refine tri_bind (tri_mem_of (P := Aligned) km_pop) fun to => ?_
  refine tri_bind (tri_mem_of (P := Aligned) km_pop) fun is => ?_
  refine tri_bind (tri_mem_of (P := Aligned) km_pop) fun iz => ?_
  refine tri_bind (tri_mem_of (P := Aligned) km_pop) fun os => ?_
  refine tri_bind (tri_mem_of (P := Aligned) km_pop) fun oz => ?_
  dsimp only
  refine tri_bind (tri_extendCost [(is, iz), (os, oz)]) fun ext => ?_
  refine tri_bind (tri_mem_of (P := Planned [(is, iz), (os, oz)] ext) (km_accessAddress _ _)) fun ac => ?_
  refine tri_bind (tri_mem_of (P := Planned [(is, iz), (os, oz)] ext) (km_accessDelegation _)) fun ⟨dp, ca, code, dc⟩ => ?_
  dsimp only
  refine tri_bind (tri_mem_of (P := Planned [(is, iz), (os, oz)] ext) km_getEvm) fun evm => ?_
  refine tri_bind (tri_mem_of (P := Planned [(is, iz), (os, oz)] ext) km_getState) fun s => ?_
  refine tri_bind (tri_mem_of (P := Planned [(is, iz), (os, oz)] ext) (km_chargeGas _)) fun _ => ?_
  refine tri_bind (tri_expandMemory _ _) fun _ => ?_
  exact al_genericCall _ _ _ rfl rfl

set_option linter.unusedSimpArgs false in
set_option maxHeartbeats 2000000 in
/-- Every instruction keeps memory aligned. -/
theorem opStep_aligned (E : Env) (pm pcm : Sub) (op : Op) : KeepsAligned (opStep E pm pcm op) := by
  cases op
  case calldatacopy => exact al_calldatacopy
  case codecopy => exact al_codecopy
  case extcodecopy => exact al_extcodecopy
  case returndatacopy => exact al_returndatacopy
  case mstore => exact al_mstore
  case mstore8 => exact al_mstore8
  case mcopy => exact al_mcopy
  case mload => exact al_mload
  case keccak => exact al_keccak E
  case log n => exact al_log n
  case ret => exact al_return
  case revert => exact al_revert
  case create => exact al_create E _
  case create2 => exact al_create2 E _
  case call => exact al_call _
  case callcode => exact al_callcode _
  case delegatecall => exact al_delegatecall _
  case staticcall => exact al_staticcall _
  all_goals
    refine KeepMem.aligned ?_
    dsimp only [opStep]
    simp only [opStop, opAdd, opMul, opSub, opDiv, opSdiv, opMod, opSmod, opAddmod, opMulmod, opExp, opSignextend,
      opLt, opGt, opSlt, opSgt, opEq, opIszero, opAnd, opOr, opXor, opNot, opByte, opShl, opShr, opSar, opClz,
      opAddress, opBalance, opOrigin, opCaller, opCallvalue, opCalldataload, opCalldatasize,
      opCodesize, opGasprice, opExtcodesize, opReturndatasize,
      opExtcodehash, opBlockhash, opCoinbase, opTimestamp, opNumber, opPrevrandao, opGaslimit,
      opChainid, opSelfbalance, opBasefee, opBlobhash, opBlobbasefee, opPop, opSload,
      opJump, opJumpi, opPc, opMsize, opGas, opJumpdest, opTload, opPush, opDup, opSwap, opSstore, opTstore,
      opSelfdestruct]
    kwalk

end Verif
