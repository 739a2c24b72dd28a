import Verif.Spec.Reads
import Verif.Lemmas.AccessRun
import Verif.Props.C49
import Verif.Spec.Sample
/-!
Property C71: the instructions that read the environment report it. The only hypothesis on the frame is the bound on the stack, which
C12 proves for all frames.
-/
namespace Verif.Props
open Verif Spec

variable (E : Env) (pm pcm : Sub) (m : Mach) (hlen : m.evm.stack.length ≤ 1024)
include hlen

private theorem pushed (w : Word) : (push w >>= fun _ => incPc 1) m =
    if m.evm.stack.length = 1024 then .err (.halt .stackOverflow) m
    else .ok () { m with evm := { m.evm with stack := w :: m.evm.stack, pc := m.evm.pc + 1 } } := by
  rw [bind_eq]; unfold push
  by_cases h : m.evm.stack.length = 1024
  · rw [if_pos h, if_pos h]
  · rw [if_neg h, if_neg h]; rfl

/-- **C71**, instructions without operands, in every fork. They run out of gas if the price cannot be paid. A number that is no 256-bit
number ends the program with an OverflowError. A full stack halts the frame. Otherwise the number is pushed, the price paid, and
nothing else changes. -/
theorem C71_reading (op : Op) (price value : Nat) (h : reading E m op = some (price, value)) :
    if m.evm.gasLeft < price then opStep E pm pcm op m = .err (.halt .outOfGas) m
    else if 2 ^ 256 ≤ value then ∃ m', opStep E pm pcm op m = .err (.crash .overflowError) m'
    else if m.evm.stack.length = 1024 then ∃ m', opStep E pm pcm op m = .err (.halt .stackOverflow) m'
    else ∃ w : Word, w.toNat = value ∧ opStep E pm pcm op m = .ok () { m with evm :=
      { m.evm with stack := w :: m.evm.stack, gasLeft := m.evm.gasLeft - price, pc := m.evm.pc + 1 } } := by
  have small : ∀ {n : Nat} (w : BitVec n), n ≤ 256 → ¬ 2 ^ 256 ≤ w.toNat := fun w hn h =>
    absurd (Nat.lt_of_lt_of_le w.isLt (Nat.le_trans (Nat.pow_le_pow_right (by decide) hn) h)) (Nat.lt_irrefl _)
  have ext : ∀ {n : Nat} (w : BitVec n), n ≤ 256 → (w.setWidth 256).toNat = w.toNat := fun w hn => by
    rw [BitVec.toNat_setWidth, Nat.mod_eq_of_lt (Nat.lt_of_not_le (small w hn))]
  have hu : ∀ k m, u256 k m = if k < 2 ^ 256 then .ok (BitVec.ofNat 256 k) m else .err (.crash .overflowError) m := fun _ _ => rfl
  have hg : ∀ m, getEvm m = .ok m.evm m := fun _ => rfl
  have hgs : ∀ m, getState m = .ok m.world.state m := fun _ => rfl
  have hr : ∀ m, randaoOrDifficulty E m =
      if m.world.state.fork.since .paris then .ok E.block.prevRandao m else u256 E.block.difficulty m := fun _ => rfl
  have fin : ∀ n : Nat, n < 2 ^ 256 → (BitVec.ofNat 256 n).toNat = n := fun n h => by rw [BitVec.toNat_ofNat, Nat.mod_eq_of_lt h]
  -- one instruction, given what it does once the price is paid
  have main : ∀ {price value : Nat} {op : M Unit} (f : M Word),
      op m = (chargeGas price >>= fun _ => f >>= fun w => push w >>= fun _ => incPc 1) m →
      (∀ m' : Mach, m' = { m with evm := { m.evm with gasLeft := m.evm.gasLeft - price } } →
        f m' = if value < 2 ^ 256 then .ok (BitVec.ofNat 256 value) m' else .err (.crash .overflowError) m') →
      if m.evm.gasLeft < price then op m = .err (.halt .outOfGas) m
      else if 2 ^ 256 ≤ value then ∃ m', op m = .err (.crash .overflowError) m'
      else if m.evm.stack.length = 1024 then ∃ m', op m = .err (.halt .stackOverflow) m'
      else ∃ w : Word, w.toNat = value ∧ op m = .ok () { m with evm :=
        { m.evm with stack := w :: m.evm.stack, gasLeft := m.evm.gasLeft - price, pc := m.evm.pc + 1 } } := by
    intro price value op f hop hf
    rw [hop, bind_eq]
    unfold chargeGas
    by_cases hgas : m.evm.gasLeft < price
    · rw [if_pos hgas, if_pos hgas]
    rw [if_neg hgas, if_neg hgas]
    dsimp only
    rw [bind_eq, hf _ rfl]
    by_cases hv : 2 ^ 256 ≤ value
    · rw [if_pos hv, if_neg (Nat.not_lt.mpr hv)]; exact ⟨_, rfl⟩
    rw [if_neg hv, if_pos (Nat.lt_of_not_le hv)]
    dsimp only
    rw [pushed _ (by exact hlen)]
    dsimp only
    by_cases hs : m.evm.stack.length = 1024
    · rw [if_pos hs, if_pos hs]; exact ⟨_, rfl⟩
    · rw [if_neg hs, if_neg hs]; exact ⟨_, fin _ (Nat.lt_of_not_le hv), rfl⟩
  have w256 : ∀ {n : Nat} (w : BitVec n), n ≤ 256 → ∀ m' : Mach, (if w.toNat < 2 ^ 256 then Res.ok (BitVec.ofNat 256 w.toNat) m' else .err (.crash .overflowError) m') =
      Res.ok (w.setWidth 256) m' := fun w hn m' => by
    rw [if_pos (Nat.lt_of_not_le (small w hn))]
    congr 1
    exact BitVec.eq_of_toNat_eq (by rw [fin _ (Nat.lt_of_not_le (small w hn)), ext w hn])
  have same : ∀ (w : Word) (m' : Mach), (if w.toNat < 2 ^ 256 then Res.ok (BitVec.ofNat 256 w.toNat) m' else .err (.crash .overflowError) m') =
      Res.ok w m' := fun w m' => by rw [w256 w (by decide) m', BitVec.setWidth_eq]
  cases op <;> simp only [reading, reduceCtorEq, Option.some.injEq, Prod.mk.injEq] at h <;> obtain ⟨rfl, rfl⟩ := h
  case address => exact main (getEvm >>= fun e => pure (addressWord e.message.currentTarget)) rfl fun m' h => by subst h; exact (w256 _ (by decide) _).symm
  case origin => exact main (pure (addressWord E.tx.origin)) rfl fun m' _ => (w256 _ (by decide) m').symm
  case caller => exact main (getEvm >>= fun e => pure (addressWord e.message.caller)) rfl fun m' h => by subst h; exact (w256 _ (by decide) _).symm
  case callvalue => exact main (getEvm >>= fun e => pure e.message.value) rfl fun m' h => by subst h; exact (same _ _).symm
  case calldatasize => exact main (getEvm >>= fun e => u256 e.message.data.length) rfl fun m' h => by subst h; rfl
  case codesize => exact main (getEvm >>= fun e => u256 e.code.length) rfl fun m' h => by subst h; rfl
  case gasprice => exact main (u256 E.tx.gasPrice) rfl fun m' _ => rfl
  case returndatasize => exact main (getEvm >>= fun e => u256 e.returnData.length) rfl fun m' h => by subst h; rfl
  case coinbase => exact main (pure (addressWord E.block.coinbase)) rfl fun m' _ => (w256 _ (by decide) m').symm
  case timestamp => exact main (pure E.block.time) rfl fun m' _ => (same _ _).symm
  case number => exact main (u256 E.block.number) rfl fun m' _ => rfl
  case prevrandao =>
    refine main (randaoOrDifficulty E) rfl fun m' e => ?_
    rw [hr, show m'.world = m.world by rw [e]]
    by_cases hp : m.world.state.fork.since .paris = true
    · rw [if_pos hp, if_pos hp]; exact (same _ _).symm
    · rw [if_neg hp, if_neg hp]; rfl
  case gaslimit => exact main (u256 E.block.blockGasLimit) rfl fun m' _ => rfl
  case chainid => exact main (pure (E.block.chainId.setWidth 256)) rfl fun m' _ => (w256 _ (by decide) m').symm
  case selfbalance =>
    exact main (getEvm >>= fun e => getState >>= fun s => pure (getAccount s e.message.currentTarget).balance) rfl
      fun m' h => by subst h; exact (same _ _).symm
  case basefee => exact main (u256 E.block.baseFeePerGas) rfl fun m' _ => rfl
  case blobbasefee =>
    exact main (getState >>= fun s => u256 (calculateBlobGasPrice s.fork E.block.excessBlobGas)) rfl fun m' h => by subst h; rfl
  case pc => exact main (getEvm >>= fun e => u256 e.pc) rfl fun m' h => by subst h; rfl
  case msize => exact main (getEvm >>= fun e => u256 e.memory.length) rfl fun m' h => by subst h; rfl
  case gas => exact main (getEvm >>= fun e => u256 e.gasLeft) rfl fun m' h => by subst h; rfl

/-- **C71**, instructions with one operand. -/
theorem C71_lookup (op : Op) (price : Nat) (f : Word → Word) (h : lookedUp E m op = some (price, f))
    (x : Word) (rest : List Word) (hst : m.evm.stack = x :: rest) :
    if m.evm.gasLeft < price then ∃ m', opStep E pm pcm op m = .err (.halt .outOfGas) m'
    else opStep E pm pcm op m = .ok () { m with evm :=
      { m.evm with stack := f x :: rest, gasLeft := m.evm.gasLeft - price, pc := m.evm.pc + 1 } } := by
  have hl : rest.length ≤ 1023 := by rw [hst] at hlen; simpa using hlen
  cases op <;> simp only [lookedUp, reduceCtorEq, Option.some.injEq, Prod.mk.injEq] at h <;> obtain ⟨rfl, rfl⟩ := h
  all_goals
    simp only [opStep, opCalldataload, opBlobhash, opTload, bind_eq, pop, hst, chargeGas, GAS_VERY_LOW, GAS_BLOBHASH_OPCODE, GAS_WARM_ACCESS]
    split
    · exact ⟨_, rfl⟩
    · simp only [getEvm, getTransient]; rw [push_run (by simpa using hl)]
      simp only [incPc, fromBE_bufferRead, List.getD_eq_getElem?_getD]
      first
        | done
        | rfl
        | (cases E.tx.blobVersionedHashes[x.toNat]? <;> rfl)

/-- **C71**, BLOCKHASH: 20 units of gas, and the hash of the block; an IndexError if it is not among the hashes that the block was given
(C31 says when it is). -/
theorem C71_blockhash (x : Word) (rest : List Word) (hst : m.evm.stack = x :: rest) :
    if m.evm.gasLeft < 20 then ∃ m', opStep E pm pcm .blockhash m = .err (.halt .outOfGas) m'
    else match ancestorHash E.block.blockHashes E.block.number x.toNat with
      | none => ∃ m', opStep E pm pcm .blockhash m = .err (.crash .indexError) m'
      | some w => opStep E pm pcm .blockhash m = .ok () { m with evm :=
          { m.evm with stack := w :: rest, gasLeft := m.evm.gasLeft - 20, pc := m.evm.pc + 1 } } := by
  have hl : rest.length ≤ 1023 := by rw [hst] at hlen; simpa using hlen
  have key : blockHashVal E.block.blockHashes E.block.number x.toNat =
      match ancestorHash E.block.blockHashes E.block.number x.toNat with | none => .error .indexError | some w => .ok w := by
    unfold blockHashVal ancestorHash
    generalize E.block.blockHashes = l
    generalize E.block.number = c
    generalize x.toNat = n
    by_cases h1 : n < c ∧ c - n ≤ 256
    · rw [if_pos h1, if_neg (by omega)]
      by_cases h2 : c - n ≤ l.length
      · rw [if_pos h2, List.getElem?_reverse (by omega), show l.length - 1 - (c - n - 1) = l.length - (c - n) by omega]
        cases l[l.length - (c - n)]? <;> rfl
      · rw [if_neg h2, List.getElem?_eq_none (by rw [List.length_reverse]; omega)]
    · rw [if_neg h1, if_pos (by omega)]
  simp only [opStep, opBlockhash, bind_eq, pop, hst, chargeGas, GAS_BLOCK_HASH]
  by_cases hg : m.evm.gasLeft < 20
  · rw [if_pos hg, if_pos hg]; exact ⟨_, rfl⟩
  rw [if_neg hg, if_neg hg, key]
  cases ancestorHash E.block.blockHashes E.block.number x.toNat with
  | none => exact ⟨_, rfl⟩
  | some w => simp only [liftCrash]; rw [push_run (by simpa using hl)]; rfl

omit hlen

/-- A frame for account `0xaa`, called by `0xee` with three bytes of data, in an environment with two blobs and three known block hashes. -/
def readEnv : Env := { Sample.env with
  block := { Sample.env.block with blockHashes := [7, 8, 9], difficulty := 2 ^ 256 }
  tx := { Sample.env.tx with blobVersionedHashes := [11, 12] } }
def readFrame (f : Fork) (stack : List Word) : Mach :=
  let w := Sample.worldOf [(0xaa, ⟨1, 55, []⟩)] []
  let msg := { Sample.callTo w 0xaa 1000 3 with data := [0xab, 0xcd, 0xef] }
  { evm := { initEvm msg with stack := stack }, world := { w with state := { w.state with fork := f } } }

/-- What a step pushes, or the exception it raises. -/
def pushes (E : Env) (m : Mach) (op : Op) : Option Exn × Option (Word × Nat) :=
  match opStep E (fun _ _ => .error (.outOfFuel, m.world)) (fun _ _ => .error (.outOfFuel, m.world)) op m with
  | .ok _ m' => (none, m'.evm.stack.head?.map (·, m'.evm.gasLeft))
  | .err e _ => (some e, none)

/-- Some of the instructions on this frame: SELFBALANCE, CALLER, GAS; CALLDATALOAD across the end of the data; BLOBHASH inside and outside
the list; BLOCKHASH of the grandparent and of the block itself; DIFFICULTY too large for a word, which PREVRANDAO does not look at. -/
example : pushes readEnv (readFrame .osaka []) .selfbalance = (none, some (55, 995)) ∧
    pushes readEnv (readFrame .osaka []) .caller = (none, some (0xee, 998)) ∧
    pushes readEnv (readFrame .osaka []) .gas = (none, some (998, 998)) ∧
    pushes readEnv (readFrame .osaka [1]) .calldataload = (none, some ((0xcdef * 256 ^ 30), 997)) ∧
    pushes readEnv (readFrame .osaka [1]) .blobhash = (none, some (12, 997)) ∧
    pushes readEnv (readFrame .osaka [2]) .blobhash = (none, some (0, 997)) ∧
    pushes readEnv (readFrame .osaka [98]) .blockhash = (none, some (8, 980)) ∧
    pushes readEnv (readFrame .osaka [100]) .blockhash = (none, some (0, 980)) ∧
    pushes readEnv (readFrame .osaka []) .prevrandao = (none, some (0, 998)) ∧
    pushes readEnv (readFrame .london []) .prevrandao = (some (.crash .overflowError), none) := by
  refine ⟨?_, ?_, ?_, ?_, ?_, ?_, ?_, ?_, ?_, ?_⟩ <;> decide +kernel

end Verif.Props
