import Verif.Model.State
import Verif.Model.Evm
/-!
What the call and create instructions take from the stack and charge for, written down from the yellow paper and the
EIPs (150, 161, 2929, 3860, 7702) and not from the code: prices as numbers, memory in words.
-/
namespace Verif.Spec

/-- What a call pays for reaching an account. EIP-2929, since berlin: 100 for a warm account, 2600 for a cold one. EIP-150, since
tangerine_whistle: 700. Before: 40. -/
def accountPrice (f : Fork) (warm : List Address) (a : Address) : Nat :=
  if f.since .berlin then (if a ∈ warm then 100 else 2600) else if f.since .tangerineWhistle then 700 else 40

/-- EIP-7702: code of the form `0xef0100 ++ address` (23 bytes) delegates to the address. -/
def delegate (code : Bytes) : Option Address :=
  if code.length = 23 ∧ code.take 3 = [0xef, 0x01, 0x00] then some (BitVec.ofNat 160 (fromBE (code.drop 3))) else none

/-- The account that the code of `a` delegates to; since prague. -/
def delegateOf (s : State) (a : Address) : Option Address :=
  if s.fork.since .prague then delegate (getAccount s a).code else none

/-- Price of touching a callee: its own access, and that of the account it delegates to (the callee being warm then). -/
def calleePrice (s : State) (warm : List Address) (a : Address) : Nat :=
  accountPrice s.fork warm a +
    match delegateOf s a with
    | none => 0
    | some d => accountPrice s.fork (a :: warm) d

/-- Yellow paper: price of a memory of `w` words. -/
def memoryPrice (w : Nat) : Nat := 3 * w + w * w / 512

/-- The number of words needed to hold a byte range; an empty range needs none. -/
def wordsFor (start size : Word) : Nat := if size = 0 then 0 else (start.toNat + size.toNat + 31) / 32

/-- EIP-150: the most a call can forward out of `g`. -/
def allButOne64th (g : Nat) : Nat := g - g / 64

/-- The four call instructions. -/
inductive CallKind | call | callcode | delegatecall | staticcall
  deriving DecidableEq, Repr

/-- Their operands; `value` is 0 for the two that have none. -/
structure CallOperands where
  gas : Word
  address : Address
  value : Word
  inStart : Word
  inSize : Word
  outStart : Word
  outSize : Word
  rest : List Word
  deriving DecidableEq

/-- The operands on a stack (top first); addresses are the low 160 bits. -/
def callOperands : CallKind → List Word → Option CallOperands
  | .call, g :: a :: v :: i :: l :: o :: k :: rest => some ⟨g, a.setWidth 160, v, i, l, o, k, rest⟩
  | .callcode, g :: a :: v :: i :: l :: o :: k :: rest => some ⟨g, a.setWidth 160, v, i, l, o, k, rest⟩
  | .delegatecall, g :: a :: i :: l :: o :: k :: rest => some ⟨g, a.setWidth 160, 0, i, l, o, k, rest⟩
  | .staticcall, g :: a :: i :: l :: o :: k :: rest => some ⟨g, a.setWidth 160, 0, i, l, o, k, rest⟩
  | _, _ => none

/-- An account that does not exist, or exists but is empty. -/
def dead (s : State) (a : Address) : Prop := (getAccount s a).nonce = 0 ∧ (getAccount s a).balance = 0 ∧
  (getAccount s a).code = []

instance (s : State) (a : Address) : Decidable (dead s a) := inferInstanceAs (Decidable (_ ∧ _ ∧ _))

/-- Memory words of a frame after a call's input and output ranges were touched. -/
def callWords (m : Mach) (o : CallOperands) : Nat :=
  max (m.evm.memory.length / 32) (max (wordsFor o.inStart o.inSize) (wordsFor o.outStart o.outSize))

/-- The charge of 25000 for creating an account. EIP-161, since spurious_dragon: for a CALL that sends ether to a dead account.
Before: for a CALL to an account that does not exist, and before tangerine_whistle also for a CALLCODE by one that does not. -/
def newAccountCharged (k : CallKind) (m : Mach) (o : CallOperands) : Prop :=
  if m.world.state.fork.since .spuriousDragon then k = .call ∧ o.value ≠ 0 ∧ dead m.world.state o.address
  else (k = .call ∧ getAccountOptional m.world.state o.address = none) ∨
    (¬ m.world.state.fork.since .tangerineWhistle ∧ k = .callcode ∧ getAccountOptional m.world.state m.evm.message.currentTarget = none)

instance (k : CallKind) (m : Mach) (o : CallOperands) : Decidable (newAccountCharged k m o) := by
  unfold newAccountCharged; infer_instance

/-- Everything a call is charged for, except the gas it forwards. -/
def callCharges (k : CallKind) (m : Mach) (o : CallOperands) : Nat :=
  calleePrice m.world.state m.evm.accessedAddresses o.address +
    (if o.value ≠ 0 then 9000 else 0) +
    (if newAccountCharged k m o then 25000 else 0) +
    (memoryPrice (callWords m o) - memoryPrice (m.evm.memory.length / 32))

/-- Gas forwarded out of the caller's own: what was asked for; since tangerine_whistle at most all but one 64th of what the charges
leave. -/
def forwarded (k : CallKind) (m : Mach) (o : CallOperands) : Nat :=
  if m.world.state.fork.since .tangerineWhistle then min o.gas.toNat (allButOne64th (m.evm.gasLeft - callCharges k m o))
  else o.gas.toNat

/-- The 2300 units added by the protocol when ether is sent. -/
def stipend (o : CallOperands) : Nat := if o.value ≠ 0 then 2300 else 0

/-- The create instructions' operands; `salt` is `none` for CREATE. -/
structure CreateOperands where
  value : Word
  start : Word
  size : Word
  salt : Option Word
  rest : List Word
  deriving DecidableEq

def createOperands : Bool → List Word → Option CreateOperands
  | false, v :: s :: z :: rest => some ⟨v, s, z, none, rest⟩
  | true, v :: s :: z :: salt :: rest => some ⟨v, s, z, some salt, rest⟩
  | _, _ => none

/-- Everything a create is charged for, except the gas it forwards: 32000, two per word of init code (since
shanghai), six more per word for CREATE2 (hashing), and memory. -/
def createCharges (m : Mach) (o : CreateOperands) : Nat :=
  32000 + (if m.world.state.fork.since .shanghai then 2 * wordsFor 0 o.size else 0) + (if o.salt.isSome then 6 * wordsFor 0 o.size else 0) +
    (memoryPrice (max (m.evm.memory.length / 32) (wordsFor o.start o.size)) - memoryPrice (m.evm.memory.length / 32))

/-- What a create forwards: all but one 64th of what the charges leave, and before tangerine_whistle all of it. -/
def createForwarded (m : Mach) (o : CreateOperands) : Nat :=
  if m.world.state.fork.since .tangerineWhistle then allButOne64th (m.evm.gasLeft - createCharges m o)
  else m.evm.gasLeft - createCharges m o

/-- `f` is given the procedure that runs messages. Its result depends on that procedure only at messages satisfying
`P`: it sends no other message. -/
def OnlySends (P : Message → Prop) (f : (Message → World → Except (Exn × World) (Evm × World)) → Res Unit) : Prop :=
  ∀ run run', (∀ msg w, P msg → run msg w = run' msg w) → f run = f run'

end Verif.Spec
