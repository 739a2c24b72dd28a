import Verif.Spec.Calls
import Verif.Model.Rlp
/-! Addresses of new contracts, and when an address is free. -/
namespace Verif.Spec

/-- `size` bytes of memory from `start` on; memory beyond its end reads as zero. -/
def memoryRange (m : Mach) (start size : Word) : Bytes :=
  (List.range size.toNat).map fun i => (m.evm.memory[start.toNat + i]?).getD 0

/-- Yellow paper, section 7, and EIP-1014: the low 160 bits of the hash of the creator and its nonce (CREATE), or of the
creator, a salt and the hash of the init code (CREATE2). -/
def newAddress (E : Env) (m : Mach) (o : CreateOperands) : Address :=
  let self := m.evm.message.currentTarget
  BitVec.setWidth 160 <| E.crypto.keccak256 <|
    match o.salt with
    | none => Rlp.encode (.list [.ofAddress self, .ofNat (getAccount m.world.state self).nonce])
    | some salt => [0xff] ++ addressBytes self ++ wordBytes salt ++
        wordBytes (E.crypto.keccak256 (memoryRange m o.start o.size))

/-- EIP-684 and EIP-7610: an address at which no contract can be created. -/
def Taken (s : State) (a : Address) : Prop :=
  (getAccount s a).nonce ≠ 0 ∨ (getAccount s a).code ≠ [] ∨ ∃ k, getStorage s a k ≠ 0

/-- EIP-170, since spurious dragon, and EIP-3541, since london: what may be the code of a contract. -/
def ValidCode (f : Fork) (code : Bytes) : Prop :=
  (f.since .spuriousDragon = true → code.length ≤ 24576) ∧ (f.since .london = true → code.head? ≠ some 0xEF)

instance (f : Fork) (code : Bytes) : Decidable (ValidCode f code) := inferInstanceAs (Decidable (_ ∧ _))

/-- A create is not even tried: the endowment is not there, the nonce is exhausted, or the call stack is full. -/
def CreateRefused (m : Mach) (o : CreateOperands) : Prop :=
  let self := getAccount m.world.state m.evm.message.currentTarget
  self.balance < o.value ∨ self.nonce = 2 ^ 64 - 1 ∨ m.evm.message.depth ≥ 1024

end Verif.Spec
