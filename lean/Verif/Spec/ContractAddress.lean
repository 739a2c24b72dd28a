import Verif.Spec.Create
/-! Where contracts are created (yellow paper, section 7, and EIP-1014). -/
namespace Verif.Spec

/-- Who creates a contract, and by what: its nonce (creation transactions and CREATE), or a salt and the init code (CREATE2). -/
inductive Origin where
  | byNonce (creator : Address) (nonce : Nat)
  | bySalt (creator : Address) (salt : Word) (initCode : Bytes)
  deriving DecidableEq

/-- The bytes of which the hash is taken. -/
def Origin.preimage (keccak : Bytes → BitVec 256) : Origin → Bytes
  | .byNonce a n => Rlp.encode (.list [.bytes (toBE 20 a.toNat), .ofNat n])
  | .bySalt a salt code => 0xff :: (toBE 20 a.toNat ++ (toBE 32 salt.toNat ++ toBE 32 (keccak code).toNat))

/-- The address of the contract: the last 20 bytes of the hash. -/
def Origin.address (keccak : Bytes → BitVec 256) (o : Origin) : Address := BitVec.ofNat 160 ((keccak (o.preimage keccak)).toNat % 2 ^ 160)

/-- The init code that is hashed for the address. -/
def Origin.hashedCode : Origin → List Bytes
  | .byNonce _ _ => []
  | .bySalt _ _ code => [code]

/-- Nonces are words; those in the state even fit into 64 bits (C81). -/
def Origin.Sane : Origin → Prop
  | .byNonce _ n => n < 2 ^ 256
  | .bySalt _ _ _ => True

/-- No two of the given inputs have hashes with the same last 20 bytes. -/
def NoShortCollision (keccak : Bytes → BitVec 256) (l : List Bytes) : Prop :=
  ∀ x ∈ l, ∀ y ∈ l, (keccak x).toNat % 2 ^ 160 = (keccak y).toNat % 2 ^ 160 → x = y

instance (keccak : Bytes → BitVec 256) (l : List Bytes) : Decidable (NoShortCollision keccak l) := by unfold NoShortCollision; infer_instance

/-- The origin of the contract that a CREATE or CREATE2 asks for. -/
def originOf (m : Mach) (o : CreateOperands) : Origin :=
  let self := m.evm.message.currentTarget
  match o.salt with
  | none => .byNonce self (getAccount m.world.state self).nonce
  | some salt => .bySalt self salt (memoryRange m o.start o.size)

end Verif.Spec
