import Verif.Model.Interpreter
import Verif.Spec.Calls
/-! EIP-7702 authorizations, as the EIP words them. -/
namespace Verif.Spec

/-- The order of the group secp256k1. -/
def secpOrder : Nat := 0xFFFFFFFFFFFFFFFFFFFFFFFFFFFFFFFEBAAEDCE6AF48A03BBFD25E8CD0364141

/-- What the authority signs: `keccak256(0x05 ++ rlp([chain_id, address, nonce]))`. -/
def authorizationHash (C : Crypto) (auth : Authorization) : Word :=
  C.keccak256 (0x05 :: Rlp.encode (.list [.ofNat auth.chainId.toNat, .bytes (addressBytes auth.address), .ofNat auth.nonce.toNat]))

/-- `a` signed the authorization, with a signature in canonical form. -/
def SignedBy (C : Crypto) (auth : Authorization) (a : Address) : Prop :=
  auth.yParity < 2 ∧ 0 < auth.r.toNat ∧ auth.r.toNat < secpOrder ∧ 0 < auth.s.toNat ∧ auth.s.toNat ≤ secpOrder / 2 ∧
  ∃ pub, C.secp256k1Recover auth.r auth.s (BitVec.ofNat 256 auth.yParity) (authorizationHash C auth) = some pub ∧
    a = (C.keccak256 pub).setWidth 160

/-- The authorization is for this chain (or any), its nonce is below 2^64 - 1, and `a` signed it. -/
def SignedFor (C : Crypto) (chainId : U64) (auth : Authorization) (a : Address) : Prop :=
  (auth.chainId.toNat = chainId.toNat ∨ auth.chainId = 0) ∧ auth.nonce.toNat < 2 ^ 64 - 1 ∧ SignedBy C auth a

/-- In state `s` the authorization takes effect, for the account `a`. -/
def Effective (C : Crypto) (chainId : U64) (s : State) (auth : Authorization) (a : Address) : Prop :=
  SignedFor C chainId auth a ∧ ((getAccount s a).code = [] ∨ delegate (getAccount s a).code ≠ none) ∧
  (getAccount s a).nonce = auth.nonce.toNat

/-- The code an effective authorization installs. -/
def designator (target : Address) : Bytes := if target = 0 then [] else [0xef, 0x01, 0x00] ++ addressBytes target

/-- The effect of one authorization: the state, and the refund. -/
structure AuthEffect (C : Crypto) (chainId : U64) (auth : Authorization) (s s' : State) (refund : Nat) : Prop where
  /-- The account of the authority. -/
  applied : ∀ a, Effective C chainId s auth a →
    getAccountOptional s' a = some ⟨(getAccount s a).nonce + 1, (getAccount s a).balance, designator auth.address⟩ ∧
    refund = (if getAccountOptional s a = none then 0 else 12500)
  /-- All other accounts. -/
  others : ∀ x, ¬ Effective C chainId s auth x → getAccountOptional s' x = getAccountOptional s x
  /-- No storage changes (except that of an account without nonce, which has none in a reachable state). -/
  storage : ∀ x, (getAccount s x).nonce ≠ 0 ∨ ¬ Effective C chainId s auth x → ∀ k, getStorage s' x k = getStorage s x k
  /-- An authorization without effect gives no refund. -/
  skipped : (∀ a, ¬ Effective C chainId s auth a) → refund = 0

/-- The effect of a list of authorizations. -/
inductive AuthEffects (C : Crypto) (chainId : U64) : List Authorization → State → State → Nat → Prop
  | nil (s : State) : AuthEffects C chainId [] s s 0
  | cons {auth r s s1 s' n m} : AuthEffect C chainId auth s s1 n → AuthEffects C chainId r s1 s' m →
      AuthEffects C chainId (auth :: r) s s' (n + m)

end Verif.Spec
