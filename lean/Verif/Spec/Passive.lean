import Verif.Model.Fork
/-!
Specification for C82: what nobody but its owner may do to an account.
-/
namespace Verif.Spec

/-- The bytes of SSTORE, CREATE, CALL, CALLCODE, DELEGATECALL, CREATE2, STATICCALL and SELFDESTRUCT: the instructions by which code can
write its storage, send ether, call, create or destroy. -/
def actingBytes : List UInt8 := [0x55, 0xf0, 0xf1, 0xf2, 0xf4, 0xf5, 0xfa, 0xff]

/-- Code that can do nothing to its own account: it has none of these bytes, and it does not begin like a delegation to other code
(EIP-7702). The main case is no code at all: an account that is held by a key. -/
structure Passive (code : Bytes) : Prop where
  inert : ∀ b ∈ code, b ∉ actingBytes
  plain : code.take 3 ≠ [0xEF, 0x01, 0x00]

/-- The account exists for good: it has sent a transaction, or it has code. (An address without either may yet become that of a new
contract.) Its code is passive. -/
structure Settled (s : State) (a : Address) : Prop where
  passive : Passive (getAccount s a).code
  used : (getAccount s a).nonce ≠ 0 ∨ (getAccount s a).code ≠ []

/-- From `s` to `s'` the account lost nothing: its balance did not fall; nonce, code and storage are the same. -/
structure Kept (a : Address) (s s' : State) : Prop where
  balance : (getAccount s a).balance.toNat ≤ (getAccount s' a).balance.toNat
  nonce : (getAccount s' a).nonce = (getAccount s a).nonce
  code : (getAccount s' a).code = (getAccount s a).code
  storage : ∀ k, getStorage s' a k = getStorage s a k

/-- A transaction that the account neither signed nor, by an EIP-7702 authorization, consented to. -/
structure Foreign (C : Crypto) (chainId : U64) (a : Address) (tx : Transaction) : Prop where
  sender : ∀ f, recoverSender C f chainId tx ≠ .ok a
  authority : ∀ auth ∈ tx.authorizations, recoverAuthority C auth ≠ some a

/-- None of the transactions of a block or of a history is the account's. (Every fork decodes a transaction as osaka does, if it decodes it at all.) -/
def ForeignAll (C : Crypto) (chainId : U64) (a : Address) (txs : List (LegacyTx ⊕ Bytes)) : Prop :=
  ∀ t ∈ txs, ∀ tx, decodeTransaction .osaka t = .ok tx → Foreign C chainId a tx

end Verif.Spec
