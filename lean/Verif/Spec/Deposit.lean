import Verif.Model.Fork
/-! Deposit events (EIP-6110). -/
namespace Verif.Spec

/-- A number as a 32-byte ABI word. -/
def abiWord (n : Nat) : Bytes := toBE 32 n

/-- The data of a deposit event: ABI encoding of five byte strings, with any padding. -/
def depositLayout (pubkey pad1 credentials amount pad2 signature index pad3 : Bytes) : Bytes :=
  abiWord 160 ++ (abiWord 256 ++ (abiWord 320 ++ (abiWord 384 ++ (abiWord 512 ++
    (abiWord 48 ++ (pubkey ++ (pad1 ++ (abiWord 32 ++ (credentials ++ (abiWord 8 ++ (amount ++ (pad2 ++
      (abiWord 96 ++ (signature ++ (abiWord 8 ++ (index ++ pad3))))))))))))))))

/-- `data` is a deposit event whose request is `r`. -/
def DepositEvent (data r : Bytes) : Prop :=
  ∃ pubkey pad1 credentials amount pad2 signature index pad3 : Bytes,
    pubkey.length = 48 ∧ pad1.length = 16 ∧ credentials.length = 32 ∧ amount.length = 8 ∧ pad2.length = 24 ∧
    signature.length = 96 ∧ index.length = 8 ∧ pad3.length = 24 ∧
    data = depositLayout pubkey pad1 credentials amount pad2 signature index pad3 ∧
    r = pubkey ++ credentials ++ amount ++ signature ++ index

/-- A log of the deposit contract with the deposit event's signature as first topic. -/
def IsDepositLog (l : Log) : Prop :=
  l.address = 0x00000000219ab540356cbb839cbe05303d7705fa ∧
  l.topics.head? = some 0x649bbc62d0e31342afea4e5cd82d4049e7e1ee912fc0889aa790803be39038c5

instance (l : Log) : Decidable (IsDepositLog l) := inferInstanceAs (Decidable (_ ∧ _))

/-- The requests of a list of logs: those of the deposit logs, in order; every one must be well-formed. -/
inductive Deposits : List Log → Bytes → Prop where
  | nil : Deposits [] []
  | skip {l : Log} {ls : List Log} {r : Bytes} (h : ¬ IsDepositLog l) (t : Deposits ls r) : Deposits (l :: ls) r
  | deposit {l : Log} {ls : List Log} {d r : Bytes} (h : IsDepositLog l) (e : DepositEvent l.data d) (t : Deposits ls r) :
      Deposits (l :: ls) (d ++ r)

/-- The receipts behind the keys of a block output, in order. -/
def ReceiptsAre (out : BlockOutput) (rs : List Receipt) : Prop :=
  out.receiptKeys.length = rs.length ∧
  ∀ (i : Nat) (k : Bytes) (r : Receipt), out.receiptKeys[i]? = some k → rs[i]? = some r →
    ∃ x, trieGet out.receiptsTrie k = some x ∧ decodeReceipt x = some r

end Verif.Spec
