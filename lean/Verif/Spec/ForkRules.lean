import Verif.Model.Blocks
/-! What the forks have, written down from the EIPs (C66), and the fields of the headers of the proof-of-stake forks (C67). -/
namespace Verif.Spec

/-- The opcodes of frontier, as ranges of bytes: arithmetic, comparison and bitwise operations, KECCAK256, environment and block
information, stack/memory/storage/flow, PUSH1..LOG4, CREATE..RETURN, SELFDESTRUCT. -/
def frontierOpcodes : List (Nat × Nat) :=
  [(0x00, 0x0b), (0x10, 0x1a), (0x20, 0x20), (0x30, 0x3c), (0x40, 0x45), (0x50, 0x5b), (0x60, 0xa4), (0xf0, 0xf3), (0xff, 0xff)]

/-- The opcodes added later: DELEGATECALL (EIP-7); RETURNDATASIZE and RETURNDATACOPY (211), STATICCALL (214), REVERT (140); SHL, SHR and
SAR (145), EXTCODEHASH (1052), CREATE2 (1014); CHAINID (1344), SELFBALANCE (1884); BASEFEE (3198); PUSH0 (3855); BLOBHASH (4844),
BLOBBASEFEE (7516), TLOAD and TSTORE (1153), MCOPY (5656); CLZ (7939). -/
def laterOpcodes : List (Nat × Fork) :=
  [(0xf4, .homestead), (0x3d, .byzantium), (0x3e, .byzantium), (0xfa, .byzantium), (0xfd, .byzantium),
   (0x1b, .constantinople), (0x1c, .constantinople), (0x1d, .constantinople), (0x3f, .constantinople), (0xf5, .constantinople),
   (0x46, .istanbul), (0x47, .istanbul), (0x48, .london),
   (0x5f, .shanghai), (0x49, .cancun), (0x4a, .cancun), (0x5c, .cancun), (0x5d, .cancun), (0x5e, .cancun), (0x1e, .osaka)]

/-- The byte is an opcode of the fork. -/
def HasOpcode (f : Fork) (b : Nat) : Prop :=
  (∃ r ∈ frontierOpcodes, r.1 ≤ b ∧ b ≤ r.2) ∨ ∃ o ∈ laterOpcodes, o.1 = b ∧ f.since o.2 = true

/-- The addresses of the precompiled contracts: 1 to 4; 5 to 8 since byzantium (EIP-196, 197, 198); 9 since istanbul (152); 10 since cancun
(4844); 11 to 17 since prague (2537); 256 since osaka (7951). -/
def HasPrecompile (f : Fork) (a : Nat) : Prop :=
  (1 ≤ a ∧ a ≤ 4) ∨ (f.since .byzantium = true ∧ 5 ≤ a ∧ a ≤ 8) ∨ (f.since .istanbul = true ∧ a = 9) ∨ (f.since .cancun = true ∧ a = 10) ∨ (f.since .prague = true ∧ 11 ≤ a ∧ a ≤ 17) ∨ (f.since .osaka = true ∧ a = 256)

/-- The types of transactions: 1 since berlin (EIP-2930); 2 since london (1559); 3 since cancun (4844); 4 since prague (7702). -/
def HasTxType (f : Fork) (t : Nat) : Prop :=
  (f.since .berlin = true ∧ t = 1) ∨ (f.since .london = true ∧ t = 2) ∨ (f.since .cancun = true ∧ t = 3) ∨ (f.since .prague = true ∧ t = 4)

/-- The fields of a header that exist in the fork agree. -/
structure SameFields (f : Fork) (h h' : Header) : Prop where
  parentHash : h.parentHash = h'.parentHash
  ommersHash : h.ommersHash = h'.ommersHash
  coinbase : h.coinbase = h'.coinbase
  stateRoot : h.stateRoot = h'.stateRoot
  transactionsRoot : h.transactionsRoot = h'.transactionsRoot
  receiptRoot : h.receiptRoot = h'.receiptRoot
  bloom : h.bloom = h'.bloom
  difficulty : h.difficulty = h'.difficulty
  number : h.number = h'.number
  gasLimit : h.gasLimit = h'.gasLimit
  gasUsed : h.gasUsed = h'.gasUsed
  timestamp : h.timestamp = h'.timestamp
  extraData : h.extraData = h'.extraData
  prevRandao : h.prevRandao = h'.prevRandao
  nonce : h.nonce = h'.nonce
  baseFeePerGas : h.baseFeePerGas = h'.baseFeePerGas
  withdrawalsRoot : f.since .shanghai = true → h.withdrawalsRoot = h'.withdrawalsRoot
  blobGasUsed : f.since .cancun = true → h.blobGasUsed = h'.blobGasUsed
  excessBlobGas : f.since .cancun = true → h.excessBlobGas = h'.excessBlobGas
  parentBeaconBlockRoot : f.since .cancun = true → h.parentBeaconBlockRoot = h'.parentBeaconBlockRoot
  requestsHash : f.since .prague = true → h.requestsHash = h'.requestsHash

end Verif.Spec
