import Verif.Model.Blocks
/-! The bloom filter of the Yellow Paper, section 4.3.1. -/
namespace Verif.Spec

/-- Bit number `j` (0, 1 or 2) of an entry: the low 11 bits of the `j`-th pair of bytes of its hash. -/
def bloomBitOf (hash : Word) (j : Nat) : Nat := hash.toNat / 2 ^ (240 - 16 * j) % 2048

/-- What a log puts into the filter: its address (20 bytes) and its topics (32 bytes each). -/
def logEntries (l : Log) : List Bytes := addressBytes l.address :: l.topics.map wordBytes

/-- Bit `i` belongs to one of the entries of the logs. -/
def BloomBit (C : Crypto) (logs : List Log) (i : Nat) : Prop :=
  ∃ l ∈ logs, ∃ e ∈ logEntries l, ∃ j < 3, i = bloomBitOf (C.keccak256 e) j

end Verif.Spec
