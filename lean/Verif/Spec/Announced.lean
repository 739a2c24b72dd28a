import Verif.Spec.Reads
import Verif.Model.PowEvm
/-! Specification for C83: what a header says about its block, by the instruction that reports it to code. -/
namespace Verif.Spec
open Verif.Pow

/-- Proof of stake: the header of a block of fork `f`. -/
def announced (chainId : U64) (f : Fork) (h : Header) : Op → Option Nat
  | .coinbase => some h.coinbase.toNat
  | .timestamp => some h.timestamp.toNat
  | .number => some h.number
  | .prevrandao => some h.prevRandao.toNat
  | .gaslimit => some h.gasLimit
  | .chainid => some chainId.toNat
  | .basefee => some h.baseFeePerGas
  | .blobbasefee => some (calculateBlobGasPrice f h.excessBlobGas)
  | _ => none

/-- Proof of work. There is no base fee before london and no blob fee; the byte of PREVRANDAO is that of DIFFICULTY. -/
def announcedPow (chainId : U64) (h : PowHeader) : Op → Option Nat
  | .coinbase => some h.coinbase.toNat
  | .timestamp => some h.timestamp.toNat
  | .number => some h.number
  | .prevrandao => some h.difficulty
  | .gaslimit => some h.gasLimit
  | .chainid => some chainId.toNat
  | .basefee => h.baseFeePerGas
  | _ => none

end Verif.Spec
