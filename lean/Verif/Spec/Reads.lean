import Verif.Model.Ops
import Verif.Spec.Modexp
/-!
What the instructions that read the environment report, and their prices, from the yellow paper (appendix H) and the EIPs that added
them: 211 (RETURNDATASIZE), 1344 (CHAINID), 1884 (SELFBALANCE), 3198 (BASEFEE), 4399 (PREVRANDAO instead of DIFFICULTY, since paris),
4844 (BLOBHASH), 7516 (BLOBBASEFEE), 1153 (TLOAD).
-/
namespace Verif.Spec

/-- Instructions without operands: price and reported number. GAS reports what is left after its own price is paid. -/
def reading (E : Env) (m : Mach) : Op → Option (Nat × Nat)
  | .address => some (2, m.evm.message.currentTarget.toNat)
  | .origin => some (2, E.tx.origin.toNat)
  | .caller => some (2, m.evm.message.caller.toNat)
  | .callvalue => some (2, m.evm.message.value.toNat)
  | .calldatasize => some (2, m.evm.message.data.length)
  | .codesize => some (2, m.evm.code.length)
  | .gasprice => some (2, E.tx.gasPrice)
  | .returndatasize => some (2, m.evm.returnData.length)
  | .coinbase => some (2, E.block.coinbase.toNat)
  | .timestamp => some (2, E.block.time.toNat)
  | .number => some (2, E.block.number)
  | .prevrandao => some (2, if m.world.state.fork.since .paris then E.block.prevRandao.toNat else E.block.difficulty)
  | .gaslimit => some (2, E.block.blockGasLimit)
  | .chainid => some (2, E.block.chainId.toNat)
  | .selfbalance => some (5, (getAccount m.world.state m.evm.message.currentTarget).balance.toNat)
  | .basefee => some (2, E.block.baseFeePerGas)
  | .blobbasefee => some (2, calculateBlobGasPrice m.world.state.fork E.block.excessBlobGas)
  | .pc => some (2, m.evm.pc)
  | .msize => some (2, m.evm.memory.length)
  | .gas => some (2, m.evm.gasLeft - 2)
  | _ => none

/-- Instructions that look something up under their operand: price and result. Call data is followed by zeros without end, there is
no blob beyond the last, and transient storage is that of the account the code runs for. -/
def lookedUp (E : Env) (m : Mach) : Op → Option (Nat × (Word → Word))
  | .calldataload => some (3, fun i => BitVec.ofNat 256 (number m.evm.message.data i.toNat 32))
  | .blobhash => some (3, fun i => E.tx.blobVersionedHashes.getD i.toNat 0)
  | .tload => some (100, fun key => getTransientStorage m.world.transient m.evm.message.currentTarget key)
  | _ => none

/-- BLOCKHASH in block `current`, where `hashes` are those of the blocks before it, the parent last: the hash of block `n` if that is
one of the 256 blocks before `current`, else 0. `none`: the hash is not known. -/
def ancestorHash (hashes : List Word) (current n : Nat) : Option Word :=
  if n < current ∧ current - n ≤ 256 then hashes.reverse[current - n - 1]? else some 0

end Verif.Spec
