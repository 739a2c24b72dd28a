import Verif.Model.Ops
/-!
How many stack items each instruction takes and how many it leaves in their place, from the yellow paper's table.
DUPn is described as taking n items and leaving n + 1, SWAPn as taking and leaving n + 1.
-/
namespace Verif.Spec

/-- Items removed (δ of the yellow paper). -/
def removed : Op → Nat
  | .stop | .address | .origin | .caller | .callvalue | .calldatasize | .codesize | .gasprice | .returndatasize
  | .coinbase | .timestamp | .number | .prevrandao | .gaslimit | .chainid | .selfbalance | .basefee | .blobbasefee
  | .pc | .msize | .gas | .jumpdest | .push _ => 0
  | .iszero | .«not» | .clz | .balance | .calldataload | .extcodesize | .extcodehash | .blockhash | .blobhash | .pop
  | .mload | .sload | .tload | .jump | .selfdestruct => 1
  | .add | .mul | .sub | .div | .sdiv | .mod | .smod | .exp | .signextend | .lt | .gt | .slt | .sgt | .eq | .«and»
  | .«or» | .xor | .byte | .shl | .shr | .sar | .keccak | .mstore | .mstore8 | .sstore | .tstore | .jumpi | .ret
  | .revert => 2
  | .addmod | .mulmod | .calldatacopy | .codecopy | .returndatacopy | .mcopy | .create => 3
  | .extcodecopy | .create2 => 4
  | .delegatecall | .staticcall => 6
  | .call | .callcode => 7
  | .dup n => n
  | .swap n => n + 1
  | .log n => n + 2

/-- Items added (α of the yellow paper). -/
def added : Op → Nat
  | .stop | .calldatacopy | .codecopy | .extcodecopy | .returndatacopy | .pop | .mstore | .mstore8 | .sstore | .tstore
  | .jump | .jumpi | .jumpdest | .mcopy | .ret | .revert | .selfdestruct | .log _ => 0
  | .dup n => n + 1
  | .swap n => n + 1
  | _ => 1

end Verif.Spec
