import Verif.Model.Precompiles
/-
osaka/vm/instructions/__init__.py (opcode table) and osaka/vm/runtime.py.
-/
namespace Verif

/-- osaka/vm/instructions/__init__.py:33-215 `Ops`. The families PUSH0..PUSH32, DUP1..DUP16, SWAP1..SWAP16 and
LOG0..LOG4 are one constructor each; the argument is the number in the name. -/
inductive Op where
  | stop
  | add
  | mul
  | sub
  | div
  | sdiv
  | mod
  | smod
  | addmod
  | mulmod
  | exp
  | signextend
  | lt
  | gt
  | slt
  | sgt
  | eq
  | iszero
  | «and»
  | «or»
  | xor
  | «not»
  | byte
  | shl
  | shr
  | sar
  | clz
  | keccak
  | address
  | balance
  | origin
  | caller
  | callvalue
  | calldataload
  | calldatasize
  | calldatacopy
  | codesize
  | codecopy
  | gasprice
  | extcodesize
  | extcodecopy
  | returndatasize
  | returndatacopy
  | extcodehash
  | blockhash
  | coinbase
  | timestamp
  | number
  | prevrandao
  | gaslimit
  | chainid
  | selfbalance
  | basefee
  | blobhash
  | blobbasefee
  | pop
  | mload
  | mstore
  | mstore8
  | sload
  | sstore
  | jump
  | jumpi
  | pc
  | msize
  | gas
  | jumpdest
  | tload
  | tstore
  | mcopy
  | create
  | call
  | callcode
  | ret
  | delegatecall
  | create2
  | staticcall
  | revert
  | selfdestruct
  | push (n : Nat)
  | dup (n : Nat)
  | swap (n : Nat)
  | log (n : Nat)
  deriving DecidableEq, Repr

/-- `Ops(byte)`: `none` is the ValueError for an undefined byte. -/
def decodeOp (b : UInt8) : Option Op :=
  let n := b.toNat
  if 0x5f ≤ n ∧ n ≤ 0x7f then some (.push (n - 0x5f))
  else if 0x80 ≤ n ∧ n ≤ 0x8f then some (.dup (n - 0x80 + 1))
  else if 0x90 ≤ n ∧ n ≤ 0x9f then some (.swap (n - 0x90 + 1))
  else if 0xa0 ≤ n ∧ n ≤ 0xa4 then some (.log (n - 0xa0))
  else match n with
  | 0x00 => some .stop
  | 0x01 => some .add
  | 0x02 => some .mul
  | 0x03 => some .sub
  | 0x04 => some .div
  | 0x05 => some .sdiv
  | 0x06 => some .mod
  | 0x07 => some .smod
  | 0x08 => some .addmod
  | 0x09 => some .mulmod
  | 0x0a => some .exp
  | 0x0b => some .signextend
  | 0x10 => some .lt
  | 0x11 => some .gt
  | 0x12 => some .slt
  | 0x13 => some .sgt
  | 0x14 => some .eq
  | 0x15 => some .iszero
  | 0x16 => some .«and»
  | 0x17 => some .«or»
  | 0x18 => some .xor
  | 0x19 => some .«not»
  | 0x1a => some .byte
  | 0x1b => some .shl
  | 0x1c => some .shr
  | 0x1d => some .sar
  | 0x1e => some .clz
  | 0x20 => some .keccak
  | 0x30 => some .address
  | 0x31 => some .balance
  | 0x32 => some .origin
  | 0x33 => some .caller
  | 0x34 => some .callvalue
  | 0x35 => some .calldataload
  | 0x36 => some .calldatasize
  | 0x37 => some .calldatacopy
  | 0x38 => some .codesize
  | 0x39 => some .codecopy
  | 0x3a => some .gasprice
  | 0x3b => some .extcodesize
  | 0x3c => some .extcodecopy
  | 0x3d => some .returndatasize
  | 0x3e => some .returndatacopy
  | 0x3f => some .extcodehash
  | 0x40 => some .blockhash
  | 0x41 => some .coinbase
  | 0x42 => some .timestamp
  | 0x43 => some .number
  | 0x44 => some .prevrandao
  | 0x45 => some .gaslimit
  | 0x46 => some .chainid
  | 0x47 => some .selfbalance
  | 0x48 => some .basefee
  | 0x49 => some .blobhash
  | 0x4a => some .blobbasefee
  | 0x50 => some .pop
  | 0x51 => some .mload
  | 0x52 => some .mstore
  | 0x53 => some .mstore8
  | 0x54 => some .sload
  | 0x55 => some .sstore
  | 0x56 => some .jump
  | 0x57 => some .jumpi
  | 0x58 => some .pc
  | 0x59 => some .msize
  | 0x5a => some .gas
  | 0x5b => some .jumpdest
  | 0x5c => some .tload
  | 0x5d => some .tstore
  | 0x5e => some .mcopy
  | 0xf0 => some .create
  | 0xf1 => some .call
  | 0xf2 => some .callcode
  | 0xf3 => some .ret
  | 0xf4 => some .delegatecall
  | 0xf5 => some .create2
  | 0xfa => some .staticcall
  | 0xfd => some .revert
  | 0xff => some .selfdestruct
  | _ => none

/-- The first fork whose `Ops` class has the instruction (src/ethereum/<fork>/vm/instructions/__init__.py). -/
def Op.firstFork : Op → Fork
  | .clz => .osaka
  | .blobhash | .blobbasefee | .tload | .tstore | .mcopy => .cancun
  | .push 0 => .shanghai
  | .basefee => .london
  | .chainid | .selfbalance => .istanbul
  | .shl | .shr | .sar | .extcodehash | .create2 => .constantinople
  | .returndatasize | .returndatacopy | .staticcall | .revert => .byzantium
  | .delegatecall => .homestead
  | _ => .frontier

/-- `Ops(byte)` in the given fork. -/
def decodeOpIn (f : Fork) (b : UInt8) : Option Op :=
  match decodeOp b with
  | none => none
  | some op => if f.since op.firstFork then some op else none

/-- osaka/vm/instructions/__init__.py:218-368 `op_implementation`. `dupN` calls `dup_n` with N - 1 and `swapN` calls
`swap_n` with N (osaka/vm/instructions/stack.py, the `partial` table). -/
def opStep (E : Env) (pm pcm : Sub) : Op → M Unit
  | .stop => opStop
  | .add => opAdd
  | .mul => opMul
  | .sub => opSub
  | .div => opDiv
  | .sdiv => opSdiv
  | .mod => opMod
  | .smod => opSmod
  | .addmod => opAddmod
  | .mulmod => opMulmod
  | .exp => opExp
  | .signextend => opSignextend
  | .lt => opLt
  | .gt => opGt
  | .slt => opSlt
  | .sgt => opSgt
  | .eq => opEq
  | .iszero => opIszero
  | .«and» => opAnd
  | .«or» => opOr
  | .xor => opXor
  | .«not» => opNot
  | .byte => opByte
  | .shl => opShl
  | .shr => opShr
  | .sar => opSar
  | .clz => opClz
  | .keccak => opKeccak E
  | .address => opAddress
  | .balance => opBalance
  | .origin => opOrigin E
  | .caller => opCaller
  | .callvalue => opCallvalue
  | .calldataload => opCalldataload
  | .calldatasize => opCalldatasize
  | .calldatacopy => opCalldatacopy
  | .codesize => opCodesize
  | .codecopy => opCodecopy
  | .gasprice => opGasprice E
  | .extcodesize => opExtcodesize
  | .extcodecopy => opExtcodecopy
  | .returndatasize => opReturndatasize
  | .returndatacopy => opReturndatacopy
  | .extcodehash => opExtcodehash E
  | .blockhash => opBlockhash E
  | .coinbase => opCoinbase E
  | .timestamp => opTimestamp E
  | .number => opNumber E
  | .prevrandao => opPrevrandao E
  | .gaslimit => opGaslimit E
  | .chainid => opChainid E
  | .selfbalance => opSelfbalance
  | .basefee => opBasefee E
  | .blobhash => opBlobhash E
  | .blobbasefee => opBlobbasefee E
  | .pop => opPop
  | .mload => opMload
  | .mstore => opMstore
  | .mstore8 => opMstore8
  | .sload => opSload
  | .sstore => opSstore
  | .jump => opJump
  | .jumpi => opJumpi
  | .pc => opPc
  | .msize => opMsize
  | .gas => opGas
  | .jumpdest => opJumpdest
  | .tload => opTload
  | .tstore => opTstore
  | .mcopy => opMcopy
  | .create => opCreate E pcm
  | .call => opCall pm
  | .callcode => opCallcode pm
  | .ret => opReturn
  | .delegatecall => opDelegatecall pm
  | .create2 => opCreate2 E pcm
  | .staticcall => opStaticcall pm
  | .revert => opRevert
  | .selfdestruct => opSelfdestruct
  | .push n => opPush n
  | .dup n => opDup (n - 1)
  | .swap n => opSwap n
  | .log n => opLog n

/-- Loop of osaka/vm/runtime.py:47-66, as a scan over the remaining code: `skip` counts the bytes of push data that the
Python loop jumps over by `pc += push_data_size`. -/
def scanJumpDests : Bytes → Nat → Nat → List Nat
  | [], _, _ => []
  | _ :: r, pc, skip + 1 => scanJumpDests r (pc + 1) skip
  | b :: r, pc, 0 =>
    match decodeOp b with
    | none => scanJumpDests r (pc + 1) 0
    | some .jumpdest => pc :: scanJumpDests r (pc + 1) 0
    | some (.push n) => scanJumpDests r (pc + 1) n
    | some _ => scanJumpDests r (pc + 1) 0

/-- osaka/vm/runtime.py:22-68 `get_valid_jump_destinations`. The other forks use their own `Ops` table; all of them have JUMPDEST and
PUSH1 to PUSH32, and no other entry matters (theorem `scanJumpDestsIn_eq`), so the table of osaka is used for all of them. -/
def getValidJumpDestinations (code : Bytes) : List Nat := scanJumpDests code 0 0

end Verif
