import Verif.Model.Ops
/-!
The mathematical meaning and the price of the arithmetic, comparison and bitwise instructions, from the yellow paper
(appendix H), EIP-145 (shifts), EIP-160 (EXP) and EIP-7939 (CLZ). `x.toNat` is the unsigned and `x.toInt` the two's
complement reading of a word; `word` and `signed` reduce a number modulo 2^256.
-/
namespace Verif.Spec

def word (n : Nat) : Word := BitVec.ofNat 256 n
def signed (i : Int) : Word := BitVec.ofInt 256 i
def flag (p : Prop) [Decidable p] : Word := if p then 1 else 0

/-- Number of bytes of the minimal representation. -/
def bytesOf (n : Nat) : Nat := if n = 0 then 0 else Nat.log2 n / 8 + 1

/-- Instructions with one operand: price and result. -/
def unary : Op → Option (Nat × (Word → Word))
  | .iszero => some (3, fun x => flag (x.toNat = 0))
  | .«not» => some (3, fun x => word (2 ^ 256 - 1 - x.toNat))
  | .clz => some (5, fun x => word (if x.toNat = 0 then 256 else 255 - Nat.log2 x.toNat))
  | _ => none

/-- Instructions with two operands, the first on top of the stack: price and result. The price of EXP changed with EIP-160
(spurious_dragon). -/
def binary (f : Fork) : Op → Option ((Word → Word → Nat) × (Word → Word → Word))
  | .add => some (fun _ _ => 3, fun x y => word (x.toNat + y.toNat))
  | .mul => some (fun _ _ => 5, fun x y => word (x.toNat * y.toNat))
  | .sub => some (fun _ _ => 3, fun x y => signed ((x.toNat : Int) - y.toNat))
  | .div => some (fun _ _ => 5, fun x y => if y.toNat = 0 then 0 else word (x.toNat / y.toNat))
  -- signed division truncates towards zero; -2^255 / -1 wraps around
  | .sdiv => some (fun _ _ => 5, fun x y => if y.toNat = 0 then 0 else signed (x.toInt.tdiv y.toInt))
  | .mod => some (fun _ _ => 5, fun x y => if y.toNat = 0 then 0 else word (x.toNat % y.toNat))
  -- the remainder has the sign of the dividend
  | .smod => some (fun _ _ => 5, fun x y => if y.toNat = 0 then 0 else signed (x.toInt.tmod y.toInt))
  | .exp => some (fun _ y => 10 + (if f.since .spuriousDragon then 50 else 10) * bytesOf y.toNat, fun x y => word (x.toNat ^ y.toNat))
  -- the low `8 (b + 1)` bits read as a two's complement number
  | .signextend => some (fun _ _ => 5, fun b x =>
      if b.toNat < 31 then signed (Int.bmod x.toNat (2 ^ (8 * (b.toNat + 1)))) else x)
  | .lt => some (fun _ _ => 3, fun x y => flag (x.toNat < y.toNat))
  | .gt => some (fun _ _ => 3, fun x y => flag (x.toNat > y.toNat))
  | .slt => some (fun _ _ => 3, fun x y => flag (x.toInt < y.toInt))
  | .sgt => some (fun _ _ => 3, fun x y => flag (x.toInt > y.toInt))
  | .eq => some (fun _ _ => 3, fun x y => flag (x.toNat = y.toNat))
  | .«and» => some (fun _ _ => 3, fun x y => word (x.toNat &&& y.toNat))
  | .«or» => some (fun _ _ => 3, fun x y => word (x.toNat ||| y.toNat))
  | .xor => some (fun _ _ => 3, fun x y => word (x.toNat ^^^ y.toNat))
  -- byte 0 is the most significant one
  | .byte => some (fun _ _ => 3, fun i x => if i.toNat < 32 then word (x.toNat / 256 ^ (31 - i.toNat) % 256) else 0)
  | .shl => some (fun _ _ => 3, fun s x => word (x.toNat * 2 ^ s.toNat))
  | .shr => some (fun _ _ => 3, fun s x => word (x.toNat / 2 ^ s.toNat))
  -- rounds towards minus infinity
  | .sar => some (fun _ _ => 3, fun s x => signed (Int.fdiv x.toInt (2 ^ s.toNat)))
  | _ => none

/-- Instructions with three operands: the sum and the product are not reduced before the remainder is taken. -/
def ternary : Op → Option (Nat × (Word → Word → Word → Word))
  | .addmod => some (8, fun x y n => if n.toNat = 0 then 0 else word ((x.toNat + y.toNat) % n.toNat))
  | .mulmod => some (8, fun x y n => if n.toNat = 0 then 0 else word ((x.toNat * y.toNat) % n.toNat))
  | _ => none

end Verif.Spec
