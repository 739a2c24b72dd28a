import Verif.Spec.Calls
import Verif.Model.Ops
/-!
Prices of the instructions that touch accounts and storage slots, written down from EIP-150, EIP-161, EIP-1884, EIP-2200, EIP-2929,
EIP-3529 and the yellow paper.
-/
namespace Verif.Spec

/-- What BALANCE, EXTCODEHASH, EXTCODESIZE and EXTCODECOPY pay for looking at an account. EIP-2929, since berlin: 100 for a warm one,
2600 for a cold one. Before, flat prices, changed by EIP-150 (tangerine_whistle) and EIP-1884 (istanbul). -/
def lookPrice (f : Fork) (op : Op) (warm : List Address) (a : Address) : Nat :=
  if f.since .berlin then (if a ∈ warm then 100 else 2600)
  else match op with
    | .balance => if f.since .istanbul then 700 else if f.since .tangerineWhistle then 400 else 20
    | .extcodehash => if f.since .istanbul then 700 else 400
    | _ => if f.since .tangerineWhistle then 700 else 20

/-- EIP-2929: 100 for a warm slot, 2100 for a cold one. Before berlin 800 (EIP-1884), 200 (EIP-150) and 50. -/
def slotPrice (f : Fork) (warm : List (Address × Word)) (a : Address) (k : Word) : Nat :=
  if f.since .berlin then (if (a, k) ∈ warm then 100 else 2100)
  else if f.since .istanbul then 800 else if f.since .tangerineWhistle then 200 else 50

/-- EIP-2929, since berlin: writing a cold slot costs 2100 more, and a beneficiary that is cold 2600 more. -/
def coldSlot (f : Fork) (warm : List (Address × Word)) (a : Address) (k : Word) : Nat :=
  if f.since .berlin = true ∧ (a, k) ∉ warm then 2100 else 0
def coldAccount (f : Fork) (warm : List Address) (a : Address) : Nat := if f.since .berlin = true ∧ a ∉ warm then 2600 else 0

/-- EIP-2200 (istanbul), EIP-2929 (berlin): price of a write when the slot had `original` at the start of the transaction and has
`current` now. Only the first change of a slot in a transaction is expensive. Before istanbul `original` plays no role. -/
def writePrice (f : Fork) (original current new : Word) : Nat :=
  if f.since .istanbul then
    if current = new ∨ current ≠ original then (if f.since .berlin then 100 else 800)
    else if original = 0 then 20000
    else if f.since .berlin then 2900 else 5000
  else if current = 0 ∧ new ≠ 0 then 20000 else 5000

/-- EIP-2200 (istanbul), EIP-2929 (berlin), EIP-3529 (london): the refund of a write. -/
def writeRefund (f : Fork) (original current new : Word) : Int :=
  let clear : Int := if f.since .london then 4800 else 15000
  if f.since .istanbul then
    if current = new then 0
    else
      (if original = 0 then 0 else if current = 0 then -clear else if new = 0 then clear else 0) +
      (if original = new then
        if original = 0 then (if f.since .berlin then 19900 else 19200) else (if f.since .berlin then 2800 else 4200)
       else 0)
  else if current ≠ 0 ∧ new = 0 then 15000 else 0

/-- Price of SELFDESTRUCT: 5000, the access, and 25000 if ether is sent to an account that is dead (EIP-161, spurious_dragon) or, in
tangerine_whistle, if the beneficiary does not exist. Nothing before (EIP-150). -/
def selfdestructPrice (m : Mach) (b : Address) : Nat :=
  let f := m.world.state.fork
  (if f.since .tangerineWhistle then 5000 else 0) + coldAccount f m.evm.accessedAddresses b +
    if f.since .spuriousDragon then
      (if dead m.world.state b ∧ (getAccount m.world.state m.evm.message.currentTarget).balance ≠ 0 then 25000 else 0)
    else if f.since .tangerineWhistle = true ∧ getAccountOptional m.world.state b = none then 25000 else 0

/-- The instructions that look at the account on top of the stack. -/
def looksAtAccount : Op → Prop
  | .balance | .extcodesize | .extcodecopy | .extcodehash => True
  | _ => False

/-- Instruction `op`, executed in frame `m`, touches account `a`: the looking instructions and SELFDESTRUCT touch the
account on top of the stack, calls their callee (second on the stack) and the account the callee delegates to. -/
def TouchesAccount (op : Op) (m : Mach) (a : Address) : Prop :=
  (looksAtAccount op ∨ op = .selfdestruct) ∧ (∃ x, m.evm.stack[0]? = some x ∧ a = x.setWidth 160) ∨
  (op = .call ∨ op = .callcode ∨ op = .delegatecall ∨ op = .staticcall) ∧
    ∃ x, m.evm.stack[1]? = some x ∧
      (a = x.setWidth 160 ∨ delegateOf m.world.state (x.setWidth 160) = some a)

/-- SLOAD and SSTORE touch a slot of the executing account. -/
def TouchesSlot (op : Op) (m : Mach) (k : Word) : Prop := (op = .sload ∨ op = .sstore) ∧ m.evm.stack[0]? = some k

end Verif.Spec
