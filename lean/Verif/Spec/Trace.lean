import Verif.Model.Interpreter
/-! Runs of a frame, instruction by instruction. -/
namespace Verif.Spec

/-- The frame is about to execute `op`. -/
def AtOp (m : Mach) (op : Op) : Prop :=
  m.evm.running = true ∧ ∃ b, m.evm.code[m.evm.pc]? = some b ∧ decodeOpIn m.world.state.fork b = some op

/-- From `m` the frame gets to `m'` by executing instructions, child frames included. -/
inductive Steps (E : Env) : Mach → Mach → Prop
  | refl (m : Mach) : Steps E m m
  | cons (m : Mach) (op : Op) (m1 m' : Mach) (hop : AtOp m op)
      (h : opStep E (processMessage E (exec E)) (processCreateMessage E (exec E)) op m = .ok () m1)
      (hr : Steps E m1 m') : Steps E m m'

end Verif.Spec
