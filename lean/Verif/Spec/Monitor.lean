import Verif.Model.Interpreter
/-!
Saying "at every point of every execution". A monitored interpreter runs a check before every iteration of the main loop
of every frame (the outermost one and every child, at any depth) and gives up as it is told to when the check fails.
If, whatever it is told to do then, it computes the same as the real interpreter, the check never failed.
-/
namespace Verif.Spec

open Classical in
/-- The bounded interpreter with a check: `bad` replaces the rest of the frame's execution when the check fails. -/
noncomputable def runChecked (E : Env) (check : Mach → Prop) (bad : Loop) : Nat → Loop
  | 0 => fun m => .err .outOfFuel m
  | n + 1 => fun m => if check m then loopBody E (runChecked E check bad n) m else bad m

/-- The interpreter with a check. The bound is enough for the real interpreter (C06). -/
noncomputable def execChecked (E : Env) (check : Mach → Prop) (bad : Loop) : Loop := fun m =>
  runChecked E check bad (m.evm.gasLeft + 2) m

/-- The check of C12 and C13. -/
structure WithinLimits (m : Mach) : Prop where
  stack : m.evm.stack.length ≤ 1024
  memory : m.evm.memory.length % 32 = 0
  depth : m.evm.message.depth ≤ 1024

end Verif.Spec
