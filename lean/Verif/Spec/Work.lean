import Verif.Model.Interpreter
/-! The number of instructions it takes to execute a frame, those of the frames it calls included. -/
namespace Verif.Spec

/-- `Work E m n`: the result of executing the rest of the frame `m` is found by executing `n` instructions. `loopBody E f m` executes the
next instruction of `m` and uses `f` for the result of a frame that the instruction starts and for that of the rest of `m` after it;
the frames whose result is used are those at which `f` must be right for the result to be right. -/
inductive Work (E : Env) : Mach → Nat → Prop
  /-- A frame that has ended, or has run past its code, executes nothing. -/
  | done (m : Mach) (h : m.evm.running = false ∨ m.evm.code[m.evm.pc]? = none) : Work E m 0
  /-- One instruction that gives the result by itself. -/
  | last (m : Mach) (h : ∀ f, loopBody E f m = exec E m) : Work E m 1
  /-- One instruction, and then another frame: the rest of this one, or a called one whose failure ends this one too. -/
  | next (m m' : Mach) (n : Nat) (h : ∀ f, f m' = exec E m' → loopBody E f m = exec E m) (hn : Work E m' n) : Work E m (n + 1)
  /-- One instruction that starts the frame `c`, and then the rest of this frame. -/
  | call (m c m' : Mach) (k n : Nat) (h : ∀ f, f c = exec E c → f m' = exec E m' → loopBody E f m = exec E m)
      (hk : Work E c k) (hn : Work E m' n) : Work E m (k + n + 1)

/-- The same for a message: it starts no frame, or one. -/
inductive MessageWork (E : Env) (msg : Message) (w : World) : Nat → Prop
  | none (h : ∀ f, processMessageCallWith E f msg w = processMessageCall E msg w) : MessageWork E msg w 0
  | frame (c : Mach) (n : Nat) (h : ∀ f, f c = exec E c → processMessageCallWith E f msg w = processMessageCall E msg w)
      (hn : Work E c n) : MessageWork E msg w n

end Verif.Spec
