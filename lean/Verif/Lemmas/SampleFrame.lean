import Verif.Lemmas.Good
import Verif.Lemmas.SampleWF
import Verif.Spec.Top
/-! Sample frames, and that they are well formed. -/
namespace Verif.Sample
open Verif.Spec

/-- A frame of `to` at depth 0, static or not, with a stack; a snapshot is open. -/
def frameOf (w : World) (to : Address) (gas : Nat) (static : Bool) (stack : List Word) : Mach :=
  ⟨{ initEvm { callTo w to gas 0 with isStatic := static } with stack := stack }, beginTransaction w⟩

theorem frameOf_good {w : World} {to : Address} {gas : Nat} {static : Bool} {stack : List Word} (hw : w.WF)
    (hs : stack.length ≤ 1024) (hf : w.state.fork.since .spuriousDragon = true := by rfl) : GoodFrame (frameOf w to gas static stack) :=
  ⟨⟨hw.begin, by simp [frameOf, beginTransaction], hs, fun hc => owned_iff.mpr (.inr hc), rfl, Nat.zero_le _, fun hc hf => .inr ⟨hf, hc⟩, hf,
    by simp [frameOf, initEvm], by simp [frameOf, initEvm, callTo]⟩,
   by simp [frameOf, Aligned, initEvm]⟩

theorem top_callTo {w : World} (hs : w.state.snapshots = [] ∧ w.transient.snapshots = [])
    (hc : w.state.createdAccounts = []) (to : Address) (gas : Nat) (value : Word) : TopMessage (callTo w to gas value) w :=
  ⟨rfl, rfl, hs, hc, fun t ht => by cases ht; exact ⟨rfl, rfl, rfl⟩, rfl⟩

theorem top_createAt {w : World} (hs : w.state.snapshots = [] ∧ w.transient.snapshots = [])
    (hc : w.state.createdAccounts = []) (at_ : Address) (gas : Nat) (value : Word) (code : Bytes) :
    TopMessage (createAt at_ gas value code) w :=
  ⟨rfl, rfl, hs, hc, fun t ht => (by cases ht), rfl⟩

end Verif.Sample
