import Verif.Lemmas.SampleBlock
import Verif.Spec.TxOutcome
/-! The sample state is a state between transactions; the block environment of the sample block. -/
namespace Verif
open Spec

theorem sample_idle : Idle sampleState := by
  have h : ∀ (l : List (Address × Account)) (s : State), Idle s → Idle (l.foldl (fun s p => setAccount s p.1 (some p.2)) s) := by
    intro l
    induction l with
    | nil => intro s hs; exact hs
    | cons p r ih => intro s hs; exact ih _ ⟨hs.fork, hs.wf.setAccount _ _, hs.snapshots, hs.created⟩
  exact h _ _ ⟨by decide, State.empty_wf, rfl, rfl⟩

/-- The environment of the sample block. -/
def sampleBlockEnv : BlockEnv := blockEnvOf sampleCrypto sampleChain sampleBlock.header

end Verif
