import Verif.Spec.Header
import Verif.Props.C37_C39
/-!
A concrete chain and block, used to show that hypotheses about imported blocks are met. The block holds a transaction
from account 77 that runs the code of account 88 (which stores 7 in slot 1) and a withdrawal; the system contracts
have the code STOP.
-/
namespace Verif
open Spec

def sampleState : State :=
  [(BEACON_ROOTS_ADDRESS, (⟨1, 0, [0x00]⟩ : Account)), (HISTORY_STORAGE_ADDRESS, ⟨1, 0, [0x00]⟩),
    (WITHDRAWAL_REQUEST_PREDEPLOY_ADDRESS, ⟨1, 0, [0x00]⟩), (CONSOLIDATION_REQUEST_PREDEPLOY_ADDRESS, ⟨1, 0, [0x00]⟩),
    (77, ⟨0, 1000000, []⟩), (88, ⟨1, 5, [0x60, 0x07, 0x60, 0x01, 0x55, 0x00]⟩)].foldl
    (fun s p => setAccount s p.1 (some p.2)) State.empty

def sampleParent : Header :=
  ⟨0, 0, 0, 0, 0, 0, 0, 0, 0, 30000000, 15000000, 0, [], 0, 0, 7, 0, 0, 0, 0, 0⟩

def sampleChain : BlockChain := ⟨[⟨.osaka, ⟨sampleParent, [], [], []⟩⟩], sampleState, 1⟩

def sampleTx : LegacyTx := ⟨0, 10, 60000, some 88, 3, [1, 2], 27, 77, 1⟩

def sampleBlock : Block :=
  ⟨⟨0, 0xc0, 99, 0x80, 0x0a82ea60940000000000000000000000000000000000000058038201021b4d01, 0xc0, 0, 0, 1, 30000000, 43138, 12,
      [], 0, 0, 7, 0x0000dd82208099d8800194000000000000000000000000000000000000003704, 0, 0, 0, 0⟩,
    [.inl sampleTx], [], [⟨0, 1, 55, 4⟩]⟩

/-- The import succeeded and the final state is as expected. -/
def sampleOutcome (r : Except (BlockExn × BlockChain) BlockChain) : Bool :=
  match r with
  | .ok c => getStorage c.state 88 1 == 7 && (getAccount c.state 77).nonce == 1 && (getAccount c.state 55).balance == 4000000000
  | .error _ => false

theorem sample_runs : sampleOutcome (stateTransition sampleCrypto sampleChain sampleBlock) = true := by decide +kernel

/-- The sample block can be imported into the sample chain. -/
theorem sample_imports : ∃ chain', Imports sampleCrypto sampleChain [⟨.osaka, sampleBlock⟩] chain' ∧ getStorage chain'.state 88 1 = 7 := by
  have h := sample_runs
  match hs : stateTransition sampleCrypto sampleChain sampleBlock with
  | .error e => rw [hs] at h; cases h
  | .ok c =>
    rw [hs] at h
    simp only [sampleOutcome, Bool.and_eq_true, beq_iff_eq] at h
    exact ⟨c, .cons hs (.nil c), h.1.1⟩

theorem sample_linked : Linked sampleCrypto sampleChain.blocks := by
  intro i a b _ h2
  simp [sampleChain] at h2

end Verif
