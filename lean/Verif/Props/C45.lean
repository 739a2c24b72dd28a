import Verif.Spec.Intrinsic
import Verif.Props.C37_C39
/-! C45: intrinsic gas and validation of transactions. -/
namespace Verif
open Spec

theorem zeros_eq (data : Bytes) : data.countP (· == 0) = zeros data := by
  unfold zeros; rw [List.countP_eq_length_filter]; congr 1

theorem zeros_add (data : Bytes) : zeros data + nonZeros data = data.length := by
  unfold zeros nonZeros
  induction data with
  | nil => rfl
  | cons a r ih =>
    by_cases h : a = 0
    · simp only [List.filter_cons, h, decide_true, if_true, ne_eq, not_true_eq_false, decide_false, Bool.false_eq_true, if_false,
        List.length_cons] at ih ⊢
      omega
    · simp only [List.filter_cons, h, decide_true, if_true, ne_eq, not_false_eq_true, decide_false, Bool.false_eq_true, if_false,
        List.length_cons] at ih ⊢
      omega

theorem accessListCost_eq (l : List Access) (n : Nat) :
    l.foldl (fun c a => c + TX_ACCESS_LIST_ADDRESS_COST + a.slots.length * TX_ACCESS_LIST_STORAGE_KEY_COST) n =
      n + accessListCost l := by
  induction l generalizing n with
  | nil => rfl
  | cons a r ih =>
    rw [List.foldl_cons, ih, accessListCost]
    have e1 : TX_ACCESS_LIST_ADDRESS_COST = 2400 := rfl
    have e2 : TX_ACCESS_LIST_STORAGE_KEY_COST = 1900 := rfl
    rw [e1, e2]; omega

/-- C45: the two costs are the documented sums. -/
theorem C45_cost (f : Fork) (tx : Transaction) : calculateIntrinsicCost f tx = (intrinsicGas f tx, floorGas f tx) := by
  unfold calculateIntrinsicCost intrinsicGas floorGas dataCostIn tokensInCalldata initCodeCostIn
  dsimp only
  rw [zeros_eq, accessListCost_eq, ← zeros_add]
  have e1 : FLOOR_CALLDATA_COST = 10 := rfl
  have e2 : STANDARD_CALLDATA_TOKEN_COST = 4 := rfl
  have e3 : TX_BASE_COST = 21000 := rfl
  have e4 : TX_CREATE_COST = 32000 := rfl
  have e5 : PER_EMPTY_ACCOUNT_COST = 25000 := rfl
  have e6 : ∀ n, initCodeCost n = 2 * ((n + 31) / 32) := by
    intro n
    have e7 : GAS_INIT_CODE_WORD_COST = 2 := rfl
    unfold initCodeCost ceil32
    rw [e7]
    dsimp only
    split <;> omega
  rw [e1, e2, e3, e4, e5, e6]
  refine Prod.ext ?_ ?_
  · dsimp only; repeat' split
    all_goals omega
  · dsimp only; split <;> omega

/-- C45: the cost is never below 21000, nor is the floor, in the forks that have one. -/
theorem C45_minimum (f : Fork) (tx : Transaction) : 21000 ≤ (calculateIntrinsicCost f tx).1 ∧
    (f.since .prague = true → 21000 ≤ (calculateIntrinsicCost f tx).2) := by
  rw [C45_cost]; unfold intrinsicGas floorGas; dsimp only
  refine ⟨by omega, fun h => ?_⟩
  rw [if_pos h]; omega

/-- C45: a transaction passes exactly under the documented conditions, and then the result is its two costs. -/
theorem C45_accepts_iff (f : Fork) (tx : Transaction) (r : Nat × Nat) :
    validateTransaction f tx = .ok r ↔ ValidTx f tx ∧ r = (intrinsicGas f tx, floorGas f tx) := by
  unfold validateTransaction
  dsimp only
  rw [C45_cost]
  dsimp only
  have e1 : MAX_INIT_CODE_SIZE = 49152 := rfl
  have e2 : TX_MAX_GAS_LIMIT = 2 ^ 24 := rfl
  rw [e1, e2]
  by_cases h1 : max (intrinsicGas f tx) (floorGas f tx) > tx.gas
  · rw [if_pos h1]
    exact ⟨fun h => (by cases h), fun h => by have := h.1.gas; have := h.1.floor; omega⟩
  · rw [if_neg h1]
    by_cases h2 : tx.nonce.toNat ≥ 2 ^ 64 - 1
    · rw [if_pos h2]
      exact ⟨fun h => (by cases h), fun h => by have := h.1.nonce; omega⟩
    · rw [if_neg h2]
      by_cases h3 : f.since .shanghai = true ∧ tx.to = none ∧ tx.data.length > 49152
      · rw [if_pos h3]
        exact ⟨fun h => (by cases h), fun h => by have := h.1.initCode h3.1 h3.2.1; omega⟩
      · rw [if_neg h3]
        by_cases h4 : f.since .osaka = true ∧ tx.gas > 2 ^ 24
        · rw [if_pos h4]
          exact ⟨fun h => (by cases h), fun h => by have := h.1.cap h4.1; omega⟩
        · rw [if_neg h4]
          constructor
          · intro h
            refine ⟨⟨by omega, by omega, by omega, fun h0 h5 => ?_, fun h0 => ?_⟩, (Except.ok.inj h).symm⟩
            · rcases Nat.lt_or_ge 49152 tx.data.length with h6 | h6
              · exact absurd ⟨h0, h5, h6⟩ h3
              · exact h6
            · rcases Nat.lt_or_ge (2 ^ 24) tx.gas with h6 | h6
              · exact absurd ⟨h0, h6⟩ h4
              · exact h6
          · rintro ⟨_, rfl⟩; rfl

example : ValidTx .osaka (.legacy ⟨0, 10, 60000, some 88, 3, [1, 2, 0], 27, 77, 1⟩) := by
  constructor <;> decide +kernel
example : ¬ ValidTx .osaka (.legacy ⟨0, 10, 21035, some 88, 3, [1, 2, 0], 27, 77, 1⟩) := fun h => absurd h.gas (by decide +kernel)

end Verif
