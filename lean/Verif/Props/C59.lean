import Verif.Model.Transactions
/-! C59: on which chains a signature is valid. -/
namespace Verif

/-- The transaction is a legacy one with a signature in the form of EIP-155. -/
def Protected : Transaction → Prop
  | .legacy t => t.v ≠ 27 ∧ t.v ≠ 28
  | _ => False

/-- C59. A legacy transaction with an EIP-155 signature names one chain: if a sender is recovered on two chains, their
ids are equal. -/
theorem C59_protected (C : Crypto) (f f' : Fork) (c c' : U64) (tx : Transaction) (a a' : Address) (hp : Protected tx)
    (h : recoverSender C f c tx = .ok a) (h' : recoverSender C f' c' tx = .ok a') : c = c' := by
  have key : ∀ (f : Fork) (c : U64) (a : Address) (t : LegacyTx), t.v ≠ 27 ∧ t.v ≠ 28 →
      recoverSender C f c (.legacy t) = .ok a →
      t.v.toNat = 35 + 2 * c.toNat ∨ t.v.toNat = 36 + 2 * c.toNat := by
    intro f c a t hv h
    have hc := c.isLt
    unfold recoverSender at h
    simp only at h
    split at h
    · cases h
    · split at h
      · cases h
      · rw [if_neg (by grind)] at h
        split at h
        · cases h
        split at h
        · cases h
        · rename_i hn
          have e : (c.setWidth 256 * 2#256).toNat = 2 * c.toNat := by
            simp only [BitVec.toNat_mul, BitVec.toNat_setWidth, BitVec.toNat_ofNat]
            omega
          have e35 : (35#256 + c.setWidth 256 * 2#256).toNat = 35 + 2 * c.toNat := by
            rw [BitVec.toNat_add, e]; simp only [BitVec.toNat_ofNat]; omega
          have e36 : (36#256 + c.setWidth 256 * 2#256).toNat = 36 + 2 * c.toNat := by
            rw [BitVec.toNat_add, e]; simp only [BitVec.toNat_ofNat]; omega
          by_cases h35 : t.v = 35#256 + c.setWidth 256 * 2#256
          · left; rw [h35, e35]
          · right
            have h36 : t.v = 36#256 + c.setWidth 256 * 2#256 := by
              apply Decidable.not_not.mp
              intro h36
              exact hn ⟨h35, h36⟩
            rw [h36, e36]
  cases tx with
  | legacy t =>
    have h1 := key f c a t hp h
    have h2 := key f' c' a' t hp h'
    apply BitVec.eq_of_toNat_eq
    omega
  | _ => exact hp.elim

/-- C59. Before spurious_dragon no such signature is accepted, so no signature names a chain. -/
theorem C59_before (C : Crypto) (f : Fork) (hf : f.since .spuriousDragon = false) (c : U64) (tx : Transaction) (a : Address)
    (h : recoverSender C f c tx = .ok a) : ¬ Protected tx := by
  intro hp
  cases tx with
  | legacy t =>
    unfold recoverSender at h
    simp only at h
    split at h
    · cases h
    split at h
    · cases h
    rw [if_neg (by have := hp.1; have := hp.2; grind), if_pos (by rw [hf]; decide)] at h
    cases h
  | _ => exact hp

/-- C59. Every other signature is valid on all chains or on none, with the same sender: those of the old form, which
name no chain, and those of typed transactions, although these carry a chain id. Nothing compares that id with the
chain's. -/
theorem C59_unprotected (C : Crypto) (f : Fork) (c c' : U64) (tx : Transaction) (hp : ¬ Protected tx) :
    recoverSender C f c tx = recoverSender C f c' tx := by
  cases tx with
  | legacy t =>
    have hv : t.v = 27 ∨ t.v = 28 := by
      simp only [Protected, ne_eq] at hp
      grind
    unfold recoverSender
    simp only [if_pos hv]
  | accessList t => rfl
  | feeMarket t => rfl
  | blob t => rfl
  | setCode t => rfl

/-! ### the hypotheses are met -/

private def anyCrypto (C : Crypto) : Crypto := { C with coincurveRecover := fun _ _ => some [1, 2, 3] }
private def lt : LegacyTx := ⟨0, 1, 21000, some 5, 0, [], 37, 1, 1⟩
private def ft : FeeMarketTx := ⟨9, 0, 1, 1, 21000, some 5, 0, [], [], 1, 1, 1⟩

private theorem recoverWith_any (C : Crypto) (s v : Word) (payload : Bytes) :
    recoverWith (anyCrypto C) 1 s v payload = .ok (publicKeyAddress (anyCrypto C) [1, 2, 3]) := by
  have h : secp256k1IsSquare 1 = 1 := by decide +kernel
  unfold recoverWith Crypto.secp256k1Recover
  rw [if_neg (by rw [h]; decide)]
  rfl

/-- A protected transaction for chain 1 is accepted there and refused on chain 2. -/
example (C : Crypto) : Protected (.legacy lt) ∧ (∃ a, recoverSender (anyCrypto C) .osaka 1 (.legacy lt) = .ok a) ∧
    recoverSender (anyCrypto C) .osaka 2 (.legacy lt) = .error .invalidSignature := by
  refine ⟨(by decide : lt.v ≠ 27 ∧ lt.v ≠ 28), ⟨publicKeyAddress (anyCrypto C) [1, 2, 3], ?_⟩, ?_⟩
  · unfold recoverSender
    rw [if_neg (by decide), if_neg (by decide)]
    simp only
    rw [if_neg (by decide), if_neg (by decide), if_neg (by decide)]
    exact recoverWith_any C _ _ _
  · unfold recoverSender
    rw [if_neg (by decide), if_neg (by decide)]
    simp only
    rw [if_neg (by decide), if_neg (by decide), if_pos (by decide)]

/-- A fee-market transaction that names chain 9 is accepted on chain 1. -/
example (C : Crypto) : ¬ Protected (.feeMarket ft) ∧ ft.chainId ≠ 1 ∧
    ∃ a, recoverSender (anyCrypto C) .osaka 1 (.feeMarket ft) = .ok a := by
  refine ⟨fun h => h, by decide, ⟨publicKeyAddress (anyCrypto C) [1, 2, 3], ?_⟩⟩
  unfold recoverSender
  rw [if_neg (by decide), if_neg (by decide)]
  simp only
  rw [if_neg (by decide)]
  exact recoverWith_any C _ _ _

end Verif
