import Verif.Spec.TxRules
import Verif.Props.C45
import Verif.Props.C44
/-! `check_transaction` and the part of `process_transaction` before the message runs. -/
namespace Verif
open Spec

theorem except_bind_ok {ε α β : Type} {x : Except ε α} {f : α → Except ε β} {b : β} :
    (x >>= f) = .ok b ↔ ∃ a, x = .ok a ∧ f a = .ok b := by
  cases x with
  | error e => exact ⟨fun h => (by cases h), fun ⟨_, h, _⟩ => (by cases h)⟩
  | ok a => exact ⟨fun h => ⟨a, rfl, h⟩, fun ⟨_, h, h'⟩ => by cases h; exact h'⟩

theorem except_bind_error {ε α β : Type} {x : Except ε α} {f : α → Except ε β} {e : ε} :
    (x >>= f) = .error e ↔ x = .error e ∨ ∃ a, x = .ok a ∧ f a = .error e := by
  cases x with
  | error e' => exact ⟨fun h => .inl (by cases h; rfl), fun h => by rcases h with h | ⟨_, h, _⟩ <;> cases h; rfl⟩
  | ok a => exact ⟨fun h => .inr ⟨a, rfl, h⟩, fun h => by rcases h with h | ⟨_, h, h'⟩ <;> cases h; exact h'⟩

theorem usub_ok {a b r : Nat} : usub a b = .ok r ↔ b ≤ a ∧ r = a - b := by
  unfold usub
  split
  · exact ⟨fun h => by cases h; exact ⟨by assumption, rfl⟩, fun ⟨_, h⟩ => by rw [h]⟩
  · exact ⟨fun h => (by cases h), fun ⟨h, _⟩ => by contradiction⟩

theorem pyErr_ok {α : Type} {x : Except Crash α} {a : α} : pyErr x = .ok a ↔ x = .ok a := by
  cases x <;> simp [pyErr]
theorem txErr_ok {α : Type} {x : Except TxError α} {a : α} : txErr x = .ok a ↔ x = .ok a := by
  cases x <;> simp [txErr]
theorem toU64_ok {n r : Nat} : toU64 n = .ok r ↔ n < 2 ^ 64 ∧ r = n := by
  unfold toU64
  split
  · exact ⟨fun h => by cases h; exact ⟨by assumption, rfl⟩, fun ⟨_, h⟩ => by rw [h]⟩
  · exact ⟨fun h => (by cases h), fun ⟨h, _⟩ => by contradiction⟩
theorem toU256_ok {n : Nat} {r : Word} : toU256 n = .ok r ↔ n < 2 ^ 256 ∧ r = BitVec.ofNat 256 n := by
  unfold toU256
  split
  · exact ⟨fun h => by cases h; exact ⟨by assumption, rfl⟩, fun ⟨_, h⟩ => by rw [h]⟩
  · exact ⟨fun h => (by cases h), fun ⟨h, _⟩ => by contradiction⟩

theorem totalBlobGas_ok {tx : Transaction} {n : Nat} :
    calculateTotalBlobGas tx = .ok n ↔ blobGas tx < 2 ^ 64 ∧ n = blobGas tx := by
  have e : GAS_PER_BLOB = 131072 := by decide
  unfold calculateTotalBlobGas blobGas
  cases tx <;> dsimp only [Transaction.blobHashes]
  case blob t => rw [e]; exact toU64_ok
  all_goals exact ⟨fun h => by cases h; exact ⟨by decide, rfl⟩, fun ⟨_, h⟩ => by rw [h]; rfl⟩

theorem gasPrices_ok {baseFee : Nat} {tx : Transaction} {r : Nat × Nat} :
    gasPrices baseFee tx = .ok r ↔ baseFee ≤ maxFee tx ∧ maxTip tx ≤ maxFee tx ∧ r = (price baseFee tx, tx.gas * maxFee tx) := by
  have hl : ∀ gas gp, legacyPrices baseFee gas gp = .ok r ↔
      baseFee ≤ gp ∧ gp ≤ gp ∧ r = (baseFee + min gp (gp - baseFee), gas * gp) := by
    intro gas gp
    unfold legacyPrices
    by_cases h : gp < baseFee
    · rw [if_pos h]; exact ⟨fun h => (by cases h), fun ⟨_, _⟩ => by omega⟩
    · rw [if_neg h]
      have : baseFee + min gp (gp - baseFee) = gp := by omega
      rw [this]
      exact ⟨fun h => by cases h; exact ⟨by omega, Nat.le_refl _, rfl⟩, fun h => by rw [h.2.2]⟩
  have hf : ∀ gas mf mp, feeMarketPrices baseFee gas mf mp = .ok r ↔
      baseFee ≤ mf ∧ mp ≤ mf ∧ r = (baseFee + min mp (mf - baseFee), gas * mf) := by
    intro gas mf mp
    unfold feeMarketPrices
    by_cases h : mf < mp
    · rw [if_pos h]; exact ⟨fun h => (by cases h), fun ⟨_, _, _⟩ => by omega⟩
    · rw [if_neg h]
      by_cases h' : mf < baseFee
      · rw [if_pos h']; exact ⟨fun h => (by cases h), fun ⟨_, _⟩ => by omega⟩
      · rw [if_neg h', Nat.add_comm baseFee]
        exact ⟨fun h => by cases h; exact ⟨by omega, by omega, rfl⟩, fun h => by rw [h.2.2]⟩
  unfold price tip
  cases tx <;> simp only [gasPrices, maxFee, maxTip, Transaction.gas]
  case legacy t => exact hl _ _
  case accessList t => exact hl _ _
  all_goals exact hf _ _ _

theorem version_iff (h : Word) : slice (wordBytes h) 0 1 = VERSIONED_HASH_VERSION_KZG ↔ h.toNat / 2 ^ 248 = 1 := by
  have e : (256 : Nat) ^ 31 = 2 ^ 248 := by show (2 ^ 8) ^ 31 = _; rw [← Nat.pow_mul]
  have hlt : h.toNat / 2 ^ 248 < 256 := by have := h.isLt; omega
  unfold slice wordBytes VERSIONED_HASH_VERSION_KZG
  rw [toBE_head 31, e]
  generalize h.toNat / 2 ^ 248 = x at *
  rw [List.drop_zero, Nat.sub_zero, List.take_succ_cons, List.take_zero]
  constructor
  · intro h
    have h := congrArg UInt8.toNat (List.cons.inj h).1
    rw [UInt8.toNat_ofNat'] at h
    have h1 : (1 : UInt8).toNat = 1 := rfl
    rw [h1, Nat.mod_eq_of_lt hlt] at h
    exact h
  · intro h; rw [h]; rfl

theorem ite_err {ε α : Type} {c : Prop} [Decidable c] {e : ε} {x : Except ε α} {r : α} :
    ((if c then .error e else x) = .ok r) ↔ ¬ c ∧ x = .ok r := by
  by_cases h : c
  · rw [if_pos h]; exact ⟨fun h => (by cases h), fun h' => absurd h h'.1⟩
  · rw [if_neg h]; exact ⟨fun h' => ⟨h, h'⟩, fun h' => h'.2⟩

theorem blobChecks_ok {f : Fork} {B : BlockEnv} {tx : Transaction} {r : Nat} (n : Nat) :
    (blobChecks f B.excessBlobGas n tx = .ok r ∧ shapeChecks tx = .ok ()) ↔
      (∀ t, tx = .blob t → BlobRules f B t) ∧ (∀ t, tx = .setCode t → t.to ≠ none ∧ t.authorizations ≠ []) ∧
      r = (match tx with | .blob t => n * t.maxFeePerBlobGas.toNat | _ => 0) := by
  have e1 : BLOB_COUNT_LIMIT = 6 := rfl
  have hv : ∀ l : List Word, ¬ (l.any (fun h => slice (wordBytes h) 0 1 ≠ VERSIONED_HASH_VERSION_KZG) = true) ↔
      ∀ h ∈ l, h.toNat / 2 ^ 248 = 1 := by
    intro l
    simp only [List.any_eq_true, decide_eq_true_eq, ← version_iff]
    constructor
    · intro h x hx; exact Decidable.not_not.mp fun hn => h ⟨x, hx, hn⟩
    · rintro h ⟨x, hx, hn⟩; exact hn (h x hx)
  cases tx with
  | blob t =>
    simp only [blobChecks, shapeChecks, ite_err, e1, hv]
    constructor
    · rintro ⟨⟨-, h1, h2, h3, h4, h5⟩, h6, -⟩
      refine ⟨fun t' ht => ?_, fun t' ht => (by cases ht), (Except.ok.inj h5).symm⟩
      cases ht
      exact ⟨by omega, fun ho => Nat.le_of_not_lt fun hl => h2 ⟨ho, hl⟩, h3, by omega, h6⟩
    · rintro ⟨h1, -, rfl⟩
      have := h1 t rfl
      refine ⟨⟨fun hc => this.recipient hc.2, by have := this.some; omega, fun hc => Nat.not_lt.mpr (this.limit hc.1) hc.2, this.version, by have := this.fee; omega, rfl⟩,
        this.recipient, trivial⟩
  | setCode t =>
    simp only [blobChecks, shapeChecks, ite_err]
    constructor
    · rintro ⟨h1, h2, h3, -⟩
      exact ⟨fun t' ht => (by cases ht), fun t' ht => by cases ht; exact ⟨h2, h3⟩, (Except.ok.inj h1).symm⟩
    · rintro ⟨-, h, rfl⟩
      exact ⟨rfl, (h t rfl).1, (h t rfl).2, trivial⟩
  | legacy t => exact ⟨fun h => ⟨fun t' ht => (by cases ht), fun t' ht => (by cases ht), (Except.ok.inj h.1).symm⟩, fun h => ⟨by rw [h.2.2]; rfl, rfl⟩⟩
  | accessList t => exact ⟨fun h => ⟨fun t' ht => (by cases ht), fun t' ht => (by cases ht), (Except.ok.inj h.1).symm⟩, fun h => ⟨by rw [h.2.2]; rfl, rfl⟩⟩
  | feeMarket t => exact ⟨fun h => ⟨fun t' ht => (by cases ht), fun t' ht => (by cases ht), (Except.ok.inj h.1).symm⟩, fun h => ⟨by rw [h.2.2]; rfl, rfl⟩⟩

theorem senderChecks_ok {f : Fork} {acc : Account} {nonce : Word} {cost : Nat} :
    senderChecks f acc nonce cost = .ok () ↔
      acc.nonce = nonce.toNat ∧ cost ≤ acc.balance.toNat ∧
      (acc.code = [] ∨ (if f.since .prague then delegate acc.code else none) ≠ none) := by
  have hd : (if f.since .prague then delegate acc.code else none) ≠ none ↔
      (f.since .prague = true ∧ isValidDelegation acc.code = true) := by
    by_cases hp : f.since .prague = true
    · rw [if_pos hp, delegate_iff]; exact ⟨fun h => ⟨hp, h⟩, fun h => h.2⟩
    · rw [if_neg hp]; exact ⟨fun h => absurd rfl h, fun h => absurd h.1 hp⟩
  rw [hd]
  unfold senderChecks
  by_cases h1 : acc.nonce > nonce.toNat
  · rw [if_pos h1]; exact ⟨fun h => (by cases h), fun h => by omega⟩
  rw [if_neg h1]
  by_cases h2 : acc.nonce < nonce.toNat
  · rw [if_pos h2]; exact ⟨fun h => (by cases h), fun h => by omega⟩
  rw [if_neg h2]
  by_cases h3 : acc.balance.toNat < cost
  · rw [if_pos h3]; exact ⟨fun h => (by cases h), fun h => by omega⟩
  rw [if_neg h3]
  by_cases h4 : acc.code ≠ [] ∧ ¬ (f.since .prague = true ∧ isValidDelegation acc.code = true)
  · rw [if_pos h4]; exact ⟨fun h => (by cases h), fun h => by rcases h.2.2 with h | h; exact absurd h h4.1; exact absurd h h4.2⟩
  rw [if_neg h4]
  refine ⟨fun _ => ⟨by omega, by omega, ?_⟩, fun _ => rfl⟩
  by_cases h : acc.code = []
  · exact .inl h
  · exact .inr (Decidable.not_not.mp fun h' => h4 ⟨h, h'⟩)

theorem checkTransaction_ok {C : Crypto} {B : BlockEnv} {s : State} {out : BlockOutput} {tx : Transaction} {c : CheckedTx}
    (hv : ValidTx s.fork tx) :
    checkTransaction C B s out tx = .ok c ↔ ∃ sender, Includable C B s out.blockGasUsed out.blobGasUsed tx sender ∧
      c = ⟨sender, price B.baseFeePerGas tx, tx.blobHashes, blobGas tx⟩ := by
  unfold checkTransaction
  have hb : ∀ ba, blobGasAvailable s.fork out = .ok ba ↔
      ba = (if s.fork.since .cancun then 131072 * maxBlobs s.fork - out.blobGasUsed else 0) ∧
      (s.fork.since .cancun = true → out.blobGasUsed ≤ 131072 * maxBlobs s.fork) := by
    intro ba
    unfold blobGasAvailable
    by_cases hc : s.fork.since .cancun = true
    · have e1 : maxBlobGasPerBlock s.fork = 131072 * maxBlobs s.fork := by
        unfold maxBlobGasPerBlock maxBlobs
        rw [if_pos hc]; split <;> rfl
      rw [if_pos hc, if_pos hc, pyErr_ok, usub_ok, e1]
      exact ⟨fun h => ⟨h.2, fun _ => h.1⟩, fun h => ⟨h.2 hc, h.1⟩⟩
    · rw [if_neg hc, if_neg hc]
      exact ⟨fun h => ⟨(Except.ok.inj h).symm, fun h' => absurd h' hc⟩, fun h => by rw [h.1]⟩
  simp only [except_bind_ok, pyErr_ok, usub_ok, hb]
  constructor
  · rintro ⟨ga, ⟨h1, rfl⟩, ba, ⟨rfl, h2⟩, h⟩
    by_cases c1 : tx.gas > B.blockGasLimit - out.blockGasUsed
    · rw [if_pos c1] at h
      cases h
    rw [if_neg c1] at h
    simp only [except_bind_ok, pyErr_ok, totalBlobGas_ok] at h
    obtain ⟨bg, ⟨h3, rfl⟩, h⟩ := h
    by_cases c2 : blobGas tx > (if s.fork.since .cancun then 131072 * maxBlobs s.fork - out.blobGasUsed else 0)
    · rw [if_pos c2] at h
      cases h
    rw [if_neg c2] at h
    simp only [except_bind_ok, txErr_ok, gasPrices_ok] at h
    obtain ⟨sender, hs, pr, ⟨h4, h5, rfl⟩, bf, hb, u, hsh, u', hse, h⟩ := h
    obtain ⟨h6, h7, rfl⟩ := (blobChecks_ok (B := B) _).mp ⟨hb, hsh⟩
    obtain ⟨h8, h9, h10⟩ := senderChecks_ok.mp hse
    refine ⟨sender, ⟨hv, hs, by omega, fun hc => ?_, fun hc => ?_, h4, h5, h6, h7, h8, ?_, h10⟩, (Except.ok.inj h).symm⟩
    · rw [if_pos hc] at c2
      have := h2 hc
      omega
    · rw [if_neg (by rw [hc]; exact Bool.false_ne_true)] at c2
      unfold blobGas at c2
      exact List.eq_nil_of_length_eq_zero (by omega)
    · refine Nat.le_trans (Nat.le_of_eq ?_) h9
      congr 2
      cases tx <;> rfl
  · rintro ⟨sender, hi, rfl⟩
    have r1 := hi.room
    have r2 := hi.blobRoom
    refine ⟨_, ⟨by omega, rfl⟩, _, ⟨rfl, fun hc => by have := r2 hc; omega⟩, ?_⟩
    rw [if_neg (by omega)]
    simp only [except_bind_ok, pyErr_ok, totalBlobGas_ok]
    have hroom : ¬ blobGas tx > (if s.fork.since .cancun then 131072 * maxBlobs s.fork - out.blobGasUsed else 0) := by
      by_cases hc : s.fork.since .cancun = true
      · rw [if_pos hc]; have := r2 hc; omega
      · rw [if_neg hc]; unfold blobGas; rw [hi.blobKnown (by simpa using hc)]; exact Nat.lt_irrefl 0
    have hsmall : blobGas tx < 2 ^ 64 := by
      by_cases hc : s.fork.since .cancun = true
      · have := r2 hc
        have hm : maxBlobs s.fork ≤ 9 := by unfold maxBlobs; rw [if_pos hc]; split <;> decide
        omega
      · unfold blobGas; rw [hi.blobKnown (by simpa using hc)]; decide
    refine ⟨_, ⟨by omega, rfl⟩, ?_⟩
    rw [if_neg hroom]
    simp only [except_bind_ok, txErr_ok, gasPrices_ok]
    have hb := (blobChecks_ok (B := B) (blobGas tx)).mpr ⟨hi.blob, hi.setCode, rfl⟩
    refine ⟨sender, hi.signed, _, ⟨hi.fee, hi.tipFee, rfl⟩, _, hb.1, (), hb.2, (), ?_, rfl⟩
    refine senderChecks_ok.mpr ⟨hi.nonce, ?_, hi.code⟩
    refine Nat.le_trans (Nat.le_of_eq ?_) hi.balance
    congr 2
    cases tx <;> rfl

/-- The state once the sender has paid in advance for all the gas and the blobs. -/
def prepaid (B : BlockEnv) (s : State) (tx : Transaction) (sender : Address) : State :=
  setAccountBalance (incrementNonce s sender) sender
    (BitVec.ofNat 256 ((getAccount s sender).balance.toNat - (tx.gas * price B.baseFeePerGas tx + blobFee s.fork B tx)))

/-- The environment of the transaction. -/
def txEnvOf (f : Fork) (B : BlockEnv) (tx : Transaction) (sender : Address) : TxEnv :=
  { origin := sender, gasPrice := price B.baseFeePerGas tx, gas := tx.gas - intrinsicGas f tx,
    accessListAddresses := accessAddresses f B.coinbase tx, accessListStorageKeys := accessKeys tx,
    blobVersionedHashes := tx.blobHashes, authorizations := tx.authorizations }

/-- The block output with the transaction recorded. -/
def recorded (out : BlockOutput) (tx : Transaction) (index : Nat) : BlockOutput :=
  { out with transactionsTrie := trieSet out.transactionsTrie (indexKey index) (some (encodeTransaction tx)) }

theorem price_le {B : BlockEnv} {tx : Transaction} (h : B.baseFeePerGas ≤ maxFee tx) : price B.baseFeePerGas tx ≤ maxFee tx := by
  unfold price tip; omega

theorem blobFee_le {C : Crypto} {B : BlockEnv} {s : State} {g bg : Nat} {tx : Transaction} {a : Address}
    (h : Includable C B s g bg tx a) : blobFee s.fork B tx ≤ blobGas tx * maxBlobFee tx := by
  unfold blobFee
  match tx, h with
  | .blob t, h => exact Nat.mul_le_mul_left _ (h.blob t rfl).fee
  | .legacy t, h => exact Nat.le_of_eq (by simp [blobGas, Transaction.blobHashes])
  | .accessList t, h => exact Nat.le_of_eq (by simp [blobGas, Transaction.blobHashes])
  | .feeMarket t, h => exact Nat.le_of_eq (by simp [blobGas, Transaction.blobHashes])
  | .setCode t, h => exact Nat.le_of_eq (by simp [blobGas, Transaction.blobHashes])

/-- The sender can pay all of it. -/
theorem can_pay {C : Crypto} {B : BlockEnv} {s : State} {g bg : Nat} {tx : Transaction} {a : Address}
    (h : Includable C B s g bg tx a) :
    tx.gas * price B.baseFeePerGas tx + blobFee s.fork B tx + tx.value.toNat ≤ (getAccount s a).balance.toNat := by
  have h1 := blobFee_le h
  have h2 := Nat.mul_le_mul_left tx.gas (price_le h.fee)
  have h3 := h.balance
  omega

theorem blobFee_eq (f : Fork) (B : BlockEnv) (tx : Transaction) :
    blobGasFeeOf f B tx (blobGas tx) = blobFee f B tx := by
  unfold blobFee blobGasFeeOf calculateDataFee
  cases tx <;> simp [blobGas, Transaction.blobHashes]

theorem getAccount_prepaid (B : BlockEnv) (s : State) (tx : Transaction) (sender x : Address) :
    getAccount (prepaid B s tx sender) x = if sender = x then
      { getAccount s x with
        nonce := (getAccount s x).nonce + 1
        balance := BitVec.ofNat 256 ((getAccount s sender).balance.toNat - (tx.gas * price B.baseFeePerGas tx + blobFee s.fork B tx)) }
      else getAccount s x := by
  unfold prepaid setAccountBalance incrementNonce
  rw [getAccount_modifyState', getAccount_modifyState']
  by_cases h : sender = x
  · rw [if_pos h, if_pos h, if_pos rfl, h]
  · rw [if_neg h, if_neg h, getAccount_modifyState', if_neg h]

theorem beginTx_accepts {C : Crypto} {B : BlockEnv} {b : BlockState} {tx : Transaction} {sender : Address} (i : Nat)
    (h : Includable C B b.state b.out.blockGasUsed b.out.blobGasUsed tx sender) :
    ∃ msg, prepareMessage C (txEnvOf b.state.fork B tx sender) (prepaid B b.state tx sender) tx = .ok msg ∧
      beginTx C B b tx i = .ok (⟨⟨sender, price B.baseFeePerGas tx, tx.blobHashes, blobGas tx⟩, floorGas b.state.fork tx, txEnvOf b.state.fork B tx sender, msg⟩,
        ⟨prepaid B b.state tx sender, recorded b.out tx i⟩) := by
  have hm : ∃ msg, prepareMessage C (txEnvOf b.state.fork B tx sender) (prepaid B b.state tx sender) tx = .ok msg := by
    unfold prepareMessage
    dsimp only
    split
    · have : usub (getAccount (prepaid B b.state tx sender) (txEnvOf b.state.fork B tx sender).origin).nonce 1 =
          .ok ((getAccount (prepaid B b.state tx sender) (txEnvOf b.state.fork B tx sender).origin).nonce - 1) := by
        rw [usub_ok]
        refine ⟨?_, rfl⟩
        change 1 ≤ (getAccount (prepaid B b.state tx sender) sender).nonce
        rw [getAccount_prepaid, if_pos rfl]
        exact Nat.le_add_left _ _
      rw [this]
      exact ⟨_, rfl⟩
    · exact ⟨_, rfl⟩
  obtain ⟨msg, hm⟩ := hm
  refine ⟨msg, hm, ?_⟩
  have hp := can_pay h
  have hc : checkTransaction C B b.state (recorded b.out tx i) tx = .ok ⟨sender, price B.baseFeePerGas tx, tx.blobHashes, blobGas tx⟩ :=
    (checkTransaction_ok h.valid).mpr ⟨sender, h, rfl⟩
  have hv : validateTransaction b.state.fork tx = .ok (intrinsicGas b.state.fork tx, floorGas b.state.fork tx) := (C45_accepts_iff b.state.fork tx _).mpr ⟨h.valid, rfl⟩
  unfold beginTx
  rw [hv]
  dsimp only
  change (match checkTransaction C B b.state (recorded b.out tx i) tx with | .error e => _ | .ok checked => _) = _
  rw [hc]
  dsimp only
  rw [blobFee_eq]
  have u1 : usub tx.gas (intrinsicGas b.state.fork tx) = .ok (tx.gas - intrinsicGas b.state.fork tx) := usub_ok.mpr ⟨h.valid.gas, rfl⟩
  rw [u1]
  dsimp only
  generalize hbal : (getAccount b.state sender).balance.toNat = bal at hp
  have hlt : bal < 2 ^ 256 := by rw [← hbal]; exact BitVec.isLt _
  have u2 : usub bal (tx.gas * price B.baseFeePerGas tx) = .ok (bal - tx.gas * price B.baseFeePerGas tx) := usub_ok.mpr ⟨by omega, rfl⟩
  rw [u2]
  dsimp only
  have u3 : usub (bal - tx.gas * price B.baseFeePerGas tx) (blobFee b.state.fork B tx) =
      .ok (bal - (tx.gas * price B.baseFeePerGas tx + blobFee b.state.fork B tx)) := usub_ok.mpr ⟨by omega, by omega⟩
  rw [u3]
  dsimp only
  have u4 : toU256 (bal - (tx.gas * price B.baseFeePerGas tx + blobFee b.state.fork B tx)) =
      .ok (BitVec.ofNat 256 (bal - (tx.gas * price B.baseFeePerGas tx + blobFee b.state.fork B tx))) := toU256_ok.mpr ⟨by omega, rfl⟩
  rw [u4]
  dsimp only
  rw [← hbal]
  change (match prepareMessage C (txEnvOf b.state.fork B tx sender) (prepaid B b.state tx sender) tx with | .error c => _ | .ok checked => _) = _
  rw [hm]
  rfl

/-- A rejection: nothing but the record of the transaction has changed. -/
theorem beginTx_rejects {C : Crypto} {B : BlockEnv} {b b' : BlockState} {tx : Transaction} {i : Nat} {e : BlockExn}
    (h : beginTx C B b tx i = .error (e, b')) :
    b' = ⟨b.state, recorded b.out tx i⟩ ∧
    (∀ sender, ¬ Includable C B b.state b.out.blockGasUsed b.out.blobGasUsed tx sender) ∧
    ((∃ x, validateTransaction b.state.fork tx = .error x ∧ e = .invalidTx x) ∨ checkTransaction C B b.state (recorded b.out tx i) tx = .error e) := by
  have hn : ∀ sender, ¬ Includable C B b.state b.out.blockGasUsed b.out.blobGasUsed tx sender := by
    intro sender hi
    obtain ⟨msg, -, h'⟩ := beginTx_accepts i hi
    rw [h] at h'; cases h'
  refine ⟨?_, hn, ?_⟩
  all_goals
    match hv : validateTransaction b.state.fork tx with
    | .error x =>
      unfold beginTx at h
      rw [hv] at h
      cases h
      first | rfl | exact .inl ⟨x, rfl, rfl⟩
    | .ok (ig, fl) =>
      obtain ⟨hval, -⟩ := (C45_accepts_iff b.state.fork tx _).mp hv
      match hc : checkTransaction C B b.state (recorded b.out tx i) tx with
      | .ok c =>
        obtain ⟨sender, hi, -⟩ := (checkTransaction_ok hval).mp hc
        exact absurd hi (hn sender)
      | .error x =>
        unfold beginTx at h
        rw [hv] at h
        dsimp only at h
        change (match checkTransaction C B b.state (recorded b.out tx i) tx with | .error e => _ | .ok checked => _) = _ at h
        rw [hc] at h
        cases h
        first | rfl | exact .inr rfl

theorem beginTx_iff {C : Crypto} {B : BlockEnv} {b b' : BlockState} {tx : Transaction} {i : Nat} {p : PreparedTx}
    (h : beginTx C B b tx i = .ok (p, b')) :
    ∃ sender, Includable C B b.state b.out.blockGasUsed b.out.blobGasUsed tx sender ∧
      p.checked = ⟨sender, price B.baseFeePerGas tx, tx.blobHashes, blobGas tx⟩ ∧ p.floor = floorGas b.state.fork tx ∧ p.txEnv = txEnvOf b.state.fork B tx sender ∧
      prepareMessage C (txEnvOf b.state.fork B tx sender) (prepaid B b.state tx sender) tx = .ok p.message ∧
      b' = ⟨prepaid B b.state tx sender, recorded b.out tx i⟩ := by
  have : ∃ sender, Includable C B b.state b.out.blockGasUsed b.out.blobGasUsed tx sender := by
    match hv : validateTransaction b.state.fork tx with
    | .error x =>
      unfold beginTx at h
      rw [hv] at h
      cases h
    | .ok (ig, fl) =>
      obtain ⟨hval, -⟩ := (C45_accepts_iff b.state.fork tx _).mp hv
      match hc : checkTransaction C B b.state (recorded b.out tx i) tx with
      | .ok c =>
        obtain ⟨sender, hi, -⟩ := (checkTransaction_ok hval).mp hc
        exact ⟨sender, hi⟩
      | .error x =>
        unfold beginTx at h
        rw [hv] at h
        dsimp only at h
        change (match checkTransaction C B b.state (recorded b.out tx i) tx with | .error e => _ | .ok checked => _) = _ at h
        rw [hc] at h
        cases h
  obtain ⟨sender, hi⟩ := this
  obtain ⟨msg, hm, h'⟩ := beginTx_accepts i hi
  rw [h] at h'
  cases h'
  exact ⟨sender, hi, rfl, rfl, rfl, hm, rfl⟩

end Verif
