import Verif.Spec.Header
/-! Facts about the header functions. -/
namespace Verif
open Spec

theorem checkGasLimit_iff (g p : Nat) : checkGasLimit g p = true ↔ GasLimitOK g p := by
  unfold checkGasLimit GasLimitOK
  have e1 : GAS_LIMIT_ADJUSTMENT_FACTOR = 1024 := rfl
  have e2 : GAS_LIMIT_MINIMUM = 5000 := rfl
  dsimp only
  rw [e1, e2]
  by_cases h1 : g ≥ p + p / 1024
  · rw [if_pos h1]; constructor
    · intro h; cases h
    · omega
  · rw [if_neg h1]
    by_cases h2 : g ≤ p - p / 1024
    · rw [if_pos h2]; constructor
      · intro h; cases h
      · omega
    · rw [if_neg h2]
      by_cases h3 : g < 5000
      · rw [if_pos h3]; constructor
        · intro h; cases h
        · omega
      · rw [if_neg h3]; constructor
        · omega
        · intro _; rfl

theorem gasLimitOK_parent {g p : Nat} (h : GasLimitOK g p) : 1024 ≤ p := by
  unfold GasLimitOK at h; omega

theorem baseFee_fall {fee delta target : Nat} (ht : 0 < target) (hd : delta ≤ target) : fee * delta / target / 8 ≤ fee / 8 := by
  apply Nat.div_le_div_right
  calc fee * delta / target ≤ fee * target / target := Nat.div_le_div_right (Nat.mul_le_mul_left _ hd)
    _ = fee := Nat.mul_div_cancel _ ht

theorem calculateBaseFee_eq {g p u f : Nat} (h : GasLimitOK g p) : calculateBaseFeePerGas g p u f = .ok (nextBaseFee p u f) := by
  have h1 := (checkGasLimit_iff g p).mpr h
  have hp := gasLimitOK_parent h
  have ht : 0 < p / 2 := by omega
  have e1 : ELASTICITY_MULTIPLIER = 2 := rfl
  have e2 : BASE_FEE_MAX_CHANGE_DENOMINATOR = 8 := rfl
  have hu : ∀ x, udiv x (p / 2) = .ok (x / (p / 2)) := fun x => by unfold udiv; rw [if_neg (by omega)]
  unfold calculateBaseFeePerGas nextBaseFee
  dsimp only
  rw [e1, e2, hu, hu, if_neg (by rw [h1]; simp)]
  by_cases h2 : u = p / 2
  · rw [if_pos h2, if_pos h2]
  · rw [if_neg h2, if_neg h2]
    by_cases h3 : u > p / 2
    · rw [if_pos h3, if_pos h3, Nat.max_comm]
    · rw [if_neg h3, if_neg h3]
      have := baseFee_fall (fee := f) ht (show p / 2 - u ≤ p / 2 by omega)
      dsimp only
      unfold usub
      rw [if_pos (by omega)]

theorem calculateBaseFee_bad {g p u f : Nat} (h : ¬ GasLimitOK g p) : calculateBaseFeePerGas g p u f = .error .invalidBlock := by
  have h1 : ¬ checkGasLimit g p = true := fun h' => h ((checkGasLimit_iff g p).mp h')
  unfold calculateBaseFeePerGas
  dsimp only
  rw [if_pos h1]

theorem ofNat_toNat64 (x : U64) : BitVec.ofNat 64 x.toNat = x := by rw [BitVec.ofNat_toNat, BitVec.setWidth_eq]

theorem target_eq (f : Fork) : targetBlobGasPerBlock f = if f.since .prague then 6 * 2 ^ 17 else 3 * 2 ^ 17 := by
  unfold targetBlobGasPerBlock; rfl

theorem target_pos (f : Fork) : 0 < targetBlobGasPerBlock f := by
  rw [target_eq]; split <;> omega

theorem excess_eq {f pf : Fork} {p : Header} (h : pf = f → BlobGasInRange p) :
    calculateExcessBlobGas f (decide (pf = f)) p = .ok (requiredExcessBlobGas f pf p) := by
  unfold calculateExcessBlobGas requiredExcessBlobGas nextExcessBlobGas
  by_cases own : pf = f
  · obtain ⟨h1, h2⟩ := h own
    simp only [own, decide_true, if_true, toU64, h1, ← target_eq, GAS_PER_BLOB, BLOB_SCHEDULE_TARGET, BLOB_SCHEDULE_MAX,
      BLOB_BASE_COST, ofNat_toNat64]
    generalize targetBlobGasPerBlock f = t
    by_cases h3 : p.excessBlobGas.toNat + p.blobGasUsed.toNat < t
    · rw [if_pos h3, if_pos h3]
    · rw [if_neg h3, if_neg h3]
      by_cases ho : f.since .osaka = true
      · rw [if_neg (fun h => h ho)]
        by_cases h4 : 2 ^ 17 * calculateBlobGasPrice f p.excessBlobGas < 2 ^ 13 * p.baseFeePerGas
        · rw [if_pos h4, if_pos (show p.blobGasUsed.toNat * (9 - 6) < 2 ^ 64 by omega),
            if_pos (show f.since .osaka = true ∧ 2 ^ 17 * calculateBlobGasPrice f p.excessBlobGas < 2 ^ 13 * p.baseFeePerGas from ⟨ho, h4⟩)]
          simp only
          rw [if_pos (by omega)]
        · rw [if_neg h4, if_neg (fun h => h4 h.2)]
      · rw [if_pos ho, if_neg (fun h => ho h.1)]
  · have hz := target_pos f
    simp only [own, decide_false, if_false, Bool.false_eq_true, toU64]
    rw [if_pos (by decide)]
    simp only
    rw [if_pos hz]

/-- The required value, when it can be computed at all. -/
theorem excess_ok {f pf : Fork} {p : Header} {n : Nat} (h : calculateExcessBlobGas f (decide (pf = f)) p = .ok n) :
    n = requiredExcessBlobGas f pf p := by
  unfold calculateExcessBlobGas at h
  unfold requiredExcessBlobGas nextExcessBlobGas
  by_cases own : pf = f
  · simp only [own, decide_true, if_true, toU64, ← target_eq, GAS_PER_BLOB, BLOB_SCHEDULE_TARGET, BLOB_SCHEDULE_MAX,
      BLOB_BASE_COST, ofNat_toNat64] at h ⊢
    generalize targetBlobGasPerBlock f = t at h ⊢
    by_cases h1 : p.excessBlobGas.toNat + p.blobGasUsed.toNat < 2 ^ 64
    · simp only [h1, if_true] at h
      by_cases h3 : p.excessBlobGas.toNat + p.blobGasUsed.toNat < t
      · rw [if_pos h3] at h ⊢; exact (Except.ok.inj h).symm
      · rw [if_neg h3] at h ⊢
        by_cases ho : f.since .osaka = true
        · rw [if_neg (fun h => h ho)] at h
          by_cases h4 : 2 ^ 17 * calculateBlobGasPrice f p.excessBlobGas < 2 ^ 13 * p.baseFeePerGas
          · rw [if_pos h4] at h; rw [if_pos ⟨ho, h4⟩]
            by_cases h5 : p.blobGasUsed.toNat * (9 - 6) < 2 ^ 64
            · simp only [h5, if_true] at h
              split at h
              · exact (Except.ok.inj h).symm
              · cases h
            · simp only [h5, if_false] at h; cases h
          · rw [if_neg h4] at h; rw [if_neg (fun h => h4 h.2)]; exact (Except.ok.inj h).symm
        · rw [if_pos ho] at h; rw [if_neg (fun h => ho h.1)]; exact (Except.ok.inj h).symm
    · simp only [h1, if_false] at h; cases h
  · have hz := target_pos f
    simp only [own, decide_false, if_false, Bool.false_eq_true, toU64] at h ⊢
    rw [if_pos (by decide)] at h
    simp only at h
    rw [if_pos hz] at h
    exact (Except.ok.inj h).symm

/-- The blob gas check of `validate_header`. -/
theorem headerExcess_ok {f pf : Fork} {p h : Header} {n : Nat}
    (he : (if f.since .cancun = true then calculateExcessBlobGas f (decide (pf = f)) p else .ok h.excessBlobGas.toNat) = .ok n)
    (hn : h.excessBlobGas.toNat = n) : f.since .cancun = true → h.excessBlobGas.toNat = requiredExcessBlobGas f pf p := by
  intro hf; rw [if_pos hf] at he; rw [hn]; exact excess_ok he

theorem headerExcess_eq {f pf : Fork} {p h : Header} (hr : pf.since .cancun = true → BlobGasInRange p) :
    (if f.since .cancun = true then calculateExcessBlobGas f (decide (pf = f)) p else .ok h.excessBlobGas.toNat) =
      .ok (if f.since .cancun = true then requiredExcessBlobGas f pf p else h.excessBlobGas.toNat) := by
  split
  · rename_i hc; exact excess_eq fun he => hr (by rw [he]; exact hc)
  · rfl

theorem ite_error_ok {ε α : Type} {c : Prop} [Decidable c] {e : ε} {x : Except ε α} {r : α} :
    ((if c then .error e else x) = .ok r) ↔ ¬ c ∧ x = .ok r := by
  by_cases h : c
  · rw [if_pos h]; exact ⟨fun h' => (by cases h'), fun h' => absurd h h'.1⟩
  · rw [if_neg h]; exact ⟨fun h' => ⟨h, h'⟩, fun h' => h'.2⟩

theorem ite_error_error {ε α : Type} {c : Prop} [Decidable c] {e e' : ε} {x : Except ε α}
    (h : (if c then .error e else x) = .error e') : e' = e ∨ x = .error e' := by
  by_cases hc : c
  · rw [if_pos hc] at h; exact .inl (Except.error.inj h).symm
  · rw [if_neg hc] at h; exact .inr h

theorem validateHeader_ok {C : Crypto} {chain : BlockChain} {h : Header} (hv : validateHeader C chain h = .ok ()) :
    ∃ p, chain.blocks.getLast? = some p ∧ ValidHeader C chain.state.fork p.fork p.block.header h := by
  unfold validateHeader at hv
  by_cases hn : h.number < 1
  · simp [hn] at hv
  · simp only [hn, if_false] at hv
    match hp : chain.blocks.getLast? with
    | none => simp [hp] at hv
    | some p =>
      simp only [hp] at hv
      match he : (if chain.state.fork.since .cancun = true then
          calculateExcessBlobGas chain.state.fork (decide (p.fork = chain.state.fork)) p.block.header else .ok h.excessBlobGas.toNat) with
      | .error c => simp [he] at hv
      | .ok n =>
        simp only [he] at hv
        by_cases g : GasLimitOK h.gasLimit p.block.header.gasLimit
        · rw [calculateBaseFee_eq g] at hv
          simp only at hv
          simp only [ite_error_ok, ne_eq, Decidable.not_not] at hv
          obtain ⟨q1, q2, q3, q4, q5, q6, q7, q8, q9, q10, _⟩ := hv
          rw [BitVec.le_def] at q4
          exact ⟨p, rfl, q5, by omega, q10, g, by omega, q3.symm, headerExcess_ok he q1, by omega, q7, q8, q9⟩
        · rw [calculateBaseFee_bad g] at hv
          simp only [ite_error_ok] at hv
          obtain ⟨_, _, hv⟩ := hv
          cases hv

theorem validateHeader_of_valid {C : Crypto} {chain : BlockChain} {h : Header} {p : ChainBlock}
    (hp : chain.blocks.getLast? = some p) (hr : p.fork.since .cancun = true → BlobGasInRange p.block.header) (v : ValidHeader C chain.state.fork p.fork p.block.header h) :
    validateHeader C chain h = .ok () := by
  unfold validateHeader
  have ht := v.timestamp
  rw [if_neg (by have := v.number; omega), hp]
  simp only
  rw [headerExcess_eq hr]
  simp only
  rw [if_neg (by split <;> simp_all [v.excessBlobGas]), if_neg (by have := v.gasUsed; omega), calculateBaseFee_eq v.gasLimit]
  simp only
  rw [if_neg (fun hn => hn v.baseFee.symm), if_neg (by rw [BitVec.le_def]; omega), if_neg (fun hn => hn v.number),
    if_neg (by have := v.extraData; omega), if_neg (fun hn => hn v.difficulty), if_neg (fun hn => hn v.nonce),
    if_neg (fun hn => hn v.ommers), if_neg (fun hn => hn v.parentHash)]

theorem validateHeader_error {C : Crypto} {chain : BlockChain} {h : Header} {p : ChainBlock} {e : BlockExn}
    (hp : chain.blocks.getLast? = some p) (hr : p.fork.since .cancun = true → BlobGasInRange p.block.header) (hv : validateHeader C chain h = .error e) :
    e = .invalidBlock := by
  unfold validateHeader at hv
  rw [hp] at hv
  dsimp only at hv
  rw [headerExcess_eq hr] at hv
  dsimp only at hv
  rcases ite_error_error hv with hv | hv
  · exact hv
  rcases ite_error_error hv with hv | hv
  · exact hv
  rcases ite_error_error hv with hv | hv
  · exact hv
  by_cases g : GasLimitOK h.gasLimit p.block.header.gasLimit
  · rw [calculateBaseFee_eq g] at hv
    dsimp only at hv
    iterate 8 (rcases ite_error_error hv with hv | hv; · exact hv)
    cases hv
  · rw [calculateBaseFee_bad g] at hv
    exact (Except.error.inj hv).symm

/-! ### Chains -/

theorem lastN_eq {α : Type} {n : Nat} {l : List α} (h : l.length ≤ n) : lastN n l = l := by
  unfold lastN; rw [Nat.sub_eq_zero_of_le h]; rfl
theorem lastN_length {α : Type} (n : Nat) (l : List α) : (lastN n l).length = min n l.length := by
  unfold lastN; rw [List.length_drop]; omega
theorem lastN_idem {α : Type} (n : Nat) (l : List α) : lastN n (lastN n l) = lastN n l :=
  lastN_eq (by rw [lastN_length]; exact Nat.min_le_left _ _)
theorem lastN_append_lastN {α : Type} (n : Nat) (l m : List α) : lastN n (lastN n l ++ m) = lastN n (l ++ m) := by
  unfold lastN
  by_cases h : l.length ≤ n
  · rw [Nat.sub_eq_zero_of_le h, List.drop_zero]
  · rw [← List.drop_append_of_le_length (by omega), List.drop_drop]
    congr 1
    simp only [List.length_drop, List.length_append]; omega

theorem stateTransition_ok {C : Crypto} {chain chain' : BlockChain} {b : Block} (h : stateTransition C chain b = .ok chain') :
    validateHeader C chain b.header = .ok () ∧ chain'.blocks = lastN 255 (chain.blocks ++ [⟨chain.state.fork, b⟩]) ∧
      chain'.chainId = chain.chainId ∧ b.ommers = [] ∧
      ∃ bs k, applyBody C (blockEnvOf C chain b.header) chain.state b.transactions b.withdrawals = .ok bs ∧
        chain'.state = bs.state ∧ commitments C bs = .ok k ∧ bs.out.blockGasUsed = b.header.gasUsed ∧
        k.transactionsRoot = b.header.transactionsRoot ∧ k.stateRoot = b.header.stateRoot ∧
        k.receiptRoot = b.header.receiptRoot ∧ k.bloom = b.header.bloom ∧ (chain.state.fork.since .shanghai = true → k.withdrawalsRoot = b.header.withdrawalsRoot) ∧
        (chain.state.fork.since .cancun = true → bs.out.blobGasUsed = b.header.blobGasUsed.toNat) ∧
        (chain.state.fork.since .prague = true → k.requestsHash = b.header.requestsHash) := by
  unfold stateTransition at h
  split at h
  · cases h
  match hv : validateHeader C chain b.header with
  | .error e => simp [hv] at h
  | .ok () =>
    simp only [hv] at h
    split at h
    · cases h
    · rename_i hom
      match ha : applyBody C (blockEnvOf C chain b.header) chain.state b.transactions b.withdrawals with
      | .error e => simp [ha] at h
      | .ok bs =>
        simp only [ha] at h
        match hk : commitments C bs with
        | .error c => simp [hk] at h
        | .ok k =>
          simp only [hk] at h
          simp only [ite_error_ok, ne_eq, Decidable.not_not, not_and] at h
          obtain ⟨q1, q2, q3, q4, q5, q6, q7, q8, h⟩ := h
          have h := (Except.ok.inj h).symm
          subst h
          refine ⟨rfl, ?_, rfl, Decidable.not_not.mp hom, bs, k, rfl, rfl, hk, q1, q2, q3, q4, q5, q6, q7, q8⟩
          dsimp only
          split
          · rfl
          · rw [lastN_eq (by omega)]

theorem linked_drop {C : Crypto} {l : List ChainBlock} (h : Linked C l) (n : Nat) : Linked C (l.drop n) := by
  intro i a b h1 h2
  rw [List.getElem?_drop] at h1 h2
  exact h (n + i) a b h1 (by rw [← h2]; congr 1)

theorem linked_append {C : Crypto} {l : List ChainBlock} {p b : ChainBlock} (h : Linked C l) (hp : l.getLast? = some p)
    (hv : ValidHeader C b.fork p.fork p.block.header b.block.header) : Linked C (l ++ [b]) := by
  intro i x y h1 h2
  rw [List.getLast?_eq_getElem?] at hp
  have hlen : l.length ≠ 0 := by intro h0; rw [List.length_eq_zero_iff] at h0; subst h0; simp at hp
  by_cases hi : i + 1 < l.length
  · rw [List.getElem?_append_left (by omega)] at h1 h2
    exact h i x y h1 h2
  · by_cases hi' : i + 1 = l.length
    · rw [List.getElem?_append_left (by omega)] at h1
      rw [List.getElem?_append_right (by omega), hi', Nat.sub_self] at h2
      have : i = l.length - 1 := by omega
      subst this
      rw [hp] at h1
      have e1 := Option.some.inj h1
      have e2 : b = y := by simpa using h2
      subst e1 e2; exact hv
    · rw [List.getElem?_append_right (by omega)] at h2
      rw [List.getElem?_eq_none (by simp; omega)] at h2
      cases h2

theorem step_linked {C : Crypto} {chain chain' : BlockChain} {b : Block} (h : stateTransition C chain b = .ok chain')
    (hl : Linked C chain.blocks) : Linked C chain'.blocks := by
  obtain ⟨hv, hb, _⟩ := stateTransition_ok h
  obtain ⟨p, hp, v⟩ := validateHeader_ok hv
  rw [hb]
  exact linked_drop (linked_append hl hp v) _

theorem imports_linked {C : Crypto} {chain chain' : BlockChain} {bs : List ChainBlock} (h : Imports C chain bs chain')
    (hl : Linked C chain.blocks) : Linked C chain'.blocks := by
  induction h with
  | nil => exact hl
  | cons h t ih => exact ih (step_linked h hl)
  | upgrade f hf t ih => exact ih hl

theorem imports_blocks {C : Crypto} {chain chain' : BlockChain} {bs : List ChainBlock} (h : Imports C chain bs chain')
    (hl : chain.blocks.length ≤ 255) : chain'.blocks = lastN 255 (chain.blocks ++ bs) := by
  induction h with
  | nil => rw [List.append_nil, lastN_eq hl]
  | upgrade f hf t ih => exact ih hl
  | @cons chain mid chain' b bs h t ih =>
    obtain ⟨_, hb, _⟩ := stateTransition_ok h
    rw [ih (by rw [hb, lastN_length]; omega), hb, lastN_append_lastN]
    simp

/-- In a linked list the hashes passed to the next block are the parent of the first and the hashes of all. -/
theorem hashes_linked {C : Crypto} {l : List ChainBlock} (h : Linked C l) (first last : ChainBlock)
    (h0 : l.head? = some first) (h1 : l.getLast? = some last) :
    l.map (fun b => b.block.header.parentHash) ++ [headerHash C last.fork last.block.header] =
      first.block.header.parentHash :: l.map (fun b => headerHash C b.fork b.block.header) := by
  induction l generalizing first with
  | nil => simp at h0
  | cons a r ih =>
    have h0 : a = first := by simpa using h0
    subst h0
    cases r with
    | nil =>
      have : a = last := by simpa using h1
      subst this; rfl
    | cons c r =>
      have hl : Linked C (c :: r) := linked_drop h 1
      have := ih hl c rfl (by simpa using h1)
      rw [List.map_cons, List.cons_append, this]
      have hv := h 0 a c rfl rfl
      rw [List.map_cons, hv.parentHash]; rfl

/-- Numbers in a linked list are consecutive. -/
theorem linked_number {C : Crypto} {l : List ChainBlock} (h : Linked C l) (i j : Nat) (a b : ChainBlock) (ha : l[i]? = some a)
    (hb : l[i + j]? = some b) : b.block.header.number = a.block.header.number + j := by
  induction j generalizing b with
  | zero => rw [Nat.add_zero, ha] at hb; have := Option.some.inj hb; subst this; rfl
  | succ j ih =>
    have hlt : i + j < l.length := by
      rcases Nat.lt_or_ge (i + j) l.length with h' | h'
      · exact h'
      · rw [List.getElem?_eq_none (by omega)] at hb; cases hb
    obtain ⟨c, hc⟩ : ∃ c, l[i + j]? = some c := ⟨_, List.getElem?_eq_getElem hlt⟩
    have h1 := ih c hc
    have h2 := (h (i + j) c b hc hb).number
    omega

/-- The whole history behind a chain that retains its last 255 blocks. -/
theorem imports_history {C : Crypto} {chain chain' : BlockChain} {bs : List ChainBlock} (h : Imports C chain bs chain')
    (full : List ChainBlock) (hl : Linked C full) (hb : chain.blocks = lastN 255 full) :
    Linked C (full ++ bs) ∧ chain'.blocks = lastN 255 (full ++ bs) := by
  induction h generalizing full with
  | nil => rw [List.append_nil]; exact ⟨hl, hb⟩
  | upgrade f hf t ih => exact ih full hl hb
  | @cons chain mid chain' b bs h t ih =>
    obtain ⟨hv, hm, _⟩ := stateTransition_ok h
    obtain ⟨p, hp, v⟩ := validateHeader_ok hv
    have hp' : full.getLast? = some p := by
      rw [hb] at hp
      unfold lastN at hp
      rw [List.getLast?_drop] at hp
      split at hp
      · cases hp
      · exact hp
    have := ih (full ++ [⟨chain.state.fork, b⟩]) (linked_append hl hp' v) (by rw [hm, hb, lastN_append_lastN])
    simpa using this

theorem lastN_getElem? {α : Type} {n : Nat} {l : List α} (i : Nat) : (lastN n l)[i]? = l[l.length - n + i]? := by
  unfold lastN; rw [List.getElem?_drop]

theorem getLast256_eq {C : Crypto} {chain : BlockChain} {full : List ChainBlock} (hl : Linked C full)
    (hb : chain.blocks = lastN 255 full) (first : ChainBlock) (h0 : (lastN 255 full).head? = some first) :
    getLast256BlockHashes C chain =
      first.block.header.parentHash :: (lastN 255 full).map (fun b => headerHash C b.fork b.block.header) := by
  unfold getLast256BlockHashes
  rw [hb, lastN_idem]
  have hd : Linked C (lastN 255 full) := by unfold lastN; exact linked_drop hl _
  generalize lastN 255 full = l at *
  match hlast : l.getLast? with
  | none => rw [List.getLast?_eq_none_iff] at hlast; rw [hlast] at h0; cases h0
  | some last =>
    dsimp only
    rw [hlast]
    exact hashes_linked hd first last h0 hlast

/-- The hash list holds, `back` places from its end, the hash of the block `back` places from the end of the history. -/
theorem getLast256_getElem {C : Crypto} {chain : BlockChain} {full : List ChainBlock} (hl : Linked C full)
    (hb : chain.blocks = lastN 255 full) (back : Nat) (h1 : 1 ≤ back) (h2 : back ≤ 256) (a : ChainBlock)
    (ha : full[full.length - back]? = some a) (h3 : back ≤ full.length) :
    back ≤ (getLast256BlockHashes C chain).length ∧
      (getLast256BlockHashes C chain)[(getLast256BlockHashes C chain).length - back]? = some (headerHash C a.fork a.block.header) := by
  have hne : 0 < (lastN 255 full).length := by rw [lastN_length]; omega
  obtain ⟨first, hf⟩ : ∃ first, (lastN 255 full)[0]? = some first := ⟨_, List.getElem?_eq_getElem hne⟩
  have h0 : (lastN 255 full).head? = some first := by rw [List.head?_eq_getElem?]; exact hf
  rw [getLast256_eq hl hb first h0]
  simp only [List.length_cons, List.length_map, lastN_length]
  refine ⟨by omega, ?_⟩
  by_cases hb' : back ≤ min 255 full.length
  · rw [show min 255 full.length + 1 - back = (min 255 full.length - back) + 1 by omega, List.getElem?_cons_succ,
      List.getElem?_map, lastN_getElem?, show full.length - 255 + (min 255 full.length - back) = full.length - back by omega, ha]
    rfl
  · have hb2 : back = 256 := by omega
    subst hb2
    rw [show min 255 full.length + 1 - 256 = 0 by omega, List.getElem?_cons_zero]
    have hv := hl (full.length - 256) a first ha (by
      rw [lastN_getElem?] at hf; rw [← hf]; exact congrArg (fun j => full[j]?) (by omega))
    rw [hv.parentHash]

end Verif
