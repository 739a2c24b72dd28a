import Verif.Spec.PowRules
import Verif.Lemmas.Header
import Verif.Lemmas.Dao
/-! Validation of proof-of-work headers and ommers. -/
namespace Verif.Pow
open Verif Spec Ethash

theorem checkFees_iff (F : PowFork) (p h : PowHeader) : checkFees F p h = .ok () ↔ PowFees F p h := by
  have key : ∀ (fee : Option Nat), (match fee with
      | none => Except.error crashed
      | some parentFee => match calculateBaseFeePerGas h.gasLimit p.gasLimit p.gasUsed parentFee with
        | .error e => .error e
        | .ok expected => if h.baseFeePerGas ≠ some expected then .error BlockExn.invalidBlock else .ok ()) = .ok () ↔
      GasLimitOK h.gasLimit p.gasLimit ∧
        ∃ f, fee = some f ∧ h.baseFeePerGas = some (nextBaseFee p.gasLimit p.gasUsed f) := by
    intro fee
    cases fee with
    | none => constructor <;> intro h <;> simp at h
    | some f =>
      dsimp only
      by_cases hg : GasLimitOK h.gasLimit p.gasLimit
      · rw [calculateBaseFee_eq hg]
        dsimp only
        by_cases hf : h.baseFeePerGas = some (nextBaseFee p.gasLimit p.gasUsed f)
        · rw [if_neg (by simp [hf])]
          exact ⟨fun _ => ⟨hg, f, rfl, hf⟩, fun _ => rfl⟩
        · rw [if_pos hf]
          constructor
          · intro h; cases h
          · rintro ⟨-, f', e, e'⟩; cases e; exact absurd e' hf
      · rw [calculateBaseFee_bad hg]
        constructor
        · intro h; cases h
        · exact fun h => absurd h.1 hg
  have lim : (if ¬ checkGasLimit h.gasLimit p.gasLimit then Except.error BlockExn.invalidBlock else .ok ()) = .ok () ↔
      GasLimitOK h.gasLimit p.gasLimit := by
    rw [← checkGasLimit_iff]
    cases checkGasLimit h.gasLimit p.gasLimit <;> simp
  unfold checkFees
  cases F
  case london =>
    rw [if_pos (show hasBaseFee _ = true from rfl)]
    by_cases hn : h.number = 12965000
    · rw [if_pos ⟨rfl, hn⟩]
      unfold PowFees INITIAL_BASE_FEE
      dsimp only
      by_cases hf : h.baseFeePerGas = some 1000000000
      · rw [if_neg (by simp [hf])]; exact ⟨fun _ => ⟨fun _ => hf, fun h => absurd hn h⟩, fun _ => rfl⟩
      · rw [if_pos hf]
        constructor
        · intro h; cases h
        · exact fun h => absurd (h.1 hn) hf
    · rw [if_neg fun h => hn h.2]
      unfold PowFees
      dsimp only
      refine (key p.baseFeePerGas).trans ?_
      exact ⟨fun h => ⟨fun h' => absurd h' hn, fun _ => h⟩, fun h => h.2 hn⟩
  case arrowGlacier => rw [if_pos (show hasBaseFee _ = true from rfl), if_neg (by simp)]; exact key p.baseFeePerGas
  case grayGlacier => rw [if_pos (show hasBaseFee _ = true from rfl), if_neg (by simp)]; exact key p.baseFeePerGas
  all_goals exact lim

theorem dao_extra : DAO_EXTRA_DATA = "dao-hard-fork".toUTF8.toList := by decide +kernel

theorem calc_pos {F : PowFork} {n : Nat} {ts pts : Word} {p : Nat} {om : Bool} {d : Nat}
    (h : calculateBlockDifficulty F n ts pts p om = some d) : 131072 ≤ d := by
  unfold calculateBlockDifficulty at h
  dsimp only at h
  unfold MINIMUM_DIFFICULTY at h
  split at h
  · split at h
    · cases h
    · have := Option.some.inj h; omega
  · split at h
    · cases h
    · have := Option.some.inj h; omega

theorem validateProofOfWork_iff (K : Hashes) (h : PowHeader) (hd : h.difficulty ≠ 0) :
    validateProofOfWork K h = .ok () ↔ PowSealed K h := by
  unfold validateProofOfWork PowSealed
  cases hc : generateCache K h.number with
  | none => constructor
            · intro h; cases h
            · rintro ⟨_, _, _, h, _⟩; cases h
  | some cache =>
    cases hs : datasetSize h.number with
    | none => constructor
              · intro h; cases h
              · rintro ⟨_, _, _, _, h, _⟩; cases h
    | some size =>
      dsimp only
      cases hh : hashimotoLight K (headerHashForPow K h) (toBE 8 h.nonce.toNat) cache size with
      | none => constructor
                · intro h; cases h
                · rintro ⟨c, s, r, e1, e2, e3, _⟩; cases e1; cases e2; rw [hh] at e3; cases e3
      | some mr =>
        obtain ⟨mix, result⟩ := mr
        dsimp only
        by_cases hm : mix = wordBytes h.mixDigest
        · rw [if_neg (by simp [hm]), if_neg hd]
          have hle : fromBE result > 2 ^ 256 / h.difficulty ↔ ¬ fromBE result * h.difficulty ≤ 2 ^ 256 := by
            rw [← Nat.le_div_iff_mul_le (by omega)]; omega
          by_cases hr : fromBE result * h.difficulty ≤ 2 ^ 256
          · rw [if_neg fun h => hle.mp h hr]
            exact ⟨fun _ => ⟨cache, size, result, rfl, rfl, by rw [hh, hm]; rfl, hr⟩, fun _ => rfl⟩
          · rw [if_pos (hle.mpr hr)]
            constructor
            · intro h; cases h
            · rintro ⟨c, s, r, e1, e2, e3, e4⟩
              cases e1; cases e2; rw [hh] at e3
              rw [← (Prod.mk.inj (Option.some.inj e3)).2] at e4
              exact absurd e4 hr
        · rw [if_pos hm]
          constructor
          · intro h; cases h
          · rintro ⟨c, s, r, e1, e2, e3, e4⟩
            cases e1; cases e2; rw [hh] at e3
            exact absurd (Prod.mk.inj (Option.some.inj e3)).1 hm

theorem nn {p : Prop} (h : p) : ¬ ¬ p := fun n => n h

theorem ite_error_ok {c : Prop} [Decidable c] {e : BlockExn} {x : Except BlockExn Unit} :
    (if c then Except.error e else x) = .ok () ↔ ¬ c ∧ x = .ok () := by
  by_cases h : c
  · rw [if_pos h]; exact ⟨fun h' => (by cases h'), fun h' => absurd h h'.1⟩
  · rw [if_neg h]; exact ⟨fun h' => ⟨h, h'⟩, fun h' => h'.2⟩

theorem match_ok {a x : Except BlockExn Unit} :
    andThen a x = .ok () ↔ a = .ok () ∧ x = .ok () := by
  cases a with
  | error e => exact ⟨fun h => (by cases h), fun h => (by cases h.1)⟩
  | ok u => exact ⟨fun h => ⟨rfl, h⟩, fun h => h.2⟩

theorem checkAgainstParent_iff (K : Hashes) (F : PowFork) (p h : PowHeader) :
    (checkAgainstParent K F p h = .ok () ∧ validateProofOfWork K h = .ok ()) ↔ PowRules K F p h := by
  have hfees : ((if hasBaseFee F then checkFees F p h else .ok ()) = .ok () ∧
      (if hasBaseFee F then .ok () else checkFees F p h) = .ok ()) ↔ PowFees F p h := by
    rw [← checkFees_iff]
    cases hasBaseFee F <;> simp
  unfold checkAgainstParent
  rw [ite_error_ok, match_ok, ite_error_ok, ite_error_ok, match_ok, ite_error_ok]
  cases hd : calculateBlockDifficulty F h.number h.timestamp p.timestamp p.difficulty (p.ommersHash ≠ emptyOmmersHash K) with
  | none =>
    constructor
    · rintro ⟨⟨_, _, _, _, _, _, h⟩, _⟩; cases h
    · intro r; have := r.difficulty; rw [show K.keccak256 (Rlp.encode (.list [])) = emptyOmmersHash K from rfl, hd] at this; cases this
  | some d =>
    dsimp only
    rw [ite_error_ok, ite_error_ok, ite_error_ok]
    have hpos := calc_pos hd
    constructor
    · rintro ⟨⟨h1, h2, h3, h4, h5, h6, h7, h8, h9, -⟩, hp⟩
      have hdd : h.difficulty = d := Decidable.not_not.mp h7
      refine ⟨Decidable.not_not.mp h4, Decidable.not_not.mp h8, ?_, by omega, hfees.mp ⟨h2, h5⟩, by omega, by rw [hdd]; exact hd, ?_,
        (validateProofOfWork_iff K h (by omega)).mp hp⟩
      · rw [BitVec.le_def] at h3; omega
      · intro e1 e2 e3
        rw [← dao_extra]
        exact Decidable.not_not.mp fun hx => h9 ⟨e1, e2, by unfold DAO_FORK_BLOCK; omega, hx⟩
    · intro r
      have hdd : h.difficulty = d := by have := r.difficulty; rw [show K.keccak256 (Rlp.encode (.list [])) = emptyOmmersHash K from rfl, hd] at this; exact (Option.some.inj this).symm
      have hf := hfees.mpr r.fees
      have h3 := r.timestamp
      have h1 := r.gasUsed
      have h6 := r.extraData
      refine ⟨⟨by omega, hf.1, by rw [BitVec.le_def]; omega, nn r.number, hf.2, by omega, nn hdd, nn r.parentHash, ?_, rfl⟩,
        (validateProofOfWork_iff K h (by omega)).mpr r.proofOfWork⟩
      rintro ⟨e1, e2, e3, e4⟩
      unfold DAO_FORK_BLOCK at e2 e3
      exact e4 (by rw [dao_extra]; exact r.dao e1 e2 (by omega))

/-- In a list with consecutive numbers the block with a given number is at its place. -/
theorem numbered_get {T : Type} {l : List (PowBlock T)} {k : Nat} (hk : ∀ (i : Nat) (b : PowBlock T), l[i]? = some b → b.header.number = k + i)
    {n : Nat} {b : PowBlock T} (hb : b ∈ l) (hn : b.header.number = n) : k ≤ n ∧ l[n - k]? = some b := by
  obtain ⟨i, hi⟩ := List.getElem?_of_mem hb
  have := hk i b hi
  refine ⟨by omega, ?_⟩
  rw [show n - k = i by omega]
  exact hi

theorem numbered_unique {T : Type} {l : List (PowBlock T)} (hl : Numbered l) {a b : PowBlock T} (ha : a ∈ l) (hb : b ∈ l)
    (h : a.header.number = b.header.number) : a = b := by
  obtain ⟨k, hk⟩ := hl
  have h1 := (numbered_get hk ha h).2
  have h2 := (numbered_get hk hb rfl).2
  rw [h1] at h2
  exact Option.some.inj h2

theorem validateHeader_iff {T : Type} (K : Hashes) (F : PowFork) (blocks : List (PowBlock T)) (hl : Numbered blocks) (h : PowHeader) :
    validateHeader K F blocks h = .ok () ↔ ∃ b ∈ blocks, PowRules K F b.header h := by
  obtain ⟨k, hk⟩ := hl
  unfold validateHeader
  rw [ite_error_ok]
  cases hh : blocks.head? with
  | none =>
    rw [List.head?_eq_none_iff] at hh
    subst hh
    constructor
    · rintro ⟨_, h⟩; cases h
    · rintro ⟨b, hb, _⟩; cases hb
  | some first =>
    cases ht : blocks.getLast? with
    | none =>
      rw [List.getLast?_eq_none_iff] at ht
      subst ht; cases hh
    | some last =>
      dsimp only
      rw [ite_error_ok]
      have hf : first.header.number = k := by rw [hk 0 first (by rw [← hh, List.head?_eq_getElem?])]; rfl
      have hlast : last.header.number = k + (blocks.length - 1) := hk _ last (by rw [← ht, List.getLast?_eq_getElem?])
      rw [hf]
      constructor
      · rintro ⟨h1, h2, h3⟩
        cases hp : blocks[h.number - 1 - k]? with
        | none => rw [hp] at h3; cases h3
        | some p =>
          rw [hp] at h3
          dsimp only at h3
          rw [match_ok] at h3
          exact ⟨p, List.mem_of_getElem? hp, (checkAgainstParent_iff K F _ h).mp h3⟩
      · rintro ⟨p, hp, r⟩
        have hn := r.number
        obtain ⟨g1, g2⟩ := numbered_get hk hp rfl
        have hlt : p.header.number - k < blocks.length := (List.getElem?_eq_some_iff.mp g2).1
        refine ⟨by omega, by omega, ?_⟩
        rw [show h.number - 1 - k = p.header.number - k by omega, g2]
        dsimp only
        rw [match_ok]
        exact (checkAgainstParent_iff K F _ h).mpr r

theorem validateOmmerHeaders_iff {T : Type} (K : Hashes) (F : PowFork) (blocks : List (PowBlock T)) (hl : Numbered blocks) (n : Nat) :
    ∀ l : List PowHeader, validateOmmerHeaders K F blocks n l = .ok () ↔
      ∀ o ∈ l, 1 ≤ o.number ∧ o.number < n ∧ ∃ b ∈ blocks, PowRules K F b.header o := by
  intro l
  induction l with
  | nil => exact ⟨fun _ o h => (by cases h), fun _ => rfl⟩
  | cons o l ih =>
    unfold validateOmmerHeaders
    rw [ite_error_ok, match_ok, ih, validateHeader_iff K F blocks hl, List.forall_mem_cons]
    constructor
    · rintro ⟨h1, h2, h3⟩; exact ⟨⟨by omega, by omega, h2⟩, h3⟩
    · rintro ⟨⟨h1, h2, h3⟩, h4⟩; exact ⟨by omega, h3, h4⟩

theorem validateOmmerPlaces_iff (K : Hashes) (bh : Word) (block : PowHeader) (canonical recent : List Word) :
    ∀ l : List PowHeader, validateOmmerPlaces K bh block canonical recent l = .ok () ↔
      ∀ o ∈ l, powHash K o ≠ bh ∧ powHash K o ∉ canonical ∧ powHash K o ∉ recent ∧ o.number < block.number ∧
        block.number ≤ o.number + 6 ∧ o.parentHash ∈ canonical ∧ o.parentHash ≠ block.parentHash := by
  intro l
  induction l with
  | nil => exact ⟨fun _ o h => (by cases h), fun _ => rfl⟩
  | cons o l ih =>
    unfold validateOmmerPlaces
    dsimp only
    rw [ite_error_ok, ite_error_ok, ite_error_ok, ite_error_ok, ite_error_ok, ite_error_ok, ite_error_ok, ih, List.forall_mem_cons]
    unfold MAX_OMMER_DEPTH
    constructor
    · rintro ⟨h1, h2, h3, h4, h5, h6, h7, h8⟩
      exact ⟨⟨h1, h2, h3, by omega, by omega, Decidable.not_not.mp h6, h7⟩, h8⟩
    · rintro ⟨⟨h1, h2, h3, h4, h5, h6, h7⟩, h8⟩
      exact ⟨h1, h2, h3, by omega, by omega, nn h6, h7, h8⟩

theorem validateOmmers_iff {T : Type} (K : Hashes) (F : PowFork) (ommers : List PowHeader) (block : PowHeader)
    (blocks : List (PowBlock T)) (hl : Numbered blocks) :
    validateOmmers K F ommers block blocks = .ok () ↔
      block.ommersHash = K.keccak256 (Rlp.encode (.list (ommers.map ofPowHeader))) ∧ ommers.length ≤ 2 ∧
      (ommers.map (powHash K)).Nodup ∧ ∀ o ∈ ommers, OmmerRules K F blocks block o := by
  unfold validateOmmers
  dsimp only
  rw [ite_error_ok]
  by_cases h0 : ommers.length = 0
  · rw [if_pos h0]
    have := List.length_eq_zero_iff.mp h0
    subst this
    constructor
    · rintro ⟨h1, -⟩; exact ⟨(Decidable.not_not.mp h1).symm, by simp, by simp, fun o h => by cases h⟩
    · rintro ⟨h1, -⟩; exact ⟨nn h1.symm, rfl⟩
  · rw [if_neg h0, match_ok, ite_error_ok, ite_error_ok, validateOmmerHeaders_iff K F blocks hl, validateOmmerPlaces_iff]
    constructor
    · rintro ⟨h1, h2, h3, h4, h5⟩
      refine ⟨(Decidable.not_not.mp h1).symm, by omega, Decidable.not_not.mp h4, fun o ho => ?_⟩
      obtain ⟨g1, g2, g3, g4, g5, g6, g7⟩ := h5 o ho
      refine ⟨(h2 o ho).2.2, g4, g5, g1, ?_, ?_, ?_, g7⟩
      · intro b hb e
        rw [e] at g2
        exact g2 (List.mem_map.mpr ⟨b, hb, rfl⟩)
      · intro b hb o' ho' e
        rw [e] at g3
        exact g3 (List.mem_flatMap.mpr ⟨b, hb, List.mem_map.mpr ⟨o', ho', rfl⟩⟩)
      · obtain ⟨b, hb, e⟩ := List.mem_map.mp g6
        exact ⟨b, hb, e.symm⟩
    · rintro ⟨h1, h2, h3, h4⟩
      refine ⟨nn h1.symm, fun o ho => ?_, by omega, nn h3, fun o ho => ?_⟩
      · have r := h4 o ho
        obtain ⟨p, hp, rp⟩ := r.header
        exact ⟨by have := rp.number; omega, r.younger, p, hp, rp⟩
      · have r := h4 o ho
        refine ⟨r.other, ?_, ?_, r.younger, r.older, ?_, r.nephew⟩
        · intro hm
          obtain ⟨b, hb, e⟩ := List.mem_map.mp hm
          exact r.notBlock b hb e.symm
        · intro hm
          obtain ⟨b, hb, hm⟩ := List.mem_flatMap.mp hm
          obtain ⟨o', ho', e⟩ := List.mem_map.mp hm
          exact r.notOmmer b hb o' ho' e.symm
        · obtain ⟨b, hb, e⟩ := r.parent
          exact List.mem_map.mpr ⟨b, hb, e.symm⟩

end Verif.Pow
