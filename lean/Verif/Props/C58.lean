import Verif.Props.C47
/-! C58: what an accepted proof-of-work block satisfies. -/
namespace Verif
open Pow Spec Ethash Dao

/-- **C58.** A header is accepted exactly if it satisfies all rules against some block of the chain as its parent: next number,
the parent's hash, a later timestamp, gas used within the limit, gas limit and base fee by the rule of the fork, at most 32
bytes of extra data (the DAO marker where required), the difficulty of C46, and the proof of work. -/
theorem C58_header {T : Type} (K : Hashes) (F : PowFork) (chain : List (PowBlock T)) (hl : Numbered chain) (h : PowHeader) :
    Pow.validateHeader K F chain h = .ok () ↔ ∃ b ∈ chain, PowRules K F b.header h := validateHeader_iff K F chain hl h

/-- **C58.** A block is accepted exactly if its header and its ommers are, its transactions execute, the rewards can be paid,
and gas used, transactions root, state root, receipts root and bloom are those of the header. The new chain has the block at
its end, keeps the last 255 blocks, and has the state after the rewards. -/
theorem C58_accepts {T : Type} (K : Hashes) (X : Exec T) (F : PowFork) (c c' : PowChain T) (b : PowBlock T) :
    Pow.stateTransition K X F c b = .ok c' ↔
      Pow.validateHeader K F c.blocks b.header = .ok () ∧ validateOmmers K F b.ommers b.header c.blocks = .ok () ∧
      ∃ s r, X.run F c.chainId c.blocks b.header b.transactions c.state = .ok (s, r) ∧
        payRewards F s b.header.number b.header.coinbase b.ommers = .ok c'.state ∧
        r.gasUsed = b.header.gasUsed ∧ r.transactionsRoot = b.header.transactionsRoot ∧ X.stateRoot c'.state = .ok b.header.stateRoot ∧
        r.receiptRoot = b.header.receiptRoot ∧ r.bloom = b.header.bloom ∧
        c'.blocks = lastN 255 (c.blocks ++ [b]) ∧ c'.chainId = c.chainId := by
  refine ⟨powTransition_ok, ?_⟩
  rintro ⟨h1, h2, s, r, h3, h4, g1, g2, g3, g4, g5, e1, e2⟩
  unfold Pow.stateTransition
  rw [h1]
  dsimp only
  rw [h2]
  dsimp only
  rw [h3]
  dsimp only
  rw [h4]
  dsimp only
  rw [g3]
  dsimp only
  rw [if_neg (nn g1), if_neg (nn g2), if_neg (nn rfl), if_neg (nn g4), if_neg (nn g5), ← e1, ← e2]

/-- **C58.** Along every history in which each block has the next number, the chain stays linked: each block names the hash of
the one before it. -/
theorem C58_linked {T : Type} (K : Hashes) (X : Exec T) (c c' : PowChain T) (bs : List (PowBlock T)) (hl : PowLinked K c.blocks)
    (h : Grows K X c bs c') : PowLinked K (c.blocks ++ bs) ∧ PowLinked K c'.blocks := by
  suffices hall : PowLinked K (c.blocks ++ bs) by
    refine ⟨hall, ?_⟩
    rcases (grows_blocks h hl.1).2 with e | ⟨-, rfl⟩
    · rw [← e]
      refine ⟨numbered_drop hall.1 ((c.blocks ++ bs).length - 255), fun i a b ha hb => ?_⟩
      generalize (c.blocks ++ bs).length - 255 = m at ha hb
      rw [List.getElem?_drop] at ha hb
      exact hall.2 (m + i) a b ha hb
    · exact hl
  induction h with
  | nil => rw [List.append_nil]; exact hl
  | @snoc c1 c2 bs b tip F h ht hb hs ih =>
    have hnum := (grows_blocks h hl.1)
    have hn1 : Numbered c1.blocks := by
      rcases hnum.2 with e | ⟨-, rfl⟩
      · rw [← e]; exact numbered_drop hnum.1 _
      · exact hl.1
    obtain ⟨p, hp, r⟩ := (validateHeader_iff K F c1.blocks hn1 b.header).mp (powTransition_ok hs).1
    have htm : tip ∈ c1.blocks := List.mem_of_getLast? ht
    have hpt : p = tip := numbered_unique hn1 hp htm (by have := r.number; omega)
    have htip : (c.blocks ++ bs).getLast? = some tip := by
      rcases hnum.2 with e | ⟨rfl, rfl⟩
      · rw [← e, List.getLast?_drop] at ht
        split at ht
        · cases ht
        · exact ht
      · rw [List.append_nil]; exact ht
    rw [← List.append_assoc]
    refine ⟨numbered_append ih.1 htip hb, fun i x y hx hy => ?_⟩
    by_cases hi : i + 1 < (c.blocks ++ bs).length
    · rw [List.getElem?_append_left (by omega)] at hx hy
      exact ih.2 i x y hx hy
    · rw [List.getElem?_append_right (by omega)] at hy
      have hi' : i + 1 - (c.blocks ++ bs).length = 0 := by
        have := (List.getElem?_eq_some_iff.mp hy).1
        simp only [List.length_singleton] at this
        omega
      rw [hi'] at hy
      have e1 : b = y := Option.some.inj hy
      rw [List.getElem?_append_left (by omega)] at hx
      rw [List.getLast?_eq_getElem?, show (c.blocks ++ bs).length - 1 = i by omega, hx] at htip
      rw [← e1, Option.some.inj htip, ← hpt]
      exact r.parentHash

/-- **C58.** A rejected header is rejected with `InvalidBlock`, no other exception: for every non-empty chain with consecutive
numbers and every header below block 1 950 000 000, if frontier timestamps are below 2^255, and the parent has a base fee where it
is needed: since london, except for the first block of london. -/
theorem C58_rejects {T : Type} (K : Hashes) (F : PowFork) (chain : List (PowBlock T)) (hl : Numbered chain) (hne : chain ≠ [])
    (h : PowHeader) (hh : h.number < 1950000000) (hts : F = .frontier → ∀ b ∈ chain, b.header.timestamp.toNat < 2 ^ 255)
    (hfee : F = .london ∨ F = .arrowGlacier ∨ F = .grayGlacier → ∀ b ∈ chain, b.header.number + 1 = h.number →
      ¬ (F = .london ∧ h.number = 12965000) → b.header.baseFeePerGas ≠ none) (e : BlockExn)
    (he : Pow.validateHeader K F chain h = .error e) : e = .invalidBlock := by
  have fees : ∀ p : PowBlock T, p ∈ chain → p.header.number + 1 = h.number → ∀ e, checkFees F p.header h = .error e → e = .invalidBlock := by
    intro p hp hpn e he
    unfold checkFees at he
    by_cases hb : hasBaseFee F = true
    · rw [if_pos hb] at he
      split at he
      · split at he
        · exact (Except.error.inj he).symm
        · cases he
      · rename_i hno
        have hF : F = .london ∨ F = .arrowGlacier ∨ F = .grayGlacier := by
          cases F <;> first | (exfalso; revert hb; decide) | simp
        cases hpf : p.header.baseFeePerGas with
        | none => exact absurd hpf (hfee hF p hp hpn hno)
        | some f =>
          rw [hpf] at he
          dsimp only at he
          by_cases hg : GasLimitOK h.gasLimit p.header.gasLimit
          · rw [calculateBaseFee_eq hg] at he
            dsimp only at he
            split at he
            · exact (Except.error.inj he).symm
            · cases he
          · rw [calculateBaseFee_bad hg] at he
            exact (Except.error.inj he).symm
    · rw [if_neg hb] at he
      split at he
      · exact (Except.error.inj he).symm
      · cases he
  have pow : h.difficulty ≠ 0 → ∀ e, validateProofOfWork K h = .error e → e = .invalidBlock := by
    intro hd e he
    obtain ⟨size, cache, ds, digest, result, h1, h2, -, h4, -⟩ :=
      C57_light_full K h.number (by omega) (headerHashForPow K h) (toBE 8 h.nonce.toNat)
    unfold validateProofOfWork at he
    rw [h2, h1] at he
    dsimp only at he
    rw [h4] at he
    dsimp only at he
    rw [if_neg hd] at he
    split at he
    · exact (Except.error.inj he).symm
    · split at he
      · exact (Except.error.inj he).symm
      · cases he
  have parent : ∀ p : PowBlock T, p ∈ chain → p.header.number + 1 = h.number → ∀ e, checkAgainstParent K F p.header h = .error e → e = .invalidBlock := by
    intro p hp hpn e he
    unfold checkAgainstParent at he
    by_cases c1 : h.gasUsed > h.gasLimit
    · rw [if_pos c1] at he; exact (Except.error.inj he).symm
    rw [if_neg c1] at he
    have step : ∀ (x y : Except BlockExn Unit), (∀ e, x = .error e → e = .invalidBlock) → (∀ e, y = .error e → e = .invalidBlock) →
        ∀ e, andThen x y = .error e → e = .invalidBlock := by
      intro x y hx hy e he
      cases x with
      | error e' => exact hx e (by rw [← he]; rfl)
      | ok u => exact hy e he
    refine step _ _ ?_ ?_ e he
    · intro e he
      split at he
      · exact fees p hp hpn e he
      · cases he
    · intro e he
      by_cases c2 : h.timestamp ≤ p.header.timestamp
      · rw [if_pos c2] at he; exact (Except.error.inj he).symm
      rw [if_neg c2] at he
      by_cases c3 : h.number ≠ p.header.number + 1
      · rw [if_pos c3] at he; exact (Except.error.inj he).symm
      rw [if_neg c3] at he
      refine step _ _ ?_ ?_ e he
      · intro e he
        split at he
        · cases he
        · exact fees p hp hpn e he
      · intro e he
        by_cases c4 : h.extraData.length > 32
        · rw [if_pos c4] at he; exact (Except.error.inj he).symm
        rw [if_neg c4] at he
        have hsome : ∃ d, calculateBlockDifficulty F h.number h.timestamp p.header.timestamp p.header.difficulty
            (p.header.ommersHash ≠ emptyOmmersHash K) = some d := by
          unfold calculateBlockDifficulty
          by_cases hF : F = .frontier
          · have := hts hF p hp
            rw [if_pos hF]
            dsimp only
            rw [if_neg (by omega)]
            exact ⟨_, rfl⟩
          · rw [if_neg hF]
            rw [BitVec.le_def] at c2
            rw [if_neg (by omega)]
            exact ⟨_, rfl⟩
        obtain ⟨d, hd⟩ := hsome
        rw [hd] at he
        dsimp only at he
        split at he
        · exact (Except.error.inj he).symm
        · split at he
          · exact (Except.error.inj he).symm
          · split at he
            · exact (Except.error.inj he).symm
            · cases he
  unfold Pow.validateHeader at he
  split at he
  · exact (Except.error.inj he).symm
  · obtain ⟨k, hk⟩ := hl
    cases hf : chain.head? with
    | none => exact absurd (List.head?_eq_none_iff.mp hf) hne
    | some first =>
      cases ht : chain.getLast? with
      | none => exact absurd (List.getLast?_eq_none_iff.mp ht) hne
      | some last =>
        rw [hf, ht] at he
        dsimp only at he
        have hfn : first.header.number = k := by rw [hk 0 first (by rw [← hf, List.head?_eq_getElem?])]; rfl
        obtain ⟨-, hlast⟩ := numbered_last hk ht
        have hpos : 0 < chain.length := List.length_pos_iff.mpr hne
        rw [hfn] at he
        split at he
        · exact (Except.error.inj he).symm
        · next hr =>
          have hlt : h.number - 1 - k < chain.length := by omega
          rw [List.getElem?_eq_getElem hlt] at he
          dsimp only at he
          cases hc : checkAgainstParent K F chain[h.number - 1 - k].header h with
          | error e' =>
            rw [hc] at he
            have : e = e' := (Except.error.inj he).symm
            rw [this]
            exact parent _ (List.getElem_mem hlt) (by rw [hk _ _ (List.getElem?_eq_getElem hlt)]; omega) e' hc
          | ok u =>
            rw [hc] at he
            refine pow ?_ e he
            intro hd
            -- the difficulty was compared with a computed one
            unfold checkAgainstParent at hc
            rw [ite_error_ok, match_ok, ite_error_ok, ite_error_ok, match_ok, ite_error_ok] at hc
            obtain ⟨-, -, -, -, -, -, hc⟩ := hc
            cases hcd : calculateBlockDifficulty F h.number h.timestamp chain[h.number - 1 - k].header.timestamp
                chain[h.number - 1 - k].header.difficulty (chain[h.number - 1 - k].header.ommersHash ≠ emptyOmmersHash K) with
            | none => rw [hcd] at hc; cases hc
            | some d =>
              rw [hcd] at hc
              dsimp only at hc
              rw [ite_error_ok] at hc
              have := calc_pos hcd
              exact hc.1 (by omega)

/-! ### A block that does not extend the chain -/

/-- A sample execution of transactions: there are none. -/
def sampleX : Exec Unit where
  run _ _ _ _ _ s := .ok (s, ⟨0, 0, 0, 0⟩)
  stateRoot _ := .ok 0

/-- The sample chain of two blocks. -/
def samplePow : PowChain Unit := ⟨powBlocks, State.empty, 1⟩

theorem accepts_short {T : Type} (K : Hashes) (X : Exec T) (F : PowFork) (c : PowChain T) (b : PowBlock T) (s s' : State) (r : TxsResult)
    (hlen : c.blocks.length ≤ 254) (h1 : Pow.validateHeader K F c.blocks b.header = .ok ())
    (h2 : validateOmmers K F b.ommers b.header c.blocks = .ok ()) (h3 : X.run F c.chainId c.blocks b.header b.transactions c.state = .ok (s, r))
    (h4 : payRewards F s b.header.number b.header.coinbase b.ommers = .ok s') (g1 : r.gasUsed = b.header.gasUsed)
    (g2 : r.transactionsRoot = b.header.transactionsRoot) (g3 : X.stateRoot s' = .ok b.header.stateRoot)
    (g4 : r.receiptRoot = b.header.receiptRoot) (g5 : r.bloom = b.header.bloom) :
    Pow.stateTransition K X F c b = .ok ⟨c.blocks ++ [b], s', c.chainId⟩ := by
  have hL : c.blocks ++ [b] = lastN 255 (c.blocks ++ [b]) := by
    unfold lastN
    rw [List.length_append, List.length_singleton]
    generalize c.blocks ++ [b] = l
    have e : c.blocks.length + 1 - 255 = 0 := by omega
    rw [e, List.drop_zero]
  exact (C58_accepts ..).mpr ⟨h1, h2, s, r, h3, h4, g1, g2, g3, g4, g5, hL, rfl⟩

theorem rewards_small (F : PowFork) (n : Nat) (l : List PowHeader) (hl : l.length ≤ 2) (hage : ∀ o ∈ l, o.number < n ∧ n ≤ o.number + 6) :
    minerReward (blockRewards F) l.length +
      (l.map fun o => ommerReward (blockRewards F) (n - o.number)).sum < 2 ^ 256 := by
  have one : ∀ o ∈ l, ommerReward (blockRewards F) (n - o.number) ≤ 7 * blockRewards F / 8 := by
    intro o ho
    have := hage o ho
    unfold ommerReward
    exact Nat.div_le_div_right (Nat.mul_le_mul_right _ (by omega))
  have hR : blockRewards F ≤ 5000000000000000000 := reward_small F
  have hlt : 4 * blockRewards F < 2 ^ 256 := by
    have : (20000000000000000000 : Nat) < 2 ^ 256 := by decide +kernel
    omega
  refine Nat.lt_of_le_of_lt ?_ hlt
  unfold minerReward
  generalize blockRewards F = R at one ⊢
  clear hR hlt
  match l, hl, one with
  | [], _, _ => simp only [List.length_nil, List.map_nil, List.sum_nil]; omega
  | [x], _, one =>
    have := one x List.mem_cons_self
    simp only [List.length_singleton, List.map_cons, List.map_nil, List.sum_cons, List.sum_nil]
    omega
  | [x, y], _, one =>
    have h1 := one x List.mem_cons_self
    have h2 := one y (List.mem_cons_of_mem _ List.mem_cons_self)
    simp only [List.length_cons, List.length_nil, List.map_cons, List.map_nil, List.sum_cons, List.sum_nil]
    omega
  | _ :: _ :: _ :: _, hlen, _ => simp only [List.length_cons] at hlen; omega

theorem sample_accepts (b : PowBlock Unit) (h1 : Pow.validateHeader sampleK .frontier powBlocks b.header = .ok ())
    (h2 : validateOmmers sampleK .frontier b.ommers b.header powBlocks = .ok ()) (hu : b.header.gasUsed = 0) (ht : b.header.transactionsRoot = 0)
    (hs : b.header.stateRoot = 0) (hr : b.header.receiptRoot = 0) (hb : b.header.bloom = 0) :
    ∃ c', Pow.stateTransition sampleK sampleX .frontier samplePow b = .ok c' ∧ c'.blocks = powBlocks ++ [b] := by
  obtain ⟨-, hl, -, hom⟩ := (validateOmmers_iff sampleK .frontier _ _ _ powBlocks_linked.1).mp h2
  have hage : ∀ o ∈ b.ommers, o.number < b.header.number ∧ b.header.number ≤ o.number + 6 :=
    fun o ho => ⟨(hom o ho).younger, (hom o ho).older⟩
  have hbound := rewards_small .frontier b.header.number b.ommers hl hage
  obtain ⟨s', e, -⟩ := C47_rewards .frontier State.empty b.header.number b.header.coinbase b.ommers rfl hage
    (by rw [show supply State.empty = 0 from rfl, Nat.zero_add]; exact hbound)
  exact ⟨_, accepts_short sampleK sampleX .frontier samplePow b State.empty s' ⟨0, 0, 0, 0⟩ (by show 2 ≤ 254; omega) h1 h2 rfl e hu.symm ht.symm
    (congrArg _ hs.symm) hr.symm hb.symm, rfl⟩

/-- **C58.** The code accepts more than blocks on top of the chain: a block is accepted if its parent is any block the chain
still holds, and then it is appended although it does not follow the last block. Here a sibling of the last block is accepted,
and the resulting chain does not have consecutive numbers. (The rules of Ethereum want the parent to be the last block; the
caller of `state_transition` has to ensure it.) -/
theorem C58_stale : ∃ (K : Hashes) (X : Exec Unit) (c c' : PowChain Unit) (b tip : PowBlock Unit), PowLinked K c.blocks ∧
    c.blocks.getLast? = some tip ∧ Pow.stateTransition K X .frontier c b = .ok c' ∧
    b.header.parentHash ≠ powHash K tip.header ∧ ¬ Numbered c'.blocks := by
  obtain ⟨c', h, e⟩ := sample_accepts ⟨powUncle, (), []⟩
    ((validateHeader_iff sampleK .frontier powBlocks powBlocks_linked.1 _).mpr ⟨_, List.mem_cons_self, powUncle_rules⟩)
    ((validateOmmers_iff sampleK .frontier [] powUncle powBlocks powBlocks_linked.1).mpr
      ⟨(seal_ommers ..).trans (by decide +kernel), by simp, by simp, fun o ho => by cases ho⟩)
    rfl rfl rfl rfl rfl
  refine ⟨sampleK, sampleX, samplePow, c', _, ⟨powOne, (), []⟩, powBlocks_linked, rfl, h, ?_, ?_⟩
  · show powUncle.parentHash ≠ _
    rw [powUncle_rules.parentHash]
    exact powHash_ne rfl rfl (by decide)
  · rw [e]
    rintro ⟨k, hk⟩
    have h1 : powOne.number = k + 1 := hk 1 ⟨powOne, (), []⟩ rfl
    have h2 : powUncle.number = k + 2 := hk 2 ⟨powUncle, (), []⟩ rfl
    have e1 := powOne_rules.number
    have e2 := powUncle_rules.number
    omega

/-- A history with an ommer. -/
example : ∃ c', Grows sampleK sampleX samplePow [⟨powTwo, (), [powUncle]⟩] c' := by
  obtain ⟨c', h, -⟩ := sample_accepts ⟨powTwo, (), [powUncle]⟩
    ((validateHeader_iff sampleK .frontier powBlocks powBlocks_linked.1 _).mpr ⟨_, List.mem_cons_of_mem _ List.mem_cons_self, powTwo_rules⟩)
    ((C47_ommers sampleK .frontier [powUncle] powTwo powBlocks powBlocks_linked.1).mpr
      ⟨seal_ommers .., by simp, by simp, fun o ho => by rw [List.mem_singleton.mp ho]; exact powUncle_ommer⟩)
    rfl rfl rfl rfl rfl
  exact ⟨c', Grows.snoc (Grows.nil _) (tip := ⟨powOne, (), []⟩) rfl powTwo_rules.number h⟩

end Verif
