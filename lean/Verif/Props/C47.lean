import Verif.Lemmas.SamplePow
/-! C47: ommers and rewards in the proof-of-work forks. -/
namespace Verif
open Pow Spec Ethash Dao

/-- **C47.** A list of ommers is accepted exactly if the header of the block names its hash, it has at most two members, they
are different, and each satisfies the rules: a valid header with a parent in the chain, one to six generations older than the
block, neither the block nor one of the last seven blocks nor an ommer of one of them, with one of the last seven blocks as
parent, but not the parent of the block. -/
theorem C47_ommers {T : Type} (K : Hashes) (F : PowFork) (ommers : List PowHeader) (block : PowHeader) (chain : List (PowBlock T))
    (hl : Numbered chain) :
    validateOmmers K F ommers block chain = .ok () ↔
      block.ommersHash = K.keccak256 (Rlp.encode (.list (ommers.map ofPowHeader))) ∧ ommers.length ≤ 2 ∧
      (ommers.map (powHash K)).Nodup ∧ ∀ o ∈ ommers, OmmerRules K F chain block o :=
  validateOmmers_iff K F ommers block chain hl

/-- The last block of a chain with consecutive numbers. -/
theorem numbered_last {T : Type} {l : List (PowBlock T)} {k : Nat} (hk : ∀ (i : Nat) (b : PowBlock T), l[i]? = some b → b.header.number = k + i)
    {t : PowBlock T} (ht : l.getLast? = some t) : l ≠ [] ∧ t.header.number = k + (l.length - 1) :=
  ⟨fun e => (by rw [e] at ht; cases ht), hk _ t (by rw [← ht, List.getLast?_eq_getElem?])⟩

theorem recent_iff {T : Type} {l : List (PowBlock T)} {i : Nat} {b : PowBlock T} (hi : l[i]? = some b) (h : l.length ≤ i + 7) : Recent l b := by
  unfold Recent
  refine List.mem_of_getElem? (i := i - (l.length - 7)) ?_
  rw [List.getElem?_drop, show l.length - 7 + (i - (l.length - 7)) = i by omega]
  exact hi

/-- **C47.** In a linked chain an accepted ommer of a block on top of it is a sibling of one of the last six blocks: it has the
same number and the same parent, and is a different header. -/
theorem C47_sibling {T : Type} (K : Hashes) (F : PowFork) (ommers : List PowHeader) (block : PowHeader) (chain : List (PowBlock T))
    (tip : PowBlock T) (hl : PowLinked K chain) (ht : chain.getLast? = some tip) (hb : block.number = tip.header.number + 1)
    (h : validateOmmers K F ommers block chain = .ok ()) (o : PowHeader) (ho : o ∈ ommers) :
    ∃ c ∈ chain, c.header.number = o.number ∧ c.header.parentHash = o.parentHash ∧ c.header ≠ o ∧
      tip.header.number < c.header.number + 6 := by
  obtain ⟨-, -, -, hr⟩ := (validateOmmers_iff K F ommers block chain hl.1).mp h
  have r := hr o ho
  obtain ⟨⟨k, hk⟩, hp⟩ := hl
  obtain ⟨p, pm, rp⟩ := r.header
  have hn := rp.number
  have hy := r.younger
  have hold := r.older
  obtain ⟨hne, hlast⟩ := numbered_last hk ht
  have hlen : 0 < chain.length := List.length_pos_iff.mpr hne
  obtain ⟨g1, g2⟩ := numbered_get hk pm rfl
  have hlt : p.header.number - k + 1 < chain.length := by omega
  have gc : chain[p.header.number - k + 1]? = some chain[p.header.number - k + 1] := List.getElem?_eq_getElem hlt
  have hcn := hk _ _ gc
  refine ⟨_, List.getElem_mem hlt, by omega, ?_, ?_, by omega⟩
  · rw [hp _ _ _ g2 gc, rp.parentHash]
  · intro e
    exact r.notBlock _ (recent_iff gc (by omega)) (by rw [e])

/-! ### No ommer is included twice -/

/-- What an accepted block passed. -/
theorem powTransition_ok {T : Type} {K : Hashes} {X : Exec T} {F : PowFork} {c c' : PowChain T} {b : PowBlock T}
    (h : Pow.stateTransition K X F c b = .ok c') :
    Pow.validateHeader K F c.blocks b.header = .ok () ∧ validateOmmers K F b.ommers b.header c.blocks = .ok () ∧
    ∃ s r, X.run F c.chainId c.blocks b.header b.transactions c.state = .ok (s, r) ∧
      payRewards F s b.header.number b.header.coinbase b.ommers = .ok c'.state ∧
      r.gasUsed = b.header.gasUsed ∧ r.transactionsRoot = b.header.transactionsRoot ∧ X.stateRoot c'.state = .ok b.header.stateRoot ∧
      r.receiptRoot = b.header.receiptRoot ∧ r.bloom = b.header.bloom ∧
      c'.blocks = lastN 255 (c.blocks ++ [b]) ∧ c'.chainId = c.chainId := by
  unfold Pow.stateTransition at h
  cases h1 : Pow.validateHeader K F c.blocks b.header with
  | error e => rw [h1] at h; cases h
  | ok u =>
    rw [h1] at h
    cases h2 : validateOmmers K F b.ommers b.header c.blocks with
    | error e => rw [h2] at h; cases h
    | ok u =>
      rw [h2] at h
      cases h3 : X.run F c.chainId c.blocks b.header b.transactions c.state with
      | error e => rw [h3] at h; cases h
      | ok sr =>
        obtain ⟨s, r⟩ := sr
        rw [h3] at h
        dsimp only at h
        cases h4 : payRewards F s b.header.number b.header.coinbase b.ommers with
        | error e => rw [h4] at h; cases h
        | ok s' =>
          rw [h4] at h
          dsimp only at h
          cases h5 : X.stateRoot s' with
          | error e => rw [h5] at h; cases h
          | ok root =>
            rw [h5] at h
            dsimp only at h
            split at h
            · cases h
            · split at h
              · cases h
              · split at h
                · cases h
                · split at h
                  · cases h
                  · split at h
                    · cases h
                    · next g1 g2 g3 g4 g5 =>
                      have e := (Except.ok.inj h).symm
                      subst e
                      exact ⟨rfl, rfl, s, r, rfl, h4, Decidable.not_not.mp g1, Decidable.not_not.mp g2,
                        h5.trans (congrArg _ (Decidable.not_not.mp g3)),
                        Decidable.not_not.mp g4, Decidable.not_not.mp g5, by dsimp only, by dsimp only⟩

/-- A history: the blocks are imported one after the other, each by the rules of some fork, each one number above the last
block of the chain. -/
inductive Grows {T : Type} (K : Hashes) (X : Exec T) : PowChain T → List (PowBlock T) → PowChain T → Prop where
  | nil (c : PowChain T) : Grows K X c [] c
  | snoc {c c' c'' : PowChain T} {bs : List (PowBlock T)} {b tip : PowBlock T} {F : PowFork} (h : Grows K X c bs c')
      (ht : c'.blocks.getLast? = some tip) (hb : b.header.number = tip.header.number + 1)
      (hs : Pow.stateTransition K X F c' b = .ok c'') : Grows K X c (bs ++ [b]) c''

theorem numbered_append {T : Type} {l : List (PowBlock T)} {b tip : PowBlock T} (hl : Numbered l) (ht : l.getLast? = some tip)
    (hb : b.header.number = tip.header.number + 1) : Numbered (l ++ [b]) := by
  obtain ⟨k, hk⟩ := hl
  obtain ⟨hne, hlast⟩ := numbered_last hk ht
  have : 0 < l.length := List.length_pos_iff.mpr hne
  refine ⟨k, fun i c hc => ?_⟩
  by_cases hi : i < l.length
  · rw [List.getElem?_append_left hi] at hc; exact hk i c hc
  · rw [List.getElem?_append_right (by omega)] at hc
    have hi' : i - l.length = 0 := by
      have := (List.getElem?_eq_some_iff.mp hc).1
      simp only [List.length_singleton] at this
      omega
    rw [hi'] at hc
    rw [← Option.some.inj hc]
    omega

theorem numbered_drop {T : Type} {l : List (PowBlock T)} (hl : Numbered l) (n : Nat) : Numbered (l.drop n) := by
  obtain ⟨k, hk⟩ := hl
  refine ⟨k + n, fun i c hc => ?_⟩
  rw [List.getElem?_drop] at hc
  have := hk _ c hc
  omega

theorem drop_drop_last {α : Type} (l : List α) (m n : Nat) (h : n ≤ m) :
    (l.drop (l.length - m)).drop ((l.drop (l.length - m)).length - n) = l.drop (l.length - n) := by
  rw [List.drop_drop, List.length_drop]
  have e : l.length - m + (l.length - (l.length - m) - n) = l.length - n := by omega
  rw [e]

/-- A growing chain holds the last 255 blocks of the history, with consecutive numbers. -/
theorem grows_blocks {T : Type} {K : Hashes} {X : Exec T} {c c' : PowChain T} {bs : List (PowBlock T)} (h : Grows K X c bs c')
    (hn : Numbered c.blocks) : Numbered (c.blocks ++ bs) ∧
      ((c.blocks ++ bs).drop ((c.blocks ++ bs).length - 255) = c'.blocks ∨ (bs = [] ∧ c' = c)) := by
  induction h with
  | nil => exact ⟨by rw [List.append_nil]; exact hn, .inr ⟨rfl, rfl⟩⟩
  | @snoc c1 c2 bs b tip F h ht hb hs ih =>
    obtain ⟨i1, i2⟩ := ih
    obtain ⟨-, -, s, r, -, -, -, -, -, -, -, e, -⟩ := powTransition_ok hs
    have eb : c2.blocks = (c1.blocks ++ [b]).drop ((c1.blocks ++ [b]).length - 255) := e
    have htip : (c.blocks ++ bs).getLast? = some tip := by
      rcases i2 with i2 | ⟨rfl, rfl⟩
      · rw [← i2] at ht
        rw [List.getLast?_drop] at ht
        split at ht
        · cases ht
        · exact ht
      · rw [List.append_nil]; exact ht
    rw [← List.append_assoc]
    refine ⟨numbered_append i1 htip hb, .inl ?_⟩
    rw [eb]
    rcases i2 with i2 | ⟨rfl, rfl⟩
    · rw [← i2]
      generalize c.blocks ++ bs = l
      have e1 : l.drop (l.length - 255) ++ [b] = (l ++ [b]).drop (l.length - 255) := by
        rw [List.drop_append_of_le_length (by omega)]
      rw [e1, List.drop_drop]
      have e2 : (l.length - 255) + (((l ++ [b]).drop (l.length - 255)).length - 255) = (l ++ [b]).length - 255 := by
        rw [List.length_drop, List.length_append, List.length_singleton]
        omega
      rw [e2]
    · rw [List.append_nil]

/-- **C47.** In every history no header is included as an ommer twice: the ommers of all imported blocks together are pairwise
different. -/
theorem C47_once {T : Type} (K : Hashes) (X : Exec T) (c c' : PowChain T) (bs : List (PowBlock T)) (hn : Numbered c.blocks)
    (h : Grows K X c bs c') : (bs.flatMap fun b => b.ommers).Nodup := by
  suffices hall : (bs.flatMap fun b => b.ommers).Nodup ∧
      ∀ b ∈ bs, ∀ o ∈ b.ommers, o.number < b.header.number from hall.1
  induction h with
  | nil => exact ⟨List.nodup_nil, fun b hb => by cases hb⟩
  | @snoc c1 c2 bs b tip F h ht hb hs ih =>
    obtain ⟨i1, i2⟩ := ih
    obtain ⟨hnum, hblocks⟩ := grows_blocks h hn
    have hn1 : Numbered c1.blocks := by
      rcases hblocks with e | ⟨-, rfl⟩
      · rw [← e]; exact numbered_drop hnum _
      · exact hn
    obtain ⟨-, hom, -⟩ := powTransition_ok hs
    obtain ⟨-, -, hnd, hr⟩ := (validateOmmers_iff K F _ _ _ hn1).mp hom
    refine ⟨?_, ?_⟩
    · rw [List.flatMap_append, List.nodup_append]
      refine ⟨i1, ?_, ?_⟩
      · simp only [List.flatMap_cons, List.flatMap_nil, List.append_nil]
        exact (List.pairwise_map.mp hnd).imp fun h e => h (by rw [e])
      · intro o ho o' ho' e
        subst e
        simp only [List.flatMap_cons, List.flatMap_nil, List.append_nil] at ho'
        obtain ⟨b1, hb1, ho1⟩ := List.mem_flatMap.mp ho
        have a1 := i2 b1 hb1 o ho1
        have r := hr o ho'
        have hy := r.older
        -- `b1` is among the last seven blocks of the chain
        refine r.notOmmer b1 ?_ o ho1 rfl
        have hne : bs ≠ [] := fun e => by rw [e] at hb1; cases hb1
        rcases hblocks with e | ⟨e, -⟩
        · obtain ⟨k, hk⟩ := hnum
          have hm : b1 ∈ c.blocks ++ bs := List.mem_append_right _ hb1
          obtain ⟨g1, g2⟩ := numbered_get hk hm rfl
          have htip : (c.blocks ++ bs).getLast? = some tip := by
            rw [← e, List.getLast?_drop] at ht
            split at ht
            · cases ht
            · exact ht
          obtain ⟨-, hlast⟩ := numbered_last hk htip
          have hlt := (List.getElem?_eq_some_iff.mp g2).1
          have := recent_iff g2 (by omega)
          unfold Recent at this ⊢
          rw [← e, drop_drop_last _ 255 7 (by omega)]
          exact this
        · exact absurd e hne
    · intro b1 hb1
      rcases List.mem_append.mp hb1 with h1 | h1
      · exact i2 b1 h1
      · rw [List.mem_singleton.mp h1]
        exact fun o ho => (hr o ho).younger

/-! ### Rewards -/

theorem createEther_step {s : State} (hd : s.mainTrie.default = none) (x : Address) (v : Word) (h : supply s + v.toNat < 2 ^ 256) :
    ∃ s', createEther s x v = .ok s' ∧ supply s' = supply s + v.toNat ∧ s'.mainTrie.default = none ∧
      s'.storageTries = s.storageTries ∧
      ∀ a, (getAccount s' a).balance.toNat = (getAccount s a).balance.toNat + (if x = a then v.toNat else 0) ∧
        (getAccount s' a).nonce = (getAccount s a).nonce ∧ (getAccount s' a).code = (getAccount s a).code := by
  have hle : (getAccount s x).balance.toNat ≤ supply s := by
    exact balance_le_supply hd x
  have hov : (getAccount s x).balance.toNat + v.toNat < 2 ^ 256 := by omega
  refine ⟨_, createEther_run hov, ?_, by rw [setAccount_default]; exact hd, rfl, fun a => ?_⟩
  · have := supply_set hd x { getAccount s x with balance := (getAccount s x).balance + v }
    rw [BitVec.toNat_add_of_lt hov] at this
    omega
  · rw [getAccount_setAccount]
    by_cases e : a = x
    · subst e
      rw [if_pos rfl, if_pos rfl]
      exact ⟨BitVec.toNat_add_of_lt hov, rfl, rfl⟩
    · rw [if_neg e, if_neg fun e' => e e'.symm]
      exact ⟨rfl, rfl, rfl⟩

theorem reward_eq (F : PowFork) : (blockReward F).toNat = blockRewards F := by cases F <;> decide +kernel

theorem reward_small (F : PowFork) : blockRewards F ≤ 5000000000000000000 := by cases F <;> decide

private theorem payOmmers_ok (F : PowFork) (n : Nat) : ∀ (ommers : List PowHeader) (s : State), s.mainTrie.default = none →
    (∀ o ∈ ommers, o.number < n ∧ n ≤ o.number + 6) →
    supply s + (ommers.map fun o => ommerReward (blockRewards F) (n - o.number)).sum < 2 ^ 256 →
    ∃ s', payOmmers F n s ommers = .ok s' ∧
      supply s' = supply s + (ommers.map fun o => ommerReward (blockRewards F) (n - o.number)).sum ∧
      s'.storageTries = s.storageTries ∧
      ∀ a, (getAccount s' a).balance.toNat = (getAccount s a).balance.toNat +
          (ommers.map fun o => if o.coinbase = a then ommerReward (blockRewards F) (n - o.number) else 0).sum ∧
        (getAccount s' a).nonce = (getAccount s a).nonce ∧ (getAccount s' a).code = (getAccount s a).code := by
  intro ommers
  induction ommers with
  | nil => exact fun s _ _ _ => ⟨s, rfl, rfl, rfl, fun a => ⟨rfl, rfl, rfl⟩⟩
  | cons o ommers ih =>
    intro s hd hage hs
    obtain ⟨h1, h2⟩ := hage o List.mem_cons_self
    rw [List.map_cons, List.sum_cons] at hs
    have hsmall := reward_small F
    have hp : (8 - (n - o.number)) * blockRewards F < 2 ^ 256 := by
      have h7 : 8 - (n - o.number) ≤ 7 := by omega
      have := Nat.mul_le_mul h7 hsmall
      omega
    have hv : (BitVec.ofNat 256 ((8 - (n - o.number)) * blockRewards F) / 8).toNat = ommerReward (blockRewards F) (n - o.number) := by
      rw [BitVec.toNat_udiv, BitVec.toNat_ofNat, Nat.mod_eq_of_lt hp]
      rfl
    obtain ⟨s1, e1, sup1, d1, st1, b1⟩ := createEther_step hd o.coinbase
      (BitVec.ofNat 256 ((8 - (n - o.number)) * blockRewards F) / 8) (by rw [hv]; omega)
    rw [hv] at sup1
    obtain ⟨s2, e2, sup2, st2, b2⟩ := ih s1 d1 (fun o ho => hage o (List.mem_cons_of_mem _ ho)) (by omega)
    refine ⟨s2, ?_, ?_, by rw [st2, st1], fun a => ?_⟩
    · unfold payOmmers
      have u1 : usub n o.number = .ok (n - o.number) := if_pos (by omega)
      have u2 : usub 8 (n - o.number) = .ok (8 - (n - o.number)) := if_pos (by omega)
      have u3 : toU256 ((8 - (n - o.number)) * (blockReward F).toNat) = .ok (BitVec.ofNat 256 ((8 - (n - o.number)) * blockRewards F)) := by
        rw [reward_eq]; exact if_pos hp
      rw [u1]
      dsimp only
      rw [u2]
      dsimp only
      rw [u3]
      dsimp only
      rw [e1]
      exact e2
    · rw [List.map_cons, List.sum_cons]; omega
    · obtain ⟨x1, x2, x3⟩ := b1 a
      obtain ⟨y1, y2, y3⟩ := b2 a
      rw [hv] at x1
      rw [List.map_cons, List.sum_cons]
      exact ⟨by omega, by rw [y2, x2], by rw [y3, x3]⟩

/-- **C47.** The rewards are exactly the documented ones: with `R` the block reward of the fork, the miner of the block gets `R`
and another 32nd of it for each ommer, and the miner of each ommer gets an eighth of `R` for each generation by which it is
younger than eight. Nothing else changes, and the supply grows by exactly the sum. -/
theorem C47_rewards (F : PowFork) (s : State) (n : Nat) (coinbase : Address) (ommers : List PowHeader) (hd : s.mainTrie.default = none)
    (hage : ∀ o ∈ ommers, o.number < n ∧ n ≤ o.number + 6)
    (hs : supply s + (minerReward (blockRewards F) ommers.length +
      (ommers.map fun o => ommerReward (blockRewards F) (n - o.number)).sum) < 2 ^ 256) :
    ∃ s', payRewards F s n coinbase ommers = .ok s' ∧
      supply s' = supply s + (minerReward (blockRewards F) ommers.length +
        (ommers.map fun o => ommerReward (blockRewards F) (n - o.number)).sum) ∧
      (∀ a, (getAccount s' a).balance.toNat = (getAccount s a).balance.toNat +
        (if coinbase = a then minerReward (blockRewards F) ommers.length else 0) +
        (ommers.map fun o => if o.coinbase = a then ommerReward (blockRewards F) (n - o.number) else 0).sum) ∧
      (∀ a, (getAccount s' a).nonce = (getAccount s a).nonce ∧ (getAccount s' a).code = (getAccount s a).code) ∧
      ∀ a k, getStorage s' a k = getStorage s a k := by
  have hm : minerReward (blockRewards F) ommers.length < 2 ^ 256 := by omega
  have hv : (BitVec.ofNat 256 (minerReward (blockRewards F) ommers.length)).toNat = minerReward (blockRewards F) ommers.length := by
    rw [BitVec.toNat_ofNat, Nat.mod_eq_of_lt hm]
  obtain ⟨s1, e1, sup1, d1, st1, b1⟩ := createEther_step hd coinbase (BitVec.ofNat 256 (minerReward (blockRewards F) ommers.length))
    (by rw [hv]; omega)
  rw [hv] at sup1
  obtain ⟨s2, e2, sup2, st2, b2⟩ := payOmmers_ok F n ommers s1 d1 hage (by omega)
  refine ⟨s2, ?_, by omega, fun a => ?_, fun a => ?_, fun a k => ?_⟩
  · unfold payRewards
    have u : toU256 ((blockReward F).toNat + ommers.length * ((blockReward F).toNat / 32)) =
        .ok (BitVec.ofNat 256 (minerReward (blockRewards F) ommers.length)) := by
      rw [reward_eq]; exact if_pos hm
    rw [u]
    dsimp only
    rw [e1]
    exact e2
  · have := (b1 a).1
    rw [hv] at this
    have := (b2 a).1
    omega
  · exact ⟨by rw [(b2 a).2.1, (b1 a).2.1], by rw [(b2 a).2.2, (b1 a).2.2]⟩
  · unfold getStorage
    rw [st2, st1]

/-- **C47.** Importing a block issues exactly the documented rewards: the supply after it is that after its transactions plus the
rewards for its miner and for the at most two ommers, each one to six generations old; together never more than 2.8125 block
rewards. -/
theorem C47_issuance {T : Type} (K : Hashes) (X : Exec T) (F : PowFork) (c c' : PowChain T) (b : PowBlock T) (hn : Numbered c.blocks)
    (h : Pow.stateTransition K X F c b = .ok c') (s : State) (r : TxsResult)
    (hrun : X.run F c.chainId c.blocks b.header b.transactions c.state = .ok (s, r)) (hd : s.mainTrie.default = none)
    (hs : supply s < 2 ^ 255) :
    supply c'.state = supply s + (minerReward (blockRewards F) b.ommers.length +
      (b.ommers.map fun o => ommerReward (blockRewards F) (b.header.number - o.number)).sum) ∧
    16 * (supply c'.state - supply s) ≤ 45 * blockRewards F := by
  obtain ⟨-, hom, s0, r0, h0, hpay, -⟩ := powTransition_ok h
  rw [hrun] at h0
  obtain ⟨rfl, rfl⟩ := Prod.mk.inj (Except.ok.inj h0)
  obtain ⟨-, hlen, -, hr⟩ := (validateOmmers_iff K F _ _ _ hn).mp hom
  have hage : ∀ o ∈ b.ommers, o.number < b.header.number ∧ b.header.number ≤ o.number + 6 := fun o ho => ⟨(hr o ho).younger, (hr o ho).older⟩
  have hbound : 16 * (minerReward (blockRewards F) b.ommers.length +
      (b.ommers.map fun o => ommerReward (blockRewards F) (b.header.number - o.number)).sum) ≤ 45 * blockRewards F := by
    have one : ∀ o ∈ b.ommers, ommerReward (blockRewards F) (b.header.number - o.number) ≤ 7 * blockRewards F / 8 := by
      intro o ho
      have := hage o ho
      unfold ommerReward
      exact Nat.div_le_div_right (Nat.mul_le_mul_right _ (by omega))
    have d32 : blockRewards F % 32 = 0 := by cases F <;> rfl
    unfold minerReward
    generalize b.ommers = l at hlen one
    match l, hlen, one with
    | [], _, _ => simp only [List.length_nil, List.map_nil, List.sum_nil]; omega
    | [x], _, one =>
      have := one x List.mem_cons_self
      simp only [List.length_singleton, List.map_cons, List.map_nil, List.sum_cons, List.sum_nil]
      omega
    | [x, y], _, one =>
      have h1 := one x List.mem_cons_self
      have h2 := one y (List.mem_cons_of_mem _ List.mem_cons_self)
      simp only [List.length_cons, List.length_nil, List.map_cons, List.map_nil, List.sum_cons, List.sum_nil]
      omega
    | _ :: _ :: _ :: _, hlen, _ => simp only [List.length_cons] at hlen; omega
  have hsm := reward_small F
  obtain ⟨s', e, sup, -⟩ := C47_rewards F s b.header.number b.header.coinbase b.ommers hd hage (by omega)
  rw [hpay] at e
  rw [Except.ok.inj e]
  exact ⟨sup, by omega⟩

/-- The rewards in ether: 5, 3 and 2; a block with two ommers of ages 1 and 6 in constantinople. -/
example : minerReward (blockRewards .frontier) 0 = 5 * 10 ^ 18 ∧ minerReward (blockRewards .constantinople) 2 = 2125 * 10 ^ 15 ∧
    ommerReward (blockRewards .constantinople) 1 = 1750 * 10 ^ 15 ∧ ommerReward (blockRewards .constantinople) 6 = 500 * 10 ^ 15 := by decide

/-- A block with an ommer is accepted. -/
example : validateOmmers sampleK .frontier [powUncle] powTwo powBlocks = .ok () :=
  (C47_ommers sampleK .frontier [powUncle] powTwo powBlocks powBlocks_linked.1).mpr
    ⟨seal_ommers .., by simp, by simp, fun o ho => by rw [List.mem_singleton.mp ho]; exact powUncle_ommer⟩

end Verif
