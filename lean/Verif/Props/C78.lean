import Verif.Lemmas.MinedTotal
import Verif.Props.C77
import Verif.Props.C26
import Verif.Lemmas.SamplePowEvm
/-!
Property C78: importing a mined block raises no internal error.

`MinedFits`, `AfterLondon`, `OnSchedule` and `PowChainFits` are in `Verif/Spec/MinedSane.lean`; `Declared` in `Verif/Spec/TxSane.lean`.
-/
namespace Verif.Props
open Verif Verif.Spec Pow Ethash Genesis

theorem needs_fee {F : PowFork} {c : PowChain Txs} (hc : PowChainFits F c) {h : PowHeader} (ha : AfterLondon F h) :
    F = .london ∨ F = .arrowGlacier ∨ F = .grayGlacier → ∀ b ∈ c.blocks, b.header.number + 1 = h.number →
      ¬ (F = .london ∧ h.number = 12965000) → b.header.baseFeePerGas ≠ none := by
  intro hF b hb hn hno
  refine hc.fees b hb ?_
  rcases hF with hF | hF
  · have := ha.1 hF
    have : h.number ≠ 12965000 := fun e => hno ⟨hF, e⟩
    omega
  · have := ha.2 hF
    omega

/-- **C78.** In every proof-of-work fork an import fails with a declared exception or because a transaction cannot be decoded. The one
other error is the overflow of MODEXP, since byzantium, raised while the transactions are executed. No arithmetic, index, assertion or
attribute error escapes from the checks of the header and the ommers, from the proof of work, from the transactions, from the rewards or
from the roots. -/
theorem C78_import {C : Crypto} {K : Hashes} {F : PowFork} {c : PowChain Txs} {b : PowBlock Txs} (hc : PowChainFits F c)
    (hh : MinedFits F b.header) (ha : ∀ h ∈ b.header :: b.ommers, AfterLondon F h)
    (hsup : supply c.state + issued F b < 2 ^ 255) (e : BlockExn) (he : Pow.stateTransition K (evmExec C K) F c b = .error e) :
    e = .invalidBlock ∨ (∃ x, e = .invalidTx x) ∨ (∃ d, e = .decode d) ∨
    (F.fork.since .byzantium = true ∧ e = .exn (.crash .overflowError) ∧
      (evmExec C K).run F c.chainId c.blocks b.header b.transactions c.state = .error e) := by
  obtain ⟨p, hp, hl⟩ := hc.last
  have hne : c.blocks ≠ [] := fun h => by rw [h] at hp; cases hp
  unfold Pow.stateTransition at he
  match hv : Pow.validateHeader K F c.blocks b.header with
  | .error e' =>
    rw [hv] at he
    have : e = e' := (Except.error.inj he).symm
    exact .inl (this.trans (C58_rejects K F c.blocks hc.numbered hne b.header hh.number hc.times (needs_fee hc (ha _ List.mem_cons_self)) e' hv))
  | .ok () =>
    rw [hv] at he
    dsimp only at he
    match ho : validateOmmers K F b.ommers b.header c.blocks with
    | .error e' =>
      rw [ho] at he
      have : e = e' := (Except.error.inj he).symm
      exact .inl (this.trans (ommers_rejects K F c.blocks hc.numbered hne b.header hh.number hc.times b.ommers
        (fun o hm => needs_fee hc (ha o (List.mem_cons_of_mem _ hm))) e' ho))
    | .ok () =>
      rw [ho] at he
      dsimp only at he
      obtain ⟨q, hq, rq⟩ := (validateHeader_iff K F c.blocks hc.numbered b.header).mp hv
      have hrun := run_total (C := C) (K := K) b.transactions hc hh ⟨q, hq, rq.number⟩
      match hr : (evmExec C K).run F c.chainId c.blocks b.header b.transactions c.state with
      | .error e' =>
        rw [hr] at he hrun
        have hee : e' = e := Except.error.inj he
        subst hee
        rcases hrun with ((h | h) | h) | ⟨h1, h2⟩
        · exact .inl h
        · exact .inr (.inl h)
        · exact .inr (.inr (.inl h))
        · exact .inr (.inr (.inr ⟨h1.1, h2, rfl⟩))
      | .ok (s, r) =>
        rw [hr] at he hrun
        dsimp only at he
        obtain ⟨q1, q2, q3, q4⟩ := hrun
        obtain ⟨-, -, -, hom⟩ := (validateOmmers_iff K F _ _ _ hc.numbered).mp ho
        obtain ⟨s', e1, e2, -⟩ := C47_rewards F s b.header.number b.header.coinbase b.ommers q1.wf.main.1
          (fun o hm => ⟨(hom o hm).younger, (hom o hm).older⟩) (by
            have : (2 : Nat) ^ 255 ≤ 2 ^ 256 := by decide
            unfold issued at hsup; omega)
        rw [e1] at he
        dsimp only at he
        have hq' := moved_quiet (payRewards_paid e1).1 q1
        obtain ⟨root, hroot⟩ := stateRoot_total_wf C s' hq'.wf hq'.snapshots
        rw [show (evmExec C K).stateRoot s' = .ok root from hroot] at he
        dsimp only at he
        iterate 5
          split at he
          · exact .inl (Except.error.inj he).symm
        cases he

/-- **C78**, after an import: the chain is again as assumed, provided that the block has the next number (C58_stale shows that the code
does not ensure it). -/
theorem C78_imported {C : Crypto} {K : Hashes} {F : PowFork} {c c' : PowChain Txs} {b tip : PowBlock Txs} (hc : PowChainFits F c)
    (hh : MinedFits F b.header) (hs : OnSchedule F b.header) (ht : c.blocks.getLast? = some tip) (hn : b.header.number = tip.header.number + 1)
    (hsup : supply c.state + issued F b < 2 ^ 255) (h : Pow.stateTransition K (evmExec C K) F c b = .ok c') : PowChainFits F c' := by
  obtain ⟨p, hp, hl⟩ := hc.last
  rw [ht] at hp
  cases hp
  obtain ⟨hv, ho, s, r, hrun, hpay, -, -, -, -, -, hbl, -⟩ := powTransition_ok h
  obtain ⟨q, hq, rq⟩ := (validateHeader_iff K F c.blocks hc.numbered b.header).mp hv
  have hr := run_total (C := C) (K := K) b.transactions hc hh ⟨q, hq, rq.number⟩
  rw [hrun] at hr
  obtain ⟨q1, q2, q3, q4⟩ := hr
  obtain ⟨m, e⟩ := payRewards_paid hpay
  have hlen : c'.blocks.length = min 255 (c.blocks.length + 1) := by rw [hbl, lastN_length, List.length_append]; rfl
  have hmem : ∀ x ∈ c'.blocks, x ∈ c.blocks ∨ x = b := by
    intro x hx
    rw [hbl] at hx
    have := List.mem_of_mem_drop hx
    rcases List.mem_append.mp this with h | h
    · exact .inl h
    · exact .inr (by simpa using h)
  refine ⟨by rw [m.fork]; exact q4, ?_, ⟨b, ?_, ?_⟩, fun hF x hx => ?_, fun x hx hx' => ?_, moved_quiet m q1, ⟨?_, fun a => ?_⟩⟩
  · rw [hbl]; exact numbered_drop (numbered_append hc.numbered ht hn) _
  · rw [hbl]; unfold lastN
    rw [List.getLast?_drop, if_neg (by simp only [List.length_append, List.length_singleton]; omega)]
    simp
  · rw [hlen]; omega
  · rcases hmem x hx with h | rfl
    · exact hc.times hF x h
    · exact hh.time hF
  · rcases hmem x hx with h | rfl
    · exact hc.fees x h hx'
    · have hF : F = .london ∨ F = .arrowGlacier ∨ F = .grayGlacier := by
        have := hs.2
        cases F <;> first | (exfalso; have := this rfl; omega) | simp
      have hf := rq.fees
      rcases hF with rfl | rfl | rfl
      · by_cases hx : x.header.number = 12965000
        · rw [hf.1 hx]; exact fun h => by cases h
        · obtain ⟨-, fee, -, h2⟩ := hf.2 hx
          rw [h2]; exact fun h => by cases h
      · obtain ⟨-, fee, -, h2⟩ := hf
        rw [h2]; exact fun h => by cases h
      · obtain ⟨-, fee, -, h2⟩ := hf
        rw [h2]; exact fun h => by cases h
  · rw [e q1.wf.sound]
    have hfk : c'.state.fork = F.fork := by rw [m.fork]; exact q4
    unfold supplyLimit
    rw [hfk, pow_cancun]
    unfold issued at hsup
    show _ < 2 ^ 255
    omega
  · rw [(m.account a).2]; exact q2.codes a

/-- **C78**, at the activation of a fork: it succeeds, the DAO fork included, and the chain is as assumed for the new rules. -/
theorem C78_fork {F F' : PowFork} {c : PowChain Txs} (hc : PowChainFits F c) (hf : F'.fork.since F.fork = true) :
    ∃ c', applyPowFork F' c = .ok c' ∧ PowChainFits F' c' := by
  obtain ⟨c', h⟩ : ∃ c', applyPowFork F' c = .ok c' := by
    unfold applyPowFork
    split
    · obtain ⟨s', h, -⟩ := C48_dao c.state hc.quiet.wf.main.1 hc.fits.word
      rw [h]; exact ⟨_, rfl⟩
    · exact ⟨_, rfl⟩
  obtain ⟨q, e1, e2, e3, e4⟩ := applyPowFork_quiet hc.quiet h
  have hb : c'.blocks = c.blocks := by
    unfold applyPowFork at h
    split at h
    · split at h <;> cases h
      rfl
    · cases h; rfl
  have hsup : ∀ G : PowFork, supplyLimit G.fork = 2 ^ 255 := fun G => by unfold supplyLimit; rw [pow_cancun]; rfl
  refine ⟨c', h, e1, by rw [hb]; exact hc.numbered, by rw [hb]; exact hc.last, fun hF => ?_, by rw [hb]; exact hc.fees, q, ⟨?_, fun a => ?_⟩⟩
  · rw [hb]
    refine hc.times ?_
    subst hF
    revert hf; cases F <;> decide
  · have := hc.fits.supply
    rw [hc.fork, hsup] at this
    rw [e1, hsup, e4]; exact this
  · rw [(e3 a).2]; exact hc.fits.codes a

/-- **C78**, at the change to proof of stake: the chain is as `C26_import` and `C26_history` assume. -/
theorem C78_merge {F : PowFork} {c : PowChain Txs} (hc : PowChainFits F c) : ChainFits (merge c) := by
  obtain ⟨p, hp, hl⟩ := hc.last
  have hsup : supplyLimit F.fork = 2 ^ 255 := by unfold supplyLimit; rw [pow_cancun]; rfl
  refine ⟨⟨p.toChainBlock, ?_, fun h => (by cases h), ?_⟩, rfl, (setFork_quiet .paris hc.quiet).idle rfl, ⟨?_, hc.fits.codes⟩⟩
  · show (c.blocks.map PowBlock.toChainBlock).getLast? = _
    rw [List.getLast?_map, hp]; rfl
  · show p.header.number ≤ (c.blocks.map PowBlock.toChainBlock).length ∨ 255 ≤ (c.blocks.map PowBlock.toChainBlock).length
    rw [List.length_map]; exact hl
  · have := hc.fits.supply
    rw [hc.fork, hsup] at this
    exact this

/-- **C78**, for histories: at every point of a history of mined blocks with consecutive numbers, through all forks, the assumptions of
`C78_import` hold. -/
theorem C78_history {C : Crypto} {K : Hashes} {c c' : PowChain Txs} {bs : List (PowFork × PowBlock Txs)} (h : Mined C K c bs c') :
    ∀ {F : PowFork}, PowChainFits F c → Numbered (c.blocks ++ bs.map Prod.snd) →
    (∀ x ∈ bs, MinedFits x.1 x.2.header ∧ OnSchedule x.1 x.2.header) →
    supply c.state + (bs.map fun b => issued b.1 b.2).sum < 2 ^ 255 →
    ∃ F', PowChainFits F' c' ∧ supply c'.state ≤ supply c.state + (bs.map fun b => issued b.1 b.2).sum := by
  induction h with
  | nil c => intro F hc _ _ _; exact ⟨F, hc, Nat.le_add_right _ _⟩
  | @block c mid c' G b bs hf h t ih =>
    intro F hc hn hb hsup
    have hFG : F = G := by
      have e : F.fork = G.fork := hc.fork.symm.trans hf
      revert e; cases F <;> cases G <;> first | (intro _; rfl) | (intro e; cases e)
    subst hFG
    obtain ⟨p, hp, hl⟩ := hc.last
    rw [List.map_cons, List.sum_cons] at hsup
    dsimp only at hsup
    have hb0 : MinedFits F b.header ∧ OnSchedule F b.header := hb (F, b) List.mem_cons_self
    have hnum : b.header.number = p.header.number + 1 := by
      obtain ⟨k, hk⟩ := hn
      rw [List.getLast?_eq_getElem?] at hp
      have hlt := (List.getElem?_eq_some_iff.mp hp).1
      have h1 := hk _ p (by rw [List.getElem?_append_left hlt]; exact hp)
      have h2 := hk c.blocks.length b (by rw [List.getElem?_append_right (Nat.le_refl _)]; simp)
      omega
    have hmid := C78_imported hc hb0.1 hb0.2 hp hnum (by omega) h
    have hs1 := (C68_block hc.quiet h).2
    obtain ⟨-, -, s, r, -, -, -, -, -, -, -, hbl, -⟩ := powTransition_ok h
    have hn' : Numbered (mid.blocks ++ bs.map Prod.snd) := by
      have e : mid.blocks ++ bs.map Prod.snd = (c.blocks ++ ((F, b) :: bs).map Prod.snd).drop ((c.blocks ++ [b]).length - 255) := by
        rw [hbl, List.map_cons, show c.blocks ++ b :: bs.map Prod.snd = (c.blocks ++ [b]) ++ bs.map Prod.snd by simp]
        unfold lastN
        rw [List.drop_append_of_le_length (l₁ := c.blocks ++ [b]) (Nat.sub_le _ _)]
      rw [e]; exact numbered_drop hn _
    obtain ⟨F', h1, h2⟩ := ih hmid hn' (fun x hx => hb x (List.mem_cons_of_mem _ hx)) (by omega)
    refine ⟨F', h1, ?_⟩
    rw [List.map_cons, List.sum_cons]
    dsimp only
    omega
  | @fork c mid c' bs G hf h t ih =>
    intro F hc hn hb hsup
    obtain ⟨c1, h1, h2⟩ := C78_fork (F' := G) hc (by rw [← hc.fork]; exact hf)
    rw [h] at h1
    cases h1
    obtain ⟨q, e1, e2, e3, e4⟩ := applyPowFork_quiet hc.quiet h
    have hbl : mid.blocks = c.blocks := by
      unfold applyPowFork at h
      split at h
      · split at h <;> cases h
        rfl
      · cases h; rfl
    obtain ⟨F', h3, h4⟩ := ih h2 (by rw [hbl]; exact hn) hb (by omega)
    exact ⟨F', h3, by omega⟩

/-- **C78**, at the start: so does the chain of a genesis block, if the balances of its accounts are below 2^255 wei in total and the
codes shorter than 2^240 bytes. -/
theorem C78_genesis {C : Crypto} {K : Hashes} {F : PowFork} {id : U64} {g : Configuration} {c : PowChain Txs}
    (h : addGenesisBlock C K F ⟨[], State.empty F.fork, id⟩ g = some c) (ht : F = .frontier → g.timestamp.toNat < 2 ^ 255)
    (hb : ∀ xs, Matched Denotes g.initialAccounts xs → (xs.map fun x => x.account.balance.toNat).sum < 2 ^ 255 ∧
      ∀ x ∈ xs, x.account.code.length < 2 ^ 240) : PowChainFits F c := by
  obtain ⟨xs, hx, hq, hf, hacc, -, hsup, -⟩ := C77_state h
  obtain ⟨b, hbl, -, -, -, -, -, -, -, -, -, -, hnum, -, -, -, -, hts, -⟩ := C77_block h
  obtain ⟨h1, h2⟩ := hb xs hx
  have hbl : c.blocks = [b] := hbl
  refine ⟨hf, ?_, ⟨b, by rw [hbl]; rfl, .inl (by rw [hnum]; exact Nat.zero_le _)⟩, fun hF x hm => ?_, fun x hm hx => ?_, hq, ⟨?_, fun a => ?_⟩⟩
  · rw [hbl]
    refine ⟨0, fun i x hi => ?_⟩
    match i with
    | 0 => cases hi; exact hnum
    | i + 1 => cases hi
  · rw [hbl] at hm
    rw [List.mem_singleton.mp hm, hts]; exact ht hF
  · rw [hbl] at hm
    rw [List.mem_singleton.mp hm, hnum] at hx
    omega
  · unfold supplyLimit
    rw [hf, pow_cancun]
    show _ < 2 ^ 255
    omega
  · unfold getAccount
    rw [hacc a]
    unfold allotted
    match hfi : xs.reverse.find? (fun x => x.address = a) with
    | none => rw [hfi]; exact (by decide : (0 : Nat) < 2 ^ 240)
    | some x => rw [hfi]; exact h2 x (List.mem_reverse.mp (List.mem_of_find?_eq_some hfi))

/-- **C78**, the limit of it: in the first blocks of london, an ommer older than london is not refused but makes the import fail with an
AttributeError, because the code looks for the base fee of its parent. (By the rules of Ethereum such an ommer is valid if it keeps the
rules of its time.) -/
theorem C78_old_ommer {C : Crypto} {K : Hashes} {c : PowChain Txs} {b p : PowBlock Txs} {o : PowHeader} {rest : List PowHeader}
    (hl : Numbered c.blocks) (hv : Pow.validateHeader K .london c.blocks b.header = .ok ()) (hom : b.ommers = o :: rest)
    (hash : b.header.ommersHash = K.keccak256 (Rlp.encode (.list (b.ommers.map ofPowHeader))))
    (hp : p ∈ c.blocks) (hfee : p.header.baseFeePerGas = none) (hnum : o.number = p.header.number + 1) (hyoung : o.number < b.header.number)
    (hlon : o.number ≠ 12965000) (hgas : o.gasUsed ≤ o.gasLimit) :
    Pow.stateTransition K (evmExec C K) .london c b = .error crashed := by
  have key : Pow.validateHeader K .london c.blocks o = .error crashed := by
    obtain ⟨k, hk⟩ := hl
    obtain ⟨g1, g2⟩ := numbered_get hk hp rfl
    unfold Pow.validateHeader
    rw [if_neg (by omega)]
    dsimp only
    cases hf : c.blocks.head? with
    | none => rw [List.head?_eq_none_iff.mp hf] at hp
    | some first =>
      cases ht : c.blocks.getLast? with
      | none => rw [List.getLast?_eq_none_iff.mp ht] at hp
      | some last =>
        dsimp only
        have hfn : first.header.number = k := by rw [hk 0 first (by rw [← hf, List.head?_eq_getElem?])]; rfl
        obtain ⟨-, hlast⟩ := numbered_last hk ht
        have hlt := (List.getElem?_eq_some_iff.mp g2).1
        rw [hfn, if_neg (by omega), show o.number - 1 - k = p.header.number - k by omega, g2]
        dsimp only
        have : checkAgainstParent K .london p.header o = .error crashed := by
          unfold checkAgainstParent
          rw [if_neg (by omega)]
          have hc : checkFees .london p.header o = .error crashed := by
            unfold checkFees
            rw [if_pos (c := hasBaseFee .london = true) rfl, if_neg (fun h => hlon h.2), hfee]
          rw [if_pos (c := hasBaseFee .london = true) rfl, hc]
          rfl
        rw [this]
        rfl
  have hoh : validateOmmers K .london b.ommers b.header c.blocks = .error crashed := by
    unfold validateOmmers
    dsimp only
    rw [if_neg (fun h => h hash.symm), hom, if_neg (by simp)]
    rw [validateOmmerHeaders, if_neg (by omega), key]
    rfl
  unfold Pow.stateTransition
  rw [hv]
  dsimp only
  rw [hoh]

/-! ### Examples -/

theorem powEvm_fits : PowChainFits .frontier powEvmChain where
  fork := rfl
  numbered := ⟨0, fun i b hb => by
    match i, hb with
    | 0, hb => cases hb; unfold powEvmGenesis mkHeader; rfl
    | i + 1, hb => cases hb⟩
  last := ⟨_, rfl, .inl (by show powEvmGenesis.number ≤ 1; simp only [powEvmGenesis, mkHeader]; omega)⟩
  times := fun _ b hb => by
    rw [List.mem_singleton.mp (show b ∈ [_] from hb)]
    unfold powEvmGenesis mkHeader; dsimp only; decide
  fees := fun b hb h => by
    rw [List.mem_singleton.mp (show b ∈ [_] from hb)] at h
    unfold powEvmGenesis mkHeader at h; dsimp only at h; omega
  quiet := powEvm_quiet
  fits := ⟨(by decide +kernel : supply powEvmState < 2 ^ 255), sample_stateFits.codes⟩

theorem powEvm_block_fits : MinedFits .frontier powEvmBlock.header ∧ OnSchedule .frontier powEvmBlock.header := by
  have h1 : powEvmBlock.header.number = 1 := powEvm_fields.1
  have h2 : powEvmBlock.header.gasLimit = 100000 := by show powEvmHead.gasLimit = _; simp only [powEvmHead]
  have h3 : powEvmBlock.header.baseFeePerGas = none := by show powEvmHead.baseFeePerGas = _; simp only [powEvmHead, mkHeader]
  have h4 : powEvmBlock.header.difficulty = 131136 := by show powEvmHead.difficulty = _; simp only [powEvmHead, mkHeader]
  have h5 : powEvmBlock.header.timestamp = 10 := by show powEvmHead.timestamp = _; simp only [powEvmHead, mkHeader]
  refine ⟨⟨by omega, by omega, fun fee h => (by rw [h3] at h; cases h), by omega, fun _ => by rw [h5]; decide⟩,
    ⟨fun h => (by cases h), fun h => (by rcases h with h | h <;> cases h)⟩, fun _ => by omega⟩

theorem numbered_two (a b : PowBlock Txs) (h : b.header.number = a.header.number + 1) : Numbered [a, b] :=
  ⟨a.header.number, fun i c hc => by
    match i, hc with
    | 0, hc => rw [← Option.some.inj hc]; rfl
    | 1, hc => rw [← Option.some.inj hc]; exact h
    | i + 2, hc => cases hc⟩

theorem powEvm_numbered : Numbered (powEvmChain.blocks ++ [powEvmBlock]) := numbered_two _ _ powEvm_rules.number

/-- The sample chain meets the assumptions; the sample block, with a transaction that runs code, is imported and the assumptions hold
again, there and after the change to proof of stake. -/
example : (PowChainFits .frontier powEvmChain ∧ MinedFits .frontier powEvmBlock.header ∧
      (∀ h ∈ powEvmBlock.header :: powEvmBlock.ommers, AfterLondon .frontier h) ∧
      supply powEvmChain.state + issued .frontier powEvmBlock < 2 ^ 255) ∧
    ∃ c' F', Mined sampleCrypto sampleK powEvmChain [(.frontier, powEvmBlock)] c' ∧ PowChainFits F' c' ∧ ChainFits (merge c') := by
  have hs : supply powEvmChain.state + ([((PowFork.frontier : PowFork), powEvmBlock)].map fun b => issued b.1 b.2).sum < 2 ^ 255 := by
    show supply powEvmState + (minerReward (blockRewards .frontier) 0 + 0 + 0) < 2 ^ 255
    decide +kernel
  refine ⟨⟨powEvm_fits, powEvm_block_fits.1, fun h hm => ?_, hs⟩, ?_⟩
  · rw [List.mem_singleton.mp hm]; exact powEvm_block_fits.2.1
  · obtain ⟨c', h, -⟩ := powEvm_mined
    obtain ⟨F', h1, -⟩ := C78_history h powEvm_fits powEvm_numbered
      (fun x hx => by rw [List.mem_singleton.mp hx]; exact powEvm_block_fits) hs
    exact ⟨c', F', h, h1, C78_merge h1⟩

/-- A block that is refused. -/
example : ∃ e, Pow.stateTransition sampleK (evmExec sampleCrypto sampleK) .frontier powEvmChain ⟨powEvmGenesis, [], []⟩ = .error e := by
  unfold Pow.stateTransition Pow.validateHeader
  exact ⟨_, rfl⟩

/-! Two blocks, a child of the first as ommer, and the first block of london naming it. -/

def eveHeader (parent : PowHeader) (nonce : BitVec 64) (ts : Word) (difficulty : Nat) (ommersHash : Word) (fee : Option Nat) : PowHeader :=
  { mkHeader (powHash sampleK parent) (parent.number + 1) ts difficulty nonce ommersHash 0 with baseFeePerGas := fee }
def eveFirst : PowHeader := mkHeader 0 12964998 0 1000000000 0 0 0
def eveSecond : PowHeader := eveHeader eveFirst 1 10 1000000000 0 none
def eveOmmer : PowHeader := sealHeader sampleK (eveHeader eveFirst 2 10 138438953472 0 none)
def eveHead : PowHeader :=
  eveHeader eveSecond 3 20 2073741824 (sampleK.keccak256 (Rlp.encode (.list ([eveOmmer].map ofPowHeader)))) (some 1000000000)
def eveChain : PowChain Txs := ⟨[⟨eveFirst, [], []⟩, ⟨eveSecond, [], []⟩], State.empty .london, 1⟩
def eveBlock : PowBlock Txs := ⟨sealHeader sampleK eveHead, [], [eveOmmer]⟩

theorem empty_ommers : sampleK.keccak256 (Rlp.encode (.list [])) = 0 := by decide +kernel

theorem eve_rules {F : PowFork} (hF : F = .berlin ∨ F = .london) (p h : PowHeader) (hn : h.number = p.number + 1)
    (hp : h.parentHash = powHash sampleK p) (hts : p.timestamp.toNat < h.timestamp.toNat) (hu : h.gasUsed ≤ h.gasLimit)
    (hom : p.ommersHash = 0) (hb : p.number < 1900000000) (hg : GasLimitOK h.gasLimit p.gasLimit)
    (hfee : F = .london → p.number = 12964999 ∧ h.baseFeePerGas = some 1000000000) (hx : h.extraData.length ≤ 32)
    (hd : calculateBlockDifficulty F h.number h.timestamp p.timestamp p.difficulty false = some h.difficulty) :
    PowRules sampleK F p (sealHeader sampleK h) where
  number := hn
  parentHash := hp
  timestamp := hts
  gasUsed := hu
  fees := by
    rcases hF with rfl | rfl
    · exact hg
    · obtain ⟨h1, h2⟩ := hfee rfl
      exact ⟨fun _ => h2, fun h => absurd (show (sealHeader sampleK _).number = 12965000 from hn.trans (by omega)) h⟩
  extraData := hx
  difficulty := by
    rw [hom, empty_ommers]
    exact hd
  dao := fun e => by subst e; rcases hF with h | h <;> cases h
  proofOfWork := sealed sampleK_short _ (by omega)

theorem seal_om (K : Hashes) (h : PowHeader) : (sealHeader K h).ommersHash = h.ommersHash := rfl

theorem eve_numbers : eveFirst.number = 12964998 ∧ eveSecond.number = 12964999 :=
  ⟨by simp only [eveFirst, mkHeader], by simp only [eveSecond, eveHeader, eveFirst, mkHeader]⟩

/-- The ommer keeps the rules of berlin, its fork, and the block those of london; the import fails with an AttributeError. -/
example : PowRules sampleK .berlin eveFirst eveOmmer ∧ PowRules sampleK .london eveSecond eveBlock.header ∧
    Pow.stateTransition sampleK (evmExec sampleCrypto sampleK) .london eveChain eveBlock = .error crashed := by
  obtain ⟨n1, n2⟩ := eve_numbers
  have r1 : PowRules sampleK .berlin eveFirst eveOmmer := eve_rules (.inl rfl) eveFirst (eveHeader eveFirst 2 10 138438953472 0 none)
    (by simp only [eveHeader, mkHeader]) (by simp only [eveHeader, mkHeader]) (by simp only [eveHeader, eveFirst, mkHeader]; decide)
    (by simp only [eveHeader, mkHeader]; omega) (by simp only [eveFirst, mkHeader]) (by omega)
    (by simp only [eveFirst, eveHeader, mkHeader]; unfold GasLimitOK; omega) (fun h => by cases h) (by simp only [eveHeader, mkHeader]; simp)
    (by simp only [eveHeader, eveFirst, mkHeader]; decide +kernel)
  have r2 : PowRules sampleK .london eveSecond eveBlock.header := eve_rules (.inr rfl) eveSecond eveHead
    (by simp only [eveHead, eveHeader, mkHeader]) (by simp only [eveHead, eveHeader, mkHeader]) (by simp only [eveHead, eveSecond, eveHeader, mkHeader]; decide)
    (by simp only [eveHead, eveHeader, mkHeader]; omega) (by simp only [eveSecond, eveHeader, mkHeader]) (by omega)
    (by simp only [eveHead, eveSecond, eveHeader, mkHeader]; unfold GasLimitOK; omega) (fun _ => ⟨n2, by simp only [eveHead, eveHeader]⟩)
    (by simp only [eveHead, eveHeader, mkHeader]; simp)
    (by simp only [eveHead, eveHeader, mkHeader, n2]; simp only [eveSecond, eveHeader, mkHeader]; decide +kernel)
  have hnum : Numbered eveChain.blocks := numbered_two _ _ (by show eveSecond.number = eveFirst.number + 1; omega)
  have hv : Pow.validateHeader sampleK .london eveChain.blocks eveBlock.header = .ok () :=
    (validateHeader_iff sampleK .london _ hnum _).mpr ⟨⟨eveSecond, [], []⟩, by simp [eveChain], r2⟩
  have e1 : eveOmmer.number = 12964999 := by rw [r1.number, n1]
  have e2 : eveBlock.header.number = 12965000 := by rw [r2.number, n2]
  refine ⟨r1, r2, C78_old_ommer (p := ⟨eveFirst, [], []⟩) hnum hv rfl ?_ (by simp [eveChain]) ?_ ?_ ?_ ?_ ?_⟩
  · rw [show eveBlock.header = sealHeader sampleK eveHead from rfl, seal_om]
    simp only [eveHead, eveHeader, mkHeader, eveBlock]
  · show eveFirst.baseFeePerGas = none
    simp only [eveFirst, mkHeader]
  · show eveOmmer.number = eveFirst.number + 1
    exact r1.number
  · omega
  · omega
  · show (eveHeader eveFirst 2 10 138438953472 0 none).gasUsed ≤ (eveHeader eveFirst 2 10 138438953472 0 none).gasLimit
    simp only [eveHeader, mkHeader]; omega

end Verif.Props
