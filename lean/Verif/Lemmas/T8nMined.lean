import Verif.Lemmas.T8nCalls
import Verif.Lemmas.MinedTotal
import Verif.Props.C47
/-! Lemmas: the transition tool and mined blocks. -/
namespace Verif.T8n
open Verif Spec Verif.Props Verif.Pow Ethash

theorem minedBack_eq {T : Type} {K : Hashes} {chain : PowChain T} {i : Nat} (h : i < 256) : (lastBlockHashes K chain.blocks).reverse[i]? = minedBack K chain i := by
  unfold lastBlockHashes
  dsimp only
  have hl : (lastN 255 chain.blocks).getLast? = chain.blocks.getLast? := by
    unfold lastN
    by_cases h0 : chain.blocks = []
    · rw [h0]; simp
    · have := List.length_pos_iff.mpr h0
      rw [List.getLast?_drop, if_neg (by omega)]
  have hr : ∀ j, j < 255 → (lastN 255 chain.blocks).reverse[j]? = chain.blocks.reverse[j]? := by
    intro j hj
    unfold lastN
    rw [List.reverse_drop, List.getElem?_take]
    split
    · rfl
    · rw [List.getElem?_eq_none (by rw [List.length_reverse]; omega)]
  match hb : (lastN 255 chain.blocks).getLast? with
  | none =>
    have e := List.getLast?_eq_none_iff.mp (hl ▸ hb)
    cases i with
    | zero => simp [minedBack, e]
    | succ j => simp [minedBack, e]
  | some p =>
    dsimp only
    rw [List.reverse_append, List.reverse_singleton, List.singleton_append]
    cases i with
    | zero => simp [minedBack, ← hl, hb]
    | succ j =>
      rw [List.getElem?_cons_succ, ← List.map_reverse, List.getElem?_map, hr j (by omega)]
      rfl

theorem powFork_fork (F : PowFork) : powFork F.fork = some F := by cases F <;> rfl

/-- Before byzantium the ommers of the parent do not matter. -/
theorem difficulty_ommers {F : PowFork} (h : F.fork.since .byzantium = false) (n : Nat) (t pt : Word) (p : Nat) (x y : Bool) :
    calculateBlockDifficulty F n t pt p x = calculateBlockDifficulty F n t pt p y := by
  have : eip100 F = false := by revert h; cases F <;> decide
  unfold calculateBlockDifficulty
  rw [this]; rfl

variable {C : Crypto} {K : Hashes} {F : PowFork}

theorem readDifficulty_mined {T : Type} {chain : PowChain T} {p h : PowHeader} {d : EnvData} (hd : DescribesMined C K F chain p h d)
    (hK : F.fork.since .byzantium = true → C.keccak256 (Rlp.encode (.list [])) = K.keccak256 (Rlp.encode (.list []))) (hv : PowRules K F p h) :
    readBlockDifficulty C F.fork d = .ok (some h.difficulty) := by
  unfold readBlockDifficulty
  rw [powFork_fork]
  dsimp only
  rcases hd.difficulty with e | ⟨e, e1, e2, e3⟩
  · rw [e]
  · rw [e, e1, e2, hd.number, hd.timestamp]
    dsimp only
    have hx := hv.difficulty
    by_cases hb : F.fork.since .byzantium = true
    · rw [if_pos hb]
      rw [← hK hb] at hx
      rcases e3 hb with e3 | ⟨e3, e4⟩
      · rw [e3]
        dsimp only
        have hx' : calculateBlockDifficulty F h.number h.timestamp p.timestamp p.difficulty (decide (p.ommersHash ≠ emptyOmmerHash C)) = some h.difficulty := hx
        rw [hx']
      · rw [e3]
        dsimp only
        rw [e4] at hx
        rw [show (false : Bool) = decide (C.keccak256 (Rlp.encode (.list [])) ≠ C.keccak256 (Rlp.encode (.list []))) by simp, hx]
    · rw [if_neg hb, difficulty_ommers (by simpa using hb) _ _ _ _ false _, hx]

theorem readBaseFee_mined {T : Type} {chain : PowChain T} {p h : PowHeader} {d : EnvData} (hd : DescribesMined C K F chain p h d) (hv : PowRules K F p h) :
    readBaseFeePerGas F.fork d = .ok h.baseFeePerGas := by
  unfold readBaseFeePerGas
  by_cases hL : F.fork.since .london = true
  · rw [if_neg (by rw [hL]; decide)]
    rcases hd.baseFee hL with ⟨fee, e1, e2⟩ | ⟨e, hne, e1, e2, fee, e3, e4⟩
    · rw [e1, e2]
    · rw [e, e1, e2, e4, hd.gasLimit]
      dsimp only
      have hf := hv.fees
      have : GasLimitOK h.gasLimit p.gasLimit ∧ h.baseFeePerGas = some (nextBaseFee p.gasLimit p.gasUsed fee) := by
        unfold PowFees at hf
        cases F with
        | london => obtain ⟨a, f, b, c⟩ := hf.2 hne; rw [e3] at b; cases b; exact ⟨a, c⟩
        | arrowGlacier => obtain ⟨a, f, b, c⟩ := hf; rw [e3] at b; cases b; exact ⟨a, c⟩
        | grayGlacier => obtain ⟨a, f, b, c⟩ := hf; rw [e3] at b; cases b; exact ⟨a, c⟩
        | _ => cases hL
      rw [calculateBaseFee_eq this.1, this.2]
  · rw [if_pos hL, hd.absent (by simpa using hL)]

/-- The parent of the next block is the last block. -/
theorem mined_parent {T : Type} {chain : PowChain T} {p h : PowHeader} (hnum : Numbered chain.blocks) (hp : chain.blocks.getLast?.map PowBlock.header = some p)
    (hn : h.number = p.number + 1) (hv : Pow.validateHeader K F chain.blocks h = .ok ()) : PowRules K F p h := by
  obtain ⟨q, hq, v⟩ := (validateHeader_iff K F chain.blocks hnum h).mp hv
  match hl : chain.blocks.getLast? with
  | none => rw [hl] at hp; cases hp
  | some l =>
    rw [hl] at hp
    have hp : l.header = p := Option.some.inj hp
    obtain ⟨k, hk⟩ := hnum
    obtain ⟨h1, h2⟩ := numbered_last hk hl
    obtain ⟨j, hj⟩ := List.getElem?_of_mem hq
    have h3 := hk j q hj
    have h4 := (List.getElem?_eq_some_iff.mp hj).1
    have h5 := v.number
    have h6 : q = l := by
      rw [List.getLast?_eq_getElem?] at hl
      have : j = chain.blocks.length - 1 := by rw [← hp] at hn; omega
      rw [this, hl] at hj
      exact (Option.some.inj hj).symm
    rw [← hp, ← h6]; exact v

theorem environment_mined {T : Type} {chain : PowChain T} {p h : PowHeader} {d : EnvData} (hd : DescribesMined C K F chain p h d)
    (hK : F.fork.since .byzantium = true → C.keccak256 (Rlp.encode (.list [])) = K.keccak256 (Rlp.encode (.list [])))
    (hv : PowRules K F p h) (hl : min 256 h.number ≤ (lastBlockHashes K chain.blocks).length) :
    ∃ pre hs, (powEnvOf K chain.chainId chain.blocks h).blockHashes = pre ++ hs ∧ min 256 (powEnvOf K chain.chainId chain.blocks h).number ≤ hs.length ∧
      blockEnvironment C F.fork chain.chainId d = .ok (some ((powEnvOf K chain.chainId chain.blocks h).withHashes hs)) := by
  obtain ⟨pre, hs, e1, e2, e3⟩ := readHashes_eq hd.number (fun i hi => (hd.hashes i hi).trans (minedBack_eq (by omega)).symm) hl
  refine ⟨pre, hs, by dsimp only [powEnvOf]; exact e1, by dsimp only [powEnvOf]; exact Nat.le_of_eq e2.symm, ?_⟩
  have hp : F.fork.since .paris = false := by cases F <;> rfl
  have hx : readExcessBlobGas F.fork d = .ok none := by
    unfold readExcessBlobGas; rw [if_pos (by rw [pow_cancun]; decide)]
  unfold blockEnvironment
  rw [readDifficulty_mined hd hK hv, readBaseFee_mined hd hv, hx, e3, mapM_id_some]
  dsimp only [Option.map_some, Option.getD_some, Option.getD_none]
  rw [hp, pow_cancun, hd.gasLimit, hd.coinbase, hd.number, hd.timestamp]
  rfl

/-- What the tool needs to know of the environment of a mined block. -/
theorem mined_fits {T : Type} {c : PowChain T} {h : PowHeader} (hh : MinedFits F h) (hl : min 256 h.number ≤ (lastBlockHashes K c.blocks).length) :
    BlockFits F.fork (powEnvOf K c.chainId c.blocks h) := by
  refine ⟨?_, ?_, ?_, ?_, ?_, hh.difficulty⟩
  · show h.number < 2 ^ 256
    have := hh.number; omega
  · show h.gasLimit < gasLimitBound F.fork
    unfold gasLimitBound; rw [pow_osaka]; exact hh.gasLimit
  · show h.baseFeePerGas.getD 0 < 2 ^ 256
    cases hb : h.baseFeePerGas with
    | none => decide
    | some x => exact hh.baseFee x hb
  · show calculateBlobGasPrice F.fork 0 < 2 ^ 256
    cases F <;> decide +kernel
  · dsimp only [powEnvOf]; exact hl

/-- How the tool runs a mined block without ommers. -/
theorem mined_body {c c' : PowChain Txs} {b : PowBlock Txs} {om : List Withdrawal} (hc : PowChainFits F c) (hh : MinedFits F b.header)
    (hl : min 256 b.header.number ≤ (lastBlockHashes K c.blocks).length) (ho : b.ommers = [])
    (h : Pow.stateTransition K (evmExec C K) F c b = .ok c') :
    ∃ b1 w, processTransactions C (powEnvOf K c.chainId c.blocks b.header) ⟨c.state, BlockOutput.empty⟩ 0 b.transactions = .ok b1 ∧
      runBody C (powEnvOf K c.chainId c.blocks b.header) none [] om c.state (readTxs F.fork 0 b.transactions) = .ok ⟨⟨c'.state, b1.out⟩, []⟩ ∧
      commitments C ⟨c'.state, b1.out⟩ = .ok ⟨b.header.stateRoot, b.header.transactionsRoot, b.header.receiptRoot, b.header.bloom, w,
        computeRequestsHash C b1.out.requests⟩ ∧
      ToolInv (powEnvOf K c.chainId c.blocks b.header) b1 ∧ c'.state.fork = F.fork ∧ unreadTxs F.fork 0 b.transactions = [] ∧
      b1.out.blockGasUsed = b.header.gasUsed := by
  obtain ⟨-, -, s, t, hrun, hpay, e1, e2, e3, e4, e5, -, -⟩ := powTransition_ok h
  obtain ⟨b1, hb, rfl, f1, f2, f3, f4⟩ := evmExec_ok hrun
  have hs0 : ({ c.state with fork := F.fork } : State) = c.state := by rw [← hc.fork]
  rw [hs0] at hb
  have hB := mined_fits (c := c) hh hl
  obtain ⟨g1, g2⟩ := runTxs_of_block b.transactions ⟨c.state, BlockOutput.empty⟩ b1 0 hc.fork hb []
  have hnp : ∀ f : Fork, f = F.fork → f.since .prague = false ∧ f.since .cancun = false ∧ f.since .shanghai = false ∧ f.since .paris = false := by
    rintro _ rfl; cases F <;> decide
  obtain ⟨n1, n2, n3, n4⟩ := hnp _ hc.fork
  have htot := runTxs_total (C := C) hB (readTxs F.fork 0 b.transactions) ⟨⟨c.state, BlockOutput.empty⟩, []⟩ hc.fork (empty_inv hc.quiet hc.fits)
    (readTxs_given b.transactions 0 fun t _ tx htx => blobless (pow_cancun F) htx)
  rw [g1] at htot
  obtain ⟨i1, i2, -, -, -⟩ := htot
  have i2 : b1.state.fork = F.fork := i2
  have i1 : ToolInv (powEnvOf K c.chainId c.blocks b.header) b1 := i1
  have hfk : c'.state.fork = F.fork := by rw [(payRewards_paid hpay).1.fork]; exact i2
  obtain ⟨m1, m2, m3, m4⟩ := hnp _ hfk
  have hrew : payReward none b1.state (powEnvOf K c.chainId c.blocks b.header).coinbase [] = .ok c'.state := by
    rw [ho] at hpay
    unfold payRewards at hpay
    unfold payReward
    rw [i2, powFork_fork]
    dsimp only
    unfold payBlockRewards
    rw [show ([] : List Ommer).length = ([] : List PowHeader).length from rfl]
    match hq : toU256 ((blockReward F).toNat + ([] : List PowHeader).length * ((blockReward F).toNat / 32)) with
    | .error c => rw [hq] at hpay; cases hpay
    | .ok v =>
      rw [hq] at hpay
      dsimp only at hpay ⊢
      rw [show (powEnvOf K c.chainId c.blocks b.header).coinbase = b.header.coinbase from rfl]
      match hq2 : Dao.createEther b1.state b.header.coinbase v with
      | .error c => rw [hq2] at hpay; cases hpay
      | .ok s' => rw [hq2] at hpay; cases hpay; rfl
  have hbody : runBody C (powEnvOf K c.chainId c.blocks b.header) none [] om c.state (readTxs F.fork 0 b.transactions) = .ok ⟨⟨c'.state, b1.out⟩, []⟩ := by
    refine runBody_ok.mpr ⟨c.state, c.state, ⟨b1, []⟩, c'.state, ⟨c'.state, b1.out⟩, ?_, ?_, g1, hrew, ?_, ?_, rfl⟩
    · unfold storeParentHash; rw [n1]; rfl
    · unfold storeBeaconRoot; rw [n2]; rfl
    · rw [n3]; rfl
    · rw [n1]; rfl
  obtain ⟨w, hw⟩ := indexRoot_total C id b1.out.withdrawalsTrie i1.inv.stored.withdrawals
  have hk : commitments C ⟨c'.state, b1.out⟩ = .ok ⟨b.header.stateRoot, b.header.transactionsRoot, b.header.receiptRoot, b.header.bloom, w,
      computeRequestsHash C b1.out.requests⟩ := by
    unfold commitments
    have e3 : stateRoot C c'.state = .ok b.header.stateRoot := e3
    dsimp only
    rw [e3, f2, f3, hw, e2, e4, ← f4, e5]
    rfl
  exact ⟨b1, w, hb, hbody, hk, i1, hfk, g2, f1.symm.trans e1⟩

/-- A mined block without ommers is run by the tool in the same way. -/
theorem mined_run {c c' : PowChain Txs} {b : PowBlock Txs} {om : List Withdrawal} (hc : PowChainFits F c) (hh : MinedFits F b.header)
    (hl : min 256 b.header.number ≤ (lastBlockHashes K c.blocks).length) (ho : b.ommers = [])
    (h : Pow.stateTransition K (evmExec C K) F c b = .ok c') :
    ∃ r, runBlockchainTest C (powEnvOf K c.chainId c.blocks b.header) none [] om c.state (readTxs F.fork 0 b.transactions) = .ok (c'.state, r) ∧
      unreadTxs F.fork 0 b.transactions = [] ∧ AllAccepted r ∧
      r.gasUsed = b.header.gasUsed ∧ r.txRoot = b.header.transactionsRoot ∧ r.receiptRoot = b.header.receiptRoot ∧ r.bloom = b.header.bloom ∧
      r.stateRoot = b.header.stateRoot ∧ r.difficulty = some b.header.difficulty ∧
      r.baseFee = if F.fork.since .london then some (b.header.baseFeePerGas.getD 0) else none := by
  obtain ⟨b1, w, -, hbody, hk, i1, hfk, g2, hgas⟩ := mined_body (om := om) hc hh hl ho h
  have m4 : c'.state.fork.since .paris = false := by rw [hfk]; cases F <;> decide
  obtain ⟨l, hl, hlen⟩ := receipts_total (C := C) (out := b1.out) b1.out.receiptKeys (fun _ h => h) i1.readable i1.paired
  unfold runBlockchainTest update
  rw [hbody]
  dsimp only
  rw [hk]
  dsimp only
  rw [hl]
  refine ⟨_, rfl, g2, ⟨rfl, rfl⟩, hgas, rfl, rfl, rfl, rfl, ?_, ?_⟩
  · show (if c'.state.fork.since .paris = true then none else some b.header.difficulty) = _
    rw [m4]; rfl
  · show (if c'.state.fork.since .london = true then some (b.header.baseFeePerGas.getD 0) else none) = _
    rw [hfk]

end Verif.T8n
