import Verif.Lemmas.PowEvm
import Verif.Lemmas.SampleTx
import Verif.Lemmas.SamplePow
import Verif.Props.C58
/-! A mined frontier block with a transaction that runs code. -/
namespace Verif.Pow
open Verif Spec Ethash

def powEvmState : State := { sampleState with fork := .frontier }
def powEvmGenesis : PowHeader := { mkHeader 0 0 0 131072 0 0 0 with gasLimit := 100000 }
def powEvmHead : PowHeader :=
  { mkHeader (powHash sampleK powEvmGenesis) 1 10 131136 1 0 0xa with
    gasLimit := 100000, gasUsed := 41142, stateRoot := 0x80
    transactionsRoot := 0x0a82ea60940000000000000000000000000000000000000058038201021b4d01, receiptRoot := 0xc0 }
def powEvmChain : PowChain Txs := ⟨[⟨powEvmGenesis, [], []⟩], powEvmState, 1⟩
def powEvmBlock : PowBlock Txs := ⟨sealHeader sampleK powEvmHead, [.inl sampleTx], []⟩

theorem powEvm_quiet : Quiet powEvmChain.state :=
  ⟨⟨sample_idle.wf.main, sample_idle.wf.storage, sample_idle.wf.snaps⟩, sample_idle.snapshots, sample_idle.created⟩

theorem run_seal {C : Crypto} {K K' : Hashes} {F : PowFork} {cid : U64} {blocks : List (PowBlock Txs)} {h : PowHeader} {txs : Txs} {s : State} :
    (evmExec C K).run F cid blocks (sealHeader K' h) txs s = (evmExec C K).run F cid blocks h txs s := rfl

theorem frontier_sealed (p h : PowHeader) (h1 : h.number = p.number + 1) (h2 : h.parentHash = powHash sampleK p)
    (h3 : p.timestamp.toNat < h.timestamp.toNat) (h4 : h.gasUsed ≤ h.gasLimit)
    (h6 : GasLimitOK h.gasLimit p.gasLimit) (h7 : h.extraData.length ≤ 32)
    (h8 : calculateBlockDifficulty .frontier h.number h.timestamp p.timestamp p.difficulty false = some h.difficulty) (hn : h.number < 30000) :
    PowRules sampleK .frontier p (sealHeader sampleK h) where
  number := h1
  parentHash := h2
  timestamp := h3
  gasUsed := h4
  fees := h6
  extraData := h7
  difficulty := ((frontier_ommers _ _ _ _ _).trans h8 :)
  dao := fun e => by cases e
  proofOfWork := sealed sampleK_short _ (by omega)

theorem powEvm_rules : PowRules sampleK .frontier powEvmGenesis powEvmBlock.header :=
  frontier_sealed powEvmGenesis powEvmHead (by unfold powEvmHead powEvmGenesis mkHeader; rfl) (by simp only [powEvmHead, mkHeader])
    (by unfold powEvmHead powEvmGenesis mkHeader; dsimp only; decide) (by unfold powEvmHead mkHeader; dsimp only; omega)
    (by unfold powEvmHead powEvmGenesis mkHeader GasLimitOK; dsimp only; omega) (by unfold powEvmHead mkHeader; dsimp only; simp)
    (by unfold powEvmHead powEvmGenesis mkHeader; dsimp only; decide +kernel) (by unfold powEvmHead mkHeader; dsimp only; omega)

theorem powEvm_fields : powEvmHead.number = 1 ∧ powEvmHead.coinbase = 0xa ∧ powEvmHead.ommersHash = 0 := by
  simp only [powEvmHead, mkHeader, and_self]

theorem powEvm_ommers : powEvmHead.ommersHash = sampleK.keccak256 (Rlp.encode (.list ([].map ofPowHeader))) := by
  rw [powEvm_fields.2.2]
  decide +kernel

/-- The outcome of the transactions and rewards, with the values of a header. -/
def outcomeIs (C : Crypto) (h : PowHeader) (pay : State → Except Crash State) (r : Except BlockExn (State × TxsResult)) (p : State → Bool) : Bool :=
  match r with
  | .error _ => false
  | .ok (s, r) =>
    match pay s with
    | .error _ => false
    | .ok s' =>
      r.gasUsed == h.gasUsed && r.transactionsRoot == h.transactionsRoot && r.receiptRoot == h.receiptRoot &&
        r.bloom == h.bloom && (match Verif.stateRoot C s' with | .ok x => x == h.stateRoot | .error _ => false) && p s'

theorem outcome_ok {C : Crypto} {h : PowHeader} {pay : State → Except Crash State} {r : Except BlockExn (State × TxsResult)} {p : State → Bool} (hr : outcomeIs C h pay r p = true) :
    ∃ s t s', r = .ok (s, t) ∧ pay s = .ok s' ∧ t.gasUsed = h.gasUsed ∧
      t.transactionsRoot = h.transactionsRoot ∧ Verif.stateRoot C s' = .ok h.stateRoot ∧ t.receiptRoot = h.receiptRoot ∧ t.bloom = h.bloom ∧
      p s' = true := by
  unfold outcomeIs at hr
  split at hr
  · cases hr
  · rename_i s t
    split at hr
    · cases hr
    · rename_i s' hp
      simp only [Bool.and_eq_true, beq_iff_eq] at hr
      obtain ⟨⟨⟨⟨⟨h1, h2⟩, h3⟩, h4⟩, h5⟩, h6⟩ := hr
      refine ⟨s, t, s', rfl, hp, h1, h2, ?_, h3, h4, h6⟩
      split at h5
      · rename_i x hx; rw [hx, beq_iff_eq.mp h5]
      · cases h5

theorem powEvm_runs : outcomeIs sampleCrypto powEvmHead (fun s => payRewards .frontier s 1 0xa [])
    ((evmExec sampleCrypto sampleK).run .frontier 1 [⟨powEvmGenesis, [], []⟩] powEvmHead [.inl sampleTx] powEvmState)
    (fun s => getStorage s 88 1 == 7 && (getAccount s 77).nonce == 1) = true := by
  decide +kernel

/-- A sealed block on a chain of one block. -/
theorem seal_accepts {C : Crypto} {F : PowFork} {g h : PowHeader} {txs : Txs} {st : State} {p : State → Bool} {n : Nat} {cb : Address} (hn : h.number = n) (hcb : h.coinbase = cb)
    (hrules : PowRules sampleK F g (sealHeader sampleK h))
    (hom : h.ommersHash = sampleK.keccak256 (Rlp.encode (.list ([].map ofPowHeader))))
    (hr : outcomeIs C h (fun s => payRewards F s n cb []) ((evmExec C sampleK).run F 1 [⟨g, [], []⟩] h txs st) p = true) :
    ∃ s', Pow.stateTransition sampleK (evmExec C sampleK) F ⟨[⟨g, [], []⟩], st, 1⟩ ⟨sealHeader sampleK h, txs, []⟩ =
      .ok ⟨[⟨g, [], []⟩, ⟨sealHeader sampleK h, txs, []⟩], s', 1⟩ ∧ p s' = true := by
  obtain ⟨s, t, s', e1, e2, e3, e4, e5, e6, e7, e8⟩ := outcome_ok hr
  have hnum : Numbered [(⟨g, [], []⟩ : PowBlock Txs)] := ⟨g.number, fun i b hb => by
    match i, hb with
    | 0, hb => rw [← Option.some.inj hb]; rfl
    | i + 1, hb => cases hb⟩
  refine ⟨s', ?_, e8⟩
  exact accepts_short sampleK (evmExec C sampleK) F ⟨[⟨g, [], []⟩], st, 1⟩ ⟨sealHeader sampleK h, txs, []⟩ s s' t (by show 1 ≤ 254; omega)
    ((validateHeader_iff sampleK F _ hnum _).mpr ⟨_, List.mem_cons_self, hrules⟩)
    ((validateOmmers_iff sampleK F [] _ _ hnum).mpr ⟨hom, by simp, by simp, fun o ho => by cases ho⟩)
    (run_seal.trans e1) (by rw [← hn, ← hcb] at e2; exact e2) e3 e4 e5 e6 e7

/-- The block is imported; the transaction stored 7 and raised the nonce of its sender. -/
theorem powEvm_mined : ∃ c', Mined sampleCrypto sampleK powEvmChain [(.frontier, powEvmBlock)] c' ∧ getStorage c'.state 88 1 = 7 ∧
    (getAccount c'.state 77).nonce = 1 := by
  obtain ⟨s', h1, h2⟩ := seal_accepts (C := sampleCrypto) (g := powEvmGenesis) (h := powEvmHead) (txs := [.inl sampleTx]) (st := powEvmState) (n := 1) (cb := 0xa)
    (p := fun s => getStorage s 88 1 == 7 && (getAccount s 77).nonce == 1) powEvm_fields.1 powEvm_fields.2.1 powEvm_rules powEvm_ommers powEvm_runs
  simp only [Bool.and_eq_true, beq_iff_eq] at h2
  exact ⟨_, .block rfl h1 (.nil _), h2⟩

/-- The same with a later fork activated after it. -/
theorem powEvm_mined_to (F : PowFork) (hF : F ≠ .daoFork) : ∃ c', (Mined sampleCrypto sampleK powEvmChain [(.frontier, powEvmBlock)] c' ∧
    c'.state.fork = F.fork) ∧ getStorage c'.state 88 1 = 7 ∧ (getAccount c'.state 77).nonce = 1 := by
  obtain ⟨s', h1, h2⟩ := seal_accepts (C := sampleCrypto) (g := powEvmGenesis) (h := powEvmHead) (txs := [.inl sampleTx]) (st := powEvmState) (n := 1) (cb := 0xa)
    (p := fun s => getStorage s 88 1 == 7 && (getAccount s 77).nonce == 1) powEvm_fields.1 powEvm_fields.2.1 powEvm_rules powEvm_ommers powEvm_runs
  simp only [Bool.and_eq_true, beq_iff_eq] at h2
  have hk : s'.fork = .frontier := by
    obtain ⟨-, -, s, r, hrun, hpay, -⟩ := powTransition_ok h1
    obtain ⟨b1, hb, rfl, -⟩ := evmExec_ok hrun
    rw [(payRewards_paid hpay).1.fork]; exact transactions_fork _ hb
  refine ⟨⟨[⟨powEvmGenesis, [], []⟩, ⟨sealHeader sampleK powEvmHead, [.inl sampleTx], []⟩], { s' with fork := F.fork }, 1⟩,
    ⟨.block rfl h1 (.fork F ?_ (if_neg hF) (.nil _)), rfl⟩, h2⟩
  show F.fork.since s'.fork = true
  rw [hk]
  cases F <;> rfl

end Verif.Pow
