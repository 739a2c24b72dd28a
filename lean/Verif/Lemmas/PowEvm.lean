import Verif.Lemmas.AllForks
import Verif.Props.C47
import Verif.Props.C48
import Verif.Spec.PowHistory
/-! Blocks of the proof-of-work forks, executed. -/
namespace Verif
open Pow Spec Ethash Dao Verif.Props

/-- A change of balances, with the empty accounts kept: rewards and the DAO change. -/
structure Moved (s s' : State) : Prop where
  sound : Sound s → Sound s'
  snapshots : s'.snapshots = s.snapshots
  created : s'.createdAccounts = s.createdAccounts
  fork : s'.fork = s.fork
  account : ∀ a, (getAccount s' a).nonce = (getAccount s a).nonce ∧ (getAccount s' a).code = (getAccount s a).code
  storage : s'.storageTries = s.storageTries

theorem Moved.refl (s : State) : Moved s s := ⟨id, rfl, rfl, rfl, fun _ => ⟨rfl, rfl⟩, rfl⟩
theorem Moved.trans {a b c : State} (h : Moved a b) (h' : Moved b c) : Moved a c :=
  ⟨fun x => h'.sound (h.sound x), h'.snapshots.trans h.snapshots, h'.created.trans h.created, h'.fork.trans h.fork,
   fun x => ⟨(h'.account x).1.trans (h.account x).1, (h'.account x).2.trans (h.account x).2⟩, h'.storage.trans h.storage⟩

theorem moved_quiet {s s' : State} (h : Moved s s') (hq : Quiet s) : Quiet s' :=
  have hn := h.snapshots.trans hq.snapshots
  ⟨(h.sound hq.wf.sound).wf hn, hn, h.created.trans hq.created⟩

theorem modify_moved {s s' : State} {a : Address} {f : Account → Except Crash Account}
    (hf : ∀ x y, f x = .ok y → y.nonce = x.nonce ∧ y.code = x.code) (h : Dao.modifyState s a f = .ok s') : Moved s s' := by
  unfold Dao.modifyState at h
  split at h
  · cases h
  · rename_i acc hacc
    cases h
    refine ⟨fun hs => ⟨hs.main.set _ _, hs.storage⟩, rfl, rfl, rfl, fun x => ?_, rfl⟩
    rw [getAccount_setAccount]
    split
    · rename_i e; subst e; exact hf _ _ hacc
    · exact ⟨rfl, rfl⟩

theorem increase_keeps {v : Word} : ∀ x y, increaseRecipientBalance v x = .ok y → y.nonce = x.nonce ∧ y.code = x.code := by
  intro x y h
  unfold increaseRecipientBalance at h; split at h <;> cases h; exact ⟨rfl, rfl⟩
theorem reduce_keeps {v : Word} : ∀ x y, reduceSenderBalance v x = .ok y → y.nonce = x.nonce ∧ y.code = x.code := by
  intro x y h
  unfold reduceSenderBalance at h; split at h <;> cases h; exact ⟨rfl, rfl⟩

theorem createEther_ok {s s' : State} {a : Address} {v : Word} (h : createEther s a v = .ok s') :
    Moved s s' ∧ (s.mainTrie.default = none → supply s' = supply s + v.toNat) := by
  refine ⟨modify_moved increase_keeps h, fun hd => ?_⟩
  unfold createEther Dao.modifyState increaseRecipientBalance at h
  cases hc : checkedAdd (getAccount s a).balance v with
  | error c => rw [hc] at h; cases h
  | ok x =>
    rw [hc] at h
    cases h
    have := supply_set hd a { getAccount s a with balance := x }
    have := checkedAdd_ok hc
    dsimp only at *
    omega

theorem moveEther_moved {s s' : State} {a b : Address} {v : Word} (h : Dao.moveEther s a b v = .ok s') :
    Moved s s' ∧ (Sound s → supply s' = supply s) := by
  unfold Dao.moveEther at h
  split at h
  · cases h
  · rename_i s1 h1
    have m1 := modify_moved reduce_keeps h1
    obtain ⟨m2, e2⟩ := createEther_ok (a := b) (v := v) h
    refine ⟨m1.trans m2, fun hs => ?_⟩
    have a2 := e2 (m1.sound hs).main.1
    unfold Dao.modifyState reduceSenderBalance at h1
    by_cases hlt : (getAccount s a).balance < v
    · rw [if_pos hlt] at h1; cases h1
    · rw [if_neg hlt] at h1
      cases h1
      have := supply_set hs.main.1 a { getAccount s a with balance := (getAccount s a).balance - v }
      dsimp only at this
      rw [BitVec.toNat_sub_of_le (by simpa [BitVec.le_def, BitVec.lt_def] using hlt)] at this
      have : v.toNat ≤ (getAccount s a).balance.toNat := by simpa [BitVec.le_def, BitVec.lt_def] using hlt
      omega

theorem moveAll_moved (l : List Address) : ∀ {s s' : State}, moveAll s l = .ok s' → Moved s s' ∧ (Sound s → supply s' = supply s) := by
  induction l with
  | nil => intro s s' h; cases h; exact ⟨.refl _, fun _ => rfl⟩
  | cons a r ih =>
    intro s s' h
    rw [moveAll] at h
    split at h
    · cases h
    · rename_i s1 h1
      obtain ⟨m1, e1⟩ := moveEther_moved h1
      obtain ⟨m2, e2⟩ := ih h
      exact ⟨m1.trans m2, fun hs => (e2 (m1.sound hs)).trans (e1 hs)⟩

theorem payOmmers_paid {F : PowFork} {n : Nat} (l : List PowHeader) : ∀ {s s' : State}, payOmmers F n s l = .ok s' →
    Moved s s' ∧ (Sound s → supply s' = supply s + (l.map fun o => ommerReward (blockRewards F) (n - o.number)).sum) := by
  induction l with
  | nil => intro s s' h; cases h; exact ⟨.refl _, fun _ => rfl⟩
  | cons o r ih =>
    intro s s' h
    rw [payOmmers] at h
    split at h
    · cases h
    · rename_i age hage
      split at h
      · cases h
      · rename_i left hleft
        split at h
        · cases h
        · rename_i p hp
          split at h
          · cases h
          · rename_i s1 h1
            obtain ⟨m1, e1⟩ := createEther_ok h1
            obtain ⟨m2, e2⟩ := ih h
            refine ⟨m1.trans m2, fun hs => ?_⟩
            have a1 := e1 hs.main.1
            have a2 := e2 (m1.sound hs)
            rw [List.map_cons, List.sum_cons]
            have hv : (p / 8).toNat = ommerReward (blockRewards F) (n - o.number) := by
              obtain ⟨hlt, rfl⟩ := toU256_ok.mp hp
              unfold usub at hage hleft
              split at hage <;> cases hage
              split at hleft <;> cases hleft
              rw [BitVec.toNat_udiv, BitVec.toNat_ofNat, Nat.mod_eq_of_lt hlt, reward_eq]
              rfl
            omega

theorem payRewards_paid {F : PowFork} {s s' : State} {n : Nat} {coinbase : Address} {l : List PowHeader}
    (h : payRewards F s n coinbase l = .ok s') :
    Moved s s' ∧ (Sound s → supply s' = supply s + (minerReward (blockRewards F) l.length +
      (l.map fun o => ommerReward (blockRewards F) (n - o.number)).sum)) := by
  unfold payRewards at h
  split at h
  · cases h
  · rename_i v hv
    split at h
    · cases h
    · rename_i s1 h1
      obtain ⟨m1, e1⟩ := createEther_ok h1
      obtain ⟨m2, e2⟩ := payOmmers_paid l h
      refine ⟨m1.trans m2, fun hs => ?_⟩
      have a1 := e1 hs.main.1
      have a2 := e2 (m1.sound hs)
      have hv' : v.toNat = minerReward (blockRewards F) l.length := by
        obtain ⟨hlt, rfl⟩ := toU256_ok.mp hv
        rw [BitVec.toNat_ofNat, Nat.mod_eq_of_lt hlt, reward_eq]
        rfl
      omega

/-- What executing the transactions of a block gives. -/
theorem evmExec_ok {C : Crypto} {K : Hashes} {F : PowFork} {cid : U64} {blocks : List (PowBlock Txs)} {h : PowHeader} {txs : Txs}
    {s s' : State} {r : TxsResult} (hr : (evmExec C K).run F cid blocks h txs s = .ok (s', r)) :
    ∃ b, processTransactions C (powEnvOf K cid blocks h) ⟨{ s with fork := F.fork }, BlockOutput.empty⟩ 0 txs = .ok b ∧
      s' = b.state ∧ r.gasUsed = b.out.blockGasUsed ∧ indexTrieRoot C encodeTxNode b.out.transactionsTrie = .ok r.transactionsRoot ∧
      indexTrieRoot C encodeReceiptNode b.out.receiptsTrie = .ok r.receiptRoot ∧ r.bloom = logsBloom C b.out.blockLogs := by
  unfold evmExec at hr
  dsimp only at hr
  split at hr
  · cases hr
  · rename_i b hb
    split at hr
    · rename_i t x ht hx
      cases hr
      exact ⟨b, hb, rfl, rfl, ht, hx, rfl⟩
    · cases hr
    · cases hr

theorem txs_all {C : Crypto} {B : BlockEnv} (txs : Txs) : ∀ {b b' : BlockState} {i : Nat}, Quiet b.state →
    processTransactions C B b i txs = .ok b' → Quiet b'.state ∧
      supply b'.state + b'.out.blockGasUsed * B.baseFeePerGas ≤ supply b.state + b.out.blockGasUsed * B.baseFeePerGas := by
  induction txs with
  | nil => intro b b' i hq h; cases h; exact ⟨hq, Nat.le_refl _⟩
  | cons t r ih =>
    intro b b' i hq h
    obtain ⟨tx, b1, -, hp, hr⟩ := processTransactions_cons h
    obtain ⟨sender, msg, o, w, s1, s2, hran⟩ := processTransaction_ok.mp hp
    obtain ⟨q1, e1⟩ := supply_all hq hran
    obtain ⟨q2, e2⟩ := ih q1 hr
    refine ⟨q2, ?_⟩
    have : b1.out.blockGasUsed * B.baseFeePerGas = b.out.blockGasUsed * B.baseFeePerGas + gasCharged b.state.fork tx o * B.baseFeePerGas := by
      rw [hran.result, ← Nat.add_mul]
      rfl
    omega

/-- Before cancun no transaction uses blob gas. -/
theorem txs_blobless {C : Crypto} {B : BlockEnv} (txs : Txs) : ∀ {b b' : BlockState} {i : Nat}, b.state.fork.since .cancun = false →
    processTransactions C B b i txs = .ok b' → b'.out.blobGasUsed = b.out.blobGasUsed := by
  induction txs with
  | nil => intro b b' i hq h; cases h; rfl
  | cons t r ih =>
    intro b b' i hq h
    obtain ⟨tx, b1, -, hp, hr⟩ := processTransactions_cons h
    obtain ⟨sender, msg, o, w, s1, s2, hran⟩ := processTransaction_ok.mp hp
    have e1 : b1.out.blobGasUsed = b.out.blobGasUsed + blobGas tx := by rw [hran.result]; rfl
    have e2 : blobGas tx = 0 := by unfold blobGas; rw [hran.includable.blobKnown hq]; rfl
    rw [ih (by rw [ran_fork hran]; exact hq) hr, e1, e2, Nat.add_zero]

end Verif
