import Verif.Lemmas.ParallelTool
import Verif.Props.C84
import Verif.Props.C80
import Verif.Props.C35_body
/-!
C85: what happens to a state depends on what can be read from it alone. How it is stored, in which order it was written, what was written and undone
before: no message, transaction, block or history can tell. So a state root determines the future.
-/
namespace Verif.Props
open Verif Spec Pow T8n Ethash

/-- Two states between two transactions, under the same rules, from which the same accounts and the same storage are read. -/
structure Alike (s s' : State) : Prop where
  fork : s.fork = s'.fork
  same : SameState s s'
  rest : Quiet s ∧ Secured s
  rest' : Quiet s' ∧ Secured s'

theorem Alike.sim {s s' : State} (h : Alike s s') : SSim s s' :=
  SSim.of_reads h.rest.1.wf h.rest'.1.wf h.rest.2 h.rest'.2 h.fork h.rest.1.snapshots h.rest'.1.snapshots
    (h.rest.1.created.trans h.rest'.1.created.symm) h.same.1 h.same.2

theorem same_of_sim {s s' : State} (h : SSim s s') : SameState s s' := ⟨fun a => congrFun h.accountOptional a, fun a k => congrFun (congrFun h.slot a) k⟩

/-- **C85**, messages: from alike states a message ends alike, with the same output (gas, logs, refunds, deletions, returned data) or the same exception, in states
from which the same is read. -/
theorem C85_message (E : Env) (msg : Message) {s s' : State} (h : Alike s s') :
    (∀ out t, processMessageCall E msg ⟨s, TransientStorage.empty⟩ = .ok (out, t) →
      ∃ t', processMessageCall E msg ⟨s', TransientStorage.empty⟩ = .ok (out, t') ∧ SameState t.state t'.state) ∧
    ∀ e t, processMessageCall E msg ⟨s, TransientStorage.empty⟩ = .error (e, t) →
      ∃ t', processMessageCall E msg ⟨s', TransientStorage.empty⟩ = .error (e, t') ∧ SameState t.state t'.state := by
  have hm := processMessageCall_ext E msg (w := ⟨s, TransientStorage.empty⟩) (w' := ⟨s', TransientStorage.empty⟩) ⟨h.sim, tsim_empty⟩
  revert hm
  rcases processMessageCall E msg ⟨s, TransientStorage.empty⟩ with ⟨e, w⟩ | ⟨o, w⟩ <;>
    rcases processMessageCall E msg ⟨s', TransientStorage.empty⟩ with ⟨e', w'⟩ | ⟨o', w'⟩ <;> intro hm
  · obtain ⟨rfl, hw⟩ := hm
    refine ⟨fun _ _ x => ?_, fun _ _ x => ?_⟩ <;> cases x
    exact ⟨w', rfl, same_of_sim hw.state⟩
  · cases hm
  · cases hm
  · obtain ⟨rfl, hw⟩ := hm
    refine ⟨fun _ _ x => ?_, fun _ _ x => ?_⟩ <;> cases x
    exact ⟨w', rfl, same_of_sim hw.state⟩

/-- **C85**, transactions: the same outcome with the same receipt and the same gas, or the same error. The receipts of the first forks contain state roots, and so
they are the same only if no two keys have the same hash. -/
theorem C85_transaction {C : Crypto} (B : BlockEnv) {s s' : State} (h : Alike s s') (hk : s.fork.since .byzantium = true ∨ CollisionFree C)
    (out : BlockOutput) (tx : Transaction) (i : Nat) :
    (∀ b, processTransaction C B ⟨s, out⟩ tx i = .ok b → ∃ b', processTransaction C B ⟨s', out⟩ tx i = .ok b' ∧ b'.out = b.out ∧ SameState b.state b'.state) ∧
    ∀ e b, processTransaction C B ⟨s, out⟩ tx i = .error (e, b) →
      ∃ b', processTransaction C B ⟨s', out⟩ tx i = .error (e, b') ∧ b'.out = b.out ∧ SameState b.state b'.state := by
  have hm := processTransaction_sim (C := C) B (b := ⟨s, out⟩) (b' := ⟨s', out⟩) ⟨h.sim, rfl⟩ hk tx i
  constructor
  · intro b hb
    obtain ⟨b', h1, h2, -⟩ := ok_of_xsim hm hb
    exact ⟨b', h1, h2.out.symm, same_of_sim h2.state⟩
  · intro e b hb
    obtain ⟨b', h1, h2⟩ := error_of_xsim hm hb
    exact ⟨b', h1, h2.out.symm, same_of_sim h2.state⟩

/-- **C85**, blocks: alike states accept the same blocks, and reject the others for the same reason. -/
theorem C85_block {C : Crypto} {blocks : List ChainBlock} {id : U64} {s s' : State} (h : Alike s s') (hf : s.fork.since .paris = true) (b : Block)
    (hd : ∀ x, applyBody C (blockEnvOf C ⟨blocks, s, id⟩ b.header) s b.transactions b.withdrawals = .ok x → KeysDiffer C x.state) :
    (∀ c, stateTransition C ⟨blocks, s, id⟩ b = .ok c →
      ∃ c', stateTransition C ⟨blocks, s', id⟩ b = .ok c' ∧ c'.blocks = c.blocks ∧ SameState c.state c'.state) ∧
    ∀ e c, stateTransition C ⟨blocks, s, id⟩ b = .error (e, c) →
      ∃ c', stateTransition C ⟨blocks, s', id⟩ b = .error (e, c') ∧ c'.blocks = c.blocks ∧ SameState c.state c'.state := by
  have hm := stateTransition_sim (C := C) (c := ⟨blocks, s, id⟩) (c' := ⟨blocks, s', id⟩) ⟨rfl, h.sim, rfl⟩ (.inl (since_later hf rfl)) b hd
  constructor
  · intro c hc
    obtain ⟨c', h1, h2⟩ := ok_of_xsim hm hc
    exact ⟨c', h1, h2.blocks.symm, same_of_sim h2.state⟩
  · intro e c hc
    obtain ⟨c', h1, h2⟩ := error_of_xsim hm hc
    exact ⟨c', h1, h2.blocks.symm, same_of_sim h2.state⟩

private theorem since_self (f : Fork) : f.since f = true := by unfold Fork.since; simp

/-- The rules only ever move on. -/
theorem fork_later : HistoryClosed fun s s' => s'.fork.since s.fork = true where
  contents := fun _ _ hf _ _ => by rw [hf]; exact since_self _
  trans := fun _ _ _ h h' => since_later h' h
  move := fun _ _ _ _ _ h => by rw [moveEther_fork h]; exact since_self _
  selfdestruct := fun _ _ _ _ h => by rw [(selfdestructState_rel h).fork]; exact since_self _
  nonce := fun _ _ _ => by simp [incrementNonce, since_self]
  storage := fun s s' a k v h => by unfold setStorage at h; split at h <;> cases h; exact since_self _
  destroy := fun _ _ => since_self _
  code := fun _ _ _ _ => by simp [setCode, since_self]
  touch := fun _ _ => by simp [since_self]
  delegate := fun _ _ _ _ => by simp [setCode, since_self]
  balance := fun _ _ _ => by simp [setAccountBalance, since_self]
  remove := fun _ _ => since_self _
  modify := fun s s' a n h => by
    unfold modifyState at h
    split at h
    · cases h
    · cases h
      unfold dropEmpty
      split <;> exact since_self _
  pay := fun _ _ _ _ _ => since_self _
  fork := fun _ _ h => h

theorem imports_sim {C : Crypto} {c d : BlockChain} {bs : List ChainBlock} (h : Imports C c bs d) : ∀ {c' : BlockChain}, CSim c c' → c.state.fork.since .paris = true →
    (∀ bs1 bs2 x, bs = bs1 ++ bs2 → Imports C c bs1 x → KeysDiffer C x.state) → ∃ d', Imports C c' bs d' ∧ CSim d d' := by
  induction h with
  | nil c => exact fun hs _ _ => ⟨_, .nil _, hs⟩
  | @cons c mid d b bs h t ih =>
    intro c' hs hf hd
    have hmid : KeysDiffer C mid.state := hd [_] bs mid rfl (.cons h (.nil _))
    obtain ⟨-, -, -, -, x, k, hx, hst, -⟩ := stateTransition_ok h
    have hm := stateTransition_sim (C := C) hs (.inl (since_later hf rfl)) b fun y hy => by
      rw [hx] at hy; cases hy; rw [← hst]; exact hmid
    obtain ⟨mid', h1, h2⟩ := ok_of_xsim hm h
    have hfm : mid.state.fork.since c.state.fork = true := import_rel fork_later.toBlockClosed h
    obtain ⟨d', h3, h4⟩ := ih h2 (since_later hfm hf) fun bs1 bs2 y e hy => hd (_ :: bs1) bs2 y (by rw [e]; rfl) (.cons h hy)
    refine ⟨d', ?_, h4⟩
    rw [hs.state.fork]
    exact .cons h1 h3
  | @upgrade c d bs f hf' t ih =>
    intro c' hs hf hd
    obtain ⟨d', h3, h4⟩ := ih (c' := applyFork f c') ⟨hs.blocks, hs.state.setFork f, hs.chainId⟩ (since_later hf' hf)
      fun bs1 bs2 y e hy => hd bs1 bs2 y e (.upgrade f hf' hy)
    exact ⟨d', .upgrade f (by rw [← hs.state.fork]; exact hf') h3, h4⟩

/-- **C85**, histories: whatever can be imported on top of a state can be imported on top of an alike one, with the same result. -/
theorem C85_history {C : Crypto} {blocks : List ChainBlock} {id : U64} {s s' : State} {bs : List ChainBlock} {d : BlockChain} (h : Alike s s')
    (hf : s.fork.since .paris = true) (hi : Imports C ⟨blocks, s, id⟩ bs d)
    (hd : ∀ before after x, bs = before ++ after → Imports C ⟨blocks, s, id⟩ before x → KeysDiffer C x.state) :
    ∃ d', Imports C ⟨blocks, s', id⟩ bs d' ∧ d'.blocks = d.blocks ∧ d'.state.fork = d.state.fork ∧ SameState d.state d'.state := by
  obtain ⟨d', h1, h2⟩ := imports_sim hi (c' := ⟨blocks, s', id⟩) ⟨rfl, h.sim, rfl⟩ hf hd
  exact ⟨d', h1, h2.blocks.symm, h2.state.fork.symm, same_of_sim h2.state⟩

theorem mined_sim {C : Crypto} {K : Hashes} {c d : PowChain Txs} {bs : List (PowFork × PowBlock Txs)} (h : Mined C K c bs d) : ∀ {c' : PowChain Txs}, PSim c c' →
    (c.state.fork.since .byzantium = true ∨ CollisionFree C) →
    (∀ bs1 bs2 x, bs = bs1 ++ bs2 → Mined C K c bs1 x → KeysDiffer C x.state) → ∃ d', Mined C K c' bs d' ∧ PSim d d' := by
  induction h with
  | nil c => exact fun hs _ _ => ⟨_, .nil _, hs⟩
  | @block c mid d F b bs hF h t ih =>
    intro c' hs hk hd
    have hmid : KeysDiffer C mid.state := hd [_] bs mid rfl (.block hF h (.nil _))
    obtain ⟨-, -, x, r, hx, hp, -⟩ := powTransition_ok h
    have hm := powTransition_sim (C := C) (K := K) F hs (by rw [← hF]; exact hk) b fun y r' t' hy ht => by
      rw [hx] at hy; cases hy; rw [hp] at ht; cases ht; exact hmid
    rw [h] at hm
    match h1 : Pow.stateTransition K (evmExec C K) F c' b with
    | .error e => rw [h1] at hm; cases hm
    | .ok mid' =>
      rw [h1] at hm
      have h2 : PSim mid mid' := hm
      have hfm : mid.state.fork.since c.state.fork = true := powImport_rel fork_later hF h
      obtain ⟨d', h3, h4⟩ := ih h2 (hk.imp_left (since_later hfm)) fun bs1 bs2 y e hy => hd (_ :: bs1) bs2 y (by rw [e]; rfl) (.block hF h hy)
      exact ⟨d', .block (by rw [← hs.state.fork]; exact hF) h1 h3, h4⟩
  | @fork c mid d bs F hF h t ih =>
    intro c' hs hk hd
    have hm := applyPowFork_sim F hs
    rw [h] at hm
    match h1 : applyPowFork F c' with
    | .error e => rw [h1] at hm; cases hm
    | .ok mid' =>
      rw [h1] at hm
      have h2 : PSim mid mid' := hm
      have hfm : mid.state.fork.since c.state.fork = true := powFork_rel fork_later hF h
      obtain ⟨d', h3, h4⟩ := ih h2 (hk.imp_left (since_later hfm)) fun bs1 bs2 y e hy => hd bs1 bs2 y e (.fork F hF h hy)
      exact ⟨d', .fork F (by rw [← hs.state.fork]; exact hF) h1 h3, h4⟩

/-- **C85**, mined histories, and on through the change to proof of stake. -/
theorem C85_whole {C : Crypto} {K : Hashes} {blocks : List (PowBlock Txs)} {id : U64} {s s' : State} {bs : List (PowFork × PowBlock Txs)} {d : PowChain Txs}
    (h : Alike s s') (hk : s.fork.since .byzantium = true ∨ CollisionFree C) (hm : Mined C K ⟨blocks, s, id⟩ bs d)
    (hd : ∀ before after x, bs = before ++ after → Mined C K ⟨blocks, s, id⟩ before x → KeysDiffer C x.state) :
    ∃ d', Mined C K ⟨blocks, s', id⟩ bs d' ∧ d'.blocks = d.blocks ∧ d'.state.fork = d.state.fork ∧ SameState d.state d'.state ∧
      ∀ bs' e, Imports C (merge d) bs' e → (∀ before after x, bs' = before ++ after → Imports C (merge d) before x → KeysDiffer C x.state) →
        ∃ e', Imports C (merge d') bs' e' ∧ e'.blocks = e.blocks ∧ SameState e.state e'.state := by
  obtain ⟨d', h1, h2⟩ := mined_sim hm (c' := ⟨blocks, s', id⟩) ⟨rfl, h.sim, rfl⟩ hk hd
  refine ⟨d', h1, h2.blocks.symm, h2.state.fork.symm, same_of_sim h2.state, fun bs' e he hx => ?_⟩
  obtain ⟨e', h3, h4⟩ := imports_sim he (merge_sim h2) rfl hx
  exact ⟨e', h3, h4.blocks.symm, same_of_sim h4.state⟩

/-- **C85.** The state root determines the future: a state that somebody was given, and that has the right root, can take the place of the state that was computed block
by block. Whatever is imported on top of one can be imported on top of the other, with the same result. -/
theorem C85_root {C : Crypto} {blocks : List ChainBlock} {id : U64} {s s' : State} {r : Word} {bs : List ChainBlock} {d : BlockChain}
    (ho : Orderly s) (ho' : Orderly s') (hfk : s.fork = s'.fork) (hf : s.fork.since .paris = true) (hE : C.keccak256 [0x80] = emptyTrieRoot)
    (hc : NoCollision C (hashedByStateRoot C s ++ hashedByStateRoot C s')) (hr : stateRoot C s = .ok r) (hr' : stateRoot C s' = .ok r)
    (hi : Imports C ⟨blocks, s, id⟩ bs d)
    (hd : ∀ before after x, bs = before ++ after → Imports C ⟨blocks, s, id⟩ before x → KeysDiffer C x.state) :
    ∃ d', Imports C ⟨blocks, s', id⟩ bs d' ∧ d'.blocks = d.blocks ∧ d'.state.fork = d.state.fork ∧ SameState d.state d'.state :=
  C85_history ⟨hfk, C35_whole C s s' r ho ho' hE hc hr hr', ⟨ho.quiet, ho.secured⟩, ⟨ho'.quiet, ho'.secured⟩⟩ hf hi hd

/-- **C85**, the transition tool: a run that starts from a state that the tool wrote and read back gives the same result as one that goes on with the state itself. -/
theorem C85_tool {C : Crypto} {B : BlockEnv} {r : Option Int} {ommers : List Ommer} {ws : List Withdrawal} {s t : State} {txs : List (Nat × Transaction)} {res : Result}
    (hn : 1 ≤ B.number) (hB : BlockFits s.fork B) (ho : Orderly s) (hS : StateFits s) (hi : Inputs s.fork txs) (hf : s.fork ≠ .daoFork)
    (he : s.fork.since .paris = true → ∀ a, getAccountOptional s a ≠ some ⟨0, 0, []⟩) (hk : s.fork.since .byzantium = true ∨ CollisionFree C)
    (h : runBlockchainTest C B r ommers ws s txs = .ok (t, res)) (hd : KeysDiffer C t) :
    ∃ l s' t', allocToJson s = some l ∧ readAlloc s.fork l = some s' ∧ runBlockchainTest C B r ommers ws s' txs = .ok (t', res) ∧ SameState t t' := by
  obtain ⟨l, s', h1, h2, h3, h4, h5, h6⟩ := C84_round_trip ho.quiet.wf ho.owned hf he
  obtain ⟨t', h7, h8⟩ := runBlockchainTest_sim hn hB ho.quiet hS (Verif.Props.Inputs.given hi) hk h hd
    (Alike.sim ⟨h6.symm, h3, ⟨ho.quiet, ho.secured⟩, ⟨h4, h5⟩⟩)
  exact ⟨l, s', t', h1, h2, h7, same_of_sim h8⟩

/-! ### Concrete cases

With the toy hash of `C35_hypotheses_met`, which has no collisions among addresses and words. -/

theorem commitHash_short {a b : Bytes} (ha : a.length = 20) (hb : b.length = 20) (h : commitHash a = commitHash b) : a = b := by
  have key : ∀ x : Bytes, x.length = 20 → (commitHash x).toNat = fromBE (7 :: x) := by
    intro x hx
    have h1 : x ≠ [0x80] := fun e => by rw [e] at hx; cases hx
    have h2 := fromBE_lt (7 :: x)
    rw [List.length_cons, hx] at h2
    unfold commitHash
    rw [if_neg h1, if_neg (by rw [hx]; decide), BitVec.toNat_ofNat]
    generalize fromBE (7 :: x) = n at h2
    rw [Nat.mod_eq_of_lt (Nat.lt_trans h2 (by decide)), Nat.mod_eq_of_lt (Nat.lt_trans h2 (by decide))]
  have := fromBE_inj (a := 7 :: a) (b := 7 :: b) (by rw [List.length_cons, List.length_cons, ha, hb]) (by rw [← key a ha, ← key b hb, h])
  exact (List.cons.inj this).2

theorem commitHash_word (x : Word) : commitHash (wordBytes x) = x := by
  have hl := wordBytes_length x
  have h1 : wordBytes x ≠ [0x80] := fun e => by rw [e] at hl; cases hl
  unfold commitHash
  rw [if_neg h1, if_pos hl, fromBE_wordBytes, BitVec.ofNat_toNat, BitVec.setWidth_eq]

theorem commit_free : CollisionFree commitCrypto := by
  have e : commitCrypto.keccak256 = commitHash := rfl
  constructor
  · intro a b h
    rw [e] at h
    exact addressBytes_inj (commitHash_short (addressBytes_length a) (addressBytes_length b) h)
  · intro k l h
    rw [e, commitHash_word, commitHash_word] at h
    exact h

/-- The sample state after one of its accounts was taken out and put back. -/
def shuffledState : State := setAccount (destroyAccount sampleState 77) 77 (some ⟨0, 1000000, []⟩)

theorem sample_orderly : Orderly sampleState :=
  ⟨sample_idle.quiet, ⟨rfl, fun a t ht => by rw [show sampleState.storageTries = Dict.empty from rfl] at ht; simp at ht⟩, fun _ _ _ => rfl, sample_nonceBound⟩

theorem shuffled_orderly : Orderly shuffledState :=
  ⟨⟨(sample_idle.wf.destroyAccount _).setAccount _ _, rfl, rfl⟩, ⟨rfl, fun a t ht => by rw [show shuffledState.storageTries = Dict.empty from rfl] at ht; simp at ht⟩,
    fun _ _ _ => rfl, nonceBound_of rfl (by decide +kernel)⟩

theorem shuffled_alike : Alike sampleState shuffledState := by
  refine ⟨rfl, ⟨fun a => ?_, fun _ _ => rfl⟩, ⟨sample_orderly.quiet, sample_orderly.secured⟩, ⟨shuffled_orderly.quiet, shuffled_orderly.secured⟩⟩
  unfold shuffledState
  rw [getAccountOptional_setAccount]
  split
  · rename_i h; subst h; decide +kernel
  · rename_i h
    rw [getAccountOptional_destroyAccount, if_neg h]

/-- It is stored differently. -/
example : sampleState.mainTrie.data.entries ≠ shuffledState.mainTrie.data.entries := by decide +kernel

def alikeCase : Bool :=
  match commitHeader with
  | none => false
  | some h =>
    match stateTransition commitCrypto sampleChain (commitBlocks h).1, stateRoot commitCrypto sampleState, stateRoot commitCrypto shuffledState with
    | .ok d, .ok r, .ok r' => decide (getStorage d.state 88 1 = 7) && decide (r = r') &&
        decide (NoCollision commitCrypto (hashedByStateRoot commitCrypto sampleState ++ hashedByStateRoot commitCrypto shuffledState))
    | _, _, _ => false

theorem alike_case : alikeCase = true := by decide +kernel

/-- The sample block is imported on top of both states; the hypotheses of `C85_message`, `C85_transaction`, `C85_block`, `C85_history` and `C85_root` are met. -/
example : ∃ b d r, Imports commitCrypto ⟨sampleChain.blocks, sampleState, 1⟩ [⟨.osaka, b⟩] d ∧ getStorage d.state 88 1 = 7 ∧ Alike sampleState shuffledState ∧
    Orderly sampleState ∧ Orderly shuffledState ∧ NoCollision commitCrypto (hashedByStateRoot commitCrypto sampleState ++ hashedByStateRoot commitCrypto shuffledState) ∧
    commitCrypto.keccak256 [0x80] = emptyTrieRoot ∧ stateRoot commitCrypto sampleState = .ok r ∧ stateRoot commitCrypto shuffledState = .ok r ∧
    ∀ s, KeysDiffer commitCrypto s := by
  have hc := alike_case
  unfold alikeCase at hc
  split at hc
  · cases hc
  · rename_i h hh
    split at hc
    · rename_i d r r' hd hr hr'
      simp only [Bool.and_eq_true, decide_eq_true_eq] at hc
      obtain ⟨⟨h1, rfl⟩, h2⟩ := hc
      exact ⟨(commitBlocks h).1, d, r, .cons (chain := sampleChain) hd (.nil _), h1, shuffled_alike, sample_orderly, shuffled_orderly, h2, by decide +kernel, hr, hr',
        commit_free.keys⟩
    · cases hc

/-- The sample frontier block, with the roots that the toy hash gives. -/
def alikeHead : PowHeader :=
  { mkHeader (powHash sampleK powEvmGenesis) 1 10 131136 1 0 0xa with
    gasLimit := 100000, gasUsed := 41142, stateRoot := 917198633429905021577185403968621933250453369349224801894362753308332639148
    transactionsRoot := 4754436216640102051913213929195540082599573894457241551091192374905573984385
    receiptRoot := 62659847733506389931759438165083508018117848003748510210233905280729951304189 }

theorem alike_rules : PowRules sampleK .frontier powEvmGenesis (sealHeader sampleK alikeHead) :=
  frontier_sealed powEvmGenesis alikeHead (by unfold alikeHead powEvmGenesis mkHeader; rfl) (by simp only [alikeHead, mkHeader])
    (by unfold alikeHead powEvmGenesis mkHeader; dsimp only; decide) (by unfold alikeHead mkHeader; dsimp only; omega)
    (by unfold alikeHead powEvmGenesis mkHeader GasLimitOK; dsimp only; omega) (by unfold alikeHead mkHeader; dsimp only; simp)
    (by unfold alikeHead powEvmGenesis mkHeader; dsimp only; decide +kernel) (by unfold alikeHead mkHeader; dsimp only; omega)

theorem alike_runs : outcomeIs commitCrypto alikeHead (fun s => payRewards .frontier s 1 0xa [])
    ((evmExec commitCrypto sampleK).run .frontier 1 [⟨powEvmGenesis, [], []⟩] alikeHead [.inl sampleTx] powEvmState)
    (fun s => getStorage s 88 1 == 7) = true := by
  decide +kernel

/-- A frontier block, whose receipt contains a state root, is imported on top of two alike states: the hypotheses of `C85_whole` are met. -/
example : Alike powEvmState { shuffledState with fork := .frontier } ∧ CollisionFree commitCrypto ∧
    ∃ b d, Mined commitCrypto sampleK ⟨[⟨powEvmGenesis, [], []⟩], powEvmState, 1⟩ [(.frontier, b)] d ∧ getStorage d.state 88 1 = 7 := by
  refine ⟨⟨rfl, shuffled_alike.same, ⟨powEvm_orderly.quiet, powEvm_orderly.secured⟩,
    ⟨setFork_quiet .frontier shuffled_orderly.quiet, shuffled_orderly.secured.of_eq rfl rfl⟩⟩, commit_free, ?_⟩
  have e : alikeHead.number = 1 ∧ alikeHead.coinbase = 0xa ∧ alikeHead.ommersHash = 0 := by simp only [alikeHead, mkHeader, and_self]
  have ho : alikeHead.ommersHash = sampleK.keccak256 (Rlp.encode (.list ([].map ofPowHeader))) := by rw [e.2.2]; decide +kernel
  obtain ⟨s', h1, h2⟩ := seal_accepts (C := commitCrypto) (g := powEvmGenesis) (h := alikeHead) (txs := [.inl sampleTx]) (st := powEvmState) (n := 1) (cb := 0xa)
    (p := fun s => getStorage s 88 1 == 7) e.1 e.2.1 alike_rules ho alike_runs
  exact ⟨_, _, .block rfl h1 (.nil _), by simpa using h2⟩

/-- The tool runs the sample transaction on a state of frontier: the hypotheses of `C85_tool` are met. -/
example : (match runBlockchainTest commitCrypto sampleBlockEnv (some 5) [] [] powEvmState [(0, .legacy sampleTx)] with
    | .ok (t, r) => decide (getStorage t 88 1 = 7) && decide (r.rejected = [])
    | .error _ => false) = true ∧ (∀ t, KeysDiffer commitCrypto t) ∧ CollisionFree commitCrypto ∧ Orderly powEvmState ∧ powEvmState.fork ≠ .daoFork :=
  ⟨by decide +kernel, commit_free.keys, commit_free, powEvm_orderly, by decide⟩

end Verif.Props
