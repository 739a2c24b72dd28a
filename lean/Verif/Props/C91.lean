import Verif.Lemmas.SampleSync
import Verif.Props.C48
import Verif.Lemmas.SamplePow
/-!
C91: a node can be stopped at any time. Whatever the history of stops, starts and commits, the database of the synchronisation tool holds the state after a whole number
of valid blocks, and a node that is started again goes on as if it had never been stopped.
-/
namespace Verif.Props
open Verif Pow Sync Spec ForkTracking

/-- C91: whatever the history, the database is empty or holds exactly the state after the first `n` blocks, for some `n`, with the number and the time of block `n`: never
a part of a block, never an invalid block, never the number of one block with the state after another. -/
theorem C91_disk (C : Crypto) (K : Ethash.Hashes) (W : Sync.World) (g : BlockObj) (hW : Sound W g) (m : Machine) (h : Reaches C K W blank m) :
    m.disk = none ∨ ∃ s n, m.disk = some s ∧ SavedAt C K W n s := by
  have hi := inv_reaches hW inv_blank h
  match hd : m.disk with
  | none => exact .inl rfl
  | some s =>
    obtain ⟨n, -, hs⟩ := hi.disk s hd
    exact .inr ⟨s, n, rfl, hs⟩

/-- C91: whatever the history, a node waiting for block `n + 1` has the fork, the last blocks, the state and the chain id of a node that was never stopped. -/
theorem C91_resume (C : Crypto) (K : Ethash.Hashes) (W : Sync.World) (g : BlockObj) (hW : Sound W g) (m : Machine) (h : Reaches C K W blank m) (r : Run)
    (hr : m.running = some r) (hp : r.phase = .idle) : syncTo C K W r.next = some (r.tracker, r.chain) := by
  have := (inv_reaches hW inv_blank h).running r hr
  unfold RunOk at this
  rw [hp] at this
  exact this

/-- C91: two nodes with different histories that wait for the same block have the same chain. -/
theorem C91_same (C : Crypto) (K : Ethash.Hashes) (W : Sync.World) (g : BlockObj) (hW : Sound W g) (m m' : Machine) (h : Reaches C K W blank m)
    (h' : Reaches C K W blank m') (r r' : Run) (hr : m.running = some r) (hr' : m'.running = some r') (hp : r.phase = .idle) (hp' : r'.phase = .idle)
    (hn : r.next = r'.next) : r.chain = r'.chain ∧ r.tracker = r'.tracker := by
  have h1 := C91_resume C K W g hW m h r hr hp
  have h2 := C91_resume C K W g hW m' h' r' hr' hp'
  rw [hn, h2] at h1
  have e := Option.some.inj h1
  exact ⟨(congrArg Prod.snd e).symm, (congrArg Prod.fst e).symm⟩

/-- One step never sets the database back. -/
theorem step_durable {C : Crypto} {K : Ethash.Hashes} {W : Sync.World} {m m' : Machine} (hi : Inv C K W m) (hi' : Inv C K W m') (h : Step C K W m m') {s : Saved}
    {n : Nat} (hd : m.disk = some s) (hs : SavedAt C K W n s) : ∃ s' n', m'.disk = some s' ∧ SavedAt C K W n' s' ∧ n ≤ n' := by
  cases h with
  | @commit d r hp =>
    obtain ⟨n', -, hs'⟩ := hi'.disk _ rfl
    refine ⟨_, n', rfl, hs', ?_⟩
    have hr := hi.running r rfl
    unfold RunOk at hr
    rw [hp] at hr
    obtain ⟨b, -, -, -, h4, -⟩ := hr
    have e := savedAt_number hs'
    rw [h4] at e
    cases e
    exact hi.ahead r s n rfl hd (savedAt_number hs)
  | boot => exact ⟨s, n, hd, hs, Nat.le_refl _⟩
  | stop => exact ⟨s, n, hd, hs, Nat.le_refl _⟩
  | take => exact ⟨s, n, hd, hs, Nat.le_refl _⟩
  | apply => exact ⟨s, n, hd, hs, Nat.le_refl _⟩
  | number => exact ⟨s, n, hd, hs, Nat.le_refl _⟩
  | time => exact ⟨s, n, hd, hs, Nat.le_refl _⟩
  | skip => exact ⟨s, n, hd, hs, Nat.le_refl _⟩
  | save => exact ⟨s, n, hd, hs, Nat.le_refl _⟩

/-- C91: what was committed is not lost: whatever happens afterwards, the database holds the state after as many blocks or more. -/
theorem C91_durable (C : Crypto) (K : Ethash.Hashes) (W : Sync.World) (g : BlockObj) (hW : Sound W g) (m m' : Machine) (h : Reaches C K W blank m)
    (h' : Reaches C K W m m') (s : Saved) (n : Nat) (hd : m.disk = some s) (hs : SavedAt C K W n s) :
    ∃ s' n', m'.disk = some s' ∧ SavedAt C K W n' s' ∧ n ≤ n' := by
  have hi := inv_reaches hW inv_blank h
  induction h' with
  | refl => exact ⟨s, n, hd, hs, Nat.le_refl _⟩
  | @step m₁ m₂ hr hst hl ih =>
    obtain ⟨s₁, n₁, hd₁, hs₁, hn⟩ := ih
    have hi₁ := inv_reaches hW hi hr
    obtain ⟨s₂, n₂, hd₂, hs₂, hn'⟩ := step_durable hi₁ (inv_step hW hi₁ hst hl) hst hd₁ hs₁
    exact ⟨s₂, n₂, hd₂, hs₂, Nat.le_trans hn hn'⟩

theorem reaches_trans {C : Crypto} {K : Ethash.Hashes} {W : Sync.World} {m m' m'' : Machine} (h : Reaches C K W m m') (h' : Reaches C K W m' m'') : Reaches C K W m m'' := by
  induction h' with
  | refl => exact h
  | step _ hs hl ih => exact .step ih hs hl

theorem reaches_one {C : Crypto} {K : Ethash.Hashes} {W : Sync.World} {m m' : Machine} (h : Step C K W m m') (hl : Late m') : Reaches C K W m m' := .step .refl h hl

theorem walk_one {C : Crypto} {K : Ethash.Hashes} {W : Sync.World} {d : Option Saved} (hl : ∀ s n, d = some s → s.metadata.number = some n → 255 ≤ n) (r : Run)
    (hp : r.phase = .idle) (hr : RunOk C K W r) (x : ForkTracking × NodeChain) (h : syncTo C K W (r.next + 1) = some x) :
    ∃ r', Reaches C K W ⟨d, some r⟩ ⟨d, some r'⟩ ∧ r'.phase = .ready ∧ r'.next = r.next + 1 := by
  unfold RunOk at hr
  rw [hp] at hr
  dsimp only at hr
  obtain ⟨t, c, b, h1, h2, h3⟩ := syncTo_succ h
  rw [hr] at h1
  obtain ⟨rfl, rfl⟩ := Prod.mk.inj (Option.some.inj h1)
  obtain ⟨c₀, hg, hf⟩ := processBlock_some (t' := x.1) (c' := x.2) h3
  have key := Reaches.step (.step (.step (.step .refl (Step.take (C := C) (K := K) (d := d) hp h2 hg) hl) (Step.apply rfl hf) hl) (Step.number rfl) hl)
    (Step.time (b := b) rfl) hl
  exact ⟨_, key, rfl, rfl⟩

theorem walk {C : Crypto} {K : Ethash.Hashes} {W : Sync.World} {g : BlockObj} (hW : Sound W g) {d : Option Saved} :
    ∀ (k : Nat) (r : Run), Inv C K W ⟨d, some r⟩ → r.phase = .idle → ∀ x, syncTo C K W (r.next + (k + 1)) = some x →
    ∃ r', Reaches C K W ⟨d, some r⟩ ⟨d, some r'⟩ ∧ r'.phase = .ready ∧ r'.next = r.next + (k + 1) := by
  intro k
  induction k with
  | zero =>
    intro r hi hp x h
    have hl : ∀ s n, d = some s → s.metadata.number = some n → 255 ≤ n := fun s n hd hn => by
      obtain ⟨n', h1, h2⟩ := hi.disk s hd
      rw [savedAt_number h2] at hn
      cases hn
      exact h1
    exact walk_one hl r hp (hi.running r rfl) x h
  | succ k ih =>
    intro r hi hp x h
    have hl : ∀ s n, d = some s → s.metadata.number = some n → 255 ≤ n := fun s n hd hn => by
      obtain ⟨n', h1, h2⟩ := hi.disk s hd
      rw [savedAt_number h2] at hn
      cases hn
      exact h1
    rw [show r.next + (k + 1 + 1) = r.next + 1 + (k + 1) by omega] at h
    obtain ⟨y, hy⟩ := syncTo_le h
    obtain ⟨r', hr', hp', hn'⟩ := walk_one hl r hp (hi.running r rfl) y hy
    have hr'' : Reaches C K W ⟨d, some r⟩ ⟨d, some { r' with phase := .idle }⟩ := .step hr' (Step.skip hp') hl
    obtain ⟨r₃, h₃, hp₃, hn₃⟩ := ih { r' with phase := .idle } (inv_reaches hW hi hr'') rfl x (by
      show syncTo C K W (r'.next + (k + 1)) = some x
      rw [hn']; exact h)
    refine ⟨r₃, reaches_trans hr'' h₃, hp₃, ?_⟩
    rw [hn₃]
    show r'.next + (k + 1) = _
    omega

/-- C91: no history leaves the node stuck: from wherever it is, it can be stopped, started and brought to any later block up to which the chain is valid, and commit there. -/
theorem C91_progress (C : Crypto) (K : Ethash.Hashes) (W : Sync.World) (g : BlockObj) (hW : Sound W g) (m : Machine) (h : Reaches C K W blank m) (n : Nat) (hn : 255 ≤ n)
    (x : ForkTracking × NodeChain) (hx : syncTo C K W n = some x) (hd : ∀ s k, m.disk = some s → s.metadata.number = some k → k ≤ n) :
    ∃ m' s, Reaches C K W m m' ∧ m'.disk = some s ∧ SavedAt C K W n s := by
  have hi := inv_reaches hW inv_blank h
  obtain ⟨d, run⟩ := m
  have hl : ∀ s n, d = some s → s.metadata.number = some n → 255 ≤ n := fun s n hd hn => by
    obtain ⟨n', h1, h2⟩ := hi.disk s hd
    rw [savedAt_number h2] at hn
    cases hn
    exact h1
  have hstop : Reaches C K W ⟨d, run⟩ ⟨d, none⟩ := by
    cases run with
    | none => exact .refl
    | some r => exact reaches_one .stop hl
  have hboot : ∃ r, boot W d = some r ∧ r.phase = .idle ∧ (r.next < n ∨ ∃ s, d = some s ∧ SavedAt C K W n s) := by
    cases hdd : d with
    | none => exact ⟨startFresh W, rfl, rfl, .inl (by show 0 < n; omega)⟩
    | some s =>
      obtain ⟨k, -, hs⟩ := hi.disk s hdd
      obtain ⟨-, -, r, -, h2, h3, h4, -⟩ := resume_saved hW hs
      refine ⟨r, h2, h3, ?_⟩
      have := hd s k hdd (savedAt_number hs)
      rcases Nat.lt_or_ge k n with hk | hk
      · exact .inl (by omega)
      · have e : k = n := by omega
        subst e
        exact .inr ⟨s, rfl, hs⟩
  obtain ⟨r, hb, hp, hr⟩ := hboot
  rcases hr with hr | ⟨s, hds, hs⟩
  · have h1 : Reaches C K W ⟨d, run⟩ ⟨d, some r⟩ := .step hstop (.boot hb) hl
    have hi1 := inv_reaches hW hi h1
    obtain ⟨k, rfl⟩ : ∃ k, n = r.next + (k + 1) := ⟨n - r.next - 1, by omega⟩
    obtain ⟨r', h2, hp', hn'⟩ := walk hW k r hi1 hp x hx
    have hi2 := inv_reaches hW hi1 h2
    have hr' := hi2.running r' rfl
    unfold RunOk at hr'
    rw [hp'] at hr'
    obtain ⟨b, -, -, -, h4, -⟩ := hr'
    have hl3 : Late ⟨some ⟨r'.chain.state, { r'.metadata with chainId := some r'.chain.chainId }⟩,
        some { r' with metadata := { r'.metadata with chainId := some r'.chain.chainId }, phase := .idle }⟩ := by
      intro s k hs hk
      cases hs
      rw [show ({ r'.metadata with chainId := some r'.chain.chainId } : Meta).number = r'.metadata.number from rfl, h4] at hk
      cases hk
      omega
    have h3 : Reaches C K W ⟨d, some r'⟩ ⟨some ⟨r'.chain.state, { r'.metadata with chainId := some r'.chain.chainId }⟩,
        some { r' with metadata := { r'.metadata with chainId := some r'.chain.chainId }, phase := .idle }⟩ :=
      .step (.step .refl (Step.save hp') hl) (Step.commit rfl) hl3
    have h4' := reaches_trans h1 (reaches_trans h2 h3)
    obtain ⟨n', -, hs⟩ := (inv_reaches hW hi h4').disk _ rfl
    refine ⟨_, _, h4', rfl, ?_⟩
    have e := savedAt_number hs
    rw [show ({ r'.metadata with chainId := some r'.chain.chainId } : Meta).number = r'.metadata.number from rfl, h4] at e
    cases e
    rw [← hn']
    exact hs
  · exact ⟨⟨d, run⟩, s, .refl, hds, hs⟩

/-- C91: an invalid block stops the node for good: if block `n + 1` is not valid then no history ever gets a later block, or it, into the database. -/
theorem C91_refused (C : Crypto) (K : Ethash.Hashes) (W : Sync.World) (g : BlockObj) (hW : Sound W g) (m : Machine) (h : Reaches C K W blank m) (n : Nat)
    (hx : syncTo C K W (n + 1) = none) : (∀ s k, m.disk = some s → s.metadata.number = some k → k ≤ n) ∧
    ∀ r, m.running = some r → r.phase = .idle → r.next ≤ n := by
  have hi := inv_reaches hW inv_blank h
  have key : ∀ k y, syncTo C K W k = some y → k ≤ n := by
    intro k y hk
    rcases Nat.lt_or_ge n k with hlt | hge
    · obtain ⟨j, rfl⟩ : ∃ j, k = n + 1 + j := ⟨k - (n + 1), by omega⟩
      obtain ⟨z, hz⟩ := syncTo_le hk
      rw [hx] at hz
      cases hz
    · exact hge
  refine ⟨fun s k hd hk => ?_, fun r hr hp => key _ _ (C91_resume C K W g hW m h r hr hp)⟩
  obtain ⟨k', -, hs⟩ := hi.disk s hd
  rw [savedAt_number hs] at hk
  cases hk
  obtain ⟨t, c, b, h1, -⟩ := hs
  exact key _ _ h1

/-- C91: a start with a database of any block gives the fork, the state and the chain id of a node that was not stopped; and its blocks, except that before block 255
the genesis block is missing (see the findings). -/
theorem C91_restart (C : Crypto) (K : Ethash.Hashes) (W : Sync.World) (g : BlockObj) (hW : Sound W g) (n : Nat) (s : Saved) (hs : SavedAt C K W n s) :
    ∃ t c r, syncTo C K W n = some (t, c) ∧ boot W (some s) = some r ∧ r.phase = .idle ∧ r.next = n ∧ r.tracker = t ∧ r.chain.state = c.state ∧
      r.chain.chainId = c.chainId ∧ (255 ≤ n → r.chain.blocks = c.blocks) ∧ (n < 255 → c.blocks = g :: r.chain.blocks) := by
  obtain ⟨t, c, r, h1, h2, h3, h4, h5, h6, h7, h8, h9⟩ := resume_saved hW hs
  exact ⟨t, c, r, h1, h2, h3, h4, h5, h6, h7, fun h => by rw [h8 h], h9⟩

/-- C91: what "valid" means for one block: it has the next number; the fork in force at its number and time processes it; and before that this fork was applied to the chain
exactly if the block is the first one or the first one of its fork. -/
theorem C91_block (C : Crypto) (K : Ethash.Hashes) (W : Sync.World) (g : BlockObj) (hW : Sound W g) (n : Nat) (t' : ForkTracking) (c' : NodeChain)
    (h : syncTo C K W (n + 1) = some (t', c')) :
    ∃ t c b j i f c₀, syncTo C K W n = some (t, c) ∧ W.blocks[n]? = some b ∧ b.number = n + 1 ∧ t'.blockNumber = n + 1 ∧
      t.activeForkIndex = j ∧ t'.activeForkIndex = i ∧ InForce W.forks (n + 1) b.time i ∧ W.names[i]? = some f ∧
      (if i ≠ j ∨ n = 0 then applyForkOf f c = some c₀ else c₀ = c) ∧ transition C K f c₀ b = some c' := by
  obtain ⟨t, c, b, h1, h2, h3⟩ := syncTo_succ h
  obtain ⟨c₀, hg, hf⟩ := processBlock_some h3
  obtain ⟨ht, -⟩ := syncTo_facts hW h1
  obtain ⟨ht', -⟩ := syncTo_facts hW h
  have hn' : t'.blockNumber = n + 1 := by rw [ht']; rfl
  have hat : At t (timeAt W n) := by rw [ht]; exact C56_set_block _ _ _
  obtain ⟨e1, e2, e3, e4⟩ := C56_advance t _ _ hat (timeAt_mono hW h2)
  have hk := (beginBlock_keeps hg).1
  have hin : InForce W.forks (n + 1) b.time t'.activeForkIndex := by
    have := C56_set_block ⟨W.forks, 0, 0⟩ (n + 1) (timeAt W (n + 1))
    rw [← ht', timeAt_succ h2] at this
    exact this
  have hfin := hf
  unfold finishBlock at hf
  split at hf
  · cases hf
  split at hf
  · cases hf
  obtain ⟨f, hfa, hf⟩ := Option.bind_eq_some_iff.mp hf
  refine ⟨t, c, b, t.activeForkIndex, t'.activeForkIndex, f, c₀, h1, h2, (finishBlock_keeps hfin).2.2.trans hn', hn', rfl, rfl, hin, hfa, ?_, hf⟩
  unfold beginBlock at hg
  dsimp only at hg
  rw [← hk] at e3 e4 hg
  rw [hn'] at hg
  by_cases hc : t'.activeForkIndex ≠ t.activeForkIndex ∨ n = 0
  · rw [if_pos hc]
    have hcond : (t.advanceBlock b.time).2 = true ∨ n + 1 = 1 := by
      rcases hc with hc | hc
      · exact .inl (e4.mpr (by omega))
      · exact .inr (by omega)
    rw [if_pos hcond] at hg
    obtain ⟨f', hf', hg'⟩ := Option.bind_eq_some_iff.mp hg
    obtain ⟨d, hd, hg''⟩ := Option.map_eq_some_iff.mp hg'
    rw [hfa] at hf'
    cases hf'
    rw [hd, (Prod.mk.inj hg'').2]
  · rw [if_neg hc]
    have hcond : ¬ ((t.advanceBlock b.time).2 = true ∨ n + 1 = 1) := by
      rintro (h | h)
      · exact hc (.inl (by have := e4.mp h; omega))
      · exact hc (.inr (by omega))
    rw [if_neg hcond] at hg
    exact (Prod.mk.inj (Option.some.inj hg)).2.symm

/-- C91: and what the fork does with the block is its `state_transition`, on the blocks of the chain as its code sees them; the chain that it leaves behind has the blocks and
the state of the node's chain. -/
theorem C91_transition (C : Crypto) (K : Ethash.Hashes) (f : Fork) (c c' : NodeChain) (b : BlockObj) (hf : b.fork = f) (h : transition C K f c b = some c') :
    c'.chainId = c.chainId ∧
    ((∃ F p blocks blocks', T8n.powFork f = some F ∧ b.block = .pow p ∧ c.blocks.mapM BlockObj.toPow = some blocks ∧ c'.blocks.mapM BlockObj.toPow = some blocks' ∧
        Pow.stateTransition K (evmExec C K) F ⟨blocks, c.state, c.chainId⟩ p = .ok ⟨blocks', c'.state, c'.chainId⟩) ∨
     (∃ p, T8n.powFork f = none ∧ b.block = .pos p ∧
        stateTransition C ⟨c.blocks.map BlockObj.toPos, { c.state with fork := f }, c.chainId⟩ p = .ok ⟨c'.blocks.map BlockObj.toPos, c'.state, c'.chainId⟩)) := by
  have hk := transition_keeps h
  refine ⟨hk.2, ?_⟩
  unfold transition at h
  split at h
  case _ F hF =>
    split at h
    case _ blocks p hb hp =>
      split at h
      case _ d hd =>
        obtain rfl := Option.some.inj h
        have hok := hd
        unfold Pow.stateTransition at hok
        have hbl : d.blocks = lastN 255 (blocks ++ [p]) ∧ d.chainId = c.chainId := by
          repeat' (split at hok)
          all_goals first | (obtain rfl := Except.ok.inj hok; exact ⟨by dsimp only, rfl⟩) | (clear hd hk h; cases hok)
        refine .inl ⟨F, p, blocks, d.blocks, hF, hp, hb, ?_, ?_⟩
        · rw [hbl.1]
          have hbp : b.toPow = some p := by unfold BlockObj.toPow; rw [hp]
          dsimp only
          exact mapM_lastN (f := BlockObj.toPow) 255 _ _ (by rw [List.mapM_append, hb]; simp [hbp])
        · obtain ⟨db, ds, di⟩ := d
          rw [hd, ← hbl.2]
      · cases h
    · cases h
  case _ hF =>
    split at h
    · cases h
    case _ p hp =>
      split at h
      case _ d hd =>
        obtain rfl := Option.some.inj h
        obtain ⟨-, hbl, hid, -⟩ := stateTransition_ok hd
        refine .inr ⟨p, hF, hp, ?_⟩
        have hbp : b.toPos = ⟨f, p⟩ := by unfold BlockObj.toPos; rw [hp, hf]
        have e : (lastN 255 (c.blocks ++ [b])).map BlockObj.toPos = d.blocks := by
          rw [hbl]
          unfold lastN
          rw [List.map_drop, List.map_append, List.length_append, List.length_append, List.length_map, List.map_cons, List.map_nil, hbp,
            List.length_singleton, List.length_singleton]
        dsimp only
        rw [e, hd]
        obtain ⟨db, ds, di⟩ := d
        dsimp only at hid ⊢
        rw [hid]
      · cases h

private theorem last_number {C : Crypto} {K : Ethash.Hashes} {W : Sync.World} {g : BlockObj} (hW : Sound W g) {n : Nat} {t : ForkTracking} {c : NodeChain}
    (h : syncTo C K W n = some (t, c)) : ∃ l, c.blocks.getLast? = some l ∧ l.number = n := by
  cases n with
  | zero =>
    rw [syncTo] at h
    cases h
    exact ⟨g, by rw [hW.genesis]; rfl, hW.zero⟩
  | succ n =>
    obtain ⟨t₀, c₀, b, h1, h2, h3⟩ := syncTo_succ h
    obtain ⟨c₁, -, hf⟩ := processBlock_some h3
    obtain ⟨hb, -, hn⟩ := finishBlock_keeps hf
    refine ⟨b, ?_, ?_⟩
    · rw [hb]
      unfold lastN
      rw [List.getLast?_drop, if_neg (by rw [List.length_append, List.length_singleton]; omega), List.getLast?_concat]
    · rw [hn, (syncTo_facts hW h).1]; rfl

/-- C91, the converse: a node that is at block `n` accepts the next block if it has the number `n + 1` and the fork in force at its number and time, applied to the chain if
the block is the first one or the first one of this fork, processes it. -/
theorem C91_valid (C : Crypto) (K : Ethash.Hashes) (W : Sync.World) (g : BlockObj) (hW : Sound W g) (n : Nat) (t : ForkTracking) (c c₀ c' : NodeChain) (b : BlockObj)
    (i : Nat) (f : Fork) (h : syncTo C K W n = some (t, c)) (hb : W.blocks[n]? = some b) (hn : b.number = n + 1) (hi : InForce W.forks (n + 1) b.time i)
    (hf : W.names[i]? = some f) (h0 : if i ≠ t.activeForkIndex ∨ n = 0 then applyForkOf f c = some c₀ else c₀ = c) (ht : transition C K f c₀ b = some c') :
    ∃ t', syncTo C K W (n + 1) = some (t', c') := by
  obtain ⟨et, -⟩ := syncTo_facts hW h
  have hat : At t (timeAt W n) := by rw [et]; exact C56_set_block _ _ _
  have hnum : t.blockNumber = n := by rw [et]; rfl
  have hforks : t.forks = W.forks := by rw [et]; rfl
  obtain ⟨e1, e2, e3, e4⟩ := C56_advance t _ _ hat (timeAt_mono hW hb)
  have hnum' : (t.advanceBlock b.time).1.blockNumber = n + 1 := by rw [e1, ← hnum]; rfl
  have hidx : (t.advanceBlock b.time).1.activeForkIndex = i := by
    refine inForce_unique (forks := W.forks) (n := n + 1) (t := b.time) ?_ hi
    have := C56_set_block t (n + 1) b.time
    rwa [← hnum, ← e1, hforks, hnum] at this
  have hact : activeFork W.names (t.advanceBlock b.time).1 = some f := by unfold activeFork; rw [hidx]; exact hf
  have hbegin : beginBlock W t c b = some ((t.advanceBlock b.time).1, c₀) := by
    unfold beginBlock
    dsimp only
    by_cases hc : i ≠ t.activeForkIndex ∨ n = 0
    · rw [if_pos hc] at h0
      rw [if_pos (by rcases hc with hc | hc
                     · exact .inl (e4.mpr (by omega))
                     · exact .inr (by omega)), hact]
      show (applyForkOf f c).map _ = _
      rw [h0]; rfl
    · rw [if_neg hc] at h0
      rw [if_neg (by intro h; apply hc; rcases h with h | h
                     · exact .inl (by have := e4.mp h; omega)
                     · exact .inr (by omega)), h0]
  obtain ⟨l, hl, hln⟩ := last_number hW h
  have hbl : c₀.blocks = c.blocks := (beginBlock_keeps hbegin).2.1
  have hfollow : follows (t.advanceBlock b.time).1 c₀ = true := by
    unfold follows
    rw [hbl, hl]
    exact decide_eq_true (by rw [hnum', hln])
  refine ⟨(t.advanceBlock b.time).1, ?_⟩
  rw [syncTo, h, hb]
  dsimp only
  unfold processBlock
  rw [hbegin]
  show (finishBlock C K W (t.advanceBlock b.time).1 c₀ b).map _ = _
  have : finishBlock C K W (t.advanceBlock b.time).1 c₀ b = some c' := by
    unfold finishBlock
    rw [hfollow, if_neg (by simp), if_neg (by rw [hn, hnum']; simp), hact]
    exact ht
  rw [this]; rfl

/-- C91: and it processes it exactly if its `state_transition` accepts it; the state is then what that leaves. -/
theorem C91_accepts (C : Crypto) (K : Ethash.Hashes) (f : Fork) (c : NodeChain) (b : BlockObj) :
    (∀ F p blocks d, T8n.powFork f = some F → b.block = .pow p → c.blocks.mapM BlockObj.toPow = some blocks →
      Pow.stateTransition K (evmExec C K) F ⟨blocks, c.state, c.chainId⟩ p = .ok d → ∃ c', transition C K f c b = some c' ∧ c'.state = d.state) ∧
    (∀ p d, T8n.powFork f = none → b.block = .pos p →
      stateTransition C ⟨c.blocks.map BlockObj.toPos, { c.state with fork := f }, c.chainId⟩ p = .ok d → ∃ c', transition C K f c b = some c' ∧ c'.state = d.state) := by
  refine ⟨fun F p blocks d hF hp hbl hd => ?_, fun p d hF hp hd => ?_⟩
  · have key : transition C K f c b = some { c with blocks := lastN 255 (c.blocks ++ [b]), state := d.state } := by
      unfold transition
      rw [hF, hbl, hp]
      dsimp only
      rw [hd]
    exact ⟨_, key, by dsimp only⟩
  · have key : transition C K f c b = some { c with blocks := lastN 255 (c.blocks ++ [b]), state := d.state } := by
      unfold transition
      rw [hF, hp]
      dsimp only
      rw [hd]
    exact ⟨_, key, by dsimp only⟩

/-- C91: what it means that a fork is applied. All but one leave the chain as it is; the DAO fork moves the balances of the accounts listed in EIP-779 (C48 has the list) to the
recovery contract and changes nothing else. -/
theorem C91_applied (f : Fork) (c : NodeChain) :
    (f ≠ .daoFork → applyForkOf f c = some c) ∧
    (f = .daoFork → c.state.mainTrie.default = none → supply c.state < 2 ^ 256 → ∃ c', applyForkOf f c = some c' ∧ c'.blocks = c.blocks ∧ c'.chainId = c.chainId ∧
      supply c'.state = supply c.state ∧
      (∀ a ∈ daoAccounts, getAccount c'.state a = { getAccount c.state a with balance := 0 }) ∧
      (getAccount c'.state daoRecovery).balance.toNat =
        (getAccount c.state daoRecovery).balance.toNat + (daoAccounts.map fun a => (getAccount c.state a).balance.toNat).sum ∧
      (∀ x, x ∉ daoAccounts → x ≠ daoRecovery → getAccountOptional c'.state x = getAccountOptional c.state x) ∧
      ∀ x k, getStorage c'.state x k = getStorage c.state x k) := by
  refine ⟨fun h => if_neg h, fun h hd hs => ?_⟩
  obtain ⟨s, e, h1, h2, h3, -, -, h4, h5⟩ := C48_dao c.state hd hs
  refine ⟨{ c with state := s }, ?_, rfl, rfl, h1, h2, h3, h4, h5⟩
  unfold applyForkOf
  rw [if_pos h, e]

/-- C91, the limit: why the genesis block matters. With a chain that begins after it, a block with an ommer of number 1 is refused by every fork with proof of work,
whatever else it contains. -/
theorem C91_early_ommer {T : Type} (K : Ethash.Hashes) (X : Exec T) (F : PowFork) (chain : PowChain T) (b : PowBlock T) (o : PowHeader) (first : PowBlock T)
    (hf : chain.blocks.head? = some first) (h1 : 1 ≤ first.header.number) (ho : o ∈ b.ommers) (hn : o.number = 1) :
    ∃ e, Pow.stateTransition K X F chain b = .error e := by
  have hv : ∃ e, Pow.validateHeader K F chain.blocks o = .error e := by
    unfold Pow.validateHeader
    rw [if_neg (by omega), hf]
    dsimp only
    split
    · rename_i a l ha hl
      cases ha
      rw [if_pos (.inl (by omega))]
      exact ⟨_, rfl⟩
    · exact ⟨_, rfl⟩
  have hh : ∀ l : List PowHeader, o ∈ l → ∃ e, validateOmmerHeaders K F chain.blocks b.header.number l = .error e := by
    intro l
    induction l with
    | nil => intro h; cases h
    | cons x rest ih =>
      intro h
      rw [validateOmmerHeaders]
      split
      · exact ⟨_, rfl⟩
      · unfold andThen
        rcases List.mem_cons.mp h with rfl | h
        · obtain ⟨e, he⟩ := hv
          rw [he]
          exact ⟨_, rfl⟩
        · obtain ⟨e, he⟩ := ih h
          split
          · exact ⟨_, rfl⟩
          · exact ⟨e, he⟩
  have ho' : ∃ e, validateOmmers K F b.ommers b.header chain.blocks = .error e := by
    obtain ⟨e, he⟩ := hh b.ommers ho
    unfold validateOmmers
    dsimp only
    split
    · exact ⟨_, rfl⟩
    · rw [if_neg (by intro h; rw [List.length_eq_zero_iff] at h; rw [h] at ho; cases ho), he]
      exact ⟨_, rfl⟩
  obtain ⟨e, he⟩ := ho'
  unfold Pow.stateTransition
  split
  · exact ⟨_, rfl⟩
  · rw [he]
    exact ⟨_, rfl⟩

/-- A node that synchronises 280 blocks, with a fork at block 260, and commits; and, after a stop, a start and 20 more blocks, commits again. -/
example (K : Ethash.Hashes) : ∃ m m' s s', Reaches sampleCrypto K quietWorld blank m ∧ m.disk = some s ∧ SavedAt sampleCrypto K quietWorld 280 s ∧
    Reaches sampleCrypto K quietWorld m m' ∧ m'.disk = some s' ∧ SavedAt sampleCrypto K quietWorld 300 s' := by
  obtain ⟨t, c, -, h1, -⟩ := quiet_syncs K 280 (by decide)
  obtain ⟨t', c', -, h2, -⟩ := quiet_syncs K 300 (by decide)
  obtain ⟨m, s, hm, hd, hs⟩ := C91_progress sampleCrypto K quietWorld _ quiet_sound blank .refl 280 (by decide) _ h1 (fun s k h => by cases h)
  obtain ⟨m', s', hm', hd', hs'⟩ := C91_progress sampleCrypto K quietWorld _ quiet_sound m hm 300 (by decide) _ h2 (fun s k h hk => by
    rw [hd] at h
    cases h
    rw [savedAt_number hs] at hk
    cases hk
    decide)
  exact ⟨m, m', s, s', hm, hd, hs, hm', hd', hs'⟩

/-- A stop at once after a start, and between a block and its commit, are histories, too. -/
example (K : Ethash.Hashes) : ∃ r, Reaches sampleCrypto K quietWorld blank ⟨none, some r⟩ ∧ r.phase = .ready ∧ r.next = 300 ∧
    Reaches sampleCrypto K quietWorld ⟨none, some r⟩ blank := by
  obtain ⟨t, c, -, h, -⟩ := quiet_syncs K 300 (by decide)
  have h0 : Reaches sampleCrypto K quietWorld blank ⟨none, some (startFresh quietWorld)⟩ := reaches_one (.boot rfl) (fun s n h => by cases h)
  obtain ⟨r, hr, hp, hn⟩ := walk quiet_sound 299 (startFresh quietWorld) (inv_reaches quiet_sound inv_blank h0) rfl _ h
  exact ⟨r, reaches_trans h0 hr, hp, hn, reaches_one .stop (fun s n h => by cases h)⟩

end Verif.Props
