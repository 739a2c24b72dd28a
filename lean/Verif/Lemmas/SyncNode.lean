import Verif.Spec.SyncNode
import Verif.Lemmas.Sync
import Verif.Lemmas.Header
/-! The invariant of a synchronising node. -/
namespace Verif.Spec
open Verif Pow Sync Props ForkTracking

variable {C : Crypto} {K : Ethash.Hashes} {W : Sync.World}

theorem applyFork_keeps {f : Fork} {c c' : NodeChain} (h : applyForkOf f c = some c') : c'.blocks = c.blocks ∧ c'.chainId = c.chainId := by
  unfold applyForkOf at h
  split at h
  · split at h
    · cases h
    · cases h; exact ⟨rfl, rfl⟩
  · cases h; exact ⟨rfl, rfl⟩

theorem transition_keeps {f : Fork} {c c' : NodeChain} {b : BlockObj} (h : transition C K f c b = some c') :
    c'.blocks = lastN 255 (c.blocks ++ [b]) ∧ c'.chainId = c.chainId := by
  unfold transition at h
  split at h
  · split at h
    · split at h
      · obtain rfl := Option.some.inj h; exact ⟨by dsimp only, rfl⟩
      · cases h
    · cases h
  · split at h
    · cases h
    · split at h
      · obtain rfl := Option.some.inj h; exact ⟨by dsimp only, rfl⟩
      · cases h

theorem mapM_drop {α β : Type} {f : α → Option β} : ∀ (k : Nat) (l : List α) (m : List β), l.mapM f = some m → (l.drop k).mapM f = some (m.drop k) := by
  intro k
  induction k with
  | zero => intro l m h; exact h
  | succ k ih =>
    intro l m h
    cases l with
    | nil => rw [List.mapM_nil] at h; cases h; rfl
    | cons x l =>
      rw [List.mapM_cons] at h
      obtain ⟨y, -, h⟩ := Option.bind_eq_some_iff.mp h
      obtain ⟨ys, hys, h⟩ := Option.bind_eq_some_iff.mp h
      cases h
      exact ih l ys hys

theorem mapM_lastN {α β : Type} {f : α → Option β} (n : Nat) (l : List α) (m : List β) (h : l.mapM f = some m) : (lastN n l).mapM f = some (lastN n m) := by
  have hl : ∀ (l : List α) (m : List β), l.mapM f = some m → m.length = l.length := by
    intro l
    induction l with
    | nil => intro m h; rw [List.mapM_nil] at h; cases h; rfl
    | cons x l ih =>
      intro m h
      rw [List.mapM_cons] at h
      obtain ⟨y, -, h⟩ := Option.bind_eq_some_iff.mp h
      obtain ⟨ys, hys, h⟩ := Option.bind_eq_some_iff.mp h
      cases h
      rw [List.length_cons, List.length_cons, ih ys hys]
  unfold lastN
  rw [hl l m h]
  exact mapM_drop _ _ _ h

theorem beginBlock_keeps {t t' : ForkTracking} {c c' : NodeChain} {b : BlockObj} (h : beginBlock W t c b = some (t', c')) :
    t' = (t.advanceBlock b.time).1 ∧ c'.blocks = c.blocks ∧ c'.chainId = c.chainId := by
  unfold beginBlock at h
  dsimp only at h
  split at h
  · obtain ⟨f, -, h⟩ := Option.bind_eq_some_iff.mp h
    obtain ⟨d, hd, h⟩ := Option.map_eq_some_iff.mp h
    cases h
    exact ⟨rfl, applyFork_keeps hd⟩
  · cases h; exact ⟨rfl, rfl, rfl⟩

theorem finishBlock_keeps {t : ForkTracking} {c c' : NodeChain} {b : BlockObj} (h : finishBlock C K W t c b = some c') :
    c'.blocks = lastN 255 (c.blocks ++ [b]) ∧ c'.chainId = c.chainId ∧ b.number = t.blockNumber := by
  unfold finishBlock at h
  split at h
  · cases h
  · split at h
    · cases h
    case _ hn =>
      obtain ⟨f, -, h⟩ := Option.bind_eq_some_iff.mp h
      exact ⟨(transition_keeps h).1, (transition_keeps h).2, Classical.not_not.mp hn⟩

theorem processBlock_some {t t' : ForkTracking} {c c' : NodeChain} {b : BlockObj} (h : processBlock C K W t c b = some (t', c')) :
    ∃ c₀, beginBlock W t c b = some (t', c₀) ∧ finishBlock C K W t' c₀ b = some c' := by
  unfold processBlock at h
  obtain ⟨⟨t₀, c₀⟩, h0, h⟩ := Option.bind_eq_some_iff.mp h
  obtain ⟨d, hd, h⟩ := Option.map_eq_some_iff.mp h
  cases h
  exact ⟨c₀, h0, hd⟩

theorem processBlock_of {t t' : ForkTracking} {c c₀ c' : NodeChain} {b : BlockObj} (h0 : beginBlock W t c b = some (t', c₀))
    (h1 : finishBlock C K W t' c₀ b = some c') : processBlock C K W t c b = some (t', c') := by
  unfold processBlock
  rw [h0, Option.bind_some, h1, Option.map_some]

/-- The time of block `n`, where 0 is the genesis block. -/
def timeAt (W : Sync.World) : Nat → Word
  | 0 => W.genesisTime
  | n + 1 => match W.blocks[n]? with | some b => b.time | none => 0

theorem timeAt_succ {n : Nat} {b : BlockObj} (h : W.blocks[n]? = some b) : timeAt W (n + 1) = b.time := by
  rw [timeAt, h]

theorem timeAt_mono {g : BlockObj} (hW : Sound W g) {n : Nat} {b : BlockObj} (h : W.blocks[n]? = some b) : (timeAt W n).toNat ≤ b.time.toNat := by
  have hp := hW.times
  cases n with
  | zero =>
    rw [List.pairwise_cons] at hp
    exact hp.1 _ (List.mem_map.mpr ⟨b, List.mem_of_getElem? h, rfl⟩)
  | succ n =>
    rw [List.pairwise_cons] at hp
    have hl : n + 1 < W.blocks.length := (List.getElem?_eq_some_iff.mp h).1
    have hn : W.blocks[n]? = some (W.blocks[n]) := List.getElem?_eq_getElem (by omega)
    rw [timeAt_succ hn]
    have hb : W.blocks[n + 1] = b := (List.getElem?_eq_some_iff.mp h).2
    have := List.pairwise_iff_getElem.mp hp.2 n (n + 1) (by rw [List.length_map]; omega) (by rw [List.length_map]; exact hl) (by omega)
    rw [List.getElem_map, List.getElem_map, hb] at this
    exact this

theorem syncTo_succ {n : Nat} {r : ForkTracking × NodeChain} (h : syncTo C K W (n + 1) = some r) :
    ∃ t c b, syncTo C K W n = some (t, c) ∧ W.blocks[n]? = some b ∧ processBlock C K W t c b = some r := by
  rw [syncTo] at h
  split at h
  case _ t c b h1 h2 => exact ⟨t, c, b, h1, h2, h⟩
  · cases h

theorem syncTo_of {n : Nat} {t t' : ForkTracking} {c c' : NodeChain} {b : BlockObj} (h1 : syncTo C K W n = some (t, c)) (h2 : W.blocks[n]? = some b)
    (h3 : processBlock C K W t c b = some (t', c')) : syncTo C K W (n + 1) = some (t', c') := by
  rw [syncTo, h1, h2]; exact h3

theorem syncTo_le {n k : Nat} {r : ForkTracking × NodeChain} (h : syncTo C K W (n + k) = some r) : ∃ r', syncTo C K W n = some r' := by
  induction k generalizing r with
  | zero => exact ⟨r, h⟩
  | succ k ih =>
    obtain ⟨t, c, -, h1, -⟩ := syncTo_succ (n := n + k) h
    exact ih h1

/-- What is known of an uninterrupted node after `n` blocks. -/
theorem syncTo_facts {g : BlockObj} (hW : Sound W g) : ∀ {n : Nat} {t : ForkTracking} {c : NodeChain}, syncTo C K W n = some (t, c) →
    t = (⟨W.forks, 0, 0⟩ : ForkTracking).setBlock n (timeAt W n) ∧ c.blocks = lastN 255 (g :: W.blocks.take n) ∧ c.chainId = W.genesis.chainId ∧
      n ≤ W.blocks.length := by
  intro n
  induction n with
  | zero =>
    intro t c h
    rw [syncTo] at h
    cases h
    exact ⟨rfl, by rw [hW.genesis, List.take_zero]; exact (lastN_eq (by rw [List.length_singleton]; omega)).symm, rfl, Nat.zero_le _⟩
  | succ n ih =>
    intro t c h
    obtain ⟨t₀, c₀, b, h1, h2, h3⟩ := syncTo_succ h
    obtain ⟨ht, hb, hi, -⟩ := ih h1
    obtain ⟨c₁, hg, hf⟩ := processBlock_some h3
    obtain ⟨kt, kb, ki⟩ := beginBlock_keeps hg
    obtain ⟨fb, fi, -⟩ := finishBlock_keeps hf
    have hn : n < W.blocks.length := (List.getElem?_eq_some_iff.mp h2).1
    have hat : At t₀ (timeAt W n) := by
      rw [ht]; exact C56_set_block _ _ _
    refine ⟨?_, ?_, by rw [fi, ki, hi], hn⟩
    · rw [kt, (C56_advance t₀ _ _ hat (timeAt_mono hW h2)).1, timeAt_succ h2, ht]
      rfl
    · rw [fb, kb, hb, lastN_append_lastN, List.cons_append, List.take_add_one, h2]
      rfl

/-- The blocks that a node takes again from the downloader when it is started. -/
theorem resumed_blocks (g : BlockObj) (bs : List BlockObj) (n : Nat) (hn : n ≤ bs.length) (h : 255 ≤ n) :
    (bs.drop (n - (if n < 256 then n else 255))).take (if n < 256 then n else 255) = lastN 255 (g :: bs.take n) := by
  have hl : (if n < 256 then n else 255) = 255 := by split <;> omega
  rw [hl]
  unfold lastN
  rw [List.length_cons, List.length_take, Nat.min_eq_left hn, show n + 1 - 255 = (n - 255) + 1 by omega, List.drop_succ_cons, List.drop_take]
  have e : n - (n - 255) = 255 := by omega
  rw [e]

theorem resumed_early (g : BlockObj) (bs : List BlockObj) (n : Nat) (hn : n ≤ bs.length) (h : n < 255) :
    lastN 255 (g :: bs.take n) = g :: (bs.drop (n - (if n < 256 then n else 255))).take (if n < 256 then n else 255) := by
  have hl : (if n < 256 then n else 255) = n := by split <;> omega
  rw [hl, Nat.sub_self, List.drop_zero]
  exact lastN_eq (by rw [List.length_cons, List.length_take]; omega)

/-- What holds of the process, phase by phase. -/
def RunOk (C : Crypto) (K : Ethash.Hashes) (W : Sync.World) (r : Run) : Prop :=
  match r.phase with
  | .idle => syncTo C K W r.next = some (r.tracker, r.chain)
  | .forked b => ∃ n t c, r.next = n + 1 ∧ syncTo C K W n = some (t, c) ∧ W.blocks[n]? = some b ∧ beginBlock W t c b = some (r.tracker, r.chain)
  | .applied b => 0 < r.next ∧ W.blocks[r.next - 1]? = some b ∧ syncTo C K W r.next = some (r.tracker, r.chain)
  | .numbered b => 0 < r.next ∧ W.blocks[r.next - 1]? = some b ∧ syncTo C K W r.next = some (r.tracker, r.chain) ∧ r.metadata.number = some r.next
  | .ready => ∃ b, 0 < r.next ∧ W.blocks[r.next - 1]? = some b ∧ syncTo C K W r.next = some (r.tracker, r.chain) ∧ r.metadata.number = some r.next ∧
      r.metadata.time = some b.time
  | .saving => ∃ b, 0 < r.next ∧ W.blocks[r.next - 1]? = some b ∧ syncTo C K W r.next = some (r.tracker, r.chain) ∧ r.metadata.number = some r.next ∧
      r.metadata.time = some b.time ∧ r.metadata.chainId = some r.chain.chainId

/-- The invariant. -/
structure Inv (C : Crypto) (K : Ethash.Hashes) (W : Sync.World) (m : Machine) : Prop where
  disk : ∀ s, m.disk = some s → ∃ n, 255 ≤ n ∧ SavedAt C K W n s
  running : ∀ r, m.running = some r → RunOk C K W r
  ahead : ∀ r s n, m.running = some r → m.disk = some s → s.metadata.number = some n → n ≤ r.next

theorem resume_saved {g : BlockObj} (hW : Sound W g) {n : Nat} {s : Saved} (hs : SavedAt C K W n s) :
    ∃ t c r, syncTo C K W n = some (t, c) ∧ boot W (some s) = some r ∧ r.phase = .idle ∧ r.next = n ∧ r.tracker = t ∧ r.chain.state = c.state ∧
      r.chain.chainId = c.chainId ∧ (255 ≤ n → r.chain = c) ∧ (n < 255 → c.blocks = g :: r.chain.blocks) := by
  obtain ⟨t, c, b, h, hn, hb, rfl⟩ := hs
  obtain ⟨ht, hc, hi, hl⟩ := syncTo_facts hW h
  have htime : b.time = timeAt W n := by
    obtain ⟨k, rfl⟩ : ∃ k, n = k + 1 := ⟨n - 1, by omega⟩
    exact (timeAt_succ hb).symm
  refine ⟨t, c, ⟨(⟨W.forks, 0, 0⟩ : ForkTracking).setBlock n b.time,
    ⟨(W.blocks.drop (n - (if n < 256 then n else 255))).take (if n < 256 then n else 255), c.state, c.chainId⟩,
    n - (if n < 256 then n else 255) + (if n < 256 then n else 255), ⟨some n, some b.time, some c.chainId⟩, .idle⟩, h, ?_, rfl, ?_, ?_, rfl, rfl, ?_, ?_⟩
  · unfold boot resume
    dsimp only
    rw [if_neg (by omega)]
    rfl
  · dsimp only; split <;> omega
  · rw [ht, htime]
  · intro h255
    obtain ⟨cb, cs, ci⟩ := c
    dsimp only at hc ⊢
    rw [resumed_blocks g W.blocks n hl h255, hc]
  · intro h255
    rw [hc]; exact resumed_early g W.blocks n hl h255

theorem inv_blank : Inv C K W blank := ⟨fun s h => (by cases h), fun r h => (by cases h), fun r s n h => (by cases h)⟩

theorem savedAt_number {n : Nat} {s : Saved} (h : SavedAt C K W n s) : s.metadata.number = some n := by
  obtain ⟨t, c, b, -, -, -, rfl⟩ := h; rfl

theorem inv_step {g : BlockObj} (hW : Sound W g) {m m' : Machine} (hi : Inv C K W m) (h : Step C K W m m') (hl : Late m') : Inv C K W m' := by
  cases h with
  | @boot d r h =>
    cases hd : d with
    | none =>
      subst hd
      rw [boot] at h
      cases h
      exact ⟨fun s h => (by cases h), fun r h => (by cases h; exact rfl), fun r s n _ h => (by cases h)⟩
    | some s =>
      subst hd
      obtain ⟨n, hn, hs⟩ := hi.disk s rfl
      obtain ⟨t, c, r', h1, h2, h3, h4, h5, -, -, h8, -⟩ := resume_saved hW hs
      rw [h] at h2
      cases h2
      refine ⟨hi.disk, fun r' h => ?_, fun r' s' n' h h' hn' => ?_⟩
      · cases h
        unfold RunOk
        rw [h3]
        dsimp only
        rw [h4, h1, h5, h8 hn]
      · cases h; cases h'
        rw [savedAt_number hs] at hn'
        cases hn'
        omega
  | stop => exact ⟨hi.disk, fun r h => (by cases h), fun r s n h => (by cases h)⟩
  | @take d r b t c hp hb h =>
    have hr := hi.running r rfl
    unfold RunOk at hr
    rw [hp] at hr
    dsimp only at hr
    refine ⟨hi.disk, fun r' h' => ?_, fun r' s n h' hs hn => ?_⟩
    · cases h'
      exact ⟨r.next, r.tracker, r.chain, rfl, hr, hb, h⟩
    · cases h'
      exact Nat.le_succ_of_le (hi.ahead r s n rfl hs hn)
  | @apply d r b c hp h =>
    have hr := hi.running r rfl
    unfold RunOk at hr
    rw [hp] at hr
    dsimp only at hr
    obtain ⟨n, t₀, c₀, e, h1, h2, h3⟩ := hr
    refine ⟨hi.disk, fun r' h' => ?_, fun r' s n h' hs hn => ?_⟩
    · cases h'
      refine ⟨?_, ?_, ?_⟩
      · show 0 < r.next; omega
      · show W.blocks[r.next - 1]? = some b; rw [e]; exact h2
      · show syncTo C K W r.next = some (r.tracker, c)
        rw [e]; exact syncTo_of h1 h2 (processBlock_of h3 h)
    · cases h'
      exact hi.ahead r s n rfl hs hn
  | @number d r b hp =>
    have hr := hi.running r rfl
    unfold RunOk at hr
    rw [hp] at hr
    dsimp only at hr
    refine ⟨hi.disk, fun r' h' => ?_, fun r' s n h' hs hn => ?_⟩
    · cases h'
      refine ⟨hr.1, hr.2.1, hr.2.2, ?_⟩
      show some r.tracker.blockNumber = some r.next
      rw [(syncTo_facts hW hr.2.2).1]; rfl
    · cases h'
      exact hi.ahead r s n rfl hs hn
  | @time d r b hp =>
    have hr := hi.running r rfl
    unfold RunOk at hr
    rw [hp] at hr
    dsimp only at hr
    refine ⟨hi.disk, fun r' h' => ?_, fun r' s n h' hs hn => ?_⟩
    · cases h'
      exact ⟨b, hr.1, hr.2.1, hr.2.2.1, hr.2.2.2, rfl⟩
    · cases h'
      exact hi.ahead r s n rfl hs hn
  | @skip d r hp =>
    have hr := hi.running r rfl
    unfold RunOk at hr
    rw [hp] at hr
    dsimp only at hr
    obtain ⟨b, -, -, h, -⟩ := hr
    refine ⟨hi.disk, fun r' h' => ?_, fun r' s n h' hs hn => ?_⟩
    · cases h'; exact h
    · cases h'
      exact hi.ahead r s n rfl hs hn
  | @save d r hp =>
    have hr := hi.running r rfl
    unfold RunOk at hr
    rw [hp] at hr
    dsimp only at hr
    obtain ⟨b, h1, h2, h3, h4, h5⟩ := hr
    refine ⟨hi.disk, fun r' h' => ?_, fun r' s n h' hs hn => ?_⟩
    · cases h'; exact ⟨b, h1, h2, h3, h4, h5, rfl⟩
    · cases h'
      exact hi.ahead r s n rfl hs hn
  | @commit d r hp =>
    have hr := hi.running r rfl
    unfold RunOk at hr
    rw [hp] at hr
    dsimp only at hr
    obtain ⟨b, h1, h2, h3, h4, h5, h6⟩ := hr
    have h255 := hl _ _ rfl h4
    refine ⟨fun s hs => ?_, fun r' h' => ?_, fun r' s n h' hs hn => ?_⟩
    · cases hs
      refine ⟨r.next, h255, r.tracker, r.chain, b, h3, h1, h2, ?_⟩
      rw [← h4, ← h5, ← h6]
    · cases h'; exact h3
    · cases h'; cases hs
      rw [h4] at hn
      cases hn
      exact Nat.le_refl _

theorem inv_reaches {g : BlockObj} (hW : Sound W g) {m m' : Machine} (hi : Inv C K W m) (h : Reaches C K W m m') : Inv C K W m' := by
  induction h with
  | refl => exact hi
  | step _ hs hl ih => exact inv_step hW ih hs hl

end Verif.Spec
