import Verif.Lemmas.Sync
import Verif.Lemmas.SamplePow
/-!
C90: blocks survive the wire. Decoding inverts encoding in every fork; a fork reads exactly the blocks of its shape; and the downloader of the
synchronisation tool hands out the blocks of the chain in order, each read by the fork in force, however the provider orders its replies.
-/
namespace Verif.Props
open Verif Pow Sync Spec ForkTracking

/-- C90: a block of a fork, encoded and decoded in that fork, is the block. -/
theorem C90_decode (f : Fork) (b : NodeBlock) (h : OfFork f b) (hs : (encodeBlock f b).length < 2 ^ 64) : decodeBlock f (encodeBlock f b) = some b := by
  have hd : Rlp.decode (encodeBlock f b) = some (itemOf f b) := Rlp.decode_encode _ (Rlp.small_of_length _ hs)
  unfold decodeBlock
  rw [hd, Option.bind_some, asBlock_item f b h]

/-- C90: different blocks of a fork have different encodings. -/
theorem C90_distinct (f : Fork) (a b : NodeBlock) (ha : OfFork f a) (hb : OfFork f b) (hs : (encodeBlock f a).length < 2 ^ 64)
    (e : encodeBlock f a = encodeBlock f b) : a = b := by
  have h1 := C90_decode f a ha hs
  rw [e] at h1
  exact Option.some.inj (h1.symm.trans (C90_decode f b hb (by rw [← e]; exact hs)))

/-- C90: whatever bytes are decoded, the result is a block of that fork: it has a base fee since london, typed transactions only since berlin, and so on. -/
theorem C90_class (f : Fork) (data : Bytes) (b : NodeBlock) (h : decodeBlock f data = some b) : OfFork f b := by
  obtain ⟨x, -, h⟩ := Option.bind_eq_some_iff.mp h
  exact asBlock_class h

/-- C90: a fork reads the blocks of another fork exactly if headers of both have the same number of fields, and it knows typed transactions if there are any.
In particular a block from before london, shanghai, cancun or prague is refused from that fork on, and the other way round. -/
theorem C90_other_fork (f g : Fork) (b : NodeBlock) (h : OfFork f b) (hs : (encodeBlock f b).length < 2 ^ 64) :
    (decodeBlock g (encodeBlock f b)).isSome = true ↔
      headerFields g = headerFields f ∧ ∀ tx ∈ txsOf b, tx.isLeft = true ∨ g.since .berlin = true := by
  have hd : Rlp.decode (encodeBlock f b) = some (itemOf f b) := Rlp.decode_encode _ (Rlp.small_of_length _ hs)
  unfold decodeBlock
  rw [hd, Option.bind_some]
  exact asBlock_isSome f g b h

/-- C90: whatever the provider answers, if the downloader accepts it then there is exactly one result for each requested number, in order of the numbers: the last
reply with this number, decoded by one of the forks if it is a block. Otherwise it raises an error. -/
theorem C90_fetch (names : List Fork) (t t' : ForkTracking) (first count : Nat) (replies : List (Reply Bytes)) (out : List (Int ⊕ NodeBlock))
    (h : fetchBlocksDebug names t first count replies = some (out, t')) :
    out.length = count ∧ (0 < count → ∀ r ∈ replies, first ≤ r.id ∧ r.id < first + count) ∧
    ∀ i < count, ∃ body r, lastReply replies (first + i) = some body ∧ out[i]? = some r ∧ Agrees names body r := by
  unfold fetchBlocksDebug at h
  split at h
  case isTrue h0 => cases h; exact ⟨h0.symm, fun h => by omega, fun i hi => by omega⟩
  case isFalse h0 =>
    obtain ⟨d, hd, h⟩ := Option.bind_eq_some_iff.mp h
    split at h
    · cases h
    case isFalse hl =>
      have hl : d.entries.length = count := by omega
      have hb := sorted_bodies hd hl
      have hlen : ((sortItems d.entries).map Prod.snd).length = count := by rw [List.length_map, (sortItems_perm _).length_eq, hl]
      have key : ∀ (bodies : List (Int ⊕ Bytes)) (t t' : ForkTracking) (out : List (Int ⊕ NodeBlock)), decodeAll names t bodies = some (out, t') →
          out.length = bodies.length ∧ ∀ (i : Nat) (body : Int ⊕ Bytes), bodies[i]? = some body → ∃ r, out[i]? = some r ∧ Agrees names body r := by
        intro bodies
        induction bodies with
        | nil => intro t t' out h; rw [decodeAll] at h; cases h; exact ⟨rfl, fun i body hi => by simp at hi⟩
        | cons x rest ih =>
          intro t t' out h
          cases x with
          | inl code =>
            rw [decodeAll] at h
            obtain ⟨⟨o, u⟩, h1, h2⟩ := Option.map_eq_some_iff.mp h
            cases h2
            obtain ⟨i1, i2⟩ := ih _ _ _ h1
            refine ⟨by simp [i1], fun i body hi => ?_⟩
            cases i with
            | zero => simp only [List.getElem?_cons_zero, Option.some.injEq] at hi; subst hi; exact ⟨_, rfl, rfl⟩
            | succ i => have := i2 i body hi; exact this
          | inr raw =>
            rw [decodeAll] at h
            obtain ⟨⟨b, u⟩, hb, h⟩ := Option.bind_eq_some_iff.mp h
            obtain ⟨⟨o, u'⟩, h1, h2⟩ := Option.map_eq_some_iff.mp h
            cases h2
            obtain ⟨i1, i2⟩ := ih _ _ _ h1
            refine ⟨by simp [i1], fun i body hi => ?_⟩
            cases i with
            | zero =>
              simp only [List.getElem?_cons_zero, Option.some.injEq] at hi; subst hi
              unfold decodeNext at hb
              obtain ⟨item, -, hb⟩ := Option.bind_eq_some_iff.mp hb
              obtain ⟨ts, -, hb⟩ := Option.bind_eq_some_iff.mp hb
              obtain ⟨f, hf, hb⟩ := Option.bind_eq_some_iff.mp hb
              obtain ⟨b', hb', e⟩ := Option.map_eq_some_iff.mp hb
              cases e
              exact ⟨_, rfl, f, List.mem_of_getElem? hf, b, hb', rfl⟩
            | succ i => have := i2 i body hi; exact this
      obtain ⟨k1, k2⟩ := key _ _ _ _ h
      refine ⟨k1.trans hlen, fun _ => (collect_ok first count replies _ _ hd).1, fun i hi => ?_⟩
      have hi' : i < ((sortItems d.entries).map Prod.snd).length := by omega
      obtain ⟨r, hr1, hr2⟩ := k2 i _ (List.getElem?_eq_getElem hi')
      refine ⟨((sortItems d.entries).map Prod.snd)[i], r, ?_, hr1, hr2⟩
      have e : ((sortItems d.entries).map (some ∘ Prod.snd))[i]? = some (some ((sortItems d.entries).map Prod.snd)[i]) := by
        rw [← List.map_map, List.getElem?_map, List.getElem?_eq_getElem hi']; rfl
      rw [hb, List.getElem?_map, List.getElem?_range' hi] at e
      simpa using e

/-- C90: from a right answer, **with the replies in any order**, the downloader gets exactly the blocks of the chain that it asked for, in the order of their
numbers, and the error of the provider for each number beyond the end; and it goes on from the last of these blocks. -/
theorem C90_right (names : List Fork) (forks : List ForkCriteria) (chain : List NodeBlock) (hc : GoodChain names forks chain) (t : ForkTracking)
    (ht : Tracks forks chain t) (count : Nat) (replies : List (Reply Bytes)) (hr : RightAnswer names forks chain (t.blockNumber + 1) count replies) :
    ∃ t', fetchBlocksDebug names t (t.blockNumber + 1) count replies = some (((chain.drop t.blockNumber).take count).map .inr ++
        List.replicate (count - (chain.length - t.blockNumber)) (.inl (-32000)), t') ∧
      Tracks forks chain t' ∧ t'.blockNumber = min (t.blockNumber + count) chain.length :=
  fetch_right hc ht hr

/-- C90: in any number of rounds, the downloader puts into its queue the blocks of the chain after the one it began with, in order and without gaps, then `None`
(at least once) if and only if it asked beyond the end of the chain; and that is when it stops. -/
theorem C90_download (names : List Fork) (forks : List ForkCriteria) (chain : List NodeBlock) (hc : GoodChain names forks chain)
    (answers : Nat → Nat → List (Reply Bytes)) (ha : ∀ first count, 0 < first → RightAnswer names forks chain first count (answers first count)) :
    ∀ (rounds : Nat) (t : ForkTracking), Tracks forks chain t →
    ∃ m t' go, download names answers rounds t = some (((chain.drop t.blockNumber).take (256 * rounds)).map some ++ List.replicate m none, t', go) ∧
      (go = true ↔ m = 0) ∧ (go = true ↔ t.blockNumber + 256 * rounds ≤ chain.length) := by
  intro rounds
  induction rounds with
  | zero =>
    intro t ht
    exact ⟨0, t, true, by simp [download], by simp, by have := ht.number; simp; omega⟩
  | succ rounds ih =>
    intro t ht
    obtain ⟨t', h1, h2, h3⟩ := fetch_right hc ht (ha (t.blockNumber + 1) 256 (by omega))
    have hn := ht.number
    rw [download, h1, Option.bind_some]
    dsimp only
    rw [toPush_right, Option.bind_some]
    by_cases hend : t.blockNumber + 256 ≤ chain.length
    · have e0 : 256 - (chain.length - t.blockNumber) = 0 := by omega
      rw [e0, List.replicate_zero, List.append_nil]
      have hany : ((List.map some (List.take 256 (List.drop t.blockNumber chain))).any Option.isNone) = false := by
        rw [List.any_eq_false]
        intro x hx
        obtain ⟨b, -, rfl⟩ := List.mem_map.mp hx
        simp
      rw [hany]
      obtain ⟨m, t'', go, i1, i2, i3⟩ := ih t' h2
      have hb : t'.blockNumber = t.blockNumber + 256 := by omega
      refine ⟨m, t'', go, ?_, i2, ?_⟩
      · rw [if_neg (by simp), i1, Option.map_some, ← List.append_assoc, ← List.map_append, hb]
        rw [show 256 * (rounds + 1) = 256 + 256 * rounds by omega, List.take_add, List.drop_drop]
      · rw [i3, hb]; omega
    · have hpos : 0 < 256 - (chain.length - t.blockNumber) := by omega
      have hany : ((List.map some (List.take 256 (List.drop t.blockNumber chain)) ++
          List.replicate (256 - (chain.length - t.blockNumber)) none).any Option.isNone) = true := by
        rw [List.any_append, Bool.or_eq_true]
        right
        rw [List.any_eq_true]
        exact ⟨none, List.mem_replicate.mpr ⟨by omega, rfl⟩, rfl⟩
      rw [if_pos hany]
      refine ⟨256 - (chain.length - t.blockNumber), t', false, ?_, by simp; omega, by simp; omega⟩
      rw [List.take_of_length_le (i := 256) (by rw [List.length_drop]; omega), List.take_of_length_le (by rw [List.length_drop]; omega)]

/-- C90: where the downloader begins. It is given the number of a block and the time of a later one (the block that was persisted last). If at most one fork begins
between them, it is not ahead of the chain: the next block will be read by the right fork. -/
theorem C90_start (names : List Fork) (forks : List ForkCriteria) (chain : List NodeBlock) (hc : GoodChain names forks chain) (k : Nat) (time : Word)
    (hk : k ≤ chain.length) (h : ∀ b i j, chain[k]? = some b → InForce forks k time i → InForce forks (k + 1) (timeOf b) j → i ≤ j + 1) :
    Tracks forks chain (startDownloader forks k time) := by
  have hi := C56_set_block ⟨forks, 0, 0⟩ k time
  dsimp only at hi
  have key : ∀ i, i = (startDownloader forks k time).activeForkIndex → (∀ b j, chain[k]? = some b → InForce forks (k + 1) (timeOf b) j → i ≤ j) ∧
      (i = 0 ∨ i < forks.length) := by
    intro i e
    unfold startDownloader at e
    dsimp only at e
    have hb := hi.bound
    split at e
    case isTrue hp =>
      dsimp only at e
      refine ⟨fun b j hb' hj => ?_, by omega⟩
      have := h b _ j hb' hi hj
      omega
    case isFalse hp => exact ⟨fun b j hb' hj => by omega, by omega⟩
  have e1 : (startDownloader forks k time).forks = forks := by unfold startDownloader; dsimp only; split <;> rfl
  have e2 : (startDownloader forks k time).blockNumber = k := by unfold startDownloader; dsimp only; split <;> rfl
  obtain ⟨k1, k2⟩ := key _ rfl
  refine ⟨e1, by rw [e2]; exact hk, fun b hb => ⟨fun i c hi0 hi1 hcc => ?_, by rw [e1]; exact k2⟩⟩
  rw [e2] at hb ⊢
  rw [e1] at hcc
  obtain ⟨j, f, hj, -⟩ := hc.ofFork k b hb
  exact hj.active i c hi0 (Nat.le_trans hi1 (k1 b j hb hj)) hcc

/-- C90: starting from the genesis block, or from any block of which the time is known, the condition is met. -/
theorem C90_start_known (names : List Fork) (forks : List ForkCriteria) (chain : List NodeBlock) (hc : GoodChain names forks chain) (k : Nat) (time : Word)
    (hk : k ≤ chain.length) (h : ∀ b, chain[k]? = some b → time.toNat ≤ (timeOf b).toNat) : Tracks forks chain (startDownloader forks k time) := by
  refine C90_start names forks chain hc k time hk fun b i j hb hi hj => ?_
  by_cases hlt : j < i
  · have hbd : j + 1 < forks.length := by rcases hi.bound with e | e <;> omega
    have hcc := List.getElem?_eq_getElem hbd
    have h1 := hi.active (j + 1) _ (by omega) (by omega) hcc
    have h2 := C42_active _ k (k + 1) time (timeOf b) (by omega) (h b hb) h1
    rw [hj.next _ hcc] at h2
    cases h2
  · omega

/-- C90: with the standard endpoint the same holds if the replies come in the order of the requests: if each description of a block is read as the block by
the fork in force, the downloader gets the blocks of the chain in order. -/
theorem C90_eth {J : Type} (time : J → Word) (make : Fork → J → Option NodeBlock) (names : List Fork) (forks : List ForkCriteria) (chain : List NodeBlock)
    (hc : GoodChain names forks chain) (t : ForkTracking) (ht : Tracks forks chain t) (count : Nat) (hn : t.blockNumber + count ≤ chain.length) (js : Nat → J)
    (hm : ∀ n b j f, t.blockNumber < n → n ≤ t.blockNumber + count → chain[n - 1]? = some b → InForce forks n (timeOf b) j → names[j]? = some f →
      make f (js n) = some b ∧ time (js n) = timeOf b) :
    ∃ t', fetchBlocksEth time make names t (t.blockNumber + 1) count ((List.range' (t.blockNumber + 1) count).map fun n => ⟨n, .inr (some (js n))⟩) =
      some (((chain.drop t.blockNumber).take count).map .inr, t') ∧ Tracks forks chain t' ∧ t'.blockNumber = t.blockNumber + count := by
  unfold fetchBlocksEth
  by_cases h0 : count = 0
  · subst h0; exact ⟨t, by simp, ht, rfl⟩
  rw [if_neg h0]
  obtain ⟨d, d1, d2⟩ := collectEth_ordered (t.blockNumber + 1) count js count (t.blockNumber + 1) Dict.empty Dict.empty (by simp [Dict.empty]) (by omega) (by omega)
  obtain ⟨l, t', m1, m2, m3, m4, m5⟩ := makeAll_ordered time make hc js count t ht hn hm
  refine ⟨t', ?_, m2, m3⟩
  have e : d.entries = (List.range' (t.blockNumber + 1) count).map fun n => (n, js n) := d2
  rw [d1, Option.bind_some]
  dsimp only
  rw [e, m1, Option.map_some]
  have hs : Sorted l := by
    have : (l.map Prod.fst).Pairwise (· < ·) := by rw [m5]; exact List.pairwise_lt_range'
    exact List.pairwise_map.mp this
  have e2 : (l.foldl (fun d x => d.set x.1 (.inr x.2)) (Dict.empty : Dict Nat (Int ⊕ NodeBlock))).entries = l.map fun x => (x.1, .inr x.2) :=
    foldSet_ordered l Dict.empty hs (by simp [Dict.empty])
  dsimp only
  have e3 : (Dict.empty : Dict Nat Int).entries = [] := rfl
  rw [e3, List.foldl_nil, e2, sortItems_id _ (by exact List.pairwise_map.mpr hs), List.map_map, ← m4, List.map_map]
  rfl

/-! ### Examples, and what does not hold -/

/-- A header of paris. -/
def plainHeader (time : Word) : Header := ⟨1, 2, 3, 4, 5, 6, 7, 0, 1, 30000000, 21000, time, [1, 2], 8, 0, 7, 0, 0, 0, 0, 0⟩

/-- A block of paris with a legacy and a typed transaction, and one of shanghai with a withdrawal. -/
def parisBlock : NodeBlock := .pos ⟨plainHeader 5, [.inl ⟨0, 10, 60000, some 88, 3, [1, 2], 27, 77, 1⟩, .inr [2, 0xc0]], [], []⟩
def shanghaiBlock : NodeBlock := .pos ⟨{ plainHeader 10 with number := 2, withdrawalsRoot := 9 }, [], [], [⟨0, 1, 55, 4⟩]⟩

/-- A block of london with an ommer. -/
def londonBlock : NodeBlock := .pow ⟨{ mkHeader 1 7 3 131072 5 2 9 with baseFeePerGas := some 7 }, [.inr [2, 0xc0]], [{ mkHeader 1 6 3 131072 5 2 9 with baseFeePerGas := some 8 }]⟩

theorem paris_of : OfFork .paris parisBlock := by
  refine ⟨by decide, ?_, fun _ => rfl⟩
  intro h hm
  simp only [List.mem_cons, List.not_mem_nil, or_false] at hm
  subst hm
  exact ⟨fun _ => rfl, fun _ => ⟨rfl, rfl, rfl⟩, fun _ => rfl⟩

theorem shanghai_of : OfFork .shanghai shanghaiBlock := by
  refine ⟨by decide, ?_, fun h => absurd (by decide) h⟩
  intro h hm
  simp only [List.mem_cons, List.not_mem_nil, or_false] at hm
  subst hm
  exact ⟨fun h => absurd (by decide) h, fun _ => ⟨rfl, rfl, rfl⟩, fun _ => rfl⟩

theorem paris_size : (encodeBlock .paris parisBlock).length < 2 ^ 64 := by decide +kernel
theorem shanghai_size : (encodeBlock .shanghai shanghaiBlock).length < 2 ^ 64 := by decide +kernel

/-- The hypotheses of `C90_decode` are met, in forks with and without proof of work. -/
example : OfFork .london londonBlock ∧ (encodeBlock .london londonBlock).length < 2 ^ 64 ∧ OfFork .paris parisBlock ∧ OfFork .shanghai shanghaiBlock := by
  refine ⟨⟨by decide, ?_, fun h => absurd (by decide) h⟩, by decide +kernel, paris_of, shanghai_of⟩
  intro h hm
  simp only [List.mem_cons, List.not_mem_nil, or_false] at hm
  rcases hm with rfl | rfl <;> rfl

/-- Two forks: paris from the start, shanghai from time 10. -/
def twoForks : List ForkCriteria := [.byBlockNumber 0, .byTimestamp 10]

theorem twoForks_first : InForce twoForks 1 5 0 := ⟨fun j c h1 h2 => by omega, fun c hc => by cases hc; decide, .inl rfl⟩
theorem twoForks_second : InForce twoForks 2 10 1 :=
  ⟨fun j c h1 h2 hc => (by have : j = 1 := by omega
                           subst this; cases hc; decide), fun c hc => (by cases hc), .inr (by decide)⟩

theorem twoForks_chain : GoodChain [.paris, .shanghai] twoForks [parisBlock, shanghaiBlock] := by
  refine ⟨fun i b hb => ?_, ?_⟩
  · match i, hb with
    | 0, hb => cases hb; exact ⟨0, .paris, twoForks_first, rfl, paris_of, paris_size⟩
    | 1, hb => cases hb; exact ⟨1, .shanghai, twoForks_second, rfl, shanghai_of, shanghai_size⟩
  · simp only [List.pairwise_cons, List.mem_singleton, forall_eq, List.not_mem_nil, false_implies, implies_true, List.Pairwise.nil, and_true]
    decide

/-- The replies, the last request answered first. -/
def reversedReplies : List (Reply Bytes) := [⟨3, .inl (-32000)⟩, ⟨2, .inr (encodeBlock .shanghai shanghaiBlock)⟩, ⟨1, .inr (encodeBlock .paris parisBlock)⟩]

/-- The hypotheses of `C90_right` are met by a chain with a fork in the middle and replies in the wrong order. -/
example : Tracks twoForks [parisBlock, shanghaiBlock] (startDownloader twoForks 0 0) ∧
    RightAnswer [.paris, .shanghai] twoForks [parisBlock, shanghaiBlock] 1 3 reversedReplies := by
  refine ⟨C90_start_known _ _ _ twoForks_chain 0 0 (by simp) fun b hb => by simp, ⟨by decide, ?_⟩⟩
  intro r hr
  simp only [reversedReplies, List.mem_cons, List.not_mem_nil, or_false] at hr
  rcases hr with rfl | rfl | rfl
  · rfl
  · exact ⟨_, rfl, shanghaiBlock, 1, .shanghai, rfl, twoForks_second, rfl, rfl⟩
  · exact ⟨_, rfl, parisBlock, 0, .paris, rfl, twoForks_first, rfl, rfl⟩

/-- C90: with the standard endpoint the order of the replies does matter (see the findings): the blocks are made in that order, so a block from before a fork is read by
the code of the fork if a later block was answered first. Here the descriptions are the raw blocks. -/
theorem C90_eth_order : ∃ (replies replies' : List (Reply (Option (Word × Bytes)))) (t : ForkTracking), replies.Perm replies' ∧
    (fetchBlocksEth Prod.fst (fun f j => decodeBlock f j.2) [.paris, .shanghai] t 1 2 replies).isSome = true ∧
    (fetchBlocksEth Prod.fst (fun f j => decodeBlock f j.2) [.paris, .shanghai] t 1 2 replies').isSome = false :=
  ⟨[⟨1, .inr (some (5, encodeBlock .paris parisBlock))⟩, ⟨2, .inr (some (10, encodeBlock .shanghai shanghaiBlock))⟩],
    [⟨2, .inr (some (10, encodeBlock .shanghai shanghaiBlock))⟩, ⟨1, .inr (some (5, encodeBlock .paris parisBlock))⟩],
    startDownloader twoForks 0 0, .swap _ _ _, by decide +kernel, by decide +kernel⟩

/-- C90: two forks by time between the first block and the last one persisted are too many (see the findings): the downloader begins one fork ahead, and
refuses a right answer. -/
theorem C90_start_limit : ∃ (forks : List ForkCriteria) (names : List Fork) (chain : List NodeBlock) (time : Word) (replies : List (Reply Bytes)),
    GoodChain names forks chain ∧ (∃ b ∈ chain, timeOf b = time) ∧ RightAnswer names forks chain 1 1 replies ∧
    (fetchBlocksDebug names (startDownloader forks 0 time) 1 1 replies).isSome = false := by
  have g1 : InForce [.byBlockNumber 0, .byTimestamp 10, .byTimestamp 10] 1 5 0 := ⟨fun j c h1 h2 => by omega, fun c hc => by cases hc; decide, .inl rfl⟩
  have g2 : InForce [.byBlockNumber 0, .byTimestamp 10, .byTimestamp 10] 2 10 2 :=
    ⟨fun j c h1 h2 hc => (by
      have : j = 1 ∨ j = 2 := by omega
      rcases this with rfl | rfl <;> (cases hc; decide)), fun c hc => (by cases hc), .inr (by decide)⟩
  refine ⟨[.byBlockNumber 0, .byTimestamp 10, .byTimestamp 10], [.paris, .shanghai, .shanghai], [parisBlock, shanghaiBlock], 10,
    [⟨1, .inr (encodeBlock .paris parisBlock)⟩], ⟨fun i b hb => ?_, ?_⟩, ⟨shanghaiBlock, by simp, rfl⟩, ⟨by decide, ?_⟩, by decide +kernel⟩
  · match i, hb with
    | 0, hb => cases hb; exact ⟨0, .paris, g1, rfl, paris_of, paris_size⟩
    | 1, hb => cases hb; exact ⟨2, .shanghai, g2, rfl, shanghai_of, shanghai_size⟩
  · simp only [List.pairwise_cons, List.mem_singleton, forall_eq, List.not_mem_nil, false_implies, implies_true, List.Pairwise.nil, and_true]
    decide
  · intro r hr
    simp only [List.mem_cons, List.not_mem_nil, or_false] at hr
    subst hr
    exact ⟨_, rfl, parisBlock, 0, .paris, rfl, g1, rfl, rfl⟩

/-- The hypothesis of `C90_other_fork` and both sides of it: paris reads the block of london, berlin does not. -/
example : (decodeBlock .paris (encodeBlock .london londonBlock)).isSome = true ∧ (decodeBlock .berlin (encodeBlock .london londonBlock)).isSome = false := by
  decide +kernel

end Verif.Props
