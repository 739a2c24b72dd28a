import Verif.Lemmas.Rpc
import Verif.Props.C90
/-!
C97: blocks from a standard JSON-RPC endpoint. The synchronisation tool reads from the objects of such an endpoint exactly the blocks and transactions that they
describe, before cancun; it puts ommers in their places in whatever order they come; and with answers in the order of the requests it hands out the blocks of
the chain. Since cancun it reads nothing (see the findings).
-/
namespace Verif.Props
open Verif Pow Sync Spec ForkTracking TxJson

/-- C97: a header is read exactly if the object describes it, with the fields that headers of the fork have. -/
theorem C97_header (f : Fork) (d : RpcBlock) (h : AnyHeader) : makeHeader f d = some h ↔ f.since .cancun = false ∧ DescribesRpcHeader f d h.1 h.2 :=
  makeHeader_iff f d h

/-- C97: a transaction is read exactly if the object describes it; the block gets the object itself or its encoding. -/
theorem C97_transaction (f : Fork) (d : TxData) (x : LegacyTx ⊕ Bytes) :
    loadTransaction f d = some x ↔ ∃ tx, DescribesRpcTx f d tx ∧ x = encodeTransaction tx :=
  loadTransaction_iff f d x

/-- C97: a block is read exactly if the object describes it, and it gets the ommers that were fetched. -/
theorem C97_block (f : Fork) (d : RpcBlock) (om : List AnyHeader) (b : NodeBlock) :
    makeBlock f d om = some b ↔ f.since .cancun = false ∧ DescribesRpcBlock f d b ∧ HasOmmers om b :=
  makeBlock_iff f d om b

/-- C97: an object describes at most one block of a fork, given the ommers. -/
theorem C97_unique (f : Fork) (hc : f.since .cancun = false) (d : RpcBlock) (om : List AnyHeader) (b b' : NodeBlock) (h : DescribesRpcBlock f d b)
    (h' : DescribesRpcBlock f d b') (ho : HasOmmers om b) (ho' : HasOmmers om b') : b = b' := by
  have e := (makeBlock_iff f d om b).mpr ⟨hc, h, ho⟩
  rw [(makeBlock_iff f d om b').mpr ⟨hc, h', ho'⟩] at e
  exact (Option.some.inj e).symm

/-- C97: since cancun no object is read as a header or a block (see the findings). -/
theorem C97_later (f : Fork) (hc : f.since .cancun = true) (d : RpcBlock) (om : List AnyHeader) : makeHeader f d = none ∧ makeBlock f d om = none := by
  constructor
  · cases e : makeHeader f d with
    | none => rfl
    | some h => rw [((makeHeader_iff f d h).mp e).1] at hc; cases hc
  · cases e : makeBlock f d om with
    | none => rfl
    | some h => rw [((makeBlock_iff f d om h).mp e).1] at hc; cases hc

/-- C97: whatever the type of a transaction is, other than `0x1` and `0x2`, it is taken for a legacy transaction (see the findings). -/
theorem C97_other_types (f : Fork) (d : TxData) (t : B11r.Num) (h1 : t ≠ .inl ['0', 'x', '1']) (h2 : t ≠ .inl ['0', 'x', '2']) :
    loadTransaction f { d with type := some t } = loadTransaction f { d with type := some (.inl ['0', 'x', '0']) } := by
  unfold loadTransaction
  dsimp only
  simp only [Option.bind_eq_bind, Option.bind_some, if_neg h1, if_neg h2, reduceCtorEq, Sum.inl.injEq, List.cons.injEq, and_true, true_and,
    show ¬ '0' = '1' by decide, show ¬ '0' = '2' by decide, if_false]
  rfl

theorem hasOmmers_of {f : Fork} (hc : f.since .cancun = false) {b : NodeBlock} (hb : OfFork f b) : HasOmmers (ommersOf f b) b := by
  cases b with
  | pow b =>
    show b.ommers = List.map Prod.fst (List.map _ b.ommers)
    rw [List.map_map]
    exact (List.map_id _).symm
  | pos b =>
    show b.ommers = List.map AnyHeader.toHeader (List.map _ b.ommers)
    rw [List.map_map]
    conv => lhs; rw [← List.map_id b.ommers]
    exact List.map_congr_left fun h hh => (toHeader_oldFields hc (hb.2.1 h (List.mem_cons_of_mem _ hh))).symm

/-- C97: every block of a fork before cancun, with transactions of the fork's types and sizes, is described by some object and read from it. -/
theorem C97_written (f : Fork) (hc : f.since .cancun = false) (b : NodeBlock) (hb : OfFork f b)
    (ht : ∀ x ∈ txsOf b, ∃ tx, x = encodeTransaction tx ∧ TypeIn f (typeNumber tx) ∧ SmallTx tx) :
    ∃ d, DescribesRpcBlock f d b ∧ d.uncles.length = (ommersOf f b).length ∧ makeBlock f d (ommersOf f b) = some b := by
  obtain ⟨l, hl⟩ := rpcTxs_exist hc (txsOf b) ht
  have mk : ∀ d, DescribesRpcBlock f d b → d.uncles.length = (ommersOf f b).length →
      ∃ d, DescribesRpcBlock f d b ∧ d.uncles.length = (ommersOf f b).length ∧ makeBlock f d (ommersOf f b) = some b :=
    fun d h1 h2 => ⟨d, h1, h2, (makeBlock_iff f d _ b).mpr ⟨hc, h1, hasOmmers_of hc hb⟩⟩
  have same : ∀ {h : PowHeader} {root : Option Word} (u : List (List Char)) (w : Option (List RpcWithdrawal)), DescribesRpcHeader f (rpcHeaderOf h root) h root →
      DescribesRpcHeader f { rpcHeaderOf h root with transactions := some l, uncles := u, withdrawals := w } h root := fun u w h =>
    ⟨h.parentHash, h.ommersHash, h.coinbase, h.stateRoot, h.transactionsRoot, h.receiptRoot, h.bloom, h.difficulty, h.number, h.gasLimit, h.gasUsed,
      h.timestamp, h.extraData, h.mixDigest, h.nonce, h.baseFee, h.withdrawalsRoot⟩
  cases b with
  | pow b =>
    obtain ⟨hp, hh, -⟩ := hb
    have hs : f.since .shanghai = false := by revert hp; cases f <;> decide
    refine mk { rpcHeaderOf b.header none with transactions := some l, uncles := List.replicate b.ommers.length [], withdrawals := none } ?_ ?_
    · exact ⟨hp, same _ _ (rpcHeaderOf_describes f b.header none (hh _ (List.mem_cons_self ..)) (by rw [hs]; rfl)), ⟨l, rfl, hl⟩, .inl rfl⟩
    · show (List.replicate _ _).length = (List.map _ _).length
      simp
  | pos b =>
    obtain ⟨hp, hh, hw⟩ := hb
    have hlon : f.since .london = true := by revert hp; cases f <;> decide
    refine mk { rpcHeaderOf (oldFields b.header) (rootIn f b.header) with
      transactions := some l, uncles := List.replicate b.ommers.length [], withdrawals := some (b.withdrawals.map rpcWithdrawalOf) } ?_ ?_
    · refine ⟨hp, same _ _ (rpcHeaderOf_describes f (oldFields b.header) (rootIn f b.header) (by rw [hlon]; exact rfl) ?_), hh _ (List.mem_cons_self ..), ⟨l, rfl, hl⟩, ?_⟩
      · unfold rootIn
        cases f.since .shanghai <;> rfl
      · split
        case isTrue =>
          exact ⟨_, rfl, each_of_map fun w _ => ⟨⟨_, rfl, writesHex_hex _⟩, ⟨_, rfl, writesHex_hex _⟩, ⟨_, rfl, rpc_writesAddress _⟩, ⟨_, rfl, writesHex_hex _⟩⟩⟩
        case isFalse hs =>
          have hw : b.withdrawals = [] := hw hs
          exact ⟨.inr (by rw [hw]; rfl), hw⟩
    · show (List.replicate _ _).length = (List.map _ _).length
      simp

/-- C97: the ommers of each block are found, in their order, **whatever the order of the replies**, if the headers of their fork have the fields of those of
the fork that was active when the request was made. -/
theorem C97_ommers (f : Fork) (hf : f.since .cancun = false) (fork : Nat → Fork) (om : Nat → List AnyHeader) (numbers : List Nat)
    (answer : List (Reply RpcBlock)) (ha : RightOmmers fork om numbers answer) (hl : ∀ n ∈ numbers, (om n).length ≤ 20)
    (hs : ∀ n ∈ numbers, om n ≠ [] → (fork n).since .london = f.since .london ∧ (fork n).since .shanghai = f.since .shanghai) :
    ∃ g, fetchOmmers (some f) (numbers.map fun n => (n, (om n).length)) answer = some g ∧ ∀ n ∈ numbers, g n = om n :=
  fetchOmmers_right hf ha hl hs

/-- C97: with right answers, those about blocks in the order of the requests and those about ommers in any order, the downloader gets the next blocks of the
chain, in order. -/
theorem C97_fetch (names : List Fork) (forks : List ForkCriteria) (chain : List NodeBlock) (hc : GoodChain names forks chain) (t : ForkTracking)
    (ht : Tracks forks chain t) (count : Nat) (hn : t.blockNumber + count ≤ chain.length) (fork : Nat → Fork)
    (hfork : ∀ n b j, t.blockNumber < n → n ≤ t.blockNumber + count → chain[n - 1]? = some b → InForce forks n (timeOf b) j → names[j]? = some (fork n))
    (hcan : ∀ n, t.blockNumber < n → n ≤ t.blockNumber + count → (fork n).since .cancun = false)
    (js : Nat → RpcBlock) (hj : ∀ n b, t.blockNumber < n → n ≤ t.blockNumber + count → chain[n - 1]? = some b →
      DescribesRpcBlock (fork n) (js n) b ∧ (js n).uncles.length = (ommersOf (fork n) b).length ∧ (ommersOf (fork n) b).length ≤ 20)
    (f : Fork) (hf : activeFork names t = some f) (hfc : f.since .cancun = false)
    (hs : ∀ n, t.blockNumber < n → n ≤ t.blockNumber + count → ommersAt fork chain n ≠ [] →
      (fork n).since .london = f.since .london ∧ (fork n).since .shanghai = f.since .shanghai)
    (answer : List (Reply RpcBlock)) (ha : RightOmmers fork (ommersAt fork chain) (List.range' (t.blockNumber + 1) count) answer) :
    ∃ t', fetchBlocksRpc names t (t.blockNumber + 1) count ((List.range' (t.blockNumber + 1) count).map fun n => ⟨n, .inr (some (js n))⟩) answer =
      some (((chain.drop t.blockNumber).take count).map .inr, t') ∧ Tracks forks chain t' ∧ t'.blockNumber = t.blockNumber + count := by
  unfold fetchBlocksRpc
  by_cases h0 : count = 0
  · subst h0; exact ⟨t, by simp, ht, rfl⟩
  rw [if_neg h0]
  have at_ : ∀ n b, chain[n - 1]? = some b → ommersAt fork chain n = ommersOf (fork n) b := fun n b hb => by unfold ommersAt; rw [hb]
  have range : ∀ n, n ∈ List.range' (t.blockNumber + 1) count → t.blockNumber < n ∧ n ≤ t.blockNumber + count ∧ ∃ b, chain[n - 1]? = some b := by
    intro n hn'
    have := List.mem_range'_1.mp hn'
    exact ⟨by omega, by omega, _, List.getElem?_eq_getElem (by omega)⟩
  obtain ⟨d, d1, d2⟩ := collectEth_ordered (t.blockNumber + 1) count js count (t.blockNumber + 1) Dict.empty Dict.empty (by simp [Dict.empty]) (by omega) (by omega)
  have e : d.entries = (List.range' (t.blockNumber + 1) count).map fun n => (n, js n) := d2
  obtain ⟨g, g1, g2⟩ := fetchOmmers_right hfc ha (fun n hn' => by
      obtain ⟨h1, h2, b, hb⟩ := range n hn'
      rw [at_ n b hb]; exact (hj n b h1 h2 hb).2.2) fun n hn' => hs n (range n hn').1 (range n hn').2.1
  have e1 : d.entries.map (fun x => (x.1, x.2.uncles.length)) = (List.range' (t.blockNumber + 1) count).map fun n => (n, (ommersAt fork chain n).length) := by
    rw [e, List.map_map]
    refine List.map_congr_left fun n hn' => ?_
    obtain ⟨h1, h2, b, hb⟩ := range n hn'
    show (n, (js n).uncles.length) = _
    rw [at_ n b hb, (hj n b h1 h2 hb).2.1]
  have e2 : d.entries.map (fun x => (x.1, x.2, g x.1)) = (List.range' (t.blockNumber + 1) count).map fun n => (n, js n, ommersAt fork chain n) := by
    rw [e, List.map_map]
    refine List.map_congr_left fun n hn' => ?_
    show (n, js n, g n) = _
    rw [g2 n hn']
  obtain ⟨l, t', m1, m2, m3, m4, m5⟩ := makeAll_ordered (fun j : RpcBlock × List AnyHeader => ((j.1.timestamp.bind word).getD 0 : Word))
    (fun f j => makeBlock f j.1 j.2) hc (fun n => (js n, ommersAt fork chain n)) count t ht hn (by
      intro n b j f' h1 h2 hb hi hf'
      have hff : f' = fork n := by
        rw [hfork n b j h1 h2 hb hi] at hf'
        exact (Option.some.inj hf').symm
      subst hff
      obtain ⟨d1, -, -⟩ := hj n b h1 h2 hb
      have hob : OfFork (fork n) b := by
        obtain ⟨j', f'', i1, i2, i3, -⟩ := hc.ofFork (n - 1) b hb
        rw [show n - 1 + 1 = n by omega] at i1
        rw [hfork n b j' h1 h2 hb i1] at i2
        cases i2; exact i3
      refine ⟨(makeBlock_iff ..).mpr ⟨hcan n h1 h2, d1, ?_⟩, ?_⟩
      · show HasOmmers (ommersAt fork chain n) b
        rw [at_ n b hb]; exact hasOmmers_of (hcan n h1 h2) hob
      · have htime : Has (js n).timestamp (WritesHex · (timeOf b).toNat) := by
          cases b with
          | pow b => exact d1.2.1.timestamp
          | pos b => exact d1.2.1.timestamp
        show ((js n).timestamp.bind word).getD 0 = timeOf b
        rw [(bind_has word_iff _ _).mpr htime]; rfl)
  refine ⟨t', ?_, m2, m3⟩
  rw [d1, Option.bind_some]
  dsimp only
  rw [hf, e1, g1, Option.bind_some]
  rw [e2, m1, Option.map_some]
  have hs : Sorted l := by
    have : (l.map Prod.fst).Pairwise (· < ·) := by rw [m5]; exact List.pairwise_lt_range'
    exact List.pairwise_map.mp this
  have e3 : (l.foldl (fun d x => d.set x.1 (.inr x.2)) (Dict.empty : Dict Nat (Int ⊕ NodeBlock))).entries = l.map fun x => (x.1, .inr x.2) :=
    foldSet_ordered l Dict.empty hs (by simp [Dict.empty])
  dsimp only
  have e4 : (Dict.empty : Dict Nat Int).entries = [] := rfl
  rw [e4, List.foldl_nil, e3, sortItems_id _ (by exact List.pairwise_map.mpr hs), List.map_map, ← m4, List.map_map]
  rfl

/-- C97: ommers are read with the fork that was active **before** the blocks that were asked for (see the findings): if that is before london, no ommer gets a
base fee, whatever the endpoint says and whatever the fork of its block is. -/
theorem C97_ommer_fork (names : List Fork) (t : ForkTracking) (f : Fork) (hf : activeFork names t = some f) (hl : f.since .london = false) (first count : Nat)
    (replies : List (Reply (Option RpcBlock))) (answer : List (Reply RpcBlock)) (l : List (Int ⊕ NodeBlock)) (t' : ForkTracking)
    (h : fetchBlocksRpc names t first count replies answer = some (l, t')) (b : PowBlock Txs) (hb : .inr (.pow b) ∈ l) : ∀ o ∈ b.ommers, o.baseFeePerGas = none := by
  unfold fetchBlocksRpc at h
  split at h
  · cases h; exact absurd hb List.not_mem_nil
  · obtain ⟨c, -, h⟩ := Option.bind_eq_some_iff.mp h
    obtain ⟨g, hg, h⟩ := Option.bind_eq_some_iff.mp h
    obtain ⟨r, hr, h⟩ := Option.map_eq_some_iff.mp h
    rw [hf] at hg
    have hall := fetchOmmers_all (P := fun h => h.1.baseFeePerGas = none) (fun j h e => by
      obtain ⟨-, hd⟩ := (makeHeader_iff f j h).mp e
      rcases hd.baseFee with ⟨e, -⟩ | ⟨-, e⟩
      · rw [hl] at e; cases e
      · exact e) hg
    have hmade := makeAll_mem _ _ names _ t r.2 r.1 hr
    have hl' := congrArg Prod.fst h
    dsimp only at hl'
    rw [← hl'] at hb
    obtain ⟨x, hx, hxb⟩ := List.mem_map.mp hb
    rw [(sortItems_perm _).mem_iff] at hx
    have first := foldSet_values (P := fun y : Int ⊕ NodeBlock => ∀ b, y = .inr (.pow b) → ∀ o ∈ b.ommers, o.baseFeePerGas = none) Sum.inl c.2.entries
      Dict.empty (fun x hx => absurd hx List.not_mem_nil) (fun x _ b e => by cases e)
    have key := foldSet_values (P := fun y : Int ⊕ NodeBlock => ∀ b, y = .inr (.pow b) → ∀ o ∈ b.ommers, o.baseFeePerGas = none) Sum.inr r.1 _ first
      (fun x hx b e => by
        obtain ⟨f', j, hj, hm⟩ := hmade x hx
        obtain ⟨y, hy, ey⟩ := List.mem_map.mp hj
        obtain ⟨-, -, ho⟩ := (makeBlock_iff ..).mp hm
        cases e' : x.2 with
        | pos b' => rw [e'] at e; cases e
        | pow b' =>
          rw [e'] at e ho
          cases e
          have ho : b.ommers = j.2.map Prod.fst := ho
          intro o hoo
          rw [ho] at hoo
          obtain ⟨a, ha, rfl⟩ := List.mem_map.mp hoo
          have : j.2 = g y.1 := (congrArg (fun p => p.2.2) ey).symm
          exact hall y.1 a (this ▸ ha))
    exact key x hx b hxb

/-! ### Examples -/

/-- A block of london with a legacy transaction, one with dynamic fees and an ommer. -/
def rpcLondon : PowBlock Txs := ⟨{ mkHeader 1 7 3 131072 5 2 9 with baseFeePerGas := some 7 },
  [encodeTransaction (.legacy ⟨0, 10, 60000, some 88, 3, [1, 2], 27, 77, 1⟩), encodeTransaction (.feeMarket ⟨1, 1, 2, 9, 21000, none, 0, [], [⟨5, [6]⟩], 1, 2, 3⟩)],
  [{ mkHeader 1 6 3 131072 5 2 9 with baseFeePerGas := some 8 }]⟩

theorem rpcLondon_of : OfFork .london (.pow rpcLondon) := by
  refine ⟨by decide, ?_, fun h => absurd (by decide) h⟩
  intro h hm
  simp only [rpcLondon, List.mem_cons, List.not_mem_nil, or_false] at hm
  rcases hm with rfl | rfl <;> rfl

theorem rpcLondon_txs : ∀ x ∈ txsOf (.pow rpcLondon), ∃ tx, x = encodeTransaction tx ∧ TypeIn .london (typeNumber tx) ∧ SmallTx tx := by
  intro x hx
  have hx : x ∈ rpcLondon.transactions := hx
  simp only [rpcLondon, List.mem_cons, List.not_mem_nil, or_false] at hx
  rcases hx with rfl | rfl
  · exact ⟨_, rfl, .inl rfl, by decide, by decide⟩
  · exact ⟨_, rfl, .inr (.inr (.inl ⟨rfl, rfl⟩)), by decide, by decide, by decide⟩

/-- The hypotheses of `C97_written` and thus both sides of `C97_block`, `C97_header` and `C97_transaction` are met by a block with an ommer. -/
example : ∃ d, DescribesRpcBlock .london d (.pow rpcLondon) ∧ HasOmmers (ommersOf .london (.pow rpcLondon)) (.pow rpcLondon) ∧
    makeBlock .london d (ommersOf .london (.pow rpcLondon)) = some (.pow rpcLondon) := by
  obtain ⟨d, h1, -, h3⟩ := C97_written .london rfl _ rpcLondon_of rpcLondon_txs
  exact ⟨d, h1, hasOmmers_of rfl rpcLondon_of, h3⟩

/-- A case of `C97_ommer_fork`: the first block of london has an ommer with a base fee, and is read as a block with an ommer without one. -/
example : (fetchBlocksRpc [.berlin, .london] (startDownloader [.byBlockNumber 0, .byBlockNumber 1] 0 0) 1 1
    [⟨1, .inr (some { rpcHeaderOf rpcLondon.header none with transactions := some [], uncles := [[]] })⟩]
    [⟨20, .inr (rpcHeaderOf { mkHeader 1 6 3 131072 5 2 9 with baseFeePerGas := some 8 } none)⟩]).map (fun r => r.1.map fun
      | .inr (.pow b) => (b.header.baseFeePerGas, b.ommers.map PowHeader.baseFeePerGas)
      | _ => (none, [])) = some [(some 7, [none])] := by decide +kernel

theorem rpcLondon_chain : GoodChain [.london, .shanghai] twoForks [.pow rpcLondon, shanghaiBlock] := by
  refine ⟨fun i b hb => ?_, ?_⟩
  · match i, hb with
    | 0, hb => cases hb; exact ⟨0, .london, ⟨fun j c h1 h2 => by omega, fun c hc => by cases hc; decide, .inl rfl⟩, rfl, rpcLondon_of, by decide +kernel⟩
    | 1, hb => cases hb; exact ⟨1, .shanghai, twoForks_second, rfl, shanghai_of, shanghai_size⟩
  · simp only [List.pairwise_cons, List.mem_singleton, forall_eq, List.not_mem_nil, false_implies, implies_true, List.Pairwise.nil, and_true]
    decide

/-- The fork of each block of that chain. -/
def rpcFork (n : Nat) : Fork := if n = 1 then .london else .shanghai

/-- The hypotheses of `C97_fetch` (and `C97_ommers`) are met by a chain with an ommer and a fork. -/
example : ∃ (t : ForkTracking) (js : Nat → RpcBlock) (answer : List (Reply RpcBlock)), t.blockNumber = 0 ∧ answer ≠ [] ∧
    Tracks twoForks [.pow rpcLondon, shanghaiBlock] t ∧ activeFork [.london, .shanghai] t = some .london ∧
    (∀ n b j, 0 < n → n ≤ 2 → [.pow rpcLondon, shanghaiBlock][n - 1]? = some b → InForce twoForks n (timeOf b) j → [Fork.london, .shanghai][j]? = some (rpcFork n)) ∧
    (∀ n b, 0 < n → n ≤ 2 → [.pow rpcLondon, shanghaiBlock][n - 1]? = some b →
      DescribesRpcBlock (rpcFork n) (js n) b ∧ (js n).uncles.length = (ommersOf (rpcFork n) b).length ∧ (ommersOf (rpcFork n) b).length ≤ 20) ∧
    (∀ n, 0 < n → n ≤ 2 → ommersAt rpcFork [.pow rpcLondon, shanghaiBlock] n ≠ [] →
      (rpcFork n).since .london = Fork.since .london .london ∧ (rpcFork n).since .shanghai = Fork.since .london .shanghai) ∧
    RightOmmers rpcFork (ommersAt rpcFork [.pow rpcLondon, shanghaiBlock]) (List.range' 1 2) answer := by
  obtain ⟨d1, p1, p2, -⟩ := C97_written .london rfl _ rpcLondon_of rpcLondon_txs
  obtain ⟨d2, q1, q2, -⟩ := C97_written .shanghai rfl _ shanghai_of (fun x hx => absurd hx List.not_mem_nil)
  have two : ∀ n, 0 < n → n ≤ 2 → n = 1 ∨ n = 2 := fun n h1 h2 => by omega
  have om1 : ommersAt rpcFork [.pow rpcLondon, shanghaiBlock] 1 = [({ mkHeader 1 6 3 131072 5 2 9 with baseFeePerGas := some 8 }, none)] := rfl
  have om2 : ommersAt rpcFork [.pow rpcLondon, shanghaiBlock] 2 = [] := rfl
  refine ⟨startDownloader twoForks 0 0, fun n => if n = 1 then d1 else d2,
    [⟨20, .inr (rpcHeaderOf { mkHeader 1 6 3 131072 5 2 9 with baseFeePerGas := some 8 } none)⟩], rfl, List.cons_ne_nil _ _,
    C90_start_known _ _ _ rpcLondon_chain 0 0 (by simp) fun b hb => by simp, rfl, ?_, ?_, ?_, ?_, ?_⟩
  · intro n b j h1 h2 hb hi
    have hj : j < 2 := by rcases hi.bound with e | e <;> simp only [twoForks, List.length_cons, List.length_nil] at * <;> omega
    rcases two n h1 h2 with rfl | rfl
    · cases hb
      have : j ≠ 1 := by
        rintro rfl
        have := hi.active 1 _ (by omega) (Nat.le_refl _) rfl
        revert this; decide
      have : j = 0 := by omega
      subst this; rfl
    · cases hb
      have : j ≠ 0 := by
        rintro rfl
        have := hi.next (.byTimestamp 10) rfl
        revert this; decide
      have : j = 1 := by omega
      subst this; rfl
  · intro n b h1 h2 hb
    rcases two n h1 h2 with rfl | rfl
    · cases hb; exact ⟨p1, p2, by decide⟩
    · cases hb; exact ⟨q1, q2, by decide⟩
  · intro n h1 h2 hne
    rcases two n h1 h2 with rfl | rfl
    · exact ⟨rfl, rfl⟩
    · exact absurd om2 hne
  · intro id
    constructor
    · intro h
      have : id = 20 := by simpa using h
      exact ⟨1, by decide, 0, by decide, this⟩
    · rintro ⟨n, hn, i, hi, rfl⟩
      rcases two n (by have := List.mem_range'_1.mp hn; omega) (by have := List.mem_range'_1.mp hn; omega) with rfl | rfl
      · rw [om1] at hi
        have : i = 0 := by simpa using hi
        subst this; decide
      · rw [om2] at hi; exact absurd hi (by simp)
  · intro r hr n hn i h hh e
    simp only [List.mem_singleton] at hr
    subst hr
    rcases two n (by have := List.mem_range'_1.mp hn; omega) (by have := List.mem_range'_1.mp hn; omega) with rfl | rfl
    · dsimp only at e
      have : i = 0 := by omega
      subst this
      rw [om1] at hh
      cases hh
      exact ⟨_, rfl, rpcHeaderOf_describes _ _ _ rfl rfl⟩
    · rw [om2] at hh; cases hh

end Verif.Props
