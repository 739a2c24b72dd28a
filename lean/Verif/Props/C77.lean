import Verif.Lemmas.Genesis
import Verif.Props.C68
import Verif.Props.C69
/-! Property C77: the genesis block and its state, and what holds along a chain that starts from it. -/
namespace Verif.Props
open Verif Verif.Spec Genesis Hex Pow Ethash

theorem emptyRoot_ok (C : Crypto) : emptyRoot C = .ok (C.keccak256 (Rlp.encode (.bytes []))) := rfl

/-- **C77.** On a chain without state, the genesis block is added exactly if every entry of the configuration denotes an account. -/
theorem C77_accepts (C : Crypto) (K : Hashes) (F : PowFork) (blocks : List (PowBlock Txs)) (id : U64) (g : Configuration) :
    (∃ c, addGenesisBlock C K F ⟨blocks, State.empty F.fork, id⟩ g = some c) ↔ ∃ xs, Matched Denotes g.initialAccounts xs := by
  have hw : (State.empty F.fork).WF := ⟨State.empty_wf.main, State.empty_wf.storage, State.empty_wf.snaps⟩
  unfold addGenesisBlock
  simp only [Option.bind_eq_bind, Option.bind_eq_some_iff, emptyRoot_ok]
  constructor
  · rintro ⟨c, s, hs, -⟩
    obtain ⟨xs, hx, -⟩ := (addAccounts_iff _ _ _).mp hs
    exact ⟨xs, hx⟩
  · rintro ⟨xs, hx⟩
    obtain ⟨q1, q2, -⟩ := allot_quiet xs hw
    obtain ⟨r, hr⟩ := stateRoot_total_wf C _ q1 q2
    exact ⟨_, _, (addAccounts_iff _ _ _).mpr ⟨xs, hx, rfl⟩, by rw [hr]⟩

/-- **C77.** The state of the genesis block: at each address the account the configuration allots to it, and no other account; in
each slot the value written to it; no account counts as created and no snapshot is open; its ether is the sum of the amounts. -/
theorem C77_state {C : Crypto} {K : Hashes} {F : PowFork} {blocks : List (PowBlock Txs)} {id : U64} {g : Configuration} {c : PowChain Txs}
    (h : addGenesisBlock C K F ⟨blocks, State.empty F.fork, id⟩ g = some c) :
    ∃ xs, Matched Denotes g.initialAccounts xs ∧ Quiet c.state ∧ c.state.fork = F.fork ∧
      (∀ a, getAccountOptional c.state a = allotted xs a) ∧ (∀ a k, getStorage c.state a k = written (writes xs) a k) ∧
      supply c.state ≤ (xs.map fun x => x.account.balance.toNat).sum ∧
      ((xs.map (·.address)).Nodup → supply c.state = (xs.map fun x => x.account.balance.toNat).sum) := by
  have hw : (State.empty F.fork).WF := ⟨State.empty_wf.main, State.empty_wf.storage, State.empty_wf.snaps⟩
  unfold addGenesisBlock at h
  simp only [Option.bind_eq_bind, Option.bind_eq_some_iff] at h
  obtain ⟨s, hs, h⟩ := h
  obtain ⟨xs, hx, rfl⟩ := (addAccounts_iff _ _ _).mp hs
  split at h <;> cases h
  obtain ⟨q1, q2, q3, q4⟩ := allot_quiet xs hw
  obtain ⟨s1, s2⟩ := allot_supply xs hw
  have h0 : supply (State.empty F.fork) = 0 := rfl
  refine ⟨xs, hx, ⟨q1, q2, q3⟩, q4, fun a => ?_, fun a k => ?_, by rw [h0, Nat.zero_add] at s1; exact s1, fun hn => ?_⟩
  · dsimp only
    rw [allot_account]
    exact Option.or_none
  · exact allot_storage xs hw a k
  · have := s2 hn fun _ _ => rfl
    rw [h0, Nat.zero_add] at this; exact this

/-- **C77.** The block itself: number 0, no parent, no miner, no transactions and no ommers; the state root is the root of the
state and the other roots are those of empty tries; the rest is as configured. The chain id is that of the configuration. -/
theorem C77_block {C : Crypto} {K : Hashes} {F : PowFork} {chain c : PowChain Txs} {g : Configuration}
    (h : addGenesisBlock C K F chain g = some c) :
    ∃ b, c.blocks = chain.blocks ++ [b] ∧ c.chainId = g.chainId ∧ b.transactions = [] ∧ b.ommers = [] ∧
      stateRoot C c.state = .ok b.header.stateRoot ∧ b.header.transactionsRoot = C.keccak256 [0x80] ∧ b.header.receiptRoot = C.keccak256 [0x80] ∧
      b.header.ommersHash = K.keccak256 [0xc0] ∧ b.header.parentHash = 0 ∧ b.header.coinbase = 0 ∧ b.header.bloom = 0 ∧ b.header.number = 0 ∧
      b.header.gasUsed = 0 ∧ b.header.mixDigest = 0 ∧ b.header.difficulty = g.difficulty ∧ b.header.gasLimit = g.gasLimit ∧
      b.header.timestamp = g.timestamp ∧ b.header.extraData = g.extraData ∧ b.header.nonce = g.nonce ∧
      b.header.baseFeePerGas = if F.fork.since .london then some 1000000000 else none := by
  unfold addGenesisBlock at h
  simp only [Option.bind_eq_bind, Option.bind_eq_some_iff] at h
  obtain ⟨s, hs, h⟩ := h
  split at h <;> cases h
  rename_i r e hr he
  rw [emptyRoot_ok] at he
  cases he
  have hf : (if hasBaseFee F then some (10 ^ 9) else none) = if F.fork.since .london then some 1000000000 else none := by cases F <;> rfl
  exact ⟨_, rfl, rfl, rfl, rfl, hr, rfl, rfl, rfl, rfl, rfl, rfl, rfl, rfl, rfl, rfl, rfl, rfl, rfl, rfl, hf⟩

/-- **C77**, proof-of-stake forks: the same state, and a block with a base fee of one gwei and nothing in the fields of later forks. -/
theorem C77_pos {C : Crypto} {f : Fork} {blocks : List ChainBlock} {id : U64} {g : Configuration} {c : BlockChain}
    (h : addGenesisBlockPos C f ⟨blocks, State.empty f, id⟩ g = some c) :
    ∃ xs b, Matched Denotes g.initialAccounts xs ∧ Quiet c.state ∧ c.state.fork = f ∧
      (∀ a, getAccountOptional c.state a = allotted xs a) ∧ (∀ a k, getStorage c.state a k = written (writes xs) a k) ∧
      supply c.state ≤ (xs.map fun x => x.account.balance.toNat).sum ∧
      ((xs.map (·.address)).Nodup → supply c.state = (xs.map fun x => x.account.balance.toNat).sum) ∧
      c.blocks = blocks ++ [⟨f, b⟩] ∧ c.chainId = g.chainId ∧ b.transactions = [] ∧ b.ommers = [] ∧ b.withdrawals = [] ∧
      stateRoot C c.state = .ok b.header.stateRoot ∧ b.header.transactionsRoot = C.keccak256 [0x80] ∧ b.header.receiptRoot = C.keccak256 [0x80] ∧
      b.header.ommersHash = C.keccak256 [0xc0] ∧ b.header.parentHash = 0 ∧ b.header.coinbase = 0 ∧ b.header.bloom = 0 ∧ b.header.number = 0 ∧
      b.header.gasUsed = 0 ∧ b.header.prevRandao = 0 ∧ b.header.difficulty = g.difficulty ∧ b.header.gasLimit = g.gasLimit ∧
      b.header.timestamp = g.timestamp ∧ b.header.extraData = g.extraData ∧ b.header.nonce = g.nonce ∧
      b.header.baseFeePerGas = 1000000000 ∧ (f.since .shanghai = true → b.header.withdrawalsRoot = C.keccak256 [0x80]) ∧
      b.header.blobGasUsed = 0 ∧ b.header.excessBlobGas = 0 ∧ b.header.parentBeaconBlockRoot = 0 ∧ b.header.requestsHash = 0 := by
  have hw : (State.empty f).WF := ⟨State.empty_wf.main, State.empty_wf.storage, State.empty_wf.snaps⟩
  unfold addGenesisBlockPos at h
  simp only [Option.bind_eq_bind, Option.bind_eq_some_iff] at h
  obtain ⟨s, hs, h⟩ := h
  obtain ⟨xs, hx, rfl⟩ := (addAccounts_iff _ _ _).mp hs
  split at h <;> cases h
  rename_i r e hr he
  rw [emptyRoot_ok] at he
  cases he
  obtain ⟨q1, q2, q3, q4⟩ := allot_quiet xs hw
  obtain ⟨s1, s2⟩ := allot_supply xs hw
  have h0 : supply (State.empty f) = 0 := rfl
  refine ⟨xs, _, hx, ⟨q1, q2, q3⟩, q4, fun a => ?_, fun a k => ?_, by rw [h0, Nat.zero_add] at s1; exact s1, fun hn => ?_, rfl, rfl, rfl, rfl, rfl, hr, rfl, rfl,
    rfl, rfl, rfl, rfl, rfl, rfl, rfl, rfl, rfl, rfl, rfl, rfl, rfl, fun hf => if_pos hf, rfl, rfl, rfl, rfl⟩
  · dsimp only
    rw [allot_account]
    exact Option.or_none
  · exact allot_storage xs hw a k
  · have := s2 hn fun _ _ => rfl
    rw [h0, Nat.zero_add] at this; exact this

/-- **C77.** From genesis to the last block: never more ether than the configured amounts, the rewards of the mined blocks and the
withdrawals, and no transaction twice. -/
theorem C77_chain {C : Crypto} {K : Hashes} {F : PowFork} {id : U64} {g : Configuration} {c c' : PowChain Txs} {chain : BlockChain}
    {bs : List (PowFork × PowBlock Txs)} {bs' : List ChainBlock}
    (h : addGenesisBlock C K F ⟨[], State.empty F.fork, id⟩ g = some c) (hm : Mined C K c bs c')
    (hf : Fork.since .paris c'.state.fork = true) (hi : Imports C (merge c') bs' chain) :
    ∃ xs, Matched Denotes g.initialAccounts xs ∧
      supply chain.state ≤ (xs.map fun x => x.account.balance.toNat).sum + (bs.map fun b => issued b.1 b.2).sum +
        (bs'.map fun b => withdrawn b.fork b.block.withdrawals).sum ∧
      (minedTxs bs ++ importedTxs bs').Nodup ∧ chain.chainId = g.chainId := by
  obtain ⟨xs, hx, hq, -, -, -, hs, -⟩ := C77_state h
  obtain ⟨b, -, hid, -⟩ := C77_block h
  have h1 := C68_merge hq hm hi
  refine ⟨xs, hx, by omega, C69_no_replay hq hm hf hi, ?_⟩
  rw [(whole_lineage hm hf hi).2, hid]

/-- **C77**, `get_genesis_configuration`: the fields of the file, read as the numbers and bytes they denote. -/
theorem C77_configuration (d : Data) (g : Configuration) :
    getGenesisConfiguration d = some g ↔
      d.chainId < 2 ^ 64 ∧ g.chainId.toNat = d.chainId ∧ HexNumber d.difficulty g.difficulty ∧ HexNumber d.gasLimit g.gasLimit ∧
      (∃ t, Body d.extraData t ∧ Numeral 16 t ∧ t.length = 2 * g.extraData.length ∧ fromBE g.extraData = numeralValue 16 t) ∧
      (∃ t, Body d.nonce t ∧ Numeral 16 t ∧ t.length ≤ 16 ∧ g.nonce.toNat = numeralValue 16 t) ∧
      Amount d.timestamp g.timestamp.toNat ∧ g.initialAccounts = d.alloc := by
  have hu : ∀ s n, hexToUint s = some n ↔ HexNumber s n := by
    intro s n
    obtain ⟨t, ht⟩ := body_exists s
    unfold hexToUint
    rw [removeHexPrefix_body ht, int_iff (by decide)]
    constructor
    · intro h; exact ⟨t, ht, h⟩
    · rintro ⟨u, hu, h⟩; rw [body_unique ht hu]; exact h
  have h8 : ∀ s b, hexToBytes8 s = some b ↔ ∃ t, Body s t ∧ Numeral 16 t ∧ t.length ≤ 16 ∧ b = toBE 8 (numeralValue 16 t) := by
    intro s b
    obtain ⟨t, ht⟩ := body_exists s
    unfold hexToBytes8
    rw [removeHexPrefix_body ht, padded_iff 8 t b]
    constructor
    · intro h; exact ⟨t, ht, h⟩
    · rintro ⟨u, hu, h⟩; rw [body_unique ht hu]; exact h
  have hp : ∀ t : Str, Numeral 16 t → t.length ≤ 16 → fromBE (toBE 8 (numeralValue 16 t)) = numeralValue 16 t ∧ numeralValue 16 t < 2 ^ 64 :=
    fun t h hl => fromBE_padded (n := 8) h hl
  unfold getGenesisConfiguration
  simp only [Option.bind_eq_bind, Option.bind_eq_some_iff, bounded_iff, hu, h8, hexToBytes_iff, amount_iff]
  generalize htb : toBE 8 = tb at hp
  constructor
  · rintro ⟨i, ⟨hi, hlt⟩, n1, d1, b1, e1, n2, g1, b2, ⟨t, t1, t2, t3, t4⟩, n3, ⟨a1, a2⟩, e⟩
    cases hi; cases e
    obtain ⟨p1, p2⟩ := hp t t2 t3
    refine ⟨hlt, ?_, d1, g1, e1, ⟨t, t1, t2, t3, ?_⟩, ?_, rfl⟩
    · exact Nat.mod_eq_of_lt hlt
    · dsimp only; rw [t4, p1, BitVec.toNat_ofNat, Nat.mod_eq_of_lt p2]
    · dsimp only; rw [BitVec.toNat_ofNat, Nat.mod_eq_of_lt a2]; exact a1
  · rintro ⟨hlt, hi, d1, g1, e1, ⟨t, t1, t2, t3, t4⟩, a1, e⟩
    obtain ⟨p1, p2⟩ := hp t t2 t3
    refine ⟨_, ⟨rfl, hlt⟩, _, d1, _, e1, _, g1, _, ⟨t, t1, t2, t3, rfl⟩, _, ⟨a1, g.timestamp.isLt⟩, ?_⟩
    rw [p1, ← t4, ← hi, ← e]
    simp only [BitVec.ofNat_toNat, BitVec.setWidth_eq]
    rfl

/-! ### A configuration with an account that has code and storage -/

def sampleData : Data :=
  { chainId := 1, difficulty := "0x400000000".toList, extraData := "0x11bbe8".toList, gasLimit := "0x1388".toList, nonce := "0x42".toList,
    timestamp := "0".toList,
    alloc := [("000d836201318ec6899a67540690382780743280".toList, ⟨none, some "200000000000000000000".toList, none, []⟩),
      ("0x58".toList, ⟨some "1".toList, some "0x0a".toList, some "0x6007600155".toList, [("0x01".toList, "0x2".toList), ("3".toList, "0x0".toList)]⟩)] }

def sampleConfiguration : Configuration :=
  ⟨1, 0x400000000, [0x11, 0xbb, 0xe8], 5000, 0x42, 0, sampleData.alloc⟩

example : (getGenesisConfiguration sampleData).any (fun g => g.chainId == 1 && g.difficulty == 0x400000000 && g.extraData == [0x11, 0xbb, 0xe8] &&
    g.gasLimit == 5000 && g.nonce == 0x42 && g.timestamp == 0) = true := by decide +kernel

def genesisOutcome (c : Option (PowChain Txs)) : Bool :=
  match c with
  | none => false
  | some c => supply c.state == 200000000000000000010 && getStorage c.state 0x58 1 == 2 && getStorage c.state 0x58 3 == 0 &&
    (getAccount c.state 0x58).nonce == 1 && (getAccount c.state 0x58).code == [0x60, 7, 0x60, 1, 0x55] && c.blocks.length == 1 &&
    (getAccount c.state 0x000d836201318ec6899a67540690382780743280).balance == 200000000000000000000

/-- It yields a genesis block, in each of the forks, from which a chain can go on to proof of stake. -/
example : (∀ F ∈ [PowFork.frontier, .byzantium, .london, .grayGlacier],
      genesisOutcome (addGenesisBlock sampleCrypto sampleK F ⟨[], State.empty F.fork, 0⟩ sampleConfiguration) = true) ∧
    ∃ c c' chain, addGenesisBlock sampleCrypto sampleK .frontier ⟨[], State.empty .frontier, 0⟩ sampleConfiguration = some c ∧
      Mined sampleCrypto sampleK c [] c' ∧ Fork.since .paris c'.state.fork = true ∧ Imports sampleCrypto (merge c') [] chain := by
  have h : ∀ F ∈ [PowFork.frontier, .byzantium, .london, .grayGlacier],
      genesisOutcome (addGenesisBlock sampleCrypto sampleK F ⟨[], State.empty F.fork, 0⟩ sampleConfiguration) = true := by decide +kernel
  refine ⟨h, ?_⟩
  have h1 := h .frontier (by decide)
  match hc : addGenesisBlock sampleCrypto sampleK .frontier ⟨[], State.empty .frontier, 0⟩ sampleConfiguration with
  | none => rw [show PowFork.fork .frontier = .frontier from rfl, hc] at h1; cases h1
  | some c =>
    have hf : c.state.fork = .frontier := (C77_state hc).choose_spec.2.2.1
    refine ⟨c, _, _, rfl, .fork .grayGlacier (by rw [hf]; rfl) rfl (.nil _), rfl, .nil _⟩

/-- An account without a balance is not accepted. -/
example : ¬ ∃ xs, Matched Denotes [("0x58".toList, ⟨none, none, none, []⟩)] xs := by
  rintro ⟨xs, h⟩
  cases h with
  | cons h t => obtain ⟨b, hb, -⟩ := h.balance; cases hb

end Verif.Props
