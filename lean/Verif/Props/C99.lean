import Verif.Spec.ResultJson
import Verif.Lemmas.Rpc
import Verif.Lemmas.B11r
import Verif.Props.C35_mined
import Verif.Props.C88
import Verif.Props.C98
/-!
C99: the output of the transition tool in JSON: it says the result, it determines it, for a block that can be imported it says what the header says and lists
the receipts, and the block builder makes the block from it.
-/
namespace Verif.Props
open Verif Pow Ethash T8n EnvJson ResultJson B11r Spec

private theorem prints_bytes (b : Bytes) : PrintsBytes (encodeToHex b) b := ⟨⟨_, rfl⟩, _, .inl rfl, bytesHex_spec b⟩

private theorem prints_hex (n : Nat) : PrintsHex (T8n.hex n) n := ⟨⟨_, rfl⟩, writesHex_hex n⟩

private theorem prints_word (o : Option Word) : PrintsWord o (o.map fun w => encodeToHex (wordBytes w)) := by
  cases o with
  | none => exact trivial
  | some w => exact prints_bytes _

private theorem prints_number (o : Option Nat) : PrintsNumber o (o.map T8n.hex) := by
  cases o with
  | none => exact trivial
  | some n => exact prints_hex n

private theorem prints_positive (o : Option Nat) : PrintsPositive o (unlessZero o) := by
  unfold PrintsPositive
  cases o with
  | none => exact trivial
  | some n =>
    by_cases h : n = 0
    · subst h; exact trivial
    · have e : ¬ (some n = some 0) := fun x => h (Option.some.inj x)
      rw [if_neg e]
      show PrintsNumber _ (if n = 0 then none else some (T8n.hex n))
      rw [if_neg h]
      exact prints_hex n

/-- C99: the output says the result. -/
theorem C99_prints (r : Result) : Prints (resultJson r) r where
  stateRoot := prints_bytes _
  txRoot := prints_bytes _
  receiptsRoot := prints_bytes _
  withdrawalsRoot := prints_word _
  logsHash := prints_bytes _
  logsBloom := prints_bytes _
  gasUsed := prints_hex _
  difficulty := prints_positive _
  baseFee := prints_positive _
  excessBlobGas := by
    have := prints_number (r.excessBlobGas.map BitVec.toNat)
    rwa [Option.map_map] at this
  blobGasUsed := prints_number _
  rejected := rfl
  receipts := by
    show Each PrintsReceipt (r.receipts.map receiptJson) r.receipts
    induction r.receipts with
    | nil => exact trivial
    | cons x l ih =>
      refine ⟨⟨prints_bytes _, fun b h => ?_, fun w h => ?_, prints_hex _, prints_bytes _⟩, ih⟩
      · unfold receiptJson; rw [h]; exact ⟨rfl, rfl⟩
      · unfold receiptJson; rw [h]; exact ⟨rfl, prints_bytes _⟩
  requestsHash := prints_word _
  requests := fun h l hl => by
    refine ⟨l.map encodeToHex, ?_, ?_⟩
    · show (if r.requestsHash.isSome = true then r.requests.map _ else none) = _
      rw [if_pos h, hl]; rfl
    · clear hl
      induction l with
      | nil => exact trivial
      | cons x l ih => exact ⟨prints_bytes _, ih⟩
  exception := rfl

private theorem same_hex {s : List Char} {n n' : Nat} (h : PrintsHex s n) (h' : PrintsHex s n') : n = n' := writesHex_unique h.2 h'.2

private theorem same_word {s : List Char} {w w' : Word} (h : PrintsBytes s (wordBytes w)) (h' : PrintsBytes s (wordBytes w')) : w = w' := by
  have := congrArg fromBE (writesBytes_unique h.2 h'.2)
  rw [fromBE_wordBytes, fromBE_wordBytes] at this
  exact BitVec.eq_of_toNat_eq this

private theorem same_bloom {s : List Char} {w w' : BitVec 2048} (h : PrintsBytes s (toBE 256 w.toNat)) (h' : PrintsBytes s (toBE 256 w'.toNat)) : w = w' := by
  have e := (bytes256_iff s w).mpr h.2
  rw [(bytes256_iff s w').mpr h'.2] at e
  exact (Option.some.inj e).symm

private theorem same_words {s : Option (List Char)} {o o' : Option Word} (h : PrintsWord o s) (h' : PrintsWord o' s) : o = o' := by
  match s, o, o' with
  | none, none, none => rfl
  | some s, some w, some w' => exact congrArg some (same_word h h')
  | none, some _, _ => cases h
  | none, none, some _ => cases h'
  | some _, none, _ => cases h
  | some _, some _, none => cases h'

private theorem same_number {s : Option (List Char)} {o o' : Option Nat} (h : PrintsNumber o s) (h' : PrintsNumber o' s) : o = o' := by
  match s, o, o' with
  | none, none, none => rfl
  | some s, some w, some w' => exact congrArg some (same_hex h h')
  | none, some _, _ => cases h
  | none, none, some _ => cases h'
  | some _, none, _ => cases h
  | some _, some _, none => cases h'

private theorem same_positive {s : Option (List Char)} {o o' : Option Nat} (h : PrintsPositive o s) (h' : PrintsPositive o' s) : o.getD 0 = o'.getD 0 := by
  have e := same_number h h'
  have k : ∀ o : Option Nat, o.getD 0 = (if o = some 0 then none else o).getD 0 := by
    intro o
    split
    · rename_i h; rw [h]; rfl
    · rfl
  rw [k o, k o', e]

private theorem same_each {α β : Type} {R : α → β → Prop} {S : β → β → Prop} (hS : ∀ a b b', R a b → R a b' → S b b') : ∀ {l : List α} {m m' : List β},
    Each R l m → Each R l m' → Each S m m'
  | [], [], [], _, _ => trivial
  | _ :: _, _ :: _, _ :: _, h, h' => ⟨hS _ _ _ h.1 h'.1, same_each hS h.2 h'.2⟩
  | [], _ :: _, _, h, _ => by cases h
  | [], [], _ :: _, _, h => by cases h
  | _ :: _, [], _, h, _ => by cases h
  | _ :: _, _ :: _, [], _, h => by cases h

private theorem each_eq {α : Type} : ∀ {l m : List α}, Each (· = ·) l m → l = m
  | [], [], _ => rfl
  | _ :: _, _ :: _, h => by rw [h.1, each_eq h.2]
  | [], _ :: _, h => by cases h
  | _ :: _, [], h => by cases h

private theorem same_status {a : ReceiptJson} {x y : Word × Receipt} (hx : PrintsReceipt a x) (hy : PrintsReceipt a y) : x.2.status = y.2.status := by
  match e : x.2.status, e' : y.2.status with
  | .succeeded b, .succeeded b' =>
    have := (hx.succeeded b e).1.symm.trans (hy.succeeded b' e').1
    rw [Option.some.inj this]
  | .postState w, .postState w' => rw [Option.some.inj (same_words (hx.postState w e).2 (hy.postState w' e').2)]
  | .succeeded b, .postState w => have := (hx.succeeded b e).1.symm.trans (hy.postState w e').1; cases this
  | .postState w, .succeeded b => have := (hx.postState w e).1.symm.trans (hy.succeeded b e').1; cases this

/-- C99: two results that the same object says agree, but for the logs of receipts and for a base fee or difficulty of 0. -/
theorem C99_determines {j : ResultJson.ResultJson} {r r' : Result} (h : Prints j r) (h' : Prints j r') : SameReport r r' where
  stateRoot := same_word h.stateRoot h'.stateRoot
  txRoot := same_word h.txRoot h'.txRoot
  receiptRoot := same_word h.receiptsRoot h'.receiptsRoot
  withdrawalsRoot := same_words h.withdrawalsRoot h'.withdrawalsRoot
  logsHash := same_word h.logsHash h'.logsHash
  bloom := same_bloom h.logsBloom h'.logsBloom
  gasUsed := same_hex h.gasUsed h'.gasUsed
  difficulty := same_positive h.difficulty h'.difficulty
  baseFee := same_positive h.baseFee h'.baseFee
  excessBlobGas := by
    have e := same_number h.excessBlobGas h'.excessBlobGas
    match hr : r.excessBlobGas, hr' : r'.excessBlobGas with
    | none, none => rfl
    | some x, some y => rw [hr, hr'] at e; exact congrArg some (BitVec.eq_of_toNat_eq (Option.some.inj e))
    | none, some y => rw [hr, hr'] at e; cases e
    | some x, none => rw [hr, hr'] at e; cases e
  blobGasUsed := same_number h.blobGasUsed h'.blobGasUsed
  rejected := h.rejected.symm.trans h'.rejected
  receipts := same_each (fun a x y hx hy => ⟨same_word hx.hash hy.hash, same_status hx hy,
    same_hex hx.gasUsed hy.gasUsed, same_bloom hx.bloom hy.bloom⟩) h.receipts h'.receipts
  requestsHash := same_words h.requestsHash h'.requestsHash
  requests := fun hs l l' hl hl' => by
    obtain ⟨m, h1, h2⟩ := h.requests hs l hl
    obtain ⟨m', h3, h4⟩ := h'.requests (by rw [← same_words h.requestsHash h'.requestsHash]; exact hs) l' hl'
    rw [h1] at h3
    rw [← Option.some.inj h3] at h4
    exact each_eq (same_each (R := PrintsBytes) (S := (· = ·)) (fun _ _ _ hx hy => writesBytes_unique hx.2 hy.2) h2 h4)
  exception := h.exception.symm.trans h'.exception

/-- C99: a base fee of 0 is printed like none. -/
theorem C99_zero (r : Result) (h : r.baseFee = some 0) : (resultJson r).currentBaseFee = none ∧ resultJson r = resultJson { r with baseFee := none } := by
  have e : unlessZero r.baseFee = none := by rw [h]; rfl
  refine ⟨e, ?_⟩
  unfold resultJson
  dsimp only
  rw [e]; rfl

theorem printsHeader_of {f : Fork} {r : Result} {h : Header} (hr : Reports f r h) (ha : AllAccepted r) : PrintsHeader f (resultJson r) h := by
  have p := C99_prints r
  exact {
    stateRoot := hr.stateRoot ▸ p.stateRoot
    txRoot := hr.txRoot ▸ p.txRoot
    receiptsRoot := hr.receiptRoot ▸ p.receiptsRoot
    withdrawalsRoot := hr.withdrawalsRoot ▸ p.withdrawalsRoot
    logsBloom := hr.bloom ▸ p.logsBloom
    gasUsed := hr.gasUsed ▸ p.gasUsed
    baseFee := hr.baseFee ▸ p.baseFee
    excessBlobGas := by
      have := p.excessBlobGas
      rw [hr.excessBlobGas] at this
      split at this <;> rename_i hc
      · rw [if_pos hc]; exact this
      · rw [if_neg hc]; exact this
    requestsHash := hr.requestsHash ▸ p.requestsHash
    rejected := p.rejected.trans ha.rejected
    exception := p.exception.trans ha.exception }

/-- **C99.** From JSON to JSON: given the environment of a block that can be imported, written, and its transactions, the tool arrives at the state of the block, prints
what the header says, and lists the receipts of its transactions, in order; they are those of which the header has the root. (The hypotheses are those of
`C80_import`.) -/
theorem C99_import {C : Crypto} {chain chain' : BlockChain} {b : Block} {d : EnvData} (hc : ChainFits chain) (hh : HeaderFits chain.state.fork b.header)
    (hz : chain.state.fork.since .osaka = false → (Rlp.encode (.ofBlock chain.state.fork b)).length < 2 ^ 47)
    (hd : Describes C chain b d)
    (ho : chain.state.fork.since .prague = true → CallsCommute C (blockEnvOf C chain b.header) chain.state)
    (h : stateTransition C chain b = .ok chain') :
    ∃ e B r, readEnv chain.state.fork (writtenEnv d) = some e ∧ blockEnvironment C chain.state.fork chain.chainId e = .ok (some B) ∧
      (∀ reward, runBlockchainTest C B reward e.ommers e.withdrawals chain.state (readTxs chain.state.fork 0 b.transactions) = .ok (chain'.state, r)) ∧
      PrintsHeader chain.state.fork (resultJson r) b.header ∧
      ∃ rs : List (Transaction × Receipt), b.transactions.map (decodeTransaction chain.state.fork) = rs.map (fun p => .ok p.1) ∧
        trieRoot C false (indexEntries (rs.map fun p => receiptBytes p.1 p.2)) = .ok b.header.receiptRoot ∧
        Each PrintsReceipt (resultJson r).receipts (rs.map fun p => (C.keccak256 (wireBytes p.1), p.2)) ∧
        PrintsBytes (resultJson r).logsHash (wordBytes (C.keccak256 (Rlp.encode (.list ((rs.flatMap fun p => p.2.logs).map .ofLog))))) ∧
        (resultJson r).currentDifficulty = none ∧ (resultJson r).blobGasUsed = none ∧
        (chain.state.fork.since .prague = true → ∃ l l', (resultJson r).requests = some l' ∧ Each PrintsBytes l' l ∧
          C.sha256 (l.flatMap fun q => wordBytes (C.sha256 q)) = b.header.requestsHash) := by
  obtain ⟨B, r, h1, -, h2, h3, h4⟩ := C80_import hc hh hz (describes_seen hc.fork hd) ho h
  obtain ⟨rs, g1, g2, -, g3, g4, g5, g6, -, g7⟩ := C80_receipts hc hh hz (describes_seen hc.fork hd) ho h h1 (h2 none)
  refine ⟨_, B, r, C98_written _ d, h1, h2, printsHeader_of h3 h4, rs, g1, g2, g3 ▸ (C99_prints r).receipts, g4 ▸ (C99_prints r).logsHash, ?_, ?_, fun hp => ?_⟩
  · show unlessZero r.difficulty = none
    rw [g5]; rfl
  · show r.blobGasUsed.map T8n.hex = none
    rw [g6]; rfl
  · obtain ⟨l, k1, k2⟩ := g7 hp
    obtain ⟨l', k3, k4⟩ := (C99_prints r).requests (by rw [h3.requestsHash, if_pos hp]; rfl) l k1
    exact ⟨l, l', k3, k4, k2⟩

theorem unread_nil {f : Fork} : ∀ {txs : List (LegacyTx ⊕ Bytes)} {i : Nat}, unreadTxs f i txs = [] → (txs.filter fun t => (decodeTransaction f t).isOk) = txs
  | [], _, _ => rfl
  | t :: r, i, h => by
    rw [unreadTxs] at h
    match hd : decodeTransaction f t with
    | .error e => rw [hd] at h; cases h
    | .ok tx =>
      rw [hd] at h
      rw [List.filter_cons_of_pos (by rw [hd]; rfl), unread_nil h]

/-- C99: if all transactions can be decoded, the output `body` writes all of them. -/
theorem C99_body {f : Fork} {txs : List (LegacyTx ⊕ Bytes)} (h : unreadTxs f 0 txs = []) : PrintsBytes (bodyJson f txs) (Rlp.encode (.list (txs.map txItem))) := by
  unfold bodyJson
  rw [unread_nil h, show txs.map bodyItem = txs.map txItem from List.map_congr_left fun t _ => by cases t <;> rfl]
  exact prints_bytes _

private theorem bodyJson_eq {f : Fork} {txs : List (LegacyTx ⊕ Bytes)} (h : unreadTxs f 0 txs = []) : bodyJson f txs = writtenBytes (Rlp.encode (.list (txs.map txItem))) := by
  unfold bodyJson
  rw [unread_nil h, show txs.map bodyItem = txs.map txItem from List.map_congr_left fun t _ => by cases t <;> rfl]
  rfl

/-- **C99.** The tools together: for a block of paris or shanghai that can be imported (with a base fee other than 0) the block builder makes the block, and its hash, from what the transition tool
prints - the result and the body - and the members of the header that it does not print. -/
theorem C99_pipeline {C : Crypto} {chain chain' : BlockChain} {b : Block} {d : EnvData} (hc : ChainFits chain) (hh : HeaderFits chain.state.fork b.header)
    (hz : (Rlp.encode (.ofBlock chain.state.fork b)).length < 2 ^ 47) (hf : chain.state.fork.since .cancun = false) (hb : b.header.baseFeePerGas ≠ 0)
    (hd : Describes C chain b d) (h : stateTransition C chain b = .ok chain') :
    ∃ e B r, readEnv chain.state.fork (writtenEnv d) = some e ∧ blockEnvironment C chain.state.fork chain.chainId e = .ok (some B) ∧
      runBlockchainTest C B none e.ommers e.withdrawals chain.state (readTxs chain.state.fork 0 b.transactions) = .ok (chain'.state, r) ∧
      buildBlock C.keccak256 ⟨fromResult (resultJson r) (restOf (oldFields b.header)), bodyJson chain.state.fork b.transactions, [],
          if chain.state.fork.since .shanghai then some (b.withdrawals.map writtenWithdrawal) else none⟩ =
        some (Rlp.encode (.ofBlock chain.state.fork b), headerHash C chain.state.fork b.header) := by
  have hp : ¬ chain.state.fork.since .prague = true := by revert hf; cases chain.state.fork <;> decide
  obtain ⟨B, r, h1, hu, h2, h3, h4⟩ := C80_import hc hh (fun _ => hz) (describes_seen hc.fork hd) (fun x => absurd x hp) h
  refine ⟨_, B, r, C98_written _ d, h1, h2 none, ?_⟩
  have hk := C88_every_block C hf b (by omega)
  have hom : b.ommers = [] := by
    obtain ⟨-, -, -, hom, -⟩ := stateTransition_ok h
    exact hom
  rw [hom] at hk
  have e1 : fromResult (resultJson r) (restOf (oldFields b.header)) = writtenHeader (oldFields b.header) (rootIn chain.state.fork b.header) := by
    have eb : unlessZero r.baseFee = some (T8n.hex b.header.baseFeePerGas) := by
      rw [h3.baseFee]; exact if_neg hb
    have ew : r.withdrawalsRoot = rootIn chain.state.fork b.header := h3.withdrawalsRoot
    unfold fromResult resultJson restOf writtenHeader
    dsimp only
    rw [h3.stateRoot, h3.txRoot, h3.receiptRoot, h3.bloom, h3.gasUsed, eb, ew]
    rfl
  rw [e1, bodyJson_eq hu]
  rw [← hk]
  unfold writtenBlock
  refine congrArg (fun w => buildBlock C.keccak256 ⟨_, _, _, w⟩) ?_
  split <;> rfl

private theorem update_old {C : Crypto} {B : BlockEnv} {p : T8n.Progress} {r : Result} {x : Bool} {n : Nat} (h : update C B p x = .ok r)
    (hd : r.difficulty = some n) : r.withdrawalsRoot = none := by
  unfold update at h
  match hk : commitments C p.b with
  | .error c => rw [hk] at h; cases h
  | .ok k =>
    rw [hk] at h
    dsimp only at h
    match hl : receiptsFromOutput C p.b.out p.b.out.receiptKeys with
    | .error c => rw [hl] at h; cases h
    | .ok l =>
      rw [hl] at h
      dsimp only at h
      have e := Except.ok.inj h
      rw [← e] at hd ⊢
      by_cases hp : p.b.state.fork.since .paris = true
      · rw [if_pos hp] at hd; cases hd
      · exact if_neg fun hs => hp (since_later hs rfl)

private theorem test_old {C : Crypto} {B : BlockEnv} {reward : Option Int} {om : List Ommer} {ws : List Withdrawal} {s s' : State} {txs : List (Nat × Transaction)} {r : Result} {n : Nat}
    (h : runBlockchainTest C B reward om ws s txs = .ok (s', r)) (hd : r.difficulty = some n) : r.withdrawalsRoot = none := by
  unfold runBlockchainTest at h
  split at h
  · split at h
    · cases h
    · rename_i hu
      have e := (Prod.mk.inj (Except.ok.inj h)).2
      rw [e] at hu
      exact update_old hu hd
  · split at h
    · cases h
    · rename_i hu
      have e := (Prod.mk.inj (Except.ok.inj h)).2
      rw [e] at hu
      exact update_old hu hd
  · cases h

/-- **C99**, for mined blocks without ommers: what the tool prints says what the header says, and the block builder makes the block from it. (The hypotheses are those
of `C80_mined`; a base fee, if there is one, is not 0.) -/
theorem C99_mined {C : Crypto} {K : Hashes} {F : PowFork} {c c' : PowChain Txs} {b : PowBlock Txs} {p : PowHeader} {d : EnvData}
    (hK : F.fork.since .byzantium = true → C.keccak256 (Rlp.encode (.list [])) = K.keccak256 (Rlp.encode (.list [])))
    (hc : PowChainFits F c) (hh : MinedFits F b.header) (hd : DescribesMined C K F c p b.header d) (ho : b.ommers = []) (hdo : d.ommers = [])
    (hb : b.header.baseFeePerGas ≠ some 0) (hl : (Rlp.encode (minedItem b)).length < 2 ^ 63)
    (h : Pow.stateTransition K (evmExec C K) F c b = .ok c') :
    ∃ e B r, readEnv F.fork (writtenEnv d) = some e ∧ blockEnvironment C F.fork c.chainId e = .ok (some B) ∧
      runBlockchainTest C B none e.ommers e.withdrawals c.state (readTxs F.fork 0 b.transactions) = .ok (c'.state, r) ∧
      PrintsPositive (some b.header.difficulty) (resultJson r).currentDifficulty ∧ PrintsNumber b.header.baseFeePerGas (resultJson r).currentBaseFee ∧
      buildBlock K.keccak256 ⟨fromResult (resultJson r) (restOf b.header), bodyJson F.fork b.transactions, [], none⟩ =
        some (Rlp.encode (minedItem b), powHash K b.header) ∧
      ∃ rs : List (Transaction × Receipt), b.transactions.map (decodeTransaction F.fork) = rs.map (fun p => .ok p.1) ∧
        trieRoot C false (indexEntries (rs.map fun p => receiptBytes p.1 p.2)) = .ok b.header.receiptRoot ∧
        Each PrintsReceipt (resultJson r).receipts (rs.map fun p => (C.keccak256 (wireBytes p.1), p.2)) := by
  obtain ⟨B, r, h1, hu, h2, h3, h4⟩ := C80_mined hK hc hh (describesMined_seen hd) ho hdo h
  have eb : unlessZero r.baseFee = b.header.baseFeePerGas.map T8n.hex := by
    rw [h3.baseFee]
    match hbf : b.header.baseFeePerGas with
    | none => rfl
    | some n => exact if_neg fun e => hb (by rw [hbf, e])
  refine ⟨_, B, r, C98_written _ d, h1, h2, h3.difficulty ▸ (C99_prints r).difficulty, ?_, ?_, ?_⟩
  · show PrintsNumber _ (unlessZero r.baseFee)
    rw [eb]; exact prints_number _
  rotate_left
  · obtain ⟨rs, g1, g2, -, -, g3, -⟩ := C80_mined_receipts hK hc hh (describesMined_seen hd) ho hdo h h1 h2
    exact ⟨rs, g1, g2, g3 ▸ (C99_prints r).receipts⟩
  have hw := test_old h2 h3.difficulty
  have hk := C88_every_mined K b hl
  rw [ho] at hk
  have e1 : fromResult (resultJson r) (restOf b.header) = writtenHeader b.header none := by
    unfold fromResult resultJson restOf writtenHeader
    dsimp only
    rw [h3.stateRoot, h3.txRoot, h3.receiptRoot, h3.bloom, h3.gasUsed, eb, hw, Option.map_map]
    rfl
  rw [e1, bodyJson_eq hu]
  rw [← hk]
  rfl

/-! ### Examples -/

/-- The sample block of osaka is given to the tool in JSON, and its header and its receipt are printed. -/
example : ∃ chain' e B r, stateTransition sampleCrypto sampleChain sampleBlock = .ok chain' ∧ readEnv .osaka (writtenEnv sampleInput) = some e ∧
    runBlockchainTest sampleCrypto B none e.ommers e.withdrawals sampleState (readTxs .osaka 0 sampleBlock.transactions) = .ok (chain'.state, r) ∧
    PrintsHeader .osaka (resultJson r) sampleBlock.header := by
  have h := sample_runs
  match hs : stateTransition sampleCrypto sampleChain sampleBlock with
  | .error e => rw [hs] at h; cases h
  | .ok c =>
    obtain ⟨e, B, r, h1, h2, h3, h4, -⟩ := C99_import sample_chainFits ⟨by decide, by decide, by decide, by decide +kernel⟩ (fun h => by cases h) sample_describes
      (fun _ => sample_commute _) hs
    exact ⟨c, e, B, r, rfl, h1, h3 none, h4⟩

/-- The sample chain and block in shanghai. -/
def oldChain : BlockChain := ⟨[⟨.shanghai, ⟨sampleParent, [], [], []⟩⟩], (applyFork .shanghai sampleChain).state, 1⟩

theorem old_runs : sampleOutcome (stateTransition sampleCrypto oldChain sampleBlock) = true := by decide +kernel

def oldInput : EnvData := { sampleInput with blockHashes := fun n => if n = 0 then some (headerHash sampleCrypto .shanghai sampleParent) else none }

theorem old_describes : Describes sampleCrypto oldChain sampleBlock oldInput where
  coinbase := rfl
  gasLimit := rfl
  number := rfl
  timestamp := rfl
  random := rfl
  hashes := by
    intro i hi
    have : i = 0 := by
      have e : sampleBlock.header.number = 1 := rfl
      rw [e] at hi; omega
    subst this
    rfl
  baseFee := .inr ⟨rfl, _, rfl, rfl, rfl, rfl⟩
  withdrawals := fun _ => rfl
  beacon := fun h => by cases h
  excess := fun h => by cases h
  absent := fun _ => ⟨rfl, rfl⟩

/-- It is run by the tool, and built again from what the tool prints. -/
example : ∃ chain' B r, stateTransition sampleCrypto oldChain sampleBlock = .ok chain' ∧
    runBlockchainTest sampleCrypto B none [] [⟨0, 1, 55, 4⟩] oldChain.state (readTxs .shanghai 0 sampleBlock.transactions) = .ok (chain'.state, r) ∧
    buildBlock sampleCrypto.keccak256 ⟨fromResult (resultJson r) (restOf (oldFields sampleBlock.header)), bodyJson .shanghai sampleBlock.transactions, [],
      some ([⟨0, 1, 55, 4⟩].map writtenWithdrawal)⟩ = some (Rlp.encode (.ofBlock .shanghai sampleBlock), headerHash sampleCrypto .shanghai sampleBlock.header) := by
  have h := old_runs
  match hs : stateTransition sampleCrypto oldChain sampleBlock with
  | .error e => rw [hs] at h; cases h
  | .ok c =>
    have hc : ChainFits oldChain := ⟨⟨_, rfl, fun _ => by unfold BlobGasInRange; decide, .inl (by decide)⟩, rfl, applyFork_idle rfl sample_idle,
      ⟨(by decide +kernel : supply sampleState < supplyLimit .shanghai), sample_stateFits.codes⟩⟩
    obtain ⟨e, B, r, h1, h2, h3, h4⟩ := C99_pipeline hc ⟨by decide, by decide, by decide, by decide +kernel⟩ (by decide +kernel) rfl (by decide) old_describes hs
    have he : e = seen .shanghai oldInput := Option.some.inj (h1.symm.trans (C98_written _ _))
    subst he
    exact ⟨c, B, r, rfl, h3, h4⟩

/-- The sample block of frontier. -/
example : ∃ c' B r, Pow.stateTransition sampleK (evmExec sampleCrypto sampleK) .frontier powEvmChain powEvmBlock = .ok c' ∧
    runBlockchainTest sampleCrypto B none [] [] powEvmState (readTxs .frontier 0 [.inl sampleTx]) = .ok (c'.state, r) ∧
    buildBlock sampleK.keccak256 ⟨fromResult (resultJson r) (restOf powEvmBlock.header), bodyJson .frontier powEvmBlock.transactions, [], none⟩ =
      some (Rlp.encode (minedItem powEvmBlock), powHash sampleK powEvmBlock.header) := by
  obtain ⟨s', h1, h2⟩ := seal_accepts (C := sampleCrypto) (g := powEvmGenesis) (h := powEvmHead) (txs := [.inl sampleTx]) (st := powEvmState) (n := 1) (cb := 0xa)
    (p := fun s => getStorage s 88 1 == 7 && (getAccount s 77).nonce == 1) powEvm_fields.1 powEvm_fields.2.1 powEvm_rules powEvm_ommers powEvm_runs
  obtain ⟨e, B, r, k1, k2, k3, -, -, k4, -⟩ := C99_mined (C := sampleCrypto) (K := sampleK) (F := .frontier) (c := powEvmChain) (b := powEvmBlock) (d := minedInput)
    (fun h => by cases h) powEvm_fits powEvm_block_fits.1 mined_describes rfl rfl (fun h => by cases h) (by decide +kernel) h1
  have he : e = seen .frontier minedInput := Option.some.inj (k1.symm.trans (C98_written _ _))
  subst he
  exact ⟨_, B, r, h1, k3, k4⟩

end Verif.Props
