import Verif.Lemmas.B11r
import Verif.Lemmas.RlpSize
import Verif.Lemmas.SamplePow
import Verif.Lemmas.SampleBlock
/-!
Property C88: the block builder (b11r) puts out the encoding of the block that its input describes, and the hash of its header, and nothing else. What
an input describes is said in Spec/B11r.lean.
-/
namespace Verif.Props
open Verif Spec Pow B11r

/-- **C88.** The tool succeeds exactly if its input describes a header and a body, and then its output is the encoding of the block with these, and the
hash of the encoding of its header. -/
theorem C88_output (keccak : Bytes → Word) (i : Input) (rlp : Bytes) (hash : Word) :
    buildBlock keccak i = some (rlp, hash) ↔ ∃ txs ommers withdrawals h root, DescribesBody i txs ommers withdrawals ∧
      DescribesHeader keccak i.header ommers h root ∧
      rlp = Rlp.encode (blockItems (headerItems h root) txs ommers withdrawals) ∧ hash = keccak (Rlp.encode (headerItems h root)) := by
  have hl : ∀ h : B11r.Header, Rlp.list (headerToList h) = headerItems h.base h.withdrawalsRoot := by
    rintro ⟨h, root⟩
    unfold headerItems ofPowHeader headFields feeField headerToList
    cases h.baseFeePerGas <;> cases root <;> rfl
  have hb : buildBlock keccak i = (readBody i).bind fun b => (readHeader keccak i.header b).bind fun h =>
      some (Rlp.encode (blockItems (headerItems h.base h.withdrawalsRoot) b.transactions b.ommers b.withdrawals),
        keccak (Rlp.encode (headerItems h.base h.withdrawalsRoot))) := by
    unfold buildBlock blockItems
    simp only [Option.bind_eq_bind, Option.pure_def, hl]
    cases readBody i with
    | none => simp only [Option.bind_none]
    | some b =>
      simp only [Option.bind_some]
      cases readHeader keccak i.header b with
      | none => simp only [Option.bind_none]
      | some h => cases b.withdrawals <;> simp only [Option.bind_some, Option.toList, List.map_nil, List.map_cons]
  rw [hb]
  simp only [Option.bind_eq_some_iff, readBody_iff, readHeader_iff, Option.some.injEq, Prod.mk.injEq]
  constructor
  · intro ⟨b, hb, h, hh, e1, e2⟩; exact ⟨_, _, _, _, _, hb, hh, e1.symm, e2.symm⟩
  · intro ⟨txs, ommers, wds, h, root, hb, hh, e1, e2⟩; exact ⟨⟨txs, ommers, wds⟩, hb, ⟨h, root⟩, hh, e1.symm, e2.symm⟩

/-- **C88.** A mined block, described in any way: the output is its encoding and its hash (the one that C32 is about). -/
theorem C88_mined (K : Ethash.Hashes) (b : PowBlock (List (LegacyTx ⊕ Bytes))) {i : Input}
    (hh : DescribesHeader K.keccak256 i.header (b.ommers.map ofPowHeader) b.header none)
    (hb : DescribesBody i (.list (b.transactions.map txItem)) (b.ommers.map ofPowHeader) none) :
    buildBlock K.keccak256 i = some (Rlp.encode (minedItem b), powHash K b.header) := by
  have e : headerItems b.header none = ofPowHeader b.header := by
    unfold headerItems ofPowHeader; simp only [Option.toList, List.map_nil, List.append_nil]
  refine (C88_output ..).mpr ⟨_, _, _, _, _, hb, hh, ?_, ?_⟩
  · rw [e]; unfold minedItem blockItems; simp only [Option.toList, List.map_nil, List.append_nil]
  · rw [e]; unfold powHash; rfl

theorem headerItems_of {f : Fork} (hc : f.since .cancun = false) (h : Verif.Header) :
    headerItems (oldFields h) (rootIn f h) = .ofHeader f h := by
  have hp : f.since .prague = false := by cases f <;> first | rfl | exact hc
  unfold headerItems ofPowHeader headFields feeField oldFields rootIn Rlp.ofHeader
  rw [hc, hp]
  cases f.since .shanghai <;> rfl

/-- **C88.** A block of paris or shanghai, described in any way: the output is its encoding and its hash. -/
theorem C88_block (C : Crypto) {f : Fork} (hc : f.since .cancun = false) (b : Block) {i : Input}
    (hh : DescribesHeader C.keccak256 i.header (b.ommers.map (Rlp.ofHeader f)) (oldFields b.header) (rootIn f b.header))
    (hb : DescribesBody i (.list (b.transactions.map txItem)) (b.ommers.map (Rlp.ofHeader f))
      (if f.since .shanghai then some (b.withdrawals.map Rlp.ofWithdrawal) else none)) :
    buildBlock C.keccak256 i = some (Rlp.encode (.ofBlock f b), headerHash C f b.header) := by
  refine (C88_output ..).mpr ⟨_, _, _, _, _, hb, hh, ?_, ?_⟩
  · rw [headerItems_of hc]
    congr 1
    unfold blockItems Rlp.ofBlock
    have ht : b.transactions.map txItem = b.transactions.map fun | .inl t => Rlp.ofLegacyTx t | .inr x => .bytes x :=
      List.map_congr_left fun t _ => by cases t <;> rfl
    rw [ht]
    cases f.since .shanghai <;> simp
  · rw [headerItems_of hc]; rfl

/-- **C88.** No input makes the tool put out a block of cancun or later (it does not know the fields added there, and leaves them out). -/
theorem C88_later (keccak : Bytes → Word) {f : Fork} (hc : f.since .cancun = true) (b : Block) (hl : (Rlp.encode (.ofBlock f b)).length < 2 ^ 64)
    (i : Input) (hash : Word) : buildBlock keccak i ≠ some (Rlp.encode (.ofBlock f b), hash) := by
  intro h
  obtain ⟨txs, ommers, wds, h, root, -, -, e, -⟩ := (C88_output ..).mp h
  have e := (C37_injective _ _ [] [] hl (by rw [← e]; exact hl) (by rw [List.append_nil, List.append_nil]; exact e)).1
  unfold Rlp.ofBlock blockItems at e
  have e := (List.cons.inj (Rlp.list.inj e)).1
  unfold Rlp.ofHeader headerItems ofPowHeader headFields at e
  have e := congrArg List.length (Rlp.list.inj e)
  have h1 : (feeField h).length ≤ 1 := by unfold feeField; cases h.baseFeePerGas <;> simp
  rw [hc, since_later hc (show Fork.since .cancun .shanghai = true from rfl)] at e
  cases root <;> simp at e <;> omega

/-! ### There is an input for every block -/

theorem writes_bytes (b : Bytes) : WritesBytes (writtenBytes b) b := ⟨_, .inl rfl, bytesHex_spec b⟩
theorem writes_number (n : Nat) : WritesNumber (writtenNumber n) n := by
  obtain ⟨h1, h2, h3, -⟩ := toDigits_spec n
  exact .inl ⟨_, rfl, h1, h2, h3.symm⟩

theorem writtenHeader_describes (keccak : Bytes → Word) (ommers : List Rlp) (h : PowHeader) (root : Option Word)
    (hr : root.isSome = true → h.baseFeePerGas.isSome = true) : DescribesHeader keccak (writtenHeader h root) ommers h root where
  parentHash := ⟨_, rfl, writes_bytes _⟩
  ommersHash := writes_bytes _
  coinbase := writes_bytes _
  stateRoot := ⟨_, rfl, writes_bytes _⟩
  transactionsRoot := writes_bytes _
  receiptRoot := writes_bytes _
  bloom := ⟨_, rfl, writes_bytes _⟩
  difficulty := writes_number _
  number := ⟨_, rfl, writes_number _⟩
  gasLimit := ⟨_, rfl, writes_number _⟩
  gasUsed := ⟨_, rfl, writes_number _⟩
  timestamp := ⟨_, rfl, writes_number _⟩
  extraData := writes_bytes _
  mixDigest := ⟨_, rfl, writes_bytes _⟩
  nonce := by
    obtain ⟨h1, h2, h3⟩ := bytesHex_spec (toBE 8 h.nonce.toNat)
    refine ⟨_, .inl rfl, h1, by rw [h2, toBE_length], ?_⟩
    rw [← h3, fromBE_toBE]
    exact (Nat.mod_eq_of_lt h.nonce.isLt).symm
  baseFee := by
    unfold writtenHeader
    dsimp only
    cases hf : h.baseFeePerGas with
    | some n => exact ⟨n, rfl, writes_number n⟩
    | none =>
      cases root with
      | none => rfl
      | some r => rw [hf] at hr; cases hr rfl
  withdrawalsRoot := by
    unfold writtenHeader
    dsimp only
    cases root with
    | none => rfl
    | some r => exact ⟨r, rfl, writes_bytes _⟩

private theorem encodeSeq_mem' {x : Rlp} {l : List Rlp} (h : x ∈ l) : (Rlp.encode x).length ≤ (Rlp.encodeSeq l).length := by
  induction l with
  | nil => cases h
  | cons y r ih =>
    rw [Rlp.encodeSeq, List.length_append]
    rcases List.mem_cons.mp h with rfl | h
    · omega
    · have := ih h; omega

theorem encode_mem {x : Rlp} {l : List Rlp} (h : x ∈ l) : (Rlp.encode x).length ≤ (Rlp.encode (.list l)).length := by
  have := encodeSeq_mem' h
  rw [Rlp.encode, List.length_append]; omega

theorem writtenBlock_describes (h : PowHeader) (root : Option Word) (txs : List (LegacyTx ⊕ Bytes)) (ommers : List Rlp)
    (withdrawals : Option (List Withdrawal)) (ht : (Rlp.encode (.list (txs.map txItem))).length < 2 ^ 63) (ho : (Rlp.encode (.list ommers)).length < 2 ^ 63) :
    DescribesBody (writtenBlock h root txs ommers withdrawals) (.list (txs.map txItem)) ommers (withdrawals.map fun l => l.map Rlp.ofWithdrawal) where
  txs := .inr ⟨(fun e => by cases e), _, writes_bytes _, C37_decode_encode _ (by omega)⟩
  ommers := by
    have hm : ∀ o ∈ ommers, (Rlp.encode o).length < 2 ^ 63 := fun o h => Nat.lt_of_le_of_lt (encode_mem h) ho
    clear ho
    show Each _ (ommers.map fun o => writtenBytes (Rlp.encode (.list [o]))) ommers
    induction ommers with
    | nil => exact trivial
    | cons o r ih =>
      refine ⟨⟨[], _, writes_bytes _, C37_decode_encode _ ?_⟩, ih fun o h => hm o (List.mem_cons_of_mem _ h)⟩
      have h1 := hm o List.mem_cons_self
      have e : Rlp.encodeSeq [o] = Rlp.encode o := by rw [Rlp.encodeSeq, Rlp.encodeSeq, List.append_nil]
      have h2 := encodeList_le [o] (by rw [e]; omega)
      rw [e] at h2
      omega
  withdrawals := by
    unfold writtenBlock
    cases withdrawals with
    | none => rfl
    | some l =>
      refine ⟨_, rfl, ?_⟩
      induction l with
      | nil => exact trivial
      | cons w r ih =>
        exact ⟨⟨w.index.toNat, w.validatorIndex.toNat, w.address, w.amount.toNat,
          ⟨w.index.isLt, w.validatorIndex.isLt, writes_number _, writes_number _, writes_bytes _, writes_number _⟩, rfl⟩, ih⟩

/-- **C88.** Every mined block can be put out. -/
theorem C88_every_mined (K : Ethash.Hashes) (b : PowBlock (List (LegacyTx ⊕ Bytes))) (hl : (Rlp.encode (minedItem b)).length < 2 ^ 63) :
    buildBlock K.keccak256 (writtenBlock b.header none b.transactions (b.ommers.map ofPowHeader) none) =
      some (Rlp.encode (minedItem b), powHash K b.header) := by
  refine C88_mined K b (writtenHeader_describes _ _ _ _ (fun h => by cases h)) (writtenBlock_describes _ _ _ _ none ?_ ?_)
  · exact Nat.lt_of_le_of_lt (encode_mem (by simp)) hl
  · exact Nat.lt_of_le_of_lt (encode_mem (by simp)) hl

/-- **C88.** Every block of paris and shanghai can be put out. -/
theorem C88_every_block (C : Crypto) {f : Fork} (hc : f.since .cancun = false) (b : Block) (hl : (Rlp.encode (.ofBlock f b)).length < 2 ^ 63) :
    buildBlock C.keccak256 (writtenBlock (oldFields b.header) (rootIn f b.header) b.transactions (b.ommers.map (Rlp.ofHeader f))
        (if f.since .shanghai then some b.withdrawals else none)) = some (Rlp.encode (.ofBlock f b), headerHash C f b.header) := by
  have ht : b.transactions.map txItem = b.transactions.map fun | .inl t => Rlp.ofLegacyTx t | .inr x => .bytes x :=
    List.map_congr_left fun t _ => by cases t <;> rfl
  have hb := writtenBlock_describes (oldFields b.header) (rootIn f b.header) b.transactions (b.ommers.map (Rlp.ofHeader f))
    (if f.since .shanghai then some b.withdrawals else none)
    (Nat.lt_of_le_of_lt (encode_mem (by rw [ht]; simp)) hl) (Nat.lt_of_le_of_lt (encode_mem (by simp)) hl)
  refine C88_block C hc b (writtenHeader_describes _ _ _ _ (fun _ => rfl)) ?_
  cases hs : f.since .shanghai <;> rw [hs] at hb <;> exact hb

/-! ### Concrete cases -/

/-- A mined block with a transaction and an ommer, and a block of shanghai with a withdrawal, meet the hypotheses. -/
example : (Rlp.encode (minedItem ⟨mkHeader 7 2 20 131200 3 0 0xa, [.inr [1, 2, 3]], [mkHeader 5 1 11 131136 2 0 0xb]⟩)).length < 2 ^ 63 ∧
    (Rlp.encode (.ofBlock .shanghai { sampleBlock with withdrawals := [⟨1, 2, 0xcc, 3⟩] })).length < 2 ^ 63 ∧
    (Rlp.encode (.ofBlock .osaka sampleBlock)).length < 2 ^ 64 ∧ Fork.since .shanghai .cancun = false := by
  refine ⟨?_, ?_, ?_, rfl⟩ <;> decide +kernel

/-- A header with the members that have no default. -/
def bareHeader (fee : Option Num) (root : Option (List Char)) : HeaderData :=
  { parentHash := some ('0' :: 'x' :: List.replicate 64 '1'), ommersHash := none, miner := none, stateRoot := some (List.replicate 64 'A')
    transactionsRoot := none, receiptsRoot := none, logsBloom := some ('0' :: 'x' :: List.replicate 512 '0'), difficulty := none
    number := some (.inl "0x1f".toList), gasLimit := some (.inl "30000".toList), gasUsed := some (.inr 21000), timestamp := some (.inr 9)
    extraData := none, mixHash := some (List.replicate 64 '0'), nonce := some "0x2a".toList, baseFeePerGas := fee, withdrawalsRoot := root }

def builtHeader (d : HeaderData) : Option (Nat × Nat × Nat × BitVec 64 × Option Nat × Option Word) :=
  (readHeader (fun b => BitVec.ofNat 256 b.length) d ⟨.list [], [], none⟩).map fun h =>
    (h.base.ommersHash.toNat, h.base.number, h.base.gasLimit, h.base.nonce, h.base.baseFeePerGas, h.withdrawalsRoot)

set_option synthInstance.maxSize 1000 in
/-- Defaults, decimal and hexadecimal numbers, and the base fee that a root of withdrawals brings; a root of 31 bytes is refused, and so is a negative
number. -/
example : builtHeader (bareHeader none none) = some (1, 31, 30000, 42, none, none) ∧
    builtHeader (bareHeader none (some (List.replicate 64 '0'))) = some (1, 31, 30000, 42, some 0, some 0) ∧
    builtHeader (bareHeader (some (.inr 7)) none) = some (1, 31, 30000, 42, some 7, none) ∧
    builtHeader (bareHeader none (some (List.replicate 62 '0'))) = none ∧
    builtHeader (bareHeader (some (.inr (-1))) none) = none := by
  refine ⟨?_, ?_, ?_, ?_, ?_⟩ <;> decide +kernel

end Verif.Props
