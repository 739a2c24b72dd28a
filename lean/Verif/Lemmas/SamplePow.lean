import Verif.Lemmas.Pow
import Verif.Lemmas.Rlp
import Verif.Props.C57
/-! Mined sample headers: a chain of two blocks, a sibling of the second one, and a third block naming it as an ommer. -/
namespace Verif.Pow
open Verif Spec Ethash

/-- The mix digest `hashimoto_light` computes for a header. -/
@[irreducible] def powMix (K : Hashes) (h : PowHeader) : Word :=
  match generateCache K h.number, datasetSize h.number with
  | some cache, some size =>
    match hashimotoLight K (headerHashForPow K h) (toBE 8 h.nonce.toNat) cache size with
    | some (digest, _) => BitVec.ofNat 256 (fromBE digest)
    | none => 0
  | _, _ => 0

/-- The header with its mix digest filled in. -/
def sealHeader (K : Hashes) (h : PowHeader) : PowHeader := { h with mixDigest := powMix K h }

theorem hashimoto_result {K : Hashes} {hh nonce : Bytes} {size : Nat} {f : Nat → Option (List U32)} {d r : Bytes}
    (h : hashimoto K hh nonce size f = some (d, r)) : r = K.h256 (K.h512 (hh ++ nonce.reverse) ++ d) := by
  unfold hashimoto at h
  obtain ⟨m, -, h⟩ := Option.bind_eq_some_iff.mp h
  obtain ⟨c, -, h⟩ := Option.bind_eq_some_iff.mp h
  obtain ⟨rfl, rfl⟩ := Prod.mk.inj (Option.some.inj h)
  rfl

/-- With a hash function that maps the 96-byte inputs to 0, every header is sealed by its mix digest. -/
theorem sealed {K : Hashes} (hK : ∀ b : Bytes, b.length = 96 → K.keccak256 b = 0) (h : PowHeader) (hn : h.number / 30000 < 65000) :
    PowSealed K (sealHeader K h) := by
  obtain ⟨size, cache, ds, digest, result, h1, h2, -, h4, -, l1, l2⟩ :=
    C57_light_full K h.number hn (headerHashForPow K h) (toBE 8 h.nonce.toNat)
  have hm : toBE 32 (sealHeader K h).mixDigest.toNat = digest := by
    show toBE 32 (powMix K h).toNat = digest
    unfold powMix
    rw [h2, h1]
    dsimp only
    rw [h4]
    dsimp only
    have hlt := fromBE_lt digest
    rw [l1] at hlt
    rw [BitVec.toNat_ofNat, Nat.mod_eq_of_lt (Nat.lt_of_lt_of_eq hlt (by decide)), ← l1, toBE_fromBE]
  refine ⟨cache, size, result, h2, h1, ?_, ?_⟩
  · rw [hm]; exact h4
  · have := hashimoto_result h4
    have e : K.keccak256 (K.h512 (headerHashForPow K h ++ (toBE 8 h.nonce.toNat).reverse) ++ digest) = 0 := hK _ (by
      rw [List.length_append, Hashes.h512_length, l1])
    unfold Hashes.h256 at this
    rw [e] at this
    rw [this, show fromBE (toBE 32 (0 : BitVec 256).toNat) = 0 by decide, Nat.zero_mul]
    exact Nat.zero_le _

/-- A hash function: short inputs give 0, others their last 32 bytes. -/
def sampleK : Hashes where
  keccak256 b := if b.length ≤ 96 then 0 else BitVec.ofNat 256 (fromBE b)
  keccak512 _ := 0

theorem sampleK_short (b : Bytes) (h : b.length = 96) : sampleK.keccak256 b = 0 := by
  unfold sampleK; dsimp only; rw [if_pos (by omega)]

theorem encodeSeq_append (a b : List Rlp) : Rlp.encodeSeq (a ++ b) = Rlp.encodeSeq a ++ Rlp.encodeSeq b := by
  induction a with
  | nil => rfl
  | cons x a ih => rw [List.cons_append, Rlp.encodeSeq, Rlp.encodeSeq, ih, List.append_assoc]

theorem encodeSeq_mem {x : Rlp} {l : List Rlp} (h : x ∈ l) : (Rlp.encode x).length ≤ (Rlp.encodeSeq l).length := by
  induction l with
  | nil => cases h
  | cons y l ih =>
    rw [Rlp.encodeSeq, List.length_append]
    rcases List.mem_cons.mp h with rfl | h
    · omega
    · have := ih h; omega

/-- With the sample hash function the hash of a header ends with its nonce. -/
theorem powHash_nonce (h : PowHeader) (hf : h.baseFeePerGas = none) : (powHash sampleK h).toNat % 2 ^ 64 = h.nonce.toNat := by
  have hl : 256 ≤ (Rlp.encode (ofPowHeader h)).length := by
    unfold ofPowHeader
    rw [Rlp.encode, List.length_append]
    have := encodeSeq_mem (x := Rlp.ofBloom h.bloom)
      (l := headFields h ++ [.ofWord32 h.mixDigest, .bytes (toBE 8 h.nonce.toNat)] ++ feeField h) (by simp [headFields])
    have h2 : 256 ≤ (Rlp.encode (Rlp.ofBloom h.bloom)).length := by
      unfold Rlp.ofBloom
      rw [Rlp.encode]
      refine Nat.le_trans ?_ (Rlp.encodeBytes_length _)
      rw [toBE_length]
    omega
  have he : ∃ X : Bytes, Rlp.encode (ofPowHeader h) = X ++ toBE 8 h.nonce.toNat := by
    unfold ofPowHeader feeField
    rw [hf, Rlp.encode]
    dsimp only
    rw [List.append_nil, encodeSeq_append, show ([Rlp.ofWord32 h.mixDigest, .bytes (toBE 8 h.nonce.toNat)] : List Rlp) =
      [Rlp.ofWord32 h.mixDigest] ++ [.bytes (toBE 8 h.nonce.toNat)] from rfl, encodeSeq_append]
    have : Rlp.encodeSeq [.bytes (toBE 8 h.nonce.toNat)] = Rlp.lengthPrefix 0x80 8 ++ toBE 8 h.nonce.toNat := by
      rw [Rlp.encodeSeq, Rlp.encodeSeq, Rlp.encode, List.append_nil]
      have h8 : (toBE 8 h.nonce.toNat).length = 8 := toBE_length _ _
      unfold Rlp.encodeBytes
      split
      · next e => rw [e] at h8; simp at h8
      · rw [h8]
    rw [this]
    generalize Rlp.lengthPrefix 0xc0 _ = P
    exact ⟨P ++ (Rlp.encodeSeq (headFields h) ++ (Rlp.encodeSeq [Rlp.ofWord32 h.mixDigest] ++ Rlp.lengthPrefix 0x80 8)),
      by simp only [List.append_assoc]⟩
  obtain ⟨X, hX⟩ := he
  unfold powHash
  rw [show sampleK.keccak256 (Rlp.encode (ofPowHeader h)) = BitVec.ofNat 256 (fromBE (Rlp.encode (ofPowHeader h))) by
    unfold sampleK; dsimp only; rw [if_neg (by omega)]]
  rw [hX, fromBE_append, toBE_length, fromBE_toBE, BitVec.toNat_ofNat]
  have : h.nonce.toNat < 2 ^ 64 := h.nonce.isLt
  omega

theorem powHash_ne {a b : PowHeader} (ha : a.baseFeePerGas = none) (hb : b.baseFeePerGas = none) (h : a.nonce ≠ b.nonce) :
    powHash sampleK a ≠ powHash sampleK b := by
  intro e
  have h1 := powHash_nonce a ha
  have h2 := powHash_nonce b hb
  rw [e, h2] at h1
  exact h (BitVec.eq_of_toNat_eq h1.symm)

/-- A frontier header. -/
def mkHeader (parentHash : Word) (number : Nat) (timestamp : Word) (difficulty : Nat) (nonce : BitVec 64) (ommersHash : Word)
    (coinbase : Address) : PowHeader where
  parentHash := parentHash
  ommersHash := ommersHash
  coinbase := coinbase
  stateRoot := 0
  transactionsRoot := 0
  receiptRoot := 0
  bloom := 0
  difficulty := difficulty
  number := number
  gasLimit := 5000
  gasUsed := 0
  timestamp := timestamp
  extraData := []
  mixDigest := 0
  nonce := nonce
  baseFeePerGas := none

/-- The first block, its two children, and a child of the first child naming the second as ommer. -/
def powGenesis : PowHeader := mkHeader 0 0 0 131072 0 0 0
def powOne : PowHeader := sealHeader sampleK (mkHeader (powHash sampleK powGenesis) 1 10 131136 1 0 0xa)
def powUncle : PowHeader := sealHeader sampleK (mkHeader (powHash sampleK powGenesis) 1 11 131136 2 0 0xb)
def powTwo : PowHeader := sealHeader sampleK (mkHeader (powHash sampleK powOne) 2 20 131200 3
  (sampleK.keccak256 (Rlp.encode (.list ([powUncle].map ofPowHeader)))) 0xa)

theorem seal_parent (K : Hashes) (x : Word) (n : Nat) (ts : Word) (d : Nat) (nonce : BitVec 64) (om : Word) (cb : Address) :
    (sealHeader K (mkHeader x n ts d nonce om cb)).parentHash = x := rfl

theorem seal_ommers (K : Hashes) (x : Word) (n : Nat) (ts : Word) (d : Nat) (nonce : BitVec 64) (om : Word) (cb : Address) :
    (sealHeader K (mkHeader x n ts d nonce om cb)).ommersHash = om := rfl

theorem frontier_ommers (n : Nat) (ts pts : Word) (p : Nat) (om : Bool) :
    calculateBlockDifficulty .frontier n ts pts p om = calculateBlockDifficulty .frontier n ts pts p false := rfl

theorem frontier_child (p : PowHeader) (n : Nat) (ts : Word) (d : Nat) (nonce : BitVec 64) (om : Word) (cb : Address)
    (h1 : n = p.number + 1) (h3 : p.timestamp.toNat < ts.toNat) (h6 : p.gasLimit = 5000) (hn : n < 30000)
    (h8 : calculateBlockDifficulty .frontier n ts p.timestamp p.difficulty false = some d) :
    PowRules sampleK .frontier p (sealHeader sampleK (mkHeader (powHash sampleK p) n ts d nonce om cb)) where
  number := h1
  parentHash := seal_parent ..
  timestamp := h3
  gasUsed := by show 0 ≤ 5000; omega
  fees := by show GasLimitOK 5000 p.gasLimit; rw [h6]; unfold GasLimitOK; omega
  extraData := by show 0 ≤ 32; omega
  difficulty := ((frontier_ommers n ts p.timestamp p.difficulty _).trans h8 :)
  dao := fun e => by cases e
  proofOfWork := sealed sampleK_short _ (by show n / 30000 < 65000; omega)

theorem powOne_rules : PowRules sampleK .frontier powGenesis powOne :=
  frontier_child powGenesis 1 10 131136 1 0 0xa rfl (by decide) rfl (by omega) (by decide +kernel)

theorem powUncle_rules : PowRules sampleK .frontier powGenesis powUncle :=
  frontier_child powGenesis 1 11 131136 2 0 0xb rfl (by decide) rfl (by omega) (by decide +kernel)

theorem powTwo_rules : PowRules sampleK .frontier powOne powTwo :=
  frontier_child powOne 2 20 131200 3 _ 0xa rfl (by show (10 : Word).toNat < _; decide) rfl (by omega)
    (by show calculateBlockDifficulty .frontier 2 20 10 131136 false = some 131200; decide +kernel)

/-- The chain of the first two blocks. -/
def powBlocks : List (PowBlock Unit) := [⟨powGenesis, (), []⟩, ⟨powOne, (), []⟩]

theorem linked_two {T : Type} {K : Hashes} (a b : PowBlock T) (hn : b.header.number = a.header.number + 1)
    (hp : b.header.parentHash = powHash K a.header) : PowLinked K [a, b] := by
  refine ⟨⟨a.header.number, ?_⟩, ?_⟩
  · intro i c h
    match i, h with
    | 0, h => rw [← Option.some.inj h]; rfl
    | 1, h => rw [← Option.some.inj h]; exact hn
    | i + 2, h => cases h
  · intro i c d hc hd
    match i, hc, hd with
    | 0, hc, hd => rw [← Option.some.inj hc, ← Option.some.inj hd]; exact hp
    | 1, hc, hd => cases hd
    | i + 2, hc, hd => cases hc

theorem powBlocks_linked : PowLinked sampleK powBlocks := linked_two _ _ powOne_rules.number powOne_rules.parentHash

theorem powUncle_ommer : OmmerRules sampleK .frontier powBlocks powTwo powUncle where
  header := ⟨_, List.mem_cons_self, powUncle_rules⟩
  younger := by decide
  older := by decide
  other := powHash_ne rfl rfl (by decide)
  notBlock := by
    intro b hb
    have hb : b ∈ powBlocks := hb
    rcases List.mem_cons.mp hb with hb | hb
    · rw [hb]; exact powHash_ne rfl rfl (by decide)
    · rcases List.mem_cons.mp hb with hb | hb
      · rw [hb]; exact powHash_ne rfl rfl (by decide)
      · cases hb
  notOmmer := by
    intro b hb o ho
    have hb : b ∈ powBlocks := hb
    rcases List.mem_cons.mp hb with hb | hb
    · rw [hb] at ho; cases ho
    · rcases List.mem_cons.mp hb with hb | hb
      · rw [hb] at ho; cases ho
      · cases hb
  parent := ⟨_, List.mem_cons_self, powUncle_rules.parentHash⟩
  nephew := by
    rw [powUncle_rules.parentHash, powTwo_rules.parentHash]
    exact powHash_ne rfl rfl (by decide)

end Verif.Pow
