import Verif.Spec.ForkRules
import Verif.Spec.TrieHash
import Verif.Lemmas.Header
import Verif.Lemmas.Fuel
import Verif.Lemmas.TxCodec
import Verif.Lemmas.SampleBlock
/-! C66: what each fork has. C67: a block hash commits to all earlier headers. -/
namespace Verif.Props
open Verif Spec

/-! ### C66 -/

instance (f : Fork) (b : Nat) : Decidable (HasOpcode f b) := by unfold HasOpcode; infer_instance

private theorem opcode_iff (f : Fork) (b : UInt8) :
    (HasOpcode f b.toNat → decodeOpIn f b = decodeOp b ∧ decodeOp b ≠ none) ∧ (¬ HasOpcode f b.toNat → decodeOpIn f b = none) := by
  have key : ∀ n : Fin 256, (HasOpcode f n.val → decodeOpIn f (UInt8.ofNat n.val) = decodeOp (UInt8.ofNat n.val) ∧ decodeOp (UInt8.ofNat n.val) ≠ none) ∧
      (¬ HasOpcode f n.val → decodeOpIn f (UInt8.ofNat n.val) = none) := by
    cases f <;> decide +kernel
  have := key ⟨b.toNat, b.toNat_lt⟩
  rwa [show UInt8.ofNat b.toNat = b by simp] at this

/-- **C66.** A byte that is not an opcode of the fork halts the frame exceptionally with `InvalidOpcode`; a byte that is one means the
same instruction as in osaka. -/
theorem C66_opcodes (E : Env) (m : Mach) (hs : m.evm.stack.length ≤ 1024)
    (hr : m.evm.running = true) (b : UInt8) (hb : m.evm.code[m.evm.pc]? = some b) :
    (¬ HasOpcode m.world.state.fork b.toNat → exec E m = .err (.halt .invalidOpcode) m) ∧
    (HasOpcode m.world.state.fork b.toNat → ∃ op, decodeOpIn .osaka b = some op ∧
      exec E m = match opStep E (processMessage E (exec E)) (processCreateMessage E (exec E)) op m with
        | .err e m' => .err e m'
        | .ok _ m' => exec E m') := by
  obtain ⟨h1, h2⟩ := opcode_iff m.world.state.fork b
  rw [exec_eq E m hs]
  unfold loopBody
  rw [if_pos hr, hb]
  refine ⟨fun h => ?_, fun h => ?_⟩
  · simp only [h2 h]
  · obtain ⟨e1, e2⟩ := h1 h
    match ho : decodeOp b with
    | none => exact absurd ho e2
    | some op =>
      refine ⟨op, ?_, ?_⟩
      · unfold decodeOpIn
        rw [ho]
        simp only [show Fork.osaka.since op.firstFork = true from by cases op.firstFork <;> rfl, if_true]
      · simp only [e1, ho]
        rfl

theorem precompile_iff (E : Env) (f : Fork) (a : Address) :
    (precompile E f a).isSome = true ↔ HasPrecompile f a.toNat := by
  have hfn : (precompileFn E f a).isSome = true ↔ (1 ≤ a.toNat ∧ a.toNat ≤ 17) ∨ a.toNat = 256 := by
    unfold precompileFn
    simp only [← BitVec.toNat_inj (x := a), show BitVec.toNat (1 : Address) = 1 from rfl, show BitVec.toNat (2 : Address) = 2 from rfl,
      show BitVec.toNat (3 : Address) = 3 from rfl, show BitVec.toNat (4 : Address) = 4 from rfl, show BitVec.toNat (5 : Address) = 5 from rfl, show BitVec.toNat (6 : Address) = 6 from rfl, show BitVec.toNat (7 : Address) = 7 from rfl
     , show BitVec.toNat (8 : Address) = 8 from rfl, show BitVec.toNat (9 : Address) = 9 from rfl, show BitVec.toNat (10 : Address) = 10 from rfl, show BitVec.toNat (11 : Address) = 11 from rfl
     , show BitVec.toNat (12 : Address) = 12 from rfl, show BitVec.toNat (13 : Address) = 13 from rfl, show BitVec.toNat (14 : Address) = 14 from rfl, show BitVec.toNat (15 : Address) = 15 from rfl
     , show BitVec.toNat (16 : Address) = 16 from rfl, show BitVec.toNat (17 : Address) = 17 from rfl, show BitVec.toNat (256 : Address) = 256 from rfl]
    have hite : ∀ (c : Prop) [Decidable c] (x : M Unit) (y : Option (M Unit)), ((if c then some x else y).isSome = true ↔ c ∨ y.isSome = true) := by
      intro c _ x y; by_cases h : c <;> simp [h]
    simp only [hite, Option.isSome_none, Bool.false_eq_true, or_false]
    generalize a.toNat = n
    constructor <;> intro h <;> omega
  have hp : f.since .frontier = true := by cases f <;> rfl
  have hfirst : precompileFirstFork a = if a.toNat ≤ 4 then .frontier else if a.toNat ≤ 8 then .byzantium else if a.toNat = 9 then .istanbul
      else if a.toNat = 10 then .cancun else if a.toNat ≤ 17 then .prague else .osaka := by
    unfold precompileFirstFork
    simp only [← BitVec.toNat_inj (x := a), show BitVec.toNat (9 : Address) = 9 from rfl, show BitVec.toNat (10 : Address) = 10 from rfl]
    rfl
  unfold precompile HasPrecompile
  rw [hfirst]
  by_cases h1 : a.toNat ≤ 4
  · rw [if_pos h1, if_pos hp, hfn]; omega
  rw [if_neg h1]
  by_cases h2 : a.toNat ≤ 8
  · rw [if_pos h2]; split
    · rw [hfn]; rename_i h; simp only [h, true_and]; omega
    · rename_i h; simp only [h, false_and, false_or, Option.isSome_none, Bool.false_eq_true, false_iff]; omega
  rw [if_neg h2]
  by_cases h3 : a.toNat = 9
  · rw [if_pos h3]; split
    · rw [hfn]; rename_i h; simp only [h, true_and]; omega
    · rename_i h; simp only [h, false_and, false_or, Option.isSome_none, Bool.false_eq_true, false_iff]; omega
  rw [if_neg h3]
  by_cases h4 : a.toNat = 10
  · rw [if_pos h4]; split
    · rw [hfn]; rename_i h; simp only [h, true_and]; omega
    · rename_i h; simp only [h, false_and, false_or, Option.isSome_none, Bool.false_eq_true, false_iff]; omega
  rw [if_neg h4]
  by_cases h5 : a.toNat ≤ 17
  · rw [if_pos h5]; split
    · rw [hfn]; rename_i h; simp only [h, true_and]; omega
    · rename_i h; simp only [h, false_and, false_or, Option.isSome_none, Bool.false_eq_true, false_iff]; omega
  rw [if_neg h5]; split
  · rw [hfn]; rename_i h; simp only [h, true_and]; omega
  · rename_i h; simp only [h, false_and, or_false, Option.isSome_none, Bool.false_eq_true, false_iff]; omega

/-- **C66.** A message to an address that is not a precompiled contract of the fork runs its code (so, without code, it succeeds at once and
costs nothing); a message to one that is runs no code but the contract's function. -/
theorem C66_precompiles (E : Env) (msg : Message) (w : World) (a : Address)
    (ha : msg.codeAddress = some a) :
    (¬ HasPrecompile w.state.fork a.toNat → msg.code = [] → executeCode E (exec E) msg w = .ok (initEvm msg, w)) ∧
    (HasPrecompile w.state.fork a.toNat → ∀ code loop loop', executeCode E loop { msg with code := code } w = executeCode E loop' { msg with code := code } w) := by
  refine ⟨fun h hc => ?_, fun h code loop loop' => ?_⟩
  · rw [← precompile_iff E _, Option.isSome_iff_ne_none, Decidable.not_not] at h
    unfold executeCode precompileOf
    rw [ha]
    dsimp only
    rw [h]
    dsimp only
    rw [exec_eq E _ (by simp [initEvm])]
    unfold loopBody
    dsimp only
    rw [if_pos (show (initEvm msg).running = true from rfl), show (initEvm msg).code[(initEvm msg).pc]? = none by simp [initEvm, hc]]
    rfl
  · rw [← precompile_iff E _] at h
    obtain ⟨p, hp⟩ := Option.isSome_iff_exists.mp h
    unfold executeCode precompileOf
    dsimp only
    rw [ha]
    dsimp only
    rw [hp]

/-- **C66.** A typed transaction is refused with a transaction type error exactly if the fork does not have its type.
Before berlin there are no typed transactions to decode. -/
theorem C66_types (f : Fork) (hf : f.since .berlin = true) (t : UInt8) (rest : Bytes) :
    decodeTransaction f (.inr (t :: rest)) = .error .transactionType ↔ ¬ HasTxType f t.toNat := by
  have hn : ∀ n : UInt8, t = n ↔ t.toNat = n.toNat := fun n => ⟨fun h => h ▸ rfl, fun h => UInt8.toNat_inj.mp h⟩
  have k : ∀ o : Option Transaction, (match some o with
    | none => Except.error DecodeError.transactionType
    | some none => .error .decodingError
    | some (some tx) => .ok tx) ≠ (.error .transactionType : Except DecodeError Transaction) := by
    intro o; cases o <;> simp
  unfold decodeTransaction HasTxType
  dsimp only
  by_cases t1 : t = 1
  · subst t1
    rw [if_neg (not_not_intro (show f.since (txTypeFirstFork 1) = true from hf)), if_pos rfl]
    exact ⟨fun h => absurd h (k _), fun h => absurd (.inl ⟨hf, rfl⟩) h⟩
  by_cases t2 : t = 2
  · subst t2
    by_cases hc : f.since .london = true
    · rw [if_neg (not_not_intro (show f.since (txTypeFirstFork 2) = true from hc)), if_neg (by decide), if_pos rfl]
      exact ⟨fun h => absurd h (k _), fun h => absurd (.inr (.inl ⟨hc, rfl⟩)) h⟩
    · rw [if_pos (show ¬ f.since (txTypeFirstFork 2) = true from hc)]
      refine ⟨fun _ => ?_, fun _ => rfl⟩
      simp [hc]
  by_cases t3 : t = 3
  · subst t3
    by_cases hc : f.since .cancun = true
    · rw [if_neg (not_not_intro (show f.since (txTypeFirstFork 3) = true from hc)), if_neg (by decide), if_neg (by decide), if_pos rfl]
      exact ⟨fun h => absurd h (k _), fun h => absurd (.inr (.inr (.inl ⟨hc, rfl⟩))) h⟩
    · rw [if_pos (show ¬ f.since (txTypeFirstFork 3) = true from hc)]
      refine ⟨fun _ => ?_, fun _ => rfl⟩
      simp [hc]
  by_cases t4 : t = 4
  · subst t4
    by_cases hc : f.since .prague = true
    · rw [if_neg (not_not_intro (show f.since (txTypeFirstFork 4) = true from hc)), if_neg (by decide), if_neg (by decide), if_neg (by decide), if_pos rfl]
      exact ⟨fun h => absurd h (k _), fun h => absurd (.inr (.inr (.inr ⟨hc, rfl⟩))) h⟩
    · rw [if_pos (show ¬ f.since (txTypeFirstFork 4) = true from hc)]
      refine ⟨fun _ => ?_, fun _ => rfl⟩
      simp [hc]
  · rw [if_neg t1, if_neg t2, if_neg t3, if_neg t4]
    have e : ∀ c : Prop, [Decidable c] → (if c then none else none : Option (Option Transaction)) = none := fun c _ => by split <;> rfl
    rw [e]
    rw [hn] at t1 t2 t3 t4
    refine ⟨fun _ => ?_, fun _ => rfl⟩
    rintro (h | h | h | h)
    · exact t1 h.2
    · exact t2 h.2
    · exact t3 h.2
    · exact t4 h.2

/-- PUSH0 in paris and shanghai, DELEGATECALL in frontier and homestead; a call of the P-256 precompile in prague and osaka; a blob transaction in shanghai and cancun. -/
example : ¬ HasOpcode .paris 0x5f ∧ HasOpcode .shanghai 0x5f ∧ ¬ HasOpcode .frontier 0xf4 ∧ HasOpcode .homestead 0xf4 ∧ ¬ HasPrecompile .prague 256 ∧ HasPrecompile .osaka 256 ∧
    ¬ HasTxType .shanghai 3 ∧ HasTxType .cancun 3 := by
  refine ⟨by decide, by decide, by decide, by decide, ?_, ?_, ?_, ?_⟩
  · rintro (h | h | h | h | h | h) <;> revert h <;> decide
  · exact .inr (.inr (.inr (.inr (.inr (by decide)))))
  · rintro (h | h | h | h) <;> revert h <;> decide
  · exact .inr (.inr (.inl (by decide)))

/-! ### C67 -/

/-- **C67.** The encoding of a header determines the class of the header and all its fields: no header of one fork can pass for a
header of another with other fields. -/
theorem C67_header (f g : Fork) (h h' : Header) (hl : (Rlp.encode (.ofHeader f h)).length < 2 ^ 64)
    (he : Rlp.encode (.ofHeader f h) = Rlp.encode (.ofHeader g h')) :
    (f.since .shanghai = g.since .shanghai ∧ f.since .cancun = g.since .cancun ∧ f.since .prague = g.since .prague) ∧ SameFields f h h' := by
  have hx : Rlp.ofHeader f h = Rlp.ofHeader g h' := by
    refine (Rlp.encode_prefix (s := []) (t := []) (Rlp.small_of_length _ hl) (Rlp.small_of_length _ (by rw [← he]; exact hl)) ?_).1
    rw [he]
  unfold Rlp.ofHeader at hx
  have hx := Rlp.list.inj hx
  have hn := congrArg List.length hx
  have hcls : f.since .shanghai = g.since .shanghai ∧ f.since .cancun = g.since .cancun ∧ f.since .prague = g.since .prague := by
    have m : ∀ f : Fork, (f.since .prague = true → f.since .cancun = true) ∧ (f.since .cancun = true → f.since .shanghai = true) := by
      intro f; cases f <;> decide
    have mf := m f
    have mg := m g
    simp only [List.length_append] at hn
    revert hn mf mg
    cases f.since .shanghai <;> cases f.since .cancun <;> cases f.since .prague <;>
      cases g.since .shanghai <;> cases g.since .cancun <;> cases g.since .prague <;> simp
  refine ⟨hcls, ?_⟩
  rw [← hcls.1, ← hcls.2.1, ← hcls.2.2] at hx
  have w32 : ∀ {a b : Word}, Rlp.ofWord32 a = Rlp.ofWord32 b → a = b := fun h => wordBytes_inj (Rlp.bytes.inj h)
  have adr : ∀ {a b : Address}, Rlp.ofAddress a = Rlp.ofAddress b → a = b := fun h => addressBytes_inj (Rlp.bytes.inj h)
  have h2048 : 2 ^ 2048 = 256 ^ 256 := by rw [show 2048 = 8 * 256 from rfl, Nat.pow_mul]
  have blm : ∀ {a b : BitVec 2048}, Rlp.ofBloom a = Rlp.ofBloom b → a = b := fun {a b} h =>
    BitVec.eq_of_toNat_eq (toBE_inj (n := 256) (h2048 ▸ a.isLt) (h2048 ▸ b.isLt) (Rlp.bytes.inj h))
  have non : ∀ {a b : BitVec 64}, Rlp.bytes (toBE 8 a.toNat) = Rlp.bytes (toBE 8 b.toNat) → a = b := fun {a b} h =>
    BitVec.eq_of_toNat_eq (toBE_inj (n := 8) (Nat.lt_of_lt_of_le a.isLt (by decide)) (Nat.lt_of_lt_of_le b.isLt (by decide)) (Rlp.bytes.inj h))
  have num : ∀ {n : Nat} {a b : BitVec n}, Rlp.ofNat a.toNat = Rlp.ofNat b.toNat → a = b := fun h => BitVec.eq_of_toNat_eq (Rlp.ofNat_inj h)
  simp only [List.append_assoc, List.cons_append, List.nil_append, List.cons.injEq] at hx
  obtain ⟨x1, x2, x3, x4, x5, x6, x7, x8, x9, x10, x11, x12, x13, x14, x15, x16, hx⟩ := hx
  have hx1 : (f.since .shanghai = true → h.withdrawalsRoot = h'.withdrawalsRoot) ∧
      (f.since .cancun = true → h.blobGasUsed = h'.blobGasUsed ∧ h.excessBlobGas = h'.excessBlobGas ∧ h.parentBeaconBlockRoot = h'.parentBeaconBlockRoot) ∧
      (f.since .prague = true → h.requestsHash = h'.requestsHash) := by
    revert hx
    cases f.since .shanghai <;> cases f.since .cancun <;> cases f.since .prague <;>
      simp only [if_true, if_false, Bool.false_eq_true, List.nil_append, List.append_nil, List.cons_append, List.cons.injEq, and_true, true_and, false_implies, true_implies] <;>
      intro hx <;> grind
  exact ⟨w32 x1, w32 x2, adr x3, w32 x4, w32 x5, w32 x6, blm x7, Rlp.ofNat_inj x8, Rlp.ofNat_inj x9, Rlp.ofNat_inj x10, Rlp.ofNat_inj x11,
    num x12, Rlp.bytes.inj x13, w32 x14, non x15, Rlp.ofNat_inj x16, hx1.1, fun a => (hx1.2.1 a).1, fun a => (hx1.2.1 a).2.1,
    fun a => (hx1.2.1 a).2.2, hx1.2.2⟩

private theorem back {C : Crypto} {full full' : List ChainBlock} (hl : Linked C full) (hl' : Linked C full')
    (hs : ∀ b ∈ full ++ full', (Rlp.encode (.ofHeader b.fork b.block.header)).length < 2 ^ 64)
    (hc : NoCollision C ((full ++ full').map fun b => Rlp.encode (.ofHeader b.fork b.block.header))) :
    ∀ (k i i' : Nat) (a a' : ChainBlock) (z z' : ChainBlock), full[i]? = some a → full'[i']? = some a' → full[i + k]? = some z → full'[i' + k]? = some z' →
      headerHash C z.fork z.block.header = headerHash C z'.fork z'.block.header →
      headerHash C a.fork a.block.header = headerHash C a'.fork a'.block.header := by
  intro k
  induction k with
  | zero =>
    intro i i' a a' z z' ha ha' hz hz' he
    rw [Nat.add_zero] at hz hz'
    rw [ha] at hz; rw [ha'] at hz'
    cases hz; cases hz'; exact he
  | succ k ih =>
    intro i i' a a' z z' ha ha' hz hz' he
    have hlt : i + 1 < full.length := by have := (List.getElem?_eq_some_iff.mp hz).1; omega
    have hlt' : i' + 1 < full'.length := by have := (List.getElem?_eq_some_iff.mp hz').1; omega
    have hb : full[i + 1]? = some full[i + 1] := List.getElem?_eq_getElem hlt
    have hb' : full'[i' + 1]? = some full'[i' + 1] := List.getElem?_eq_getElem hlt'
    have q := ih (i + 1) (i' + 1) _ _ z z' hb hb' (by rw [← hz]; congr 1; omega) (by rw [← hz']; congr 1; omega) he
    have m1 : full[i + 1] ∈ full ++ full' := List.mem_append_left _ (List.getElem_mem _)
    have m2 : full'[i' + 1] ∈ full ++ full' := List.mem_append_right _ (List.getElem_mem _)
    have e := hc _ (List.mem_map_of_mem (f := fun b : ChainBlock => Rlp.encode (.ofHeader b.fork b.block.header)) m1) _ (List.mem_map_of_mem (f := fun b : ChainBlock => Rlp.encode (.ofHeader b.fork b.block.header)) m2) q
    obtain ⟨-, hf⟩ := C67_header _ _ _ _ (hs _ m1) e
    rw [← (hl _ _ _ ha hb).parentHash, ← (hl' _ _ _ ha' hb').parentHash]
    exact hf.parentHash

/-- **C67.** The hash of the last block commits to the whole history. If two histories, through whatever forks, end with blocks of
the same hash, then going back from the end their headers agree in all fields and belong to forks with the same header fields,
as far back as both reach, unless two different header encodings collide under keccak256. -/
theorem C67_history {C : Crypto} {c d c' d' : BlockChain} {bs bs' : List ChainBlock} (h : Imports C c bs d) (h' : Imports C c' bs' d')
    (hl : Linked C c.blocks) (hl' : Linked C c'.blocks) (hn : c.blocks.length ≤ 255) (hn' : c'.blocks.length ≤ 255)
    (z z' : ChainBlock) (hz : d.blocks.getLast? = some z) (hz' : d'.blocks.getLast? = some z')
    (he : headerHash C z.fork z.block.header = headerHash C z'.fork z'.block.header)
    (hs : ∀ b ∈ (c.blocks ++ bs) ++ (c'.blocks ++ bs'), (Rlp.encode (.ofHeader b.fork b.block.header)).length < 2 ^ 64)
    (hc : NoCollision C (((c.blocks ++ bs) ++ (c'.blocks ++ bs')).map fun b => Rlp.encode (.ofHeader b.fork b.block.header)))
    (k : Nat) (a a' : ChainBlock) (ha : (c.blocks ++ bs).reverse[k]? = some a) (ha' : (c'.blocks ++ bs').reverse[k]? = some a') :
    (a.fork.since .shanghai = a'.fork.since .shanghai ∧ a.fork.since .cancun = a'.fork.since .cancun ∧ a.fork.since .prague = a'.fork.since .prague) ∧
      SameFields a.fork a.block.header a'.block.header := by
  obtain ⟨L, B⟩ := imports_history h c.blocks hl (lastN_eq hn).symm
  obtain ⟨L', B'⟩ := imports_history h' c'.blocks hl' (lastN_eq hn').symm
  have last : ∀ {l m : List ChainBlock} {z : ChainBlock} {n : Nat}, m = lastN n l → m.getLast? = some z → l[l.length - 1]? = some z := by
    intro l m z n hm hz
    subst hm
    unfold lastN at hz
    rw [List.getLast?_drop] at hz
    split at hz
    · cases hz
    · rw [← List.getLast?_eq_getElem?]; exact hz
  have hz := last B hz
  have hz' := last B' hz'
  generalize c.blocks ++ bs = full at *
  generalize c'.blocks ++ bs' = full' at *
  have hk := (List.getElem?_eq_some_iff.mp ha).1
  have hk' := (List.getElem?_eq_some_iff.mp ha').1
  rw [List.length_reverse] at hk hk'
  rw [List.getElem?_reverse hk] at ha
  rw [List.getElem?_reverse hk'] at ha'
  have q := back L L' hs hc k _ _ a a' z z' ha ha' (by rw [← hz]; congr 1; omega) (by rw [← hz']; congr 1; omega) he
  have m1 : a ∈ full ++ full' := List.mem_append_left _ (List.mem_of_getElem? ha)
  have m2 : a' ∈ full ++ full' := List.mem_append_right _ (List.mem_of_getElem? ha')
  exact C67_header _ _ _ _ (hs _ m1) (hc _ (List.mem_map_of_mem (f := fun b : ChainBlock => Rlp.encode (.ofHeader b.fork b.block.header)) m1) _ (List.mem_map_of_mem (f := fun b : ChainBlock => Rlp.encode (.ofHeader b.fork b.block.header)) m2) q)

/-- The history of one block after the sample chain, whose hash function is injective on the two headers: the hypotheses can be met. -/
example : ∃ d, Imports sampleCrypto sampleChain [⟨.osaka, sampleBlock⟩] d ∧ Linked sampleCrypto sampleChain.blocks ∧
    (∀ b ∈ sampleChain.blocks ++ [(⟨.osaka, sampleBlock⟩ : ChainBlock)], (Rlp.encode (.ofHeader b.fork b.block.header)).length < 2 ^ 64) :=
  sample_imports.imp fun _ h => ⟨h.1, sample_linked, by decide +kernel⟩

/-- A paris header and a shanghai header never have the same encoding, whatever their fields. -/
example (h h' : Header) (hl : (Rlp.encode (.ofHeader .paris h)).length < 2 ^ 64) :
    Rlp.encode (.ofHeader .paris h) ≠ Rlp.encode (.ofHeader .shanghai h') := fun he =>
  absurd (C67_header _ _ _ _ hl he).1.1 (by decide)

end Verif.Props
