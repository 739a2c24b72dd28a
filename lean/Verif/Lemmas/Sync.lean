import Verif.Spec.Sync
import Verif.Lemmas.TxJson
import Verif.Lemmas.TxCodec
import Verif.Lemmas.Dict
import Verif.Lemmas.Touch
/-! Lemmas for reading blocks. -/
namespace Verif.Sync
open Verif Pow Spec TxJson ForkTracking

/-! ### Decoding is inverse to encoding -/

theorem asLegacyTx_item (t : LegacyTx) : asLegacyTx (Rlp.ofLegacyTx t) = some t := by
  simp only [Rlp.ofLegacyTx, Rlp.legacyFields, Rlp.signature, List.cons_append, List.nil_append, asLegacyTx, Rlp.asWord_ofNat, Rlp.asNat_ofNat, Rlp.asTo_ofTo,
    Rlp.asBytes_bytes]; rfl

theorem asNonce_item (n : BitVec 64) : asNonce (.bytes (toBE 8 n.toNat)) = some n := by
  rw [asNonce, Rlp.asExact, Rlp.asBytes_bytes, Option.bind_some, if_pos (toBE_length _ _), Option.map_some, fromBE_toBE,
    Nat.mod_eq_of_lt (by have := n.isLt; show n.toNat < (2 ^ 8) ^ 8; rw [← Nat.pow_mul]; exact this), BitVec.ofNat_toNat, BitVec.setWidth_eq]

/-- The first fifteen items of a header. -/
def fifteen (h : PowHeader) : List Rlp := headFields h ++ [.ofWord32 h.mixDigest, .bytes (toBE 8 h.nonce.toNat)]

theorem headOf_fifteen (h : PowHeader) (rest : List Rlp) : headOf (fifteen h ++ rest) = some ({ h with baseFeePerGas := none }, rest) := by
  simp only [fifteen, headFields, List.cons_append, List.nil_append, headOf, Rlp.asWord32_ofWord32, Rlp.asAddress_ofAddress, Rlp.asBloom_ofBloom,
    Rlp.asNat_ofNat, Rlp.asWord_ofNat, Rlp.asBytes_bytes, asNonce_item]; rfl

theorem ofPowHeader_eq (h : PowHeader) : ofPowHeader h = .list (fifteen h ++ feeField h) := rfl

theorem asPowHeader_item (f : Fork) (h : PowHeader) :
    asPowHeader f (ofPowHeader h) = if h.baseFeePerGas.isSome = f.since .london then some h else none := by
  rw [ofPowHeader_eq, asPowHeader, headOf_fifteen, Option.bind_some]
  obtain ⟨a1, a2, a3, a4, a5, a6, a7, a8, a9, a10, a11, a12, a13, a14, a15, fee⟩ := h
  cases fee with
  | none => cases hl : f.since .london <;> simp [feeField, powTail, hl]
  | some n => cases hl : f.since .london <;> simp [feeField, powTail, hl, Rlp.asNat_ofNat]

/-- The items of a header after the first fifteen, in a fork without proof of work. -/
def tailItems (f : Fork) (h : Header) : List Rlp :=
  [.ofNat h.baseFeePerGas] ++ (if f.since .shanghai then [.ofWord32 h.withdrawalsRoot] else [])
    ++ (if f.since .cancun then [.ofNat h.blobGasUsed.toNat, .ofNat h.excessBlobGas.toNat, .ofWord32 h.parentBeaconBlockRoot] else [])
    ++ (if f.since .prague then [.ofWord32 h.requestsHash] else [])

/-- The first fifteen fields. -/
def headPart (h : Header) : PowHeader :=
  ⟨h.parentHash, h.ommersHash, h.coinbase, h.stateRoot, h.transactionsRoot, h.receiptRoot, h.bloom, h.difficulty, h.number, h.gasLimit, h.gasUsed,
    h.timestamp, h.extraData, h.prevRandao, h.nonce, none⟩

theorem ofHeader_eq (f : Fork) (h : Header) : Rlp.ofHeader f h = .list (fifteen (headPart h) ++ tailItems f h) := by
  unfold Rlp.ofHeader tailItems fifteen headFields headPart
  simp only [List.cons_append, List.nil_append, List.append_assoc]

theorem since_steps (f : Fork) : (f.since .prague = true → f.since .cancun = true) ∧ (f.since .cancun = true → f.since .shanghai = true) ∧
    (f.since .shanghai = true → f.since .paris = true) ∧ (f.since .paris = true → f.since .london = true) ∧ (f.since .london = true → f.since .berlin = true) := by
  cases f <;> decide

theorem posTail_items (f g : Fork) (h : Header) (hf : HeaderOf f h) (pf : f.since .paris) (pg : g.since .paris) :
    posTail g { headPart h with baseFeePerGas := none } (tailItems f h) = if headerFields g = headerFields f then some h else none := by
  obtain ⟨w, b, r⟩ := hf
  obtain ⟨f1, f2, f3, f4, -⟩ := since_steps f
  obtain ⟨g1, g2, g3, g4, -⟩ := since_steps g
  have fl := f4 pf
  have gl := g4 pg
  obtain ⟨a1, a2, a3, a4, a5, a6, a7, a8, a9, a10, a11, a12, a13, a14, a15, a16, a17, a18, a19, a20, a21⟩ := h
  unfold tailItems headerFields
  dsimp only at w b r
  cases fs : f.since .shanghai <;> cases fc : f.since .cancun <;> cases fp : f.since .prague <;>
    (try (simp only [fs, fc, fp, Bool.false_eq_true, false_implies, true_implies, reduceCtorEq, forall_const] at f1 f2 f3; done)) <;>
    (simp only [fs, fc, fp, Bool.false_eq_true, not_false_eq_true, not_true_eq_false, forall_const, false_implies] at w b r) <;>
    (cases gs : g.since .shanghai <;> cases gc : g.since .cancun <;> cases gp : g.since .prague <;>
      (try (simp only [gs, gc, gp, Bool.false_eq_true, false_implies, true_implies, reduceCtorEq, forall_const] at g1 g2 g3; done)) <;>
      simp [posTail, fl, gl, gs, gc, gp, w, b, r, headPart, PowHeader.toHeader, Rlp.asNat_ofNat, Rlp.asWord32_ofWord32, Rlp.asU64_ofNat])

theorem asHeader_item (f g : Fork) (h : Header) (hf : HeaderOf f h) (pf : f.since .paris) (pg : g.since .paris) :
    asHeader g (Rlp.ofHeader f h) = if headerFields g = headerFields f then some h else none := by
  rw [ofHeader_eq, asHeader, headOf_fifteen, Option.bind_some]
  exact posTail_items f g h hf pf pg

/-- A header with proof of work, read in a fork without. -/
theorem asHeader_pow (g : Fork) (h : PowHeader) (pg : g.since .paris) :
    (asHeader g (ofPowHeader h)).isSome = (h.baseFeePerGas.isSome && !g.since .shanghai) := by
  rw [ofPowHeader_eq, asHeader, headOf_fifteen, Option.bind_some]
  obtain ⟨a1, a2, a3, a4, a5, a6, a7, a8, a9, a10, a11, a12, a13, a14, a15, fee⟩ := h
  cases fee with
  | none => rfl
  | some n => cases gs : g.since .shanghai <;> simp [feeField, posTail, gs, Rlp.asNat_ofNat]

/-- A header without proof of work, read in a fork with it. -/
theorem asPowHeader_pos (f g : Fork) (h : Header) : (asPowHeader g (Rlp.ofHeader f h)).isSome = (!f.since .shanghai && g.since .london) := by
  obtain ⟨f1, f2, -, -, -⟩ := since_steps f
  rw [ofHeader_eq, asPowHeader, headOf_fifteen, Option.bind_some]
  unfold tailItems
  cases fs : f.since .shanghai <;> cases fc : f.since .cancun <;> cases fp : f.since .prague <;>
    (try (simp only [fs, fc, fp, Bool.false_eq_true, false_implies, true_implies, reduceCtorEq, forall_const] at f1 f2; done)) <;>
    (cases gl : g.since .london <;> simp [powTail, gl, Rlp.asNat_ofNat])

theorem asWithdrawal_item (w : Withdrawal) : asWithdrawal (Rlp.ofWithdrawal w) = some w := by
  simp only [Rlp.ofWithdrawal, asWithdrawal, Rlp.asU64_ofNat, Rlp.asAddress_ofAddress, Rlp.asWord_ofNat]; rfl

/-- The item of a transaction in a block. -/
def txItemOf : LegacyTx ⊕ Bytes → Rlp := fun | .inl t => .ofLegacyTx t | .inr x => .bytes x

theorem asTxItem_item (f : Fork) (tx : LegacyTx ⊕ Bytes) : asTxItem f (txItemOf tx) = if tx.isLeft ∨ f.since .berlin then some tx else none := by
  cases tx with
  | inl t =>
    have : asTxItem f (txItemOf (.inl t)) = (asLegacyTx (Rlp.ofLegacyTx t)).map .inl := rfl
    rw [this, asLegacyTx_item]; simp
  | inr b => cases h : f.since .berlin <;> simp [txItemOf, asTxItem, h]

theorem mapM_isSome {α β : Type} (f : α → Option β) : ∀ l : List α, (l.mapM f).isSome = true ↔ ∀ a ∈ l, (f a).isSome = true
  | [] => by simp
  | a :: r => by
    have ih := mapM_isSome f r
    rw [List.mapM_cons]
    cases ha : f a with
    | none => simp [ha]
    | some x =>
      cases hr : r.mapM f with
      | none =>
        rw [hr] at ih
        have : ¬ ∀ a ∈ r, (f a).isSome = true := fun h => by have := ih.mpr h; simp at this
        simp only [Option.bind_eq_bind, Option.bind_some, Option.bind_none, Option.isSome_none, Bool.false_eq_true, false_iff]
        exact fun h => this fun b hb => h b (List.mem_cons_of_mem _ hb)
      | some y =>
        rw [hr] at ih
        simp only [Option.bind_eq_bind, Option.bind_some, Option.pure_def, Option.isSome_some, true_iff]
        intro b hb
        rcases List.mem_cons.mp hb with rfl | hb
        · rw [ha]; rfl
        · exact (ih.mp rfl) b hb

theorem tuple_isSome {α β : Type} (f : Rlp → Option β) (g : α → Rlp) (l : List α) :
    (Rlp.asTuple f (.list (l.map g))).isSome = true ↔ ∀ a ∈ l, (f (g a)).isSome = true := by
  show ((l.map g).mapM f).isSome = true ↔ _
  rw [mapM_isSome]
  simp

theorem bind3_isSome {α β γ δ : Type} (a : Option α) (b : Option β) (c : Option γ) (k : α → β → γ → δ) :
    (a.bind fun x => b.bind fun y => c.bind fun z => some (k x y z)).isSome = true ↔ a.isSome = true ∧ b.isSome = true ∧ c.isSome = true := by
  cases a <;> cases b <;> cases c <;> simp

theorem bind4_isSome {α β γ δ ε : Type} (a : Option α) (b : Option β) (c : Option γ) (d : Option δ) (k : α → β → γ → δ → ε) :
    (a.bind fun x => b.bind fun y => c.bind fun z => d.bind fun w => some (k x y z w)).isSome = true ↔
      a.isSome = true ∧ b.isSome = true ∧ c.isSome = true ∧ d.isSome = true := by
  cases a <;> cases b <;> cases c <;> cases d <;> simp

theorem txs_isSome (g : Fork) (l : Txs) :
    (Rlp.asTuple (asTxItem g) (.list (l.map txItemOf))).isSome = true ↔ ∀ tx ∈ l, tx.isLeft = true ∨ g.since .berlin = true := by
  rw [tuple_isSome]
  refine forall_congr' fun tx => forall_congr' fun _ => ?_
  rw [asTxItem_item]
  split <;> simp_all

theorem txs_read (g : Fork) (l : Txs) (h : ∀ tx ∈ l, tx.isLeft = true ∨ g.since .berlin = true) :
    Rlp.asTuple (asTxItem g) (.list (l.map txItemOf)) = some l :=
  Rlp.asTuple_map _ _ _ fun tx ht => by rw [asTxItem_item, if_pos (h tx ht)]

theorem fields_table (f g : Fork) :
    (f.since .paris = false → g.since .paris = true → ((f.since .london && !g.since .shanghai) = true ↔ headerFields g = headerFields f)) ∧
    (f.since .paris = false → g.since .paris = false → (f.since .london = g.since .london ↔ headerFields g = headerFields f)) ∧
    (f.since .shanghai ≠ g.since .shanghai → headerFields g ≠ headerFields f) ∧
    (f.since .paris = true → g.since .paris = false → ((!f.since .shanghai && g.since .london) = true ↔ headerFields g = headerFields f)) := by
  cases f <;> cases g <;> decide

/-- A fork reads the blocks of another exactly if headers have the same number of fields, and it knows the transactions. -/
theorem asBlock_isSome (f g : Fork) (b : NodeBlock) (hb : OfFork f b) :
    (asBlock g (itemOf f b)).isSome = true ↔
      headerFields g = headerFields f ∧ ∀ tx ∈ txsOf b, tx.isLeft = true ∨ g.since .berlin = true := by
  obtain ⟨t1, t2, t3, t4⟩ := fields_table f g
  cases b with
  | pow b =>
    obtain ⟨nf, hh, -⟩ := hb
    have e : itemOf f (.pow b) = .list [ofPowHeader b.header, .list (b.transactions.map txItemOf), .list (b.ommers.map ofPowHeader)] := rfl
    rw [e, asBlock]
    by_cases pg : g.since .paris = true
    · rw [if_pos pg, asPosBlock]
      have e1 : ∀ h ∈ b.header :: b.ommers, (asHeader g (ofPowHeader h)).isSome = true ↔ headerFields g = headerFields f := by
        intro h hm
        rw [asHeader_pow g h pg, hh h hm]
        exact t1 (by simpa using nf) pg
      by_cases gs : g.since .shanghai = true
      · rw [if_pos gs]
        have := e1 b.header (by simp)
        rw [asHeader_pow g _ pg, gs] at this
        simp only [Bool.not_true, Bool.and_false, Bool.false_eq_true, false_iff] at this
        simp [this]
      · rw [if_neg gs, Option.isSome_map]
        refine (bind3_isSome _ _ _ _).trans ?_
        rw [txs_isSome, tuple_isSome, e1 b.header (by simp)]
        exact ⟨fun h => ⟨h.1, h.2.1⟩, fun h => ⟨h.1, h.2, fun o ho => (e1 o (by simp [ho])).mpr h.1⟩⟩
    · rw [if_neg pg, asPowBlock, Option.isSome_map]
      have e1 : ∀ h ∈ b.header :: b.ommers, (asPowHeader g (ofPowHeader h)).isSome = true ↔ headerFields g = headerFields f := by
        intro h hm
        rw [asPowHeader_item, hh h hm, ← t2 (by simpa using nf) (by simpa using pg)]
        split <;> simp_all
      refine (bind3_isSome _ _ _ _).trans ?_
      rw [txs_isSome, tuple_isSome, e1 b.header (by simp)]
      exact ⟨fun h => ⟨h.1, h.2.1⟩, fun h => ⟨h.1, h.2, fun o ho => (e1 o (by simp [ho])).mpr h.1⟩⟩
  | pos b =>
    obtain ⟨pf, hh, -⟩ := hb
    have e : itemOf f (.pos b) = .list ([.ofHeader f b.header, .list (b.transactions.map txItemOf), .list (b.ommers.map (Rlp.ofHeader f))]
      ++ (if f.since .shanghai then [.list (b.withdrawals.map Rlp.ofWithdrawal)] else [])) := rfl
    rw [e, asBlock]
    by_cases pg : g.since .paris = true
    · rw [if_pos pg]
      have e1 : ∀ h ∈ b.header :: b.ommers, (asHeader g (Rlp.ofHeader f h)).isSome = true ↔ headerFields g = headerFields f := by
        intro h hm
        rw [asHeader_item f g h (hh h hm) pf pg]
        split <;> simp_all
      have ne := t3
      by_cases fs : f.since .shanghai = true
      · rw [if_pos fs]
        simp only [List.cons_append, List.nil_append]
        rw [asPosBlock]
        by_cases gs : g.since .shanghai = true
        · rw [if_pos gs, Option.isSome_map]
          refine (bind4_isSome _ _ _ _ _).trans ?_
          rw [txs_isSome, tuple_isSome, tuple_isSome, e1 b.header (by simp)]
          exact ⟨fun h => ⟨h.1, h.2.1⟩, fun h => ⟨h.1, h.2, fun o ho => (e1 o (by simp [ho])).mpr h.1, fun w _ => by rw [asWithdrawal_item]; rfl⟩⟩
        · rw [if_neg gs]
          have := ne (by rw [fs]; exact fun h => gs h.symm)
          simp [this]
      · rw [if_neg fs]
        simp only [List.cons_append, List.append_nil, List.nil_append]
        rw [asPosBlock]
        by_cases gs : g.since .shanghai = true
        · rw [if_pos gs]
          have := ne (by rw [gs]; exact fs)
          simp [this]
        · rw [if_neg gs, Option.isSome_map]
          refine (bind3_isSome _ _ _ _).trans ?_
          rw [txs_isSome, tuple_isSome, e1 b.header (by simp)]
          exact ⟨fun h => ⟨h.1, h.2.1⟩, fun h => ⟨h.1, h.2, fun o ho => (e1 o (by simp [ho])).mpr h.1⟩⟩
    · rw [if_neg pg]
      have e1 : ∀ h ∈ b.header :: b.ommers, (asPowHeader g (Rlp.ofHeader f h)).isSome = true ↔ headerFields g = headerFields f := by
        intro h hm
        rw [asPowHeader_pos]
        exact t4 pf (by simpa using pg)
      by_cases fs : f.since .shanghai = true
      · rw [if_pos fs]
        simp only [List.cons_append, List.nil_append]
        rw [asPowBlock]
        · have := e1 b.header (by simp)
          rw [asPowHeader_pos, fs] at this
          simp only [Bool.not_true, Bool.false_and, Bool.false_eq_true, false_iff] at this
          simp [this]
        · intros; simp_all
      · rw [if_neg fs]
        simp only [List.cons_append, List.append_nil, List.nil_append]
        rw [asPowBlock, Option.isSome_map]
        refine (bind3_isSome _ _ _ _).trans ?_
        rw [txs_isSome, tuple_isSome, e1 b.header (by simp)]
        exact ⟨fun h => ⟨h.1, h.2.1⟩, fun h => ⟨h.1, h.2, fun o ho => (e1 o (by simp [ho])).mpr h.1⟩⟩

/-- A fork reads its own blocks. -/
theorem asBlock_item (f : Fork) (b : NodeBlock) (hb : OfFork f b) : asBlock f (itemOf f b) = some b := by
  obtain ⟨f1, f2, f3, f4, f5⟩ := since_steps f
  cases b with
  | pow b =>
    obtain ⟨nf, hh, ht⟩ := hb
    have e : itemOf f (.pow b) = .list [ofPowHeader b.header, .list (b.transactions.map txItemOf), .list (b.ommers.map ofPowHeader)] := rfl
    rw [e, asBlock, if_neg nf, asPowBlock]
    have e1 : ∀ h ∈ b.header :: b.ommers, asPowHeader f (ofPowHeader h) = some h := fun h hm => by rw [asPowHeader_item, if_pos (hh h hm)]
    rw [e1 b.header (by simp), txs_read f b.transactions fun tx hm => by
        by_cases hbl : f.since .berlin = true
        · exact .inr hbl
        · exact .inl (ht hbl tx hm),
      Rlp.asTuple_map _ _ _ fun o ho => e1 o (by simp [ho])]
    rfl
  | pos b =>
    obtain ⟨pf, hh, hw⟩ := hb
    have e : itemOf f (.pos b) = .list ([.ofHeader f b.header, .list (b.transactions.map txItemOf), .list (b.ommers.map (Rlp.ofHeader f))]
      ++ (if f.since .shanghai then [.list (b.withdrawals.map Rlp.ofWithdrawal)] else [])) := rfl
    have e1 : ∀ h ∈ b.header :: b.ommers, asHeader f (Rlp.ofHeader f h) = some h := fun h hm => by rw [asHeader_item f f h (hh h hm) pf pf, if_pos rfl]
    have e2 := txs_read f b.transactions fun tx _ => .inr (f5 (f4 pf))
    have e3 := Rlp.asTuple_map (asHeader f) (Rlp.ofHeader f) b.ommers fun o ho => e1 o (by simp [ho])
    rw [e, asBlock, if_pos pf]
    by_cases fs : f.since .shanghai = true
    · rw [if_pos fs]
      simp only [List.cons_append, List.nil_append]
      rw [asPosBlock, if_pos fs, e1 b.header (by simp), e2, e3, Rlp.asTuple_map _ _ _ fun w _ => asWithdrawal_item w]
      rfl
    · rw [if_neg fs]
      simp only [List.cons_append, List.append_nil, List.nil_append]
      rw [asPosBlock, if_neg fs, e1 b.header (by simp), e2, e3]
      have := hw fs
      obtain ⟨h, t, o, w⟩ := b
      dsimp only at this
      subst this
      rfl

/-! ### What is read is of the fork -/

theorem headOf_fee {l : List Rlp} {r : PowHeader × List Rlp} (h : headOf l = some r) : r.1.baseFeePerGas = none := by
  unfold headOf at h
  split at h
  · iterate 15 replace ⟨_, _, h⟩ := Option.bind_eq_some_iff.mp h
    cases h
    rfl
  · cases h

theorem asPowHeader_class {f : Fork} {x : Rlp} {h : PowHeader} (e : asPowHeader f x = some h) : h.baseFeePerGas.isSome = f.since .london := by
  unfold asPowHeader at e
  split at e
  · cases e
  · obtain ⟨r, hr, e⟩ := Option.bind_eq_some_iff.mp e
    have hn := headOf_fee hr
    unfold powTail at e
    split at e
    · split at e
      · cases e
      · cases e; rw [hn]; simp_all
    · split at e
      · obtain ⟨n, -, rfl⟩ := Option.map_eq_some_iff.mp e; simp_all
      · cases e
    · cases e

theorem asHeader_class {f : Fork} {x : Rlp} {h : Header} (e : asHeader f x = some h) : HeaderOf f h := by
  obtain ⟨f1, f2, -, -, -⟩ := since_steps f
  unfold asHeader at e
  split at e
  · cases e
  · obtain ⟨r, -, e⟩ := Option.bind_eq_some_iff.mp e
    unfold posTail at e
    split at e
    · split at e
      · cases e
      · simp only [Option.bind_eq_bind, Option.bind_eq_some_iff, Option.pure_def, Option.some.injEq] at e
        obtain ⟨_, _, rfl⟩ := e
        exact ⟨fun _ => rfl, fun _ => ⟨rfl, rfl, rfl⟩, fun _ => rfl⟩
    · split at e
      case isTrue hc =>
        simp only [Option.bind_eq_bind, Option.bind_eq_some_iff, Option.pure_def, Option.some.injEq] at e
        obtain ⟨_, _, _, _, rfl⟩ := e
        exact ⟨fun h => absurd hc.1 h, fun _ => ⟨rfl, rfl, rfl⟩, fun _ => rfl⟩
      case isFalse => cases e
    · split at e
      case isTrue hc =>
        simp only [Option.bind_eq_bind, Option.bind_eq_some_iff, Option.pure_def, Option.some.injEq] at e
        obtain ⟨_, _, _, _, _, _, _, _, _, _, rfl⟩ := e
        exact ⟨fun h => absurd (f2 hc.1) h, fun h => absurd hc.1 h, fun _ => rfl⟩
      case isFalse => cases e
    · split at e
      case isTrue hc =>
        simp only [Option.bind_eq_bind, Option.bind_eq_some_iff, Option.pure_def, Option.some.injEq] at e
        obtain ⟨_, _, _, _, _, _, _, _, _, _, _, _, rfl⟩ := e
        exact ⟨fun h => absurd (f2 (f1 hc)) h, fun h => absurd (f1 hc) h, fun h => absurd hc h⟩
      case isFalse => cases e
    · cases e

theorem mapM_class {α β : Type} {f : α → Option β} {P : β → Prop} (hf : ∀ a b, f a = some b → P b) : ∀ {l : List α} {m : List β},
    l.mapM f = some m → ∀ b ∈ m, P b
  | [], m, h => by rw [List.mapM_nil] at h; cases h; simp
  | a :: r, m, h => by
    rw [List.mapM_cons] at h
    simp only [Option.bind_eq_bind, Option.bind_eq_some_iff, Option.pure_def, Option.some.injEq] at h
    obtain ⟨b, hb, m', hm, rfl⟩ := h
    intro x hx
    rcases List.mem_cons.mp hx with rfl | hx
    · exact hf _ _ hb
    · exact mapM_class hf hm x hx

theorem tuple_class {β : Type} {f : Rlp → Option β} {P : β → Prop} (hf : ∀ a b, f a = some b → P b) {x : Rlp} {m : List β}
    (h : Rlp.asTuple f x = some m) : ∀ b ∈ m, P b := by
  obtain ⟨l, -, h⟩ := Option.bind_eq_some_iff.mp h
  exact mapM_class hf h

theorem asTxItem_class {f : Fork} (nb : ¬ f.since .berlin) (x : Rlp) (tx : LegacyTx ⊕ Bytes) (h : asTxItem f x = some tx) : tx.isLeft := by
  unfold asTxItem at h
  split at h
  · rw [if_neg nb] at h; cases h
  · obtain ⟨t, -, rfl⟩ := Option.map_eq_some_iff.mp h; rfl

theorem asBlock_class {f : Fork} {x : Rlp} {b : NodeBlock} (h : asBlock f x = some b) : OfFork f b := by
  unfold asBlock at h
  split at h
  case isTrue pf =>
    obtain ⟨p, hp, e⟩ := Option.map_eq_some_iff.mp h
    subst e
    clear h
    rename' hp => h
    unfold asPosBlock at h
    split at h
    · split at h
      · cases h
      · simp only [Option.bind_eq_bind, Option.bind_eq_some_iff, Option.pure_def, Option.some.injEq] at h
        obtain ⟨hd, h1, tx, h2, om, h3, rfl⟩ := h
        refine ⟨pf, ?_, fun _ => rfl⟩
        intro k hk
        rcases List.mem_cons.mp hk with rfl | hk
        · exact asHeader_class h1
        · exact tuple_class (fun _ _ => asHeader_class) h3 k hk
    · split at h
      case isTrue fs =>
        simp only [Option.bind_eq_bind, Option.bind_eq_some_iff, Option.pure_def, Option.some.injEq] at h
        obtain ⟨hd, h1, tx, h2, om, h3, w, h4, rfl⟩ := h
        refine ⟨pf, ?_, fun h => absurd fs h⟩
        intro k hk
        rcases List.mem_cons.mp hk with rfl | hk
        · exact asHeader_class h1
        · exact tuple_class (fun _ _ => asHeader_class) h3 k hk
      case isFalse => cases h
    · cases h
  case isFalse pf =>
    obtain ⟨p, hp, e⟩ := Option.map_eq_some_iff.mp h
    subst e
    clear h
    rename' hp => h
    unfold asPowBlock at h
    split at h
    · simp only [Option.bind_eq_bind, Option.bind_eq_some_iff, Option.pure_def, Option.some.injEq] at h
      obtain ⟨hd, h1, tx, h2, om, h3, rfl⟩ := h
      refine ⟨pf, ?_, fun nb => tuple_class (asTxItem_class nb) h2⟩
      intro k hk
      rcases List.mem_cons.mp hk with rfl | hk
      · exact asPowHeader_class h1
      · exact tuple_class (fun _ _ => asPowHeader_class) h3 k hk
    · cases h

/-! ### The answers in order -/

/-- Keys increase. -/
abbrev Sorted {α : Type} (l : List (Nat × α)) : Prop := l.Pairwise fun a b => a.1 < b.1

theorem insertKey_perm {α : Type} (x : Nat × α) : ∀ l, (insertKey x l).Perm (x :: l)
  | [] => .refl _
  | y :: r => by
    rw [insertKey]
    split
    · exact .refl _
    · exact ((insertKey_perm x r).cons y).trans (.swap x y r)

theorem sortItems_perm {α : Type} : ∀ l : List (Nat × α), (sortItems l).Perm l
  | [] => .refl _
  | x :: r => (insertKey_perm x _).trans ((sortItems_perm r).cons x)

theorem insertKey_sorted {α : Type} (x : Nat × α) : ∀ l, Sorted l → (∀ y ∈ l, y.1 ≠ x.1) → Sorted (insertKey x l)
  | [], _, _ => by simp [insertKey]
  | y :: r, h, hn => by
    rw [insertKey]
    obtain ⟨h1, h2⟩ := List.pairwise_cons.mp h
    split
    case isTrue hl =>
      refine List.pairwise_cons.mpr ⟨fun z hz => ?_, h⟩
      rcases List.mem_cons.mp hz with rfl | hz
      · exact hl
      · exact Nat.lt_trans hl (h1 z hz)
    case isFalse hl =>
      have hne := hn y (by simp)
      refine List.pairwise_cons.mpr ⟨fun z hz => ?_, insertKey_sorted x r h2 fun z hz => hn z (by simp [hz])⟩
      rcases List.mem_cons.mp ((insertKey_perm x r).mem_iff.mp hz) with rfl | hz
      · omega
      · exact h1 z hz

theorem sortItems_sorted {α : Type} : ∀ l : List (Nat × α), (l.map Prod.fst).Nodup → Sorted (sortItems l)
  | [], _ => by simp [sortItems]
  | x :: r, h => by
    rw [List.map_cons, List.nodup_cons] at h
    refine insertKey_sorted x _ (sortItems_sorted r h.2) fun y hy e => h.1 ?_
    rw [← e]
    exact List.mem_map_of_mem ((sortItems_perm r).mem_iff.mp hy)

theorem sorted_ext {α : Type} : ∀ {l m : List (Nat × α)}, Sorted l → Sorted m → (∀ x, x ∈ l ↔ x ∈ m) → l = m
  | [], [], _, _, _ => rfl
  | [], y :: m, _, _, h => by have := (h y).mpr (by simp); simp at this
  | x :: l, [], _, _, h => by have := (h x).mp (by simp); simp at this
  | x :: l, y :: m, hl, hm, h => by
    obtain ⟨l1, l2⟩ := List.pairwise_cons.mp hl
    obtain ⟨m1, m2⟩ := List.pairwise_cons.mp hm
    have e : x = y := by
      rcases List.mem_cons.mp ((h x).mp (by simp)) with e | e
      · exact e
      · rcases List.mem_cons.mp ((h y).mpr (by simp)) with e' | e'
        · exact e'.symm
        · have := m1 x e; have := l1 y e'; omega
    subst e
    rw [sorted_ext l2 m2 fun z => ?_]
    constructor
    · intro hz
      rcases List.mem_cons.mp ((h z).mp (by simp [hz])) with rfl | hz'
      · have := l1 z hz; omega
      · exact hz'
    · intro hz
      rcases List.mem_cons.mp ((h z).mpr (by simp [hz])) with rfl | hz'
      · have := m1 z hz; omega
      · exact hz'

theorem increasing_range : ∀ (n a : Nat) (l : List Nat), l.Pairwise (· < ·) → (∀ x ∈ l, a ≤ x ∧ x < a + n) → l.length = n → l = List.range' a n
  | 0, a, l, _, _, hl => by rw [List.length_eq_zero_iff.mp hl]; rfl
  | n + 1, a, [], _, _, hl => by simp at hl
  | n + 1, a, x :: l, hs, hr, hl => by
    obtain ⟨h1, h2⟩ := List.pairwise_cons.mp hs
    have hx := hr x (by simp)
    have low : ∀ (k b : Nat) (m : List Nat), m.Pairwise (· < ·) → (∀ y ∈ m, b < y) → (∀ y ∈ m, y ≤ b + k) → m.length ≤ k := by
      intro k
      induction k with
      | zero =>
        intro b m _ hb hk
        cases m with
        | nil => simp
        | cons y m => have := hb y (by simp); have := hk y (by simp); omega
      | succ k ih =>
        intro b m hp hb hk
        cases m with
        | nil => simp
        | cons y m =>
          obtain ⟨p1, p2⟩ := List.pairwise_cons.mp hp
          have hy := hb y (by simp)
          have hy' := hk y (by simp)
          have := ih (b + 1) m p2 (fun z hz => by have := p1 z hz; omega) (fun z hz => by have := hk z (by simp [hz]); omega)
          simp only [List.length_cons]; omega
    have hlen : l.length = n := by simpa using hl
    have := low (a + n - x) x l h2 h1 fun y hy => by have := hr y (by simp [hy]); omega
    have e : x = a := by omega
    subst e
    rw [List.range'_succ, increasing_range n (x + 1) l h2 (fun y hy => by have := h1 y hy; have := hr y (by simp [hy]); omega) hlen]

theorem lastReply_cons {α : Type} (r : Reply α) (rest : List (Reply α)) (id : Nat) :
    lastReply (r :: rest) id = (lastReply rest id).or (if r.id = id then some r.body else none) := by
  unfold lastReply
  rw [List.reverse_cons, List.find?_append]
  cases h : List.find? (fun r => decide (r.id = id)) rest.reverse with
  | some x => rfl
  | none =>
    simp only [Option.none_or, Option.map_none, List.find?_cons, List.find?_nil]
    by_cases hid : r.id = id <;> simp [hid]

theorem collect_ok {α : Type} (first count : Nat) : ∀ (rs : List (Reply α)) (d d' : Dict Nat (Int ⊕ α)), collect first count d rs = some d' →
    (∀ r ∈ rs, first ≤ r.id ∧ r.id < first + count) ∧ ∀ id, d'.get? id = (lastReply rs id).or (d.get? id)
  | [], d, d', h => by rw [collect] at h; cases h; exact ⟨by simp, fun id => rfl⟩
  | r :: rest, d, d', h => by
    rw [collect] at h
    split at h
    · cases h
    · obtain ⟨h1, h2⟩ := collect_ok first count rest _ _ h
      refine ⟨fun x hx => ?_, fun id => ?_⟩
      · rcases List.mem_cons.mp hx with rfl | hx
        · omega
        · exact h1 x hx
      · rw [h2, lastReply_cons, Dict.get?_set]
        cases lastReply rest id with
        | some x => rfl
        | none => by_cases e : r.id = id <;> simp [e]

theorem collect_some {α : Type} (first count : Nat) : ∀ (rs : List (Reply α)) (d : Dict Nat (Int ⊕ α)), (∀ r ∈ rs, first ≤ r.id ∧ r.id < first + count) →
    ∃ d', collect first count d rs = some d'
  | [], d, _ => ⟨d, rfl⟩
  | r :: rest, d, h => by
    have := h r (by simp)
    rw [collect, if_neg (by omega)]
    exact collect_some first count rest _ fun x hx => h x (by simp [hx])

theorem lastReply_mem {α : Type} {rs : List (Reply α)} {id : Nat} {body : Int ⊕ α} (h : lastReply rs id = some body) : ⟨id, body⟩ ∈ rs := by
  obtain ⟨r, hr, rfl⟩ := Option.map_eq_some_iff.mp h
  have h1 := List.find?_some hr
  have h2 := List.mem_of_find?_eq_some hr
  simp only [decide_eq_true_eq] at h1
  rw [← h1]
  exact List.mem_reverse.mp h2

theorem lastReply_of_mem {α : Type} {rs : List (Reply α)} {id : Nat} (h : id ∈ rs.map Reply.id) : ∃ body, lastReply rs id = some body := by
  obtain ⟨r, hr, rfl⟩ := List.mem_map.mp h
  unfold lastReply
  cases e : List.find? (fun x => decide (x.id = r.id)) rs.reverse with
  | some x => exact ⟨_, rfl⟩
  | none =>
    have := List.find?_eq_none.mp e r (List.mem_reverse.mpr hr)
    simp at this

/-- The sorted items of a full answer. -/
theorem sorted_full {α : Type} {first count : Nat} {rs : List (Reply α)} {d : Dict Nat (Int ⊕ α)} (h : collect first count Dict.empty rs = some d) :
    d.entries.length = count ↔ ∀ n ∈ List.range' first count, n ∈ rs.map Reply.id := by
  obtain ⟨h1, h2⟩ := collect_ok first count rs _ _ h
  have hk : ∀ id, id ∈ d.entries.map Prod.fst ↔ id ∈ rs.map Reply.id := by
    intro id
    have e := h2 id
    rw [Dict.get?_empty, Option.or_none] at e
    constructor
    · intro hm
      obtain ⟨⟨k, v⟩, hm', rfl⟩ := List.mem_map.mp hm
      rw [Dict.mem_iff] at hm'
      dsimp only at e
      rw [hm'] at e
      exact List.mem_map.mpr ⟨_, lastReply_mem e.symm, rfl⟩
    · intro hm
      obtain ⟨body, hb⟩ := lastReply_of_mem hm
      rw [hb] at e
      exact List.mem_map.mpr ⟨(id, body), (Dict.mem_iff d id body).mpr e, rfl⟩
  have hs : ((sortItems d.entries).map Prod.fst).Pairwise (· < ·) := List.pairwise_map.mpr (sortItems_sorted _ d.nodup)
  have hm : ∀ id, id ∈ (sortItems d.entries).map Prod.fst ↔ id ∈ rs.map Reply.id := fun id => by
    rw [← hk id]; exact ((sortItems_perm _).map Prod.fst).mem_iff
  have hlen : ((sortItems d.entries).map Prod.fst).length = d.entries.length := by rw [List.length_map, (sortItems_perm _).length_eq]
  constructor
  · intro hc n hn
    have e := increasing_range count first _ hs (fun x hx => by
      obtain ⟨r, hr, rfl⟩ := List.mem_map.mp ((hm x).mp hx)
      exact h1 r hr) (hlen.trans hc)
    rw [← hm, e]; exact hn
  · intro hall
    rw [← hlen]
    have hp : ((sortItems d.entries).map Prod.fst).Perm (List.range' first count) := by
      refine (List.perm_ext_iff_of_nodup (hs.imp fun h => Nat.ne_of_lt h) List.nodup_range').mpr fun x => ?_
      constructor
      · intro hx
        obtain ⟨r, hr, rfl⟩ := List.mem_map.mp ((hm x).mp hx)
        have := h1 r hr
        rw [List.mem_range'_1]; omega
      · exact fun hx => (hm x).mpr (hall x hx)
    rw [hp.length_eq, List.length_range']

/-- The sorted bodies, one by one. -/
theorem sorted_bodies {α : Type} {first count : Nat} {rs : List (Reply α)} {d : Dict Nat (Int ⊕ α)} (h : collect first count Dict.empty rs = some d)
    (hc : d.entries.length = count) : (sortItems d.entries).map (some ∘ Prod.snd) = (List.range' first count).map (lastReply rs) := by
  obtain ⟨h1, h2⟩ := collect_ok first count rs _ _ h
  have hs : ((sortItems d.entries).map Prod.fst).Pairwise (· < ·) := List.pairwise_map.mpr (sortItems_sorted _ d.nodup)
  have e := increasing_range count first _ hs (fun x hx => by
      obtain ⟨⟨k, v⟩, hm, rfl⟩ := List.mem_map.mp hx
      have hm := (sortItems_perm _).mem_iff.mp hm
      rw [Dict.mem_iff, h2, Dict.get?_empty, Option.or_none] at hm
      exact h1 _ (lastReply_mem hm)) (by rw [List.length_map, (sortItems_perm _).length_eq, hc])
  rw [← e, List.map_map]
  refine List.map_congr_left fun x hx => ?_
  have hm := (sortItems_perm _).mem_iff.mp hx
  rw [show x = (x.1, x.2) from rfl, Dict.mem_iff, h2, Dict.get?_empty, Option.or_none] at hm
  exact hm.symm

/-! ### Right answers -/

theorem rawTimestamp_of (l rest : List Rlp) (w : Word) (h : l[11]? = some (.ofNat w.toNat)) : rawTimestamp (.list (.list l :: rest)) = some w := by
  have e : rawTimestamp (.list (.list l :: rest)) = match (l[11]? : Option Rlp) with
    | some (.bytes b) => if b.length ≤ 32 then some (BitVec.ofNat 256 (fromBE b)) else none
    | _ => none := rfl
  rw [e, h]
  have := Rlp.asWord_ofNat w
  rw [Rlp.asWord, Rlp.asFixed, Rlp.ofNat, Rlp.asBytes_bytes, Option.bind_some] at this
  rw [Rlp.ofNat]
  dsimp only
  split at this
  case isTrue h => rw [if_pos h]; exact this
  case isFalse h => cases this

theorem rawTimestamp_item (f : Fork) (b : NodeBlock) : rawTimestamp (itemOf f b) = some (timeOf b) := by
  cases b with
  | pow b => exact rawTimestamp_of _ _ _ rfl
  | pos b =>
    have e : itemOf f (.pos b) = .list (.ofHeader f b.header :: .list (b.transactions.map txItemOf) :: .list (b.ommers.map (Rlp.ofHeader f)) ::
      (if f.since .shanghai then [.list (b.withdrawals.map Rlp.ofWithdrawal)] else [])) := rfl
    rw [e, ofHeader_eq]
    exact rawTimestamp_of _ _ _ rfl

theorem advance_notAhead {t : ForkTracking} {time : Word} {j : Nat} (h : NotAhead t (t.blockNumber + 1) time)
    (hj : Props.InForce t.forks (t.blockNumber + 1) time j) : (t.advanceBlock time).1 = { t with blockNumber := t.blockNumber + 1, activeForkIndex := j } := by
  obtain ⟨h1, -, -⟩ := Props.climb_inForce (forks := t.forks) (n := t.blockNumber + 1) (t := time) (steps := t.forks.length)
    (i := t.activeForkIndex) (by omega) h.active h.bound
  unfold advanceBlock
  dsimp only
  rw [Props.inForce_unique h1 hj]

theorem decodeNext_right {names : List Fork} {t : ForkTracking} {b : NodeBlock} {j : Nat} {f : Fork} (h : NotAhead t (t.blockNumber + 1) (timeOf b))
    (hj : Props.InForce t.forks (t.blockNumber + 1) (timeOf b) j) (hf : names[j]? = some f) (hb : OfFork f b) (hs : (encodeBlock f b).length < 2 ^ 64) :
    decodeNext names t (encodeBlock f b) = some (b, { t with blockNumber := t.blockNumber + 1, activeForkIndex := j }) := by
  have hd : Rlp.decode (encodeBlock f b) = some (itemOf f b) := Rlp.decode_encode _ (Rlp.small_of_length _ hs)
  unfold decodeNext decodeBlock
  rw [hd, Option.bind_some, rawTimestamp_item, Option.bind_some]
  dsimp only
  rw [advance_notAhead h hj]
  unfold activeFork
  dsimp only
  rw [hf, Option.bind_some, Option.bind_some, asBlock_item f b hb]
  rfl

theorem tracks_next {names : List Fork} {forks : List ForkCriteria} {chain : List NodeBlock} (hc : GoodChain names forks chain) {t : ForkTracking}
    (ht : Tracks forks chain t) {b : NodeBlock} (hb : chain[t.blockNumber]? = some b) {j : Nat}
    (hj : Props.InForce forks (t.blockNumber + 1) (timeOf b) j) :
    Tracks forks chain { t with blockNumber := t.blockNumber + 1, activeForkIndex := j } := by
  obtain ⟨h1, h2, h3⟩ := ht
  have hlt := (List.getElem?_eq_some_iff.mp hb).1
  refine ⟨h1, hlt, fun b' hb' => ⟨fun i c hi hi' hcc => ?_, ?_⟩⟩
  · dsimp only at hi' hcc hb' ⊢
    rw [h1] at hcc
    obtain ⟨e1, e2⟩ := List.getElem?_eq_some_iff.mp hb
    obtain ⟨e3, e4⟩ := List.getElem?_eq_some_iff.mp hb'
    have := List.pairwise_iff_getElem.mp hc.times _ _ e1 e3 (Nat.lt_succ_self _)
    rw [e2, e4] at this
    exact Props.C42_active c _ _ _ _ (by omega) this (hj.active i c hi hi' hcc)
  · dsimp only
    rw [h1]
    exact hj.bound

/-- The bodies that follow block `k`. -/
def Bodies (names : List Fork) (forks : List ForkCriteria) (chain : List NodeBlock) (k : Nat) (bodies : List (Int ⊕ Bytes)) : Prop :=
  ∀ i body, bodies[i]? = some body →
    if k + i + 1 ≤ chain.length then ∃ raw, body = .inr raw ∧ RawBlock names forks chain (k + i + 1) raw else body = .inl (-32000)

theorem decodeAll_right {names : List Fork} {forks : List ForkCriteria} {chain : List NodeBlock} (hc : GoodChain names forks chain) :
    ∀ (bodies : List (Int ⊕ Bytes)) (t : ForkTracking), Tracks forks chain t → Bodies names forks chain t.blockNumber bodies →
    ∃ t', decodeAll names t bodies = some (((chain.drop t.blockNumber).take bodies.length).map .inr ++
        List.replicate (bodies.length - (chain.length - t.blockNumber)) (.inl (-32000)), t') ∧
      Tracks forks chain t' ∧ t'.blockNumber = min (t.blockNumber + bodies.length) chain.length
  | [], t, ht, _ => ⟨t, by simp [decodeAll], ht, by have := ht.number; simp; omega⟩
  | body :: rest, t, ht, hb => by
    by_cases hlt : t.blockNumber + 1 ≤ chain.length
    · have h0 := hb 0 body rfl
      rw [if_pos (by omega)] at h0
      obtain ⟨raw, rfl, b, j, f, e1, e2, e3, rfl⟩ := h0
      simp only [Nat.add_zero, Nat.add_sub_cancel] at e1 e2
      obtain ⟨j', f', i1, i2, i3, i4⟩ := hc.ofFork _ _ e1
      cases Props.inForce_unique e2 i1
      rw [i2] at e3
      cases e3
      have hd := decodeNext_right (names := names) (t := t) (ht.notAhead b e1) (by rw [ht.forks]; exact i1) i2 i3 i4
      obtain ⟨t', d1, d2, d3⟩ := decodeAll_right hc rest _ (tracks_next hc ht e1 i1) (fun i body hi => by
        have := hb (i + 1) body hi
        rw [show t.blockNumber + (i + 1) + 1 = t.blockNumber + 1 + i + 1 by omega] at this
        exact this)
      refine ⟨t', ?_, d2, ?_⟩
      · rw [decodeAll, hd, Option.bind_some]
        dsimp only at d1 ⊢
        rw [d1, Option.map_some]
        obtain ⟨g1, g2⟩ := List.getElem?_eq_some_iff.mp e1
        rw [List.drop_eq_getElem_cons g1, g2, List.length_cons, List.take_succ_cons, List.map_cons, List.cons_append]
        rw [show rest.length + 1 - (chain.length - t.blockNumber) = rest.length - (chain.length - (t.blockNumber + 1)) by omega]
      · rw [d3, List.length_cons]; dsimp only; omega
    · have h0 := hb 0 body rfl
      rw [if_neg (by omega)] at h0
      subst h0
      have := ht.number
      obtain ⟨t', d1, d2, d3⟩ := decodeAll_right hc rest t ht (fun i body hi => by
        have := hb (i + 1) body hi
        rw [if_neg (by omega)] at this
        rw [if_neg (by omega)]; exact this)
      refine ⟨t', ?_, d2, ?_⟩
      · rw [decodeAll, d1, Option.map_some]
        have e : chain.drop t.blockNumber = [] := List.drop_eq_nil_of_le (by omega)
        rw [e]
        simp only [List.take_nil, List.map_nil, List.nil_append, List.length_cons]
        rw [show rest.length + 1 - (chain.length - t.blockNumber) = rest.length - (chain.length - t.blockNumber) + 1 by omega, List.replicate_succ]
      · rw [d3, List.length_cons]; omega

theorem fetch_right {names : List Fork} {forks : List ForkCriteria} {chain : List NodeBlock} (hc : GoodChain names forks chain) {t : ForkTracking}
    (ht : Tracks forks chain t) {count : Nat} {replies : List (Reply Bytes)} (hr : RightAnswer names forks chain (t.blockNumber + 1) count replies) :
    ∃ t', fetchBlocksDebug names t (t.blockNumber + 1) count replies = some (((chain.drop t.blockNumber).take count).map .inr ++
        List.replicate (count - (chain.length - t.blockNumber)) (.inl (-32000)), t') ∧
      Tracks forks chain t' ∧ t'.blockNumber = min (t.blockNumber + count) chain.length := by
  unfold fetchBlocksDebug
  by_cases h0 : count = 0
  · subst h0
    exact ⟨t, by simp, ht, by have := ht.number; omega⟩
  rw [if_neg h0]
  have hmem : ∀ id, id ∈ replies.map Reply.id ↔ id ∈ List.range' (t.blockNumber + 1) count := fun id => hr.ids.mem_iff
  obtain ⟨d, hd⟩ := collect_some (t.blockNumber + 1) count replies Dict.empty fun r hm => by
    have := (hmem r.id).mp (List.mem_map_of_mem hm)
    rw [List.mem_range'_1] at this; exact this
  have hl := (sorted_full hd).mpr fun n hn => (hmem n).mpr hn
  rw [hd, Option.bind_some, if_neg (by omega)]
  have hbd := sorted_bodies hd hl
  have hlen : ((sortItems d.entries).map Prod.snd).length = count := by rw [List.length_map, (sortItems_perm _).length_eq, hl]
  have := decodeAll_right hc ((sortItems d.entries).map Prod.snd) t ht (fun i body hi => by
    have hi' : i < count := by rw [← hlen]; exact (List.getElem?_eq_some_iff.mp hi).1
    have e : ((sortItems d.entries).map (some ∘ Prod.snd))[i]? = some (some body) := by
      rw [← List.map_map, List.getElem?_map, hi]; rfl
    rw [hbd, List.getElem?_map, List.getElem?_range' hi'] at e
    simp only [Nat.one_mul, Option.map_some, Option.some.injEq] at e
    have := hr.bodies _ (lastReply_mem e)
    dsimp only at this
    rw [show t.blockNumber + 1 + i = t.blockNumber + i + 1 by omega] at this
    exact this)
  rw [hlen] at this
  exact this

theorem toPush_right (bs : List NodeBlock) (m : Nat) :
    toPush (bs.map .inr ++ List.replicate m (.inl (-32000))) = some (bs.map some ++ List.replicate m none) := by
  induction bs with
  | nil =>
    induction m with
    | zero => rfl
    | succ m ih =>
      simp only [List.map_nil, List.nil_append] at ih ⊢
      rw [List.replicate_succ, toPush, if_neg (by simp), ih]; rfl
  | cons b r ih => rw [List.map_cons, List.cons_append, toPush, ih]; rfl

/-! ### The standard endpoint -/

theorem aset_new {V : Type} : ∀ (l : List (Nat × V)) (k : Nat) (v : V), (∀ x ∈ l, x.1 ≠ k) → aset l k v = l ++ [(k, v)]
  | [], _, _, _ => rfl
  | (k', v') :: r, k, v, h => by
    rw [aset, if_neg (h (k', v') (by simp)), aset_new r k v fun x hx => h x (by simp [hx])]; rfl

theorem collectEth_ordered {J : Type} (first count : Nat) (js : Nat → J) : ∀ (m a : Nat) (d : Dict Nat J) (e : Dict Nat Int),
    (∀ x ∈ d.entries, x.1 < a) → first ≤ a → a + m ≤ first + count →
    ∃ d', collectEth first count d e ((List.range' a m).map fun n => ⟨n, .inr (some (js n))⟩) = some (d', e) ∧
      d'.entries = d.entries ++ (List.range' a m).map fun n => (n, js n)
  | 0, a, d, e, _, _, _ => ⟨d, rfl, by simp⟩
  | m + 1, a, d, e, hd, h1, h2 => by
    have hs : (d.set a (js a)).entries = d.entries ++ [(a, js a)] := aset_new _ _ _ fun x hx => by have := hd x hx; omega
    obtain ⟨d', i1, i2⟩ := collectEth_ordered first count js m (a + 1) (d.set a (js a)) e (fun x hx => by
      rw [hs] at hx
      rcases List.mem_append.mp hx with hx | hx
      · have := hd x hx; omega
      · simp only [List.mem_singleton] at hx; subst hx; simp) (by omega) (by omega)
    refine ⟨d', ?_, ?_⟩
    · rw [List.range'_succ, List.map_cons, collectEth, if_neg (by dsimp only; omega)]
      exact i1
    · rw [i2, hs, List.range'_succ, List.map_cons, List.append_assoc]; rfl

theorem foldSet_ordered : ∀ (l : List (Nat × NodeBlock)) (d : Dict Nat (Int ⊕ NodeBlock)), Sorted l →
    (∀ x ∈ d.entries, ∀ y ∈ l, x.1 < y.1) →
    (l.foldl (fun d x => d.set x.1 (.inr x.2)) d).entries = d.entries ++ l.map fun x => (x.1, .inr x.2)
  | [], d, _, _ => by simp
  | x :: r, d, hs, hd => by
    obtain ⟨s1, s2⟩ := List.pairwise_cons.mp hs
    have he : (d.set x.1 (.inr x.2)).entries = d.entries ++ [(x.1, .inr x.2)] :=
      aset_new _ _ _ fun y hy => by have := hd y hy x (by simp); omega
    rw [List.foldl_cons, foldSet_ordered r _ s2 (fun y hy z hz => by
      rw [he] at hy
      rcases List.mem_append.mp hy with hy | hy
      · exact hd y hy z (by simp [hz])
      · simp only [List.mem_singleton] at hy; subst hy; exact s1 z hz), he, List.append_assoc]; rfl

theorem sortItems_id {α : Type} (l : List (Nat × α)) (h : Sorted l) : sortItems l = l :=
  sorted_ext (sortItems_sorted l ((List.pairwise_map.mpr h).imp fun e => Nat.ne_of_lt e)) h fun _ => (sortItems_perm l).mem_iff

theorem makeAll_ordered {J : Type} (time : J → Word) (make : Fork → J → Option NodeBlock) {names : List Fork} {forks : List ForkCriteria}
    {chain : List NodeBlock} (hc : GoodChain names forks chain) (js : Nat → J) :
    ∀ (m : Nat) (t : ForkTracking), Tracks forks chain t → t.blockNumber + m ≤ chain.length →
    (∀ n b j f, t.blockNumber < n → n ≤ t.blockNumber + m → chain[n - 1]? = some b → Props.InForce forks n (timeOf b) j → names[j]? = some f →
      make f (js n) = some b ∧ time (js n) = timeOf b) →
    ∃ l t', makeAll time make names t ((List.range' (t.blockNumber + 1) m).map fun n => (n, js n)) = some (l, t') ∧ Tracks forks chain t' ∧
      t'.blockNumber = t.blockNumber + m ∧ l.map Prod.snd = (chain.drop t.blockNumber).take m ∧ l.map Prod.fst = List.range' (t.blockNumber + 1) m
  | 0, t, ht, _, _ => ⟨[], t, rfl, ht, rfl, by simp, rfl⟩
  | m + 1, t, ht, hn, hm => by
    have hlt : t.blockNumber < chain.length := by omega
    have hb : chain[t.blockNumber]? = some chain[t.blockNumber] := List.getElem?_eq_getElem hlt
    obtain ⟨j, f, i1, i2, -, -⟩ := hc.ofFork _ _ hb
    obtain ⟨m1, m2⟩ := hm (t.blockNumber + 1) chain[t.blockNumber] j f (by omega) (by omega) hb i1 i2
    obtain ⟨l, t', r1, r2, r3, r4, r5⟩ := makeAll_ordered time make hc js m _ (tracks_next hc ht hb i1) (by dsimp only; omega)
      (fun n b j f h1 h2 => hm n b j f (by dsimp only at h1; omega) (by dsimp only at h2; omega))
    dsimp only at r1 r3 r4 r5
    refine ⟨(t.blockNumber + 1, chain[t.blockNumber]) :: l, t', ?_, r2, by omega, ?_, ?_⟩
    · rw [List.range'_succ, List.map_cons, makeAll]
      rw [m2, advance_notAhead (ht.notAhead _ hb) (by rw [ht.forks]; exact i1)]
      unfold activeFork
      dsimp only
      rw [i2, Option.bind_some, m1, Option.bind_some, r1]; rfl
    · rw [List.map_cons, r4, List.drop_eq_getElem_cons hlt, List.take_succ_cons]
    · rw [List.map_cons, r5, List.range'_succ]

end Verif.Sync
