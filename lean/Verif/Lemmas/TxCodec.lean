import Verif.Lemmas.Rlp
/-! Typed decoding is inverse to typed encoding. -/
namespace Verif
namespace Rlp

theorem asBytes_bytes (b : Bytes) : asBytes (.bytes b) = some b := rfl
theorem asNat_ofNat (n : Nat) : asNat (ofNat n) = some n := by
  rw [asNat, ofNat, asBytes_bytes, Option.map_some, fromBE_natBytes]
theorem asFixed_ofNat {k n : Nat} (h : n < 256 ^ k) : asFixed k (ofNat n) = some n := by
  rw [asFixed, ofNat, asBytes_bytes, Option.bind_some, fromBE_natBytes, natBytes_length, if_pos]
  rcases Nat.eq_zero_or_pos n with rfl | hp
  · exact Nat.zero_le _
  · have h2 := (byteLength_spec n).2 (by omega)
    have := (Nat.pow_lt_pow_iff_right (a := 256) (by omega)).mp (Nat.lt_of_le_of_lt h2 h)
    omega
theorem asWord_ofNat (w : Word) : asWord (ofNat w.toNat) = some w := by
  rw [asWord, asFixed_ofNat (by have := w.isLt; omega), Option.map_some, BitVec.ofNat_toNat, BitVec.setWidth_eq]
theorem asU64_ofNat (w : U64) : asU64 (ofNat w.toNat) = some w := by
  rw [asU64, asFixed_ofNat (by have := w.isLt; omega), Option.map_some, BitVec.ofNat_toNat, BitVec.setWidth_eq]
theorem asWord32_ofWord32 (w : Word) : asWord32 (ofWord32 w) = some w := by
  rw [asWord32, asExact, ofWord32, asBytes_bytes, Option.bind_some, if_pos (wordBytes_length w), Option.map_some,
    fromBE_wordBytes, BitVec.ofNat_toNat, BitVec.setWidth_eq]
theorem asAddress_ofAddress (a : Address) : asAddress (ofAddress a) = some a := by
  rw [asAddress, asExact, ofAddress, asBytes_bytes, Option.bind_some, if_pos (addressBytes_length a), Option.map_some,
    fromBE_addressBytes, BitVec.ofNat_toNat, BitVec.setWidth_eq]
theorem asBloom_ofBloom (b : BitVec 2048) : asBloom (ofBloom b) = some b := by
  rw [asBloom, asExact, ofBloom, asBytes_bytes, Option.bind_some, if_pos (toBE_length _ _), Option.map_some,
    fromBE_toBE, Nat.mod_eq_of_lt (by have := b.isLt; show b.toNat < (2 ^ 8) ^ 256; rw [← Nat.pow_mul]; exact this),
    BitVec.ofNat_toNat, BitVec.setWidth_eq]
theorem asBool_ofBool (b : Bool) : asBool (ofNat (if b then 1 else 0)) = some b := by
  cases b <;> decide
theorem asTo_ofTo (t : Option Address) : asTo (ofTo t) = some t := by
  cases t with
  | none => rfl
  | some a =>
    have h : ∀ x, asTo (.bytes x) = if x = [] then some none else (asAddress (.bytes x)).map some := by
      intro x; cases x <;> rfl
    rw [ofTo, ofAddress, h, if_neg]
    · have := asAddress_ofAddress a; rw [ofAddress] at this; rw [this]; rfl
    · intro he; have := addressBytes_length a; rw [he] at this; simp at this

theorem mapM_map {α β : Type} (f : β → Option α) (g : α → β) : ∀ l : List α, (∀ a ∈ l, f (g a) = some a) →
    (l.map g).mapM f = some l
  | [], _ => by simp
  | a :: r, h => by
    rw [List.map_cons, List.mapM_cons, h a (by simp), mapM_map f g r fun b hb => h b (by simp [hb])]; rfl

theorem asTuple_map {α : Type} (f : Rlp → Option α) (g : α → Rlp) (l : List α) (h : ∀ a ∈ l, f (g a) = some a) :
    asTuple f (.list (l.map g)) = some l := mapM_map f g l h

theorem asAccess_ofAccess (a : Access) : asAccess (ofAccess a) = some a := by
  simp only [ofAccess, asAccess, asAddress_ofAddress, asTuple_map _ _ _ fun w _ => asWord32_ofWord32 w]; rfl

theorem asAuthorization_ofAuthorization (a : Authorization) (h : a.yParity < 256) :
    asAuthorization (ofAuthorization a) = some a := by
  simp only [ofAuthorization, asAuthorization, asAddress_ofAddress, asWord_ofNat, asU64_ofNat,
    asFixed_ofNat (show a.yParity < 256 ^ 1 by omega)]; rfl

theorem asLog_ofLog (l : Log) : asLog (ofLog l) = some l := by
  simp only [ofLog, asLog, asAddress_ofAddress, asTuple_map _ _ _ fun w _ => asWord32_ofWord32 w, asBytes_bytes]; rfl

theorem asReceipt_ofReceipt (r : Receipt) {b : Bool} (hb : r.status = .succeeded b) : asReceipt (ofReceipt r) = some r := by
  obtain ⟨st, g, bl, l⟩ := r
  simp only at hb; subst hb
  simp only [ofReceipt, ofStatus, asReceipt, asBool_ofBool, asNat_ofNat, asBloom_ofBloom,
    asTuple_map _ _ _ fun l _ => asLog_ofLog l]; rfl

theorem ofStatus_inj {a b : ReceiptStatus} (h : ofStatus a = ofStatus b) : a = b := by
  cases a with
  | succeeded x =>
    cases b with
    | succeeded y => exact congrArg _ (Option.some.inj (by rw [← asBool_ofBool x, ← asBool_ofBool y]; exact congrArg asBool h))
    | postState r =>
      exfalso
      have h1 : Rlp.ofNat (if x then 1 else 0) = Rlp.bytes (toBE 32 r.toNat) := h
      have h2 : (toBE 32 r.toNat).length = 32 := toBE_length _ _
      cases x <;> · injection h1 with h1; rw [← h1] at h2; revert h2; decide
  | postState r =>
    cases b with
    | succeeded y =>
      exfalso
      have h1 : Rlp.ofNat (if y then 1 else 0) = Rlp.bytes (toBE 32 r.toNat) := h.symm
      have h2 : (toBE 32 r.toNat).length = 32 := toBE_length _ _
      cases y <;> · injection h1 with h1; rw [← h1] at h2; revert h2; decide
    | postState r' => exact congrArg _ (Option.some.inj (by rw [← asWord32_ofWord32 r, ← asWord32_ofWord32 r']; exact congrArg asWord32 h))

theorem ofReceipt_inj {r r' : Receipt} (h : ofReceipt r = ofReceipt r') : r = r' := by
  obtain ⟨st, g, bl, l⟩ := r
  obtain ⟨st', g', bl', l'⟩ := r'
  simp only [ofReceipt, Rlp.list.injEq, List.cons.injEq, and_true] at h
  obtain ⟨h1, h2, h3, h4⟩ := h
  have e1 := ofStatus_inj h1
  have e2 := congrArg asNat h2
  rw [asNat_ofNat, asNat_ofNat] at e2
  have e3 := congrArg asBloom h3
  rw [asBloom_ofBloom, asBloom_ofBloom] at e3
  have e4 : asTuple asLog (.list (l.map ofLog)) = asTuple asLog (.list (l'.map ofLog)) := by rw [h4]
  rw [asTuple_map _ _ _ fun l _ => asLog_ofLog l, asTuple_map _ _ _ fun l _ => asLog_ofLog l] at e4
  cases e1; cases e2; cases e3; cases e4; rfl

theorem asAccessListTx_of (t : AccessListTx) :
    asAccessListTx (.list (accessListFields t ++ signature t.yParity t.r t.s)) = some t := by
  simp only [accessListFields, signature, List.cons_append, List.nil_append, asAccessListTx, asAddress_ofAddress,
    asWord_ofNat, asU64_ofNat, asNat_ofNat, asTo_ofTo, asBytes_bytes, asTuple_map _ _ _ fun a _ => asAccess_ofAccess a]; rfl

theorem asFeeMarketTx_of (t : FeeMarketTx) :
    asFeeMarketTx (.list (feeMarketFields t ++ signature t.yParity t.r t.s)) = some t := by
  simp only [feeMarketFields, signature, List.cons_append, List.nil_append, asFeeMarketTx, asAddress_ofAddress,
    asWord_ofNat, asU64_ofNat, asNat_ofNat, asTo_ofTo, asBytes_bytes, asTuple_map _ _ _ fun a _ => asAccess_ofAccess a]; rfl

theorem asBlobTx_of (t : BlobTx) (h : t.to ≠ none) :
    asBlobTx (.list (blobFields t ++ signature t.yParity t.r t.s)) = some t := by
  obtain ⟨c, n, pf, mf, g, to', v, d, al, bf, bh, y, r, s⟩ := t
  cases to' with
  | none => exact absurd rfl h
  | some a =>
    simp only [blobFields, signature, List.cons_append, List.nil_append, asBlobTx, asAddress_ofAddress, ofTo,
      asWord_ofNat, asU64_ofNat, asNat_ofNat, asBytes_bytes, asTuple_map _ _ _ fun a _ => asAccess_ofAccess a,
      asTuple_map _ _ _ fun w _ => asWord32_ofWord32 w]; rfl

theorem asSetCodeTx_of (t : SetCodeTx) (h : t.to ≠ none) (hy : ∀ a ∈ t.authorizations, a.yParity < 256) :
    asSetCodeTx (.list (setCodeFields t ++ signature t.yParity t.r t.s)) = some t := by
  obtain ⟨c, n, pf, mf, g, to', v, d, al, au, y, r, s⟩ := t
  cases to' with
  | none => exact absurd rfl h
  | some a =>
    simp only [setCodeFields, signature, List.cons_append, List.nil_append, asSetCodeTx, asAddress_ofAddress, ofTo,
      asWord_ofNat, asU64_ofNat, asNat_ofNat, asBytes_bytes, asTuple_map _ _ _ fun a _ => asAccess_ofAccess a,
      asTuple_map asAuthorization ofAuthorization au fun a ha => asAuthorization_ofAuthorization a (hy a ha)]; rfl

/-! Fields are determined by the field items. -/

theorem ofNat_inj {a b : Nat} (h : ofNat a = ofNat b) : a = b := by
  have := congrArg asNat h; rw [asNat_ofNat, asNat_ofNat] at this; exact Option.some.inj this
theorem ofNat_bv_inj {k : Nat} {a b : BitVec k} (h : ofNat a.toNat = ofNat b.toNat) : a = b :=
  BitVec.eq_of_toNat_eq (ofNat_inj h)
theorem ofTo_inj {a b : Option Address} (h : ofTo a = ofTo b) : a = b := by
  have := congrArg asTo h; rw [asTo_ofTo, asTo_ofTo] at this; exact Option.some.inj this
theorem map_inj {α : Type} {f : Rlp → Option α} {g : α → Rlp} {l m : List α} (hl : ∀ a ∈ l, f (g a) = some a)
    (hm : ∀ a ∈ m, f (g a) = some a) (h : Rlp.list (l.map g) = .list (m.map g)) : l = m := by
  have := congrArg (asTuple f) h
  rw [asTuple_map f g l hl, asTuple_map f g m hm] at this
  exact Option.some.inj this
theorem accesses_inj {l m : List Access} (h : Rlp.list (l.map ofAccess) = .list (m.map ofAccess)) : l = m :=
  map_inj (fun a _ => asAccess_ofAccess a) (fun a _ => asAccess_ofAccess a) h
theorem words_inj {l m : List Word} (h : Rlp.list (l.map ofWord32) = .list (m.map ofWord32)) : l = m :=
  map_inj (fun a _ => asWord32_ofWord32 a) (fun a _ => asWord32_ofWord32 a) h
theorem ofAuthorization_inj {a b : Authorization} (h : ofAuthorization a = ofAuthorization b) : a = b := by
  simp only [ofAuthorization, list.injEq, List.cons.injEq] at h
  obtain ⟨h1, h2, h3, h4, h5, h6, _⟩ := h
  have h2' := congrArg asAddress h2
  rw [asAddress_ofAddress, asAddress_ofAddress] at h2'
  obtain ⟨c, d, n, y, r, s⟩ := a
  obtain ⟨c', d', n', y', r', s'⟩ := b
  have e1 := ofNat_bv_inj h1; have e3 := ofNat_bv_inj h3; have e5 := ofNat_bv_inj h5; have e6 := ofNat_bv_inj h6
  have e4 := ofNat_inj h4; have e2 := Option.some.inj h2'
  simp only at *
  subst e1 e2 e3 e4 e5 e6; rfl
theorem authorizations_inj {l m : List Authorization} (h : Rlp.list (l.map ofAuthorization) = .list (m.map ofAuthorization)) :
    l = m := by
  simp only [list.injEq] at h
  exact (List.map_inj_right fun _ _ => ofAuthorization_inj).mp h

end Rlp
end Verif
