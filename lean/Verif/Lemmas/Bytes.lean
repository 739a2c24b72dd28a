import Verif.Lemmas.Memory
import Mathlib.Tactic.NormNum
/-! Big-endian numbers. -/
namespace Verif

theorem fromBE_nil : fromBE [] = 0 := rfl
theorem fromBE_concat (a : Bytes) (c : UInt8) : fromBE (a ++ [c]) = fromBE a * 256 + c.toNat := by
  unfold fromBE; rw [List.foldl_append]; rfl

theorem foldl_be (b : Bytes) : ∀ n : Nat, b.foldl (fun a c => a * 256 + c.toNat) n = n * 256 ^ b.length + fromBE b := by
  induction b with
  | nil => intro n; simp [fromBE]
  | cons c r ih =>
    intro n
    have h1 : fromBE (c :: r) = (0 * 256 + c.toNat) * 256 ^ r.length + fromBE r := by
      rw [← ih]; rfl
    rw [List.foldl_cons, ih, h1, List.length_cons, Nat.pow_succ, Nat.add_mul, Nat.zero_mul,
      Nat.zero_add, Nat.mul_assoc, Nat.mul_comm 256, Nat.add_assoc]

theorem fromBE_append (a b : Bytes) : fromBE (a ++ b) = fromBE a * 256 ^ b.length + fromBE b := by
  rw [fromBE, List.foldl_append, foldl_be]; rfl
theorem fromBE_cons (c : UInt8) (b : Bytes) : fromBE (c :: b) = c.toNat * 256 ^ b.length + fromBE b := by
  have := fromBE_append [c] b; simpa [fromBE] using this
theorem fromBE_replicate_zero (n : Nat) : fromBE (List.replicate n 0) = 0 := by
  induction n with
  | zero => rfl
  | succ n ih => rw [List.replicate_succ, fromBE_cons, ih]; simp

theorem fromBE_lt (b : Bytes) : fromBE b < 256 ^ b.length := by
  induction b with
  | nil => simp [fromBE]
  | cons c r ih =>
    rw [fromBE_cons, List.length_cons, Nat.pow_succ]
    have := c.toNat_lt
    have h : c.toNat * 256 ^ r.length + 256 ^ r.length ≤ 256 * 256 ^ r.length := by
      rw [← Nat.succ_mul]; exact Nat.mul_le_mul_right _ (by omega)
    omega

theorem fromBE_toBE (n x : Nat) : fromBE (toBE n x) = x % 256 ^ n := by
  induction n generalizing x with
  | zero => simp [toBE, fromBE, Nat.mod_one]
  | succ n ih =>
    rw [toBE, fromBE_concat, ih, Nat.pow_succ, Nat.mul_comm (256 ^ n), Nat.mod_mul]
    have : (UInt8.ofNat x).toNat = x % 256 := by simp
    omega

theorem toBE_fromBE (b : Bytes) : toBE b.length (fromBE b) = b := by
  suffices h : ∀ (r : Bytes), toBE r.reverse.length (fromBE r.reverse) = r.reverse by
    have := h b.reverse; simpa using this
  intro r
  induction r with
  | nil => rfl
  | cons c r ih =>
    rw [List.reverse_cons, List.length_append, List.length_singleton, toBE, fromBE_concat]
    have h := c.toNat_lt
    rw [show (fromBE r.reverse * 256 + c.toNat) / 256 = fromBE r.reverse by omega, ih]
    congr 2
    rw [← UInt8.toNat_inj]
    simp only [UInt8.toNat_ofNat']
    omega

theorem toBE_inj {n x y : Nat} (hx : x < 256 ^ n) (hy : y < 256 ^ n) (h : toBE n x = toBE n y) : x = y := by
  have := congrArg fromBE h
  rwa [fromBE_toBE, fromBE_toBE, Nat.mod_eq_of_lt hx, Nat.mod_eq_of_lt hy] at this

theorem fromBE_inj {a b : Bytes} (hl : a.length = b.length) (h : fromBE a = fromBE b) : a = b := by
  rw [← toBE_fromBE a, ← toBE_fromBE b, hl, h]

theorem toBE_tail (n x : Nat) : (toBE (n + 1) x).drop 1 = toBE n x := by
  induction n generalizing x with
  | zero => rfl
  | succ n ih =>
    rw [toBE, List.drop_append_of_le_length (by rw [toBE_length]; omega), ih]; rfl

theorem toBE_drop (n k x : Nat) : (toBE (n + k) x).drop k = toBE n x := by
  induction k with
  | zero => simp
  | succ k ih => rw [Nat.add_comm k 1, ← List.drop_drop, show n + (1 + k) = (n + k) + 1 by omega, toBE_tail, ih]

theorem toBE_head (n x : Nat) : toBE (n + 1) x = UInt8.ofNat (x / 256 ^ n) :: toBE n x := by
  induction n generalizing x with
  | zero => simp [toBE]
  | succ n ih =>
    rw [toBE, ih, List.cons_append, Nat.div_div_eq_div_mul, Nat.mul_comm, ← Nat.pow_succ]
    rfl

theorem toBE_mod (n x : Nat) : toBE n (x % 256 ^ n) = toBE n x := by
  have := toBE_fromBE (toBE n x)
  rwa [toBE_length, fromBE_toBE] at this

theorem byteLength_spec (x : Nat) : x < 256 ^ byteLength x ∧ (x ≠ 0 → 256 ^ (byteLength x - 1) ≤ x) := by
  unfold byteLength
  by_cases h : x = 0
  · simp [h]
  · simp only [h, if_false]
    have h1 : ∀ k, 256 ^ k = 2 ^ (8 * k) := fun k => by rw [Nat.pow_mul]
    rw [h1, h1]
    refine ⟨?_, fun _ => ?_⟩
    · rw [← Nat.log2_lt h]; omega
    · rw [← Nat.le_log2 h]; omega

theorem fromBE_natBytes (x : Nat) : fromBE (natBytes x) = x := by
  rw [natBytes, fromBE_toBE, Nat.mod_eq_of_lt (byteLength_spec x).1]
theorem natBytes_length (x : Nat) : (natBytes x).length = byteLength x := toBE_length _ _
theorem natBytes_zero : natBytes 0 = [] := rfl
theorem natBytes_inj {x y : Nat} (h : natBytes x = natBytes y) : x = y := by
  rw [← fromBE_natBytes x, ← fromBE_natBytes y, h]

/-- Minimal: no leading zero. -/
theorem natBytes_head (x : Nat) : (natBytes x).head? ≠ some 0 := by
  unfold natBytes
  obtain ⟨h1, h2⟩ := byteLength_spec x
  by_cases h : x = 0
  · subst h; simp [byteLength, toBE]
  · have : 1 ≤ byteLength x := by unfold byteLength; rw [if_neg h]; omega
    obtain ⟨n, hn⟩ : ∃ n, byteLength x = n + 1 := ⟨byteLength x - 1, by omega⟩
    rw [hn, toBE_head, List.head?_cons]
    rw [hn] at h1 h2
    have h3 := h2 h
    simp only [Nat.add_sub_cancel] at h3
    have hpos : 0 < 256 ^ n := Nat.pow_pos (by omega)
    have h4 : 0 < x / 256 ^ n := Nat.div_pos h3 hpos
    have h5 : x / 256 ^ n < 256 := by rw [Nat.div_lt_iff_lt_mul hpos, Nat.mul_comm, ← Nat.pow_succ]; exact h1
    intro he
    have he := congrArg UInt8.toNat (Option.some.inj he)
    simp only [UInt8.toNat_ofNat', UInt8.toNat_zero] at he
    omega

/-- Bytes without a leading zero are the minimal representation of their number. -/
theorem natBytes_fromBE {b : Bytes} (h : b.head? ≠ some 0) : natBytes (fromBE b) = b := by
  have hl : byteLength (fromBE b) = b.length := by
    cases b with
    | nil => rfl
    | cons c r =>
      have hc : c ≠ 0 := by simpa using h
      have hc' : 1 ≤ c.toNat := by
        rcases Nat.eq_zero_or_pos c.toNat with h0 | h0
        · exact absurd (UInt8.toNat_inj.mp h0) hc
        · exact h0
      have hlt := fromBE_lt (c :: r)
      have hge : 256 ^ r.length ≤ fromBE (c :: r) := by
        rw [fromBE_cons]; exact Nat.le_trans (Nat.le_mul_of_pos_left _ hc') (Nat.le_add_right _ _)
      have hpos : 0 < 256 ^ r.length := Nat.pow_pos (by omega)
      have hne : fromBE (c :: r) ≠ 0 := by omega
      obtain ⟨h1, h2⟩ := byteLength_spec (fromBE (c :: r))
      have h2 := h2 hne
      rw [List.length_cons] at hlt ⊢
      have a1 : r.length < byteLength (fromBE (c :: r)) := (Nat.pow_lt_pow_iff_right (by omega)).mp (Nat.lt_of_le_of_lt hge h1)
      have a2 : byteLength (fromBE (c :: r)) - 1 < r.length + 1 := (Nat.pow_lt_pow_iff_right (by omega)).mp (Nat.lt_of_le_of_lt h2 hlt)
      omega
  rw [natBytes, hl, toBE_fromBE]

theorem wordBytes_length (w : Word) : (wordBytes w).length = 32 := toBE_length _ _
theorem fromBE_wordBytes (w : Word) : fromBE (wordBytes w) = w.toNat := by
  rw [wordBytes, fromBE_toBE]; exact Nat.mod_eq_of_lt (by have := w.isLt; norm_num at *; exact this)
theorem wordBytes_inj {a b : Word} (h : wordBytes a = wordBytes b) : a = b := by
  apply BitVec.eq_of_toNat_eq; rw [← fromBE_wordBytes, ← fromBE_wordBytes, h]
theorem addressBytes_length (a : Address) : (addressBytes a).length = 20 := toBE_length _ _
theorem fromBE_addressBytes (a : Address) : fromBE (addressBytes a) = a.toNat := by
  rw [addressBytes, fromBE_toBE]; exact Nat.mod_eq_of_lt (by have := a.isLt; norm_num at *; exact this)
theorem addressBytes_inj {a b : Address} (h : addressBytes a = addressBytes b) : a = b := by
  apply BitVec.eq_of_toNat_eq; rw [← fromBE_addressBytes, ← fromBE_addressBytes, h]

end Verif
