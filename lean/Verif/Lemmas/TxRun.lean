import Verif.Lemmas.Tx
import Verif.Lemmas.Top
import Verif.Lemmas.Supply
import Verif.Lemmas.StateRel
import Verif.Spec.TxOutcome
import Verif.Props.C06_C07
/-! Lemmas: how an included transaction runs. -/
namespace Verif
open Spec

/-! ### The world after a top-level message -/

theorem commit_emptied {w w' : World} (h : commitTransaction w = .ok w') (hs : w'.state.snapshots = []) : w'.state.createdAccounts = [] := by
  unfold commitTransaction at h
  split at h <;> cases h
  simp only at hs ⊢
  rw [hs]; rfl

theorem rollback_emptied {w w' : World} (h : rollbackTransaction w = .ok w') (hs : w'.state.snapshots = []) : w'.state.createdAccounts = [] := by
  unfold rollbackTransaction at h
  split at h <;> cases h
  simp only at hs ⊢
  rw [hs]; rfl

theorem processMessage_created {E : Env} {l : Loop} {msg : Message} {w w' : World} {child : Evm}
    (h : processMessage E l msg w = .ok (child, w')) (hs : w'.state.snapshots = []) : w'.state.createdAccounts = [] := by
  unfold processMessage at h
  split at h
  · cases h
  · dsimp only at h
    split at h
    · cases h
    · split at h
      · cases h
      · split at h
        · cases h
        · rename_i hx
          cases h
          split at hx
          · exact rollback_emptied hx hs
          · exact commit_emptied hx hs

theorem processCreateMessage_created {E : Env} {l : Loop} {msg : Message} {w w' : World} {child : Evm}
    (h : processCreateMessage E l msg w = .ok (child, w')) (hs : w'.state.snapshots = []) : w'.state.createdAccounts = [] := by
  unfold processCreateMessage at h
  split at h
  · cases h
  · split at h
    · split at h
      · cases h
      · rename_i hx; cases h; exact rollback_emptied hx hs
    · split at h
      · split at h <;> split at h
        · cases h
        · rename_i hx; cases h; exact rollback_emptied hx hs
        · cases h
        · rename_i hx; cases h; exact commit_emptied hx hs
      · dsimp only at h
        split at h
        · cases h
        · rename_i hx; cases h; exact commit_emptied hx hs

/-- The state after a top-level message is again a state between transactions. -/
theorem top_idle {E : Env} {msg : Message} {w w' : World} {out : MessageCallOutput} (hw : w.WF)
    (hf : w.state.fork.since .spuriousDragon = true) (ht : TopMessage msg w)
    (h : processMessageCall E msg w = .ok (out, w')) : Idle w'.state := by
  rcases top_cases hw hf ht h with ⟨-, rfl, -⟩ | ⟨r, msg1, s1, msg2, child, -, -, hrel, -, hok, -, hc1, hc2⟩
  · exact ⟨hf, hw.state, ht.snapshots.1, ht.created⟩
  · have hsn : w'.state.snapshots = [] := by
      rw [hok.rel.snaps.1]
      exact (hrel.snaps).trans ht.snapshots.1
    refine ⟨by rw [hok.rel.fork]; show s1.fork.since .spuriousDragon = true; rw [hrel.fork]; exact hf, (hok.rel.wf ⟨hrel.wf hw.state, hw.transient⟩).state, hsn, ?_⟩
    by_cases htar : msg.target = none
    · exact processCreateMessage_created (hc1 htar).2.2.2.2 hsn
    · exact processMessage_created (hc2 htar).2.2 hsn

/-! ### Preparing the message -/

theorem prepaid_wf {B : BlockEnv} {s : State} {tx : Transaction} {a : Address} (h : s.WF) : (prepaid B s tx a).WF :=
  (h.incrementNonce a).setAccountBalance a _

theorem prepaid_snapshots (B : BlockEnv) (s : State) (tx : Transaction) (a : Address) : (prepaid B s tx a).snapshots = s.snapshots := by
  simp [prepaid, setAccountBalance, incrementNonce]

theorem prepaid_created (B : BlockEnv) (s : State) (tx : Transaction) (a : Address) :
    (prepaid B s tx a).createdAccounts = s.createdAccounts := by
  simp only [prepaid, setAccountBalance, incrementNonce, modifyState'_created]

theorem prepareMessage_ok {C : Crypto} {txEnv : TxEnv} {s : State} {tx : Transaction} {msg : Message}
    (h : prepareMessage C txEnv s tx = .ok msg) :
    msg.caller = txEnv.origin ∧ msg.target = tx.to ∧ msg.gas = txEnv.gas ∧ msg.value = tx.value ∧ msg.depth = 0 ∧
    msg.isStatic = false ∧ msg.shouldTransferValue = true ∧ (msg.parentsToDelete = [] ∧
    ∀ t, tx.to = some t → msg.currentTarget = t ∧ msg.codeAddress = some t ∧ msg.code = (getAccount s t).code) := by
  unfold prepareMessage at h
  dsimp only at h
  split at h
  · rename_i hto
    split at h
    · cases h
    · cases h
      exact ⟨rfl, hto.symm, rfl, rfl, rfl, rfl, rfl, rfl, fun t ht => by rw [hto] at ht; cases ht⟩
  · rename_i a hto
    cases h
    refine ⟨rfl, hto.symm, rfl, rfl, rfl, rfl, rfl, rfl, fun t ht => ?_⟩
    rw [hto] at ht; cases ht
    exact ⟨rfl, rfl, rfl⟩

theorem _root_.Verif.Spec.Quiet.idle {s : State} (h : Quiet s) (hf : s.fork.since .spuriousDragon = true) : Idle s := ⟨hf, h.wf, h.snapshots, h.created⟩
theorem _root_.Verif.Spec.Idle.quiet {s : State} (h : Idle s) : Quiet s := ⟨h.wf, h.snapshots, h.created⟩

theorem prepared_quiet {C : Crypto} {txEnv : TxEnv} {s : State} {tx : Transaction} {msg : Message}
    (h : prepareMessage C txEnv s tx = .ok msg) (hs : Quiet s) : TopMessage msg ⟨s, TransientStorage.empty⟩ := by
  obtain ⟨-, h2, -, -, h5, h6, -, h9, h8⟩ := prepareMessage_ok h
  refine ⟨h5, h6, ⟨hs.snapshots, rfl⟩, hs.created, fun t ht => h8 t (h2 ▸ ht), h9⟩

theorem prepared_top {C : Crypto} {txEnv : TxEnv} {s : State} {tx : Transaction} {msg : Message}
    (h : prepareMessage C txEnv s tx = .ok msg) (hs : Idle s) : TopMessage msg ⟨s, TransientStorage.empty⟩ := prepared_quiet h hs.quiet

theorem prepaid_fork (B : BlockEnv) (s : State) (tx : Transaction) (a : Address) : (prepaid B s tx a).fork = s.fork := by
  simp [prepaid, setAccountBalance, incrementNonce]

theorem prepaid_idle {B : BlockEnv} {s : State} {tx : Transaction} {a : Address} (h : Idle s) : Idle (prepaid B s tx a) :=
  ⟨by rw [prepaid_fork]; exact h.fork, prepaid_wf h.wf, (prepaid_snapshots ..).trans h.snapshots, (prepaid_created ..).trans h.created⟩

theorem prepaid_quiet {B : BlockEnv} {s : State} {tx : Transaction} {a : Address} (h : Quiet s) : Quiet (prepaid B s tx a) :=
  ⟨prepaid_wf h.wf, (prepaid_snapshots ..).trans h.snapshots, (prepaid_created ..).trans h.created⟩

theorem mem_accessAddresses (f : Fork) (c : Address) (tx : Transaction) (a : Address) :
    a ∈ accessAddresses f c tx ↔ (f.since .shanghai = true ∧ a = c) ∨ ∃ e ∈ tx.accesses, e.account = a := by
  unfold accessAddresses
  have : ∀ (l : List Access) (s : List Address), a ∈ l.foldl (fun s a => setAdd s a.account) s ↔ a ∈ s ∨ ∃ e ∈ l, e.account = a := by
    intro l
    induction l with
    | nil => intro s; simp
    | cons e r ih =>
      intro s
      rw [List.foldl_cons, ih, mem_setAdd]
      simp only [List.mem_cons, exists_eq_or_imp, or_assoc]
      grind
  rw [this]
  split <;> simp_all

theorem mem_accessKeys (tx : Transaction) (a : Address) (k : Word) :
    (a, k) ∈ accessKeys tx ↔ ∃ e ∈ tx.accesses, e.account = a ∧ k ∈ e.slots := by
  unfold accessKeys
  have inner : ∀ (x : Address) (l : List Word) (s : List (Address × Word)),
      (a, k) ∈ l.foldl (fun s k => setAdd s (x, k)) s ↔ (a, k) ∈ s ∨ (x = a ∧ k ∈ l) := by
    intro x l
    induction l with
    | nil => intro s; simp
    | cons e r ih =>
      intro s
      rw [List.foldl_cons, ih, mem_setAdd]
      simp only [Prod.mk.injEq, List.mem_cons]
      grind
  have : ∀ (l : List Access) (s : List (Address × Word)),
      (a, k) ∈ l.foldl (fun s a => a.slots.foldl (fun s k => setAdd s (a.account, k)) s) s ↔
        (a, k) ∈ s ∨ ∃ e ∈ l, e.account = a ∧ k ∈ e.slots := by
    intro l
    induction l with
    | nil => intro s; simp
    | cons e r ih =>
      intro s
      rw [List.foldl_cons, ih, inner]
      simp only [List.mem_cons, exists_eq_or_imp, or_assoc]
  rw [this]
  simp

theorem precompileAddresses_eq (f : Fork) : precompileAddresses f =
    if f.since .osaka then [1, 2, 3, 4, 5, 6, 7, 8, 9, 0x0a, 0x0b, 0x0c, 0x0d, 0x0e, 0x0f, 0x10, 0x11, 0x100]
    else if f.since .prague then [1, 2, 3, 4, 5, 6, 7, 8, 9, 0x0a, 0x0b, 0x0c, 0x0d, 0x0e, 0x0f, 0x10, 0x11]
    else if f.since .cancun then [1, 2, 3, 4, 5, 6, 7, 8, 9, 0x0a]
    else if f.since .istanbul then [1, 2, 3, 4, 5, 6, 7, 8, 9]
    else if f.since .byzantium then [1, 2, 3, 4, 5, 6, 7, 8] else [1, 2, 3, 4] := by
  cases f <;> rfl
theorem since_down (f : Fork) : (f.since .osaka = true → f.since .prague = true) ∧ (f.since .prague = true → f.since .cancun = true) ∧
    (f.since .cancun = true → f.since .istanbul = true) ∧ (f.since .istanbul = true → f.since .byzantium = true) := by
  cases f <;> decide
theorem mem_precompileAddresses (f : Fork) (a : Address) : a ∈ precompileAddresses f ↔ isPrecompiled f a := by
  rw [precompileAddresses_eq]
  unfold isPrecompiled lastPrecompile
  obtain ⟨h1, h2, h3, h4⟩ := since_down f
  by_cases c1 : f.since .osaka = true
  · simp only [c1, h1 c1, if_true, List.mem_cons, List.not_mem_nil, or_false, true_and]; bv_omega
  by_cases c2 : f.since .prague = true
  · simp only [c1, c2, if_true, Bool.false_eq_true, if_false, List.mem_cons, List.not_mem_nil, or_false, false_and]; bv_omega
  by_cases c3 : f.since .cancun = true
  · simp only [c1, c2, c3, if_true, Bool.false_eq_true, if_false, List.mem_cons, List.not_mem_nil, or_false, false_and]; bv_omega
  by_cases c4 : f.since .istanbul = true
  · simp only [c1, c2, c3, c4, if_true, Bool.false_eq_true, if_false, List.mem_cons, List.not_mem_nil, or_false, false_and]; bv_omega
  by_cases c5 : f.since .byzantium = true
  all_goals
    simp only [c1, c2, c3, c4, c5, if_true, Bool.false_eq_true, if_false, List.mem_cons, List.not_mem_nil, or_false, false_and]; bv_omega

theorem prepareMessage_rest {C : Crypto} {txEnv : TxEnv} {s : State} {tx : Transaction} {msg : Message}
    (h : prepareMessage C txEnv s tx = .ok msg) :
    (∀ t, tx.to = some t → msg.data = tx.data) ∧
    (tx.to = none → msg.code = tx.data ∧ msg.data = [] ∧
      msg.currentTarget = computeContractAddress C txEnv.origin ((getAccount s txEnv.origin).nonce - 1)) ∧
    msg.accessedAddresses = setAdd (setUpdate (setUpdate [txEnv.origin] (precompileAddresses s.fork)) txEnv.accessListAddresses) msg.currentTarget ∧
    msg.accessedStorageKeys = txEnv.accessListStorageKeys := by
  unfold prepareMessage at h
  dsimp only at h
  split at h
  · rename_i hto
    split at h
    · cases h
    · rename_i n hn
      obtain ⟨-, rfl⟩ := usub_ok.mp hn
      cases h
      exact ⟨fun t ht => (by rw [hto] at ht; cases ht), fun _ => ⟨rfl, rfl, rfl⟩, rfl, rfl⟩
  · rename_i a hto
    cases h
    exact ⟨fun _ _ => rfl, fun ht => (by rw [hto] at ht; cases ht), rfl, rfl⟩

/-! ### Settling -/

theorem checkedAdd_ok_iff {a b c : Word} : checkedAdd a b = .ok c ↔ a.toNat + b.toNat < 2 ^ 256 ∧ c.toNat = a.toNat + b.toNat := by
  unfold checkedAdd
  by_cases h : a.toNat + b.toNat < 2 ^ 256
  · rw [if_pos h]
    constructor
    · intro e; cases e; exact ⟨h, BitVec.toNat_add_of_lt h⟩
    · rintro ⟨-, e⟩
      congr 1
      exact BitVec.eq_of_toNat_eq (by rw [e, BitVec.toNat_add_of_lt h])
  · rw [if_neg h]
    exact ⟨fun e => (by cases e), fun e => absurd e.1 h⟩

/-- The state with some amount added to a balance. -/
structure Paid (s s' : State) (a : Address) (n : Nat) : Prop where
  balance : ∀ x, (getAccount s' x).balance.toNat = (getAccount s x).balance.toNat + (if x = a then n else 0)
  rest : ∀ x, (getAccount s' x).nonce = (getAccount s x).nonce ∧ (getAccount s' x).code = (getAccount s x).code
  wf : s.WF → s'.WF
  snapshots : s'.snapshots = s.snapshots
  created : s'.createdAccounts = s.createdAccounts
  supply : s.WF → supply s' = supply s + n
  fork : s'.fork = s.fork

theorem paid_setBalance {s : State} {a : Address} {v : Word} {n : Nat} (h : v.toNat = (getAccount s a).balance.toNat + n) :
    Paid s (setAccountBalance s a v) a n := by
  refine ⟨fun x => ?_, fun x => ?_, fun hw => hw.setAccountBalance _ _, by simp [setAccountBalance],
    by simp only [setAccountBalance, modifyState'_created], fun hw => ?_, by simp [setAccountBalance]⟩
  · unfold setAccountBalance
    rw [getAccount_modifyState']
    by_cases e : a = x
    · subst e; rw [if_pos rfl, if_pos rfl]; exact h
    · rw [if_neg e, if_neg (Ne.symm e)]; rfl
  · unfold setAccountBalance
    rw [getAccount_modifyState']
    by_cases e : a = x
    · subst e; rw [if_pos rfl]; exact ⟨rfl, rfl⟩
    · rw [if_neg e]; exact ⟨rfl, rfl⟩
  · have := supply_modifyState' hw.main.1 a (fun acc => { acc with balance := v })
    simp only at this
    rw [h] at this
    unfold setAccountBalance
    omega

theorem refundSender_ok {s s' : State} {a : Address} {n : Nat} (h : refundSender s a n = .ok s') :
    (getAccount s a).balance.toNat + n < 2 ^ 256 ∧ Paid s s' a n := by
  unfold refundSender at h
  split at h
  · cases h
  · rename_i x hx
    obtain ⟨hn, rfl⟩ := toU256_ok.mp hx
    split at h
    · cases h
    · rename_i v hv
      cases h
      have e : (BitVec.ofNat 256 n).toNat = n := by rw [BitVec.toNat_ofNat, Nat.mod_eq_of_lt hn]
      obtain ⟨h1, h2⟩ := checkedAdd_ok_iff.mp hv
      rw [e] at h1 h2
      exact ⟨h1, paid_setBalance h2⟩

theorem refundSender_succeeds {s : State} {a : Address} {n : Nat} (h : (getAccount s a).balance.toNat + n < 2 ^ 256) :
    ∃ s', refundSender s a n = .ok s' := by
  unfold refundSender
  have hn : n < 2 ^ 256 := by omega
  have e : (BitVec.ofNat 256 n).toNat = n := by rw [BitVec.toNat_ofNat, Nat.mod_eq_of_lt hn]
  have h1 : toU256 n = .ok (BitVec.ofNat 256 n) := toU256_ok.mpr ⟨hn, rfl⟩
  rw [h1]
  dsimp only
  have h2 : checkedAdd (getAccount s a).balance (BitVec.ofNat 256 n) = .ok ((getAccount s a).balance + BitVec.ofNat 256 n) :=
    checkedAdd_ok_iff.mpr ⟨by rw [e]; exact h, BitVec.toNat_add_of_lt (by rw [e]; exact h)⟩
  rw [h2]
  exact ⟨_, rfl⟩

theorem getAccountOptional_none_of_empty {s : State} {a : Address} (h : getAccount s a = emptyAccount)
    (h' : accountExistsAndIsEmpty s a = false) : getAccountOptional s a = none := by
  unfold getAccount at h
  unfold accountExistsAndIsEmpty at h'
  match hq : getAccountOptional s a with
  | none => rfl
  | some acc =>
    rw [hq] at h h'
    simp only at h h'
    rw [h] at h'
    simp [emptyAccount] at h'

theorem account_of_isEmpty {s : State} {a : Address} (h : accountExistsAndIsEmpty s a = true) : getAccount s a = emptyAccount := by
  unfold accountExistsAndIsEmpty at h
  unfold getAccount
  match hq : getAccountOptional s a with
  | none => simp [hq] at h
  | some acc =>
    rw [hq] at h
    obtain ⟨n, b, c⟩ := acc
    simp [emptyAccount] at h ⊢
    grind

theorem paid_destroyEmpty {s : State} {a : Address} (h : accountExistsAndIsEmpty s a = true) : Paid s (destroyAccount s a) a 0 := by
  have he : getAccount s a = emptyAccount := account_of_isEmpty h
  have hg : ∀ x, getAccount (destroyAccount s a) x = getAccount s x := by
    intro x
    by_cases e : a = x
    · subst e
      rw [he]
      unfold getAccount
      rw [getAccountOptional_destroyAccount, if_pos rfl]
    · unfold getAccount
      rw [getAccountOptional_destroyAccount, if_neg e]
  refine ⟨fun x => by rw [hg]; split <;> rfl, fun x => by rw [hg]; exact ⟨rfl, rfl⟩, fun hw => hw.destroyAccount _, rfl, rfl, fun hw => ?_, rfl⟩
  have := supply_setAccount (s := destroyStorage s a) hw.main.1 a none
  have e2 : balanceOf (getAccountOptional (destroyStorage s a) a) = 0 := by
    have : getAccountOptional (destroyStorage s a) a = getAccountOptional s a := rfl
    rw [this, balanceOf_getAccount, he]; rfl
  rw [e2] at this
  exact this

theorem Paid.refl (s : State) (a : Address) : Paid s s a 0 :=
  ⟨fun x => by split <;> rfl, fun _ => ⟨rfl, rfl⟩, id, rfl, rfl, fun _ => rfl, rfl⟩

theorem payCoinbase_ok {s s' : State} {a : Address} {n : Nat} (h : payCoinbase s a n = .ok s') :
    (getAccount s a).balance.toNat + n < 2 ^ 256 ∧ Paid s s' a n := by
  unfold payCoinbase at h
  split at h
  · cases h
  · rename_i x hx
    obtain ⟨hn, rfl⟩ := toU256_ok.mp hx
    split at h
    · cases h
    · rename_i v hv
      have e : (BitVec.ofNat 256 n).toNat = n := by rw [BitVec.toNat_ofNat, Nat.mod_eq_of_lt hn]
      obtain ⟨h1, h2⟩ := checkedAdd_ok_iff.mp hv
      rw [e] at h1 h2
      refine ⟨h1, ?_⟩
      split at h
      · cases h; exact paid_setBalance h2
      · rename_i hz
        have hz : v = 0 := Decidable.byContradiction fun h => hz (.inl h)
        rw [hz] at h2
        have h0 : (0 : Word).toNat = 0 := rfl
        rw [h0] at h2
        have hn0 : n = 0 := by omega
        subst hn0
        split at h
        · rename_i hee; cases h; exact paid_destroyEmpty hee
        · cases h; exact Paid.refl _ _

theorem payCoinbase_succeeds {s : State} {a : Address} {n : Nat} (h : (getAccount s a).balance.toNat + n < 2 ^ 256) :
    ∃ s', payCoinbase s a n = .ok s' := by
  unfold payCoinbase
  have hn : n < 2 ^ 256 := by omega
  have e : (BitVec.ofNat 256 n).toNat = n := by rw [BitVec.toNat_ofNat, Nat.mod_eq_of_lt hn]
  have h1 : toU256 n = .ok (BitVec.ofNat 256 n) := toU256_ok.mpr ⟨hn, rfl⟩
  rw [h1]
  dsimp only
  have h2 : checkedAdd (getAccount s a).balance (BitVec.ofNat 256 n) = .ok ((getAccount s a).balance + BitVec.ofNat 256 n) :=
    checkedAdd_ok_iff.mpr ⟨by rw [e]; exact h, BitVec.toNat_add_of_lt (by rw [e]; exact h)⟩
  rw [h2]
  dsimp only
  split
  · exact ⟨_, rfl⟩
  · split <;> exact ⟨_, rfl⟩

/-- Deleting the accounts scheduled for deletion. -/
theorem destroy_fold_fork (l : List Address) : ∀ (s : State), (l.foldl destroyAccount s).fork = s.fork := by
  induction l with
  | nil => intro s; rfl
  | cons a r ih => intro s; exact (ih (destroyAccount s a)).trans rfl

theorem destroy_fold (l : List Address) : ∀ (s : State),
    (∀ x, getAccountOptional (l.foldl destroyAccount s) x = if x ∈ l then none else getAccountOptional s x) ∧
    (∀ x k, getStorage (l.foldl destroyAccount s) x k = if x ∈ l then 0 else getStorage s x k) ∧
    (s.WF → (l.foldl destroyAccount s).WF ∧ supply (l.foldl destroyAccount s) ≤ supply s) ∧
    (l.foldl destroyAccount s).snapshots = s.snapshots ∧ (l.foldl destroyAccount s).createdAccounts = s.createdAccounts := by
  induction l with
  | nil => intro s; exact ⟨fun _ => by simp, fun _ _ => by simp, fun h => ⟨h, Nat.le_refl _⟩, rfl, rfl⟩
  | cons a r ih =>
    intro s
    obtain ⟨h1, h2, h3, h4, h5⟩ := ih (destroyAccount s a)
    simp only [List.foldl_cons]
    refine ⟨fun x => ?_, fun x k => ?_, fun hw => ?_, h4, h5⟩
    · rw [h1, getAccountOptional_destroyAccount]
      by_cases e1 : x ∈ r
      · rw [if_pos e1, if_pos (List.mem_cons_of_mem _ e1)]
      · rw [if_neg e1]
        by_cases e2 : a = x
        · rw [if_pos e2, if_pos (by rw [e2]; exact List.mem_cons_self)]
        · rw [if_neg e2, if_neg (by rw [List.mem_cons]; rintro (h | h); exacts [e2 h.symm, e1 h])]
    · rw [h2]
      by_cases e1 : x ∈ r
      · rw [if_pos e1, if_pos (List.mem_cons_of_mem _ e1)]
      · rw [if_neg e1]
        have hd : getStorage (destroyAccount s a) x k = if a = x then 0 else getStorage s x k := triesGet_del s.storageTries a x k
        rw [hd]
        by_cases e2 : a = x
        · rw [if_pos e2, if_pos (by rw [e2]; exact List.mem_cons_self)]
        · rw [if_neg e2, if_neg (by rw [List.mem_cons]; rintro (h | h); exacts [e2 h.symm, e1 h])]
    · obtain ⟨h6, h7⟩ := h3 (hw.destroyAccount a)
      refine ⟨h6, Nat.le_trans h7 ?_⟩
      have := supply_setAccount (s := destroyStorage s a) hw.main.1 a none
      have e : supply (destroyStorage s a) = supply s := rfl
      rw [e] at this
      show supply (setAccount (destroyStorage s a) a none) ≤ supply s
      have : balanceOf none = 0 := rfl
      omega

/-- Deleting the touched accounts that are empty: no account reads differently. -/
structure Swept (s s' : State) : Prop where
  account : ∀ x, getAccount s' x = getAccount s x
  none : ∀ x, getAccountOptional s x = none → getAccountOptional s' x = none
  storage : ∀ x k, getStorage s x k = 0 → getStorage s' x k = 0
  wf : s.WF → s'.WF
  supply : s.WF → supply s' = supply s
  snapshots : s'.snapshots = s.snapshots
  created : s'.createdAccounts = s.createdAccounts
  fork : s'.fork = s.fork

theorem Swept.refl (s : State) : Swept s s := ⟨fun _ => rfl, fun _ h => h, fun _ _ h => h, id, fun _ => rfl, rfl, rfl, rfl⟩
theorem Swept.trans {a b c : State} (h : Swept a b) (h' : Swept b c) : Swept a c :=
  ⟨fun x => (h'.account x).trans (h.account x), fun x hx => h'.none x (h.none x hx), fun x k hk => h'.storage x k (h.storage x k hk),
   fun hw => h'.wf (h.wf hw), fun hw => (h'.supply (h.wf hw)).trans (h.supply hw), h'.snapshots.trans h.snapshots,
   h'.created.trans h.created, h'.fork.trans h.fork⟩

theorem swept_destroyEmpty {s : State} {a : Address} (h : accountExistsAndIsEmpty s a = true) : Swept s (destroyAccount s a) := by
  have he := account_of_isEmpty h
  have hp := paid_destroyEmpty h
  refine ⟨fun x => ?_, fun x hx => ?_, fun x k hk => ?_, hp.wf, hp.supply, rfl, rfl, rfl⟩
  · by_cases e : a = x
    · subst e
      rw [he]
      unfold getAccount
      rw [getAccountOptional_destroyAccount, if_pos rfl]
    · unfold getAccount
      rw [getAccountOptional_destroyAccount, if_neg e]
  · rw [getAccountOptional_destroyAccount]; split
    · rfl
    · exact hx
  · rw [show getStorage (destroyAccount s a) x k = if a = x then 0 else getStorage s x k from triesGet_del s.storageTries a x k]
    split
    · rfl
    · exact hk

theorem swept_fold (l : List Address) : ∀ s, Swept s (destroyTouchedEmptyAccounts s l) := by
  unfold destroyTouchedEmptyAccounts
  induction l with
  | nil => intro s; exact .refl s
  | cons a r ih =>
    intro s
    rw [List.foldl_cons]
    refine Swept.trans ?_ (ih _)
    split
    · rename_i h; exact swept_destroyEmpty h
    · exact .refl s

/-- The deletions at the end of a transaction. -/
structure Finished (deleted : List Address) (s s' : State) : Prop where
  keep : ∀ x, x ∉ deleted → getAccount s' x = getAccount s x
  gone : ∀ x ∈ deleted, getAccountOptional s' x = none ∧ ∀ k, getStorage s' x k = 0
  wf : s.WF → s'.WF
  supplyLe : s.WF → supply s' ≤ supply s
  supplyEq : s.WF → deleted = [] → supply s' = supply s
  snapshots : s'.snapshots = s.snapshots
  created : s'.createdAccounts = s.createdAccounts
  fork : s'.fork = s.fork

theorem finalDeletions_ok (s : State) (o : MessageCallOutput) : Finished o.accountsToDelete s (finalDeletions s o) := by
  obtain ⟨d1, d2, d3, d4, d5⟩ := destroy_fold o.accountsToDelete s
  have hs : Swept (o.accountsToDelete.foldl destroyAccount s) (finalDeletions s o) := by
    unfold finalDeletions
    dsimp only
    split
    · exact swept_fold _ _
    · exact .refl _
  refine ⟨fun x hx => ?_, fun x hx => ⟨hs.none x (by rw [d1, if_pos hx]), fun k => hs.storage x k (by rw [d2, if_pos hx])⟩,
    fun hw => hs.wf (d3 hw).1, fun hw => ?_, fun hw hd => ?_, hs.snapshots.trans d4, hs.created.trans d5,
    hs.fork.trans (destroy_fold_fork _ _)⟩
  · rw [hs.account]; unfold getAccount; rw [d1, if_neg hx]
  · rw [hs.supply (d3 hw).1]; exact (d3 hw).2
  · rw [hs.supply (d3 hw).1, hd]; rfl

/-- The first field of the receipt. -/
def statusOf (C : Crypto) (s : State) (error : Option Exn) : ReceiptStatus :=
  if s.fork.since .byzantium then .succeeded error.isNone
  else .postState (match stateRoot C s with | .ok r => r | .error _ => 0)

theorem receiptStatus_ok {C : Crypto} {s : State} {error : Option Exn} {st : ReceiptStatus} (h : receiptStatus C s error = .ok st) :
    st = statusOf C s error := by
  unfold receiptStatus at h
  unfold statusOf
  split at h
  · rename_i hf; cases h; rw [if_pos hf]
  · rename_i hf
    rw [if_neg hf]
    split at h
    · cases h
    · rename_i r hr; cases h; rw [hr]

theorem receiptStatus_byzantium {C : Crypto} {s : State} {error : Option Exn} (hf : s.fork.since .byzantium = true) :
    receiptStatus C s error = .ok (statusOf C s error) := by
  unfold receiptStatus statusOf; rw [if_pos hf, if_pos hf]

/-! ### The whole transaction -/

theorem crashAt_ok {α : Type} {b : BlockState} {x : Except Crash α} {a : α} : crashAt b x = .ok a ↔ x = .ok a := by
  unfold crashAt
  cases x with
  | ok y => exact ⟨fun h => by cases h; rfl, fun h => by cases h; rfl⟩
  | error c => exact ⟨fun h => (by cases h), fun h => (by cases h)⟩

theorem gasUsedAfterRefund_eq (f : Fork) (tx : Transaction) (out : MessageCallOutput) (h : out.gasLeft ≤ tx.gas) :
    gasUsedAfterRefund f tx.gas (floorGas f tx) out = .ok (gasCharged f tx out) := by
  unfold gasUsedAfterRefund
  have h1 : usub tx.gas out.gasLeft = .ok (tx.gas - out.gasLeft) := usub_ok.mpr ⟨h, rfl⟩
  rw [h1]
  dsimp only
  have h2 : usub (tx.gas - out.gasLeft) (min ((tx.gas - out.gasLeft) / maxRefundQuotient f) out.refundCounter.toNat) =
      .ok (tx.gas - out.gasLeft - min ((tx.gas - out.gasLeft) / maxRefundQuotient f) out.refundCounter.toNat) :=
    usub_ok.mpr ⟨by have := Nat.div_le_self (tx.gas - out.gasLeft) (maxRefundQuotient f); omega, rfl⟩
  rw [h2]
  dsimp only
  unfold gasCharged consumed
  rw [Nat.min_comm]
  rfl

theorem gasCharged_le {f : Fork} {tx : Transaction} (out : MessageCallOutput) (h : floorGas f tx ≤ tx.gas) : gasCharged f tx out ≤ tx.gas := by
  unfold gasCharged consumed
  exact Nat.max_le.mpr ⟨Nat.le_trans (Nat.sub_le _ _) (Nat.sub_le _ _), h⟩

theorem price_sub (f : Nat) (tx : Transaction) : price f tx - f = tip f tx := by unfold price; omega

/-- The block output after a transaction that used so much gas. -/
def outAfter (C : Crypto) (f : Fork) (out : BlockOutput) (tx : Transaction) (i : Nat) (o : MessageCallOutput)
    (status : ReceiptStatus) : BlockOutput :=
  { recorded out tx i with
    blockGasUsed := out.blockGasUsed + gasCharged f tx o
    blobGasUsed := out.blobGasUsed + blobGas tx
    receiptKeys := out.receiptKeys ++ [indexKey i]
    receiptsTrie := trieSet out.receiptsTrie (indexKey i) (some (makeReceipt C tx status (out.blockGasUsed + gasCharged f tx o) o.logs))
    blockLogs := out.blockLogs ++ o.logs }

/-- An included transaction: who sent it, how it ran and how it was settled. -/
structure Ran (C : Crypto) (B : BlockEnv) (b : BlockState) (tx : Transaction) (i : Nat) (b' : BlockState)
    (sender : Address) (msg : Message) (o : MessageCallOutput) (w : World) (s1 s2 : State) : Prop where
  includable : Includable C B b.state b.out.blockGasUsed b.out.blobGasUsed tx sender
  message : prepareMessage C (txEnvOf b.state.fork B tx sender) (prepaid B b.state tx sender) tx = .ok msg
  run : processMessageCall ⟨C, B, txEnvOf b.state.fork B tx sender⟩ msg ⟨prepaid B b.state tx sender, TransientStorage.empty⟩ = .ok (o, w)
  refund : refundSender w.state sender ((tx.gas - gasCharged b.state.fork tx o) * price B.baseFeePerGas tx) = .ok s1
  pay : payCoinbase s1 B.coinbase (gasCharged b.state.fork tx o * tip B.baseFeePerGas tx) = .ok s2
  status : receiptStatus C (finalDeletions s2 o) o.error = .ok (statusOf C (finalDeletions s2 o) o.error)
  result : b' = ⟨finalDeletions s2 o, outAfter C b.state.fork b.out tx i o (statusOf C (finalDeletions s2 o) o.error)⟩

theorem gasLeft_le {f : Fork} {C : Crypto} {B : BlockEnv} {s : State} {tx : Transaction} {sender : Address} {msg : Message}
    {o : MessageCallOutput} {w0 w : World}
    (hm : prepareMessage C (txEnvOf f B tx sender) s tx = .ok msg)
    (hr : processMessageCall ⟨C, B, txEnvOf f B tx sender⟩ msg w0 = .ok (o, w)) : o.gasLeft ≤ tx.gas - intrinsicGas f tx := by
  have h1 := Props.C07_message_call _ _ _ _ _ hr
  rw [(prepareMessage_ok hm).2.2.1] at h1
  exact h1

theorem endTx_eq {f : Fork} {C : Crypto} {B : BlockEnv} {b : BlockState} {out0 : BlockOutput} {tx : Transaction} {i : Nat} {sender : Address} {msg : Message}
    {o : MessageCallOutput} (hb : b.out = recorded out0 tx i) (hg : o.gasLeft ≤ tx.gas) (hf : floorGas f tx ≤ tx.gas) (hfork : b.state.fork = f)
    (hblob : blobGasSum b.state.fork out0.blobGasUsed (blobGas tx) = .ok (out0.blobGasUsed + blobGas tx)) :
    endTx C B b tx i ⟨⟨sender, price B.baseFeePerGas tx, tx.blobHashes, blobGas tx⟩, floorGas f tx, txEnvOf f B tx sender, msg⟩ o =
      (do
        let s1 ← crashAt b (refundSender b.state sender ((tx.gas - gasCharged f tx o) * price B.baseFeePerGas tx))
        let s2 ← crashAt { b with state := s1 } (payCoinbase s1 B.coinbase (gasCharged f tx o * tip B.baseFeePerGas tx))
        let st ← crashAt ⟨finalDeletions s2 o, { b.out with blockGasUsed := b.out.blockGasUsed + gasCharged f tx o }⟩
          (receiptStatus C (finalDeletions s2 o) o.error)
        return ⟨finalDeletions s2 o, outAfter C f out0 tx i o st⟩) := by
  unfold endTx
  have h1 := gasUsedAfterRefund_eq f tx o hg
  have h2 : usub tx.gas (gasCharged f tx o) = .ok (tx.gas - gasCharged f tx o) := usub_ok.mpr ⟨gasCharged_le o hf, rfl⟩
  have h3 : usub (price B.baseFeePerGas tx) B.baseFeePerGas = .ok (tip B.baseFeePerGas tx) :=
    usub_ok.mpr ⟨by unfold price; omega, (price_sub _ _).symm⟩
  simp only [hfork, h1, h2, h3, crashAt, bind, Except.bind]
  match refundSender b.state sender ((tx.gas - gasCharged f tx o) * price B.baseFeePerGas tx) with
  | .error c => rfl
  | .ok s1 =>
    dsimp only
    match payCoinbase s1 B.coinbase (gasCharged f tx o * tip B.baseFeePerGas tx) with
    | .error c => rfl
    | .ok s2 =>
      dsimp only
      have h4 : blobGasSum f b.out.blobGasUsed (blobGas tx) = .ok (out0.blobGasUsed + blobGas tx) := by
        rw [hb, ← hfork]; exact hblob
      rw [h4]
      dsimp only [pure, Except.pure]
      rw [hb]
      cases receiptStatus C (finalDeletions s2 o) o.error <;> rfl

/-- No execution changes the fork. -/
theorem processMessageCall_fork {E : Env} {msg : Message} {w w' : World} {o : MessageCallOutput}
    (h : processMessageCall E msg w = .ok (o, w')) : w'.state.fork = w.state.fork := by
  rw [processMessageCall, processMessageCallWith_eq] at h
  match ha : authorized E msg w with
  | .error c => rw [ha] at h; cases h
  | .ok (r, msg1, s1) =>
    rw [ha] at h
    have hf := (authorized_rel ha).1.fork
    simp only at h
    split at h
    · split at h
      · cases h; rfl
      · split at h
        · cases h
        · rename_i hp
          split at h
          · cases h
          · cases h; exact createMessage_rel fork_closed (fun _ _ => by simp [incrementNonce]) hp
    · split at h
      · cases h
      · rename_i hp
        split at h
        · cases h
        · cases h; exact (message_rel fork_closed hp).trans hf

/-- The blob gas of the block after an included transaction; before cancun there is none. -/
theorem blobSum {C : Crypto} {B : BlockEnv} {s : State} {g bg : Nat} {tx : Transaction} {a : Address} (h : Includable C B s g bg tx a) :
    blobGasSum s.fork bg (blobGas tx) = .ok (bg + blobGas tx) := by
  unfold blobGasSum
  by_cases hc : s.fork.since .cancun = true
  · have := h.blobRoom hc
    have hm : maxBlobs s.fork ≤ 9 := by unfold maxBlobs; rw [if_pos hc]; split <;> decide
    rw [if_pos hc]
    exact toU64_ok.mpr ⟨by omega, rfl⟩
  · rw [if_neg hc]
    unfold blobGas; rw [h.blobKnown (by simpa using hc)]; rfl

theorem processTransaction_ok {C : Crypto} {B : BlockEnv} {b b' : BlockState} {tx : Transaction} {i : Nat} :
    processTransaction C B b tx i = .ok b' ↔ ∃ sender msg o w s1 s2, Ran C B b tx i b' sender msg o w s1 s2 := by
  constructor
  · intro h
    unfold processTransaction at h
    split at h
    · cases h
    · rename_i p b1 hbeg
      obtain ⟨sender, hi, hp1, hp2, hp3, hmsg, rfl⟩ := beginTx_iff hbeg
      obtain ⟨chk, fl, te, msg⟩ := p
      simp only at hp1 hp2 hp3 hmsg
      subst hp1 hp2 hp3
      dsimp only at h
      split at h
      · cases h
      · rename_i o w hrun
        have hg := gasLeft_le hmsg hrun
        have hfk := processMessageCall_fork hrun
        rw [endTx_eq (f := b.state.fork) (out0 := b.out) rfl (by omega) hi.valid.floor (hfk.trans (prepaid_fork B b.state tx sender)) (by rw [show w.state.fork = b.state.fork from hfk.trans (prepaid_fork B b.state tx sender)]; exact blobSum hi)] at h
        rw [except_bind_ok] at h
        obtain ⟨s1, h1, h⟩ := h
        rw [except_bind_ok] at h
        obtain ⟨s2, h2, h⟩ := h
        rw [except_bind_ok] at h
        obtain ⟨st, h3, h⟩ := h
        have h3 := crashAt_ok.mp h3
        have e := receiptStatus_ok h3
        subst e
        cases h
        exact ⟨sender, msg, o, w, s1, s2, hi, hmsg, hrun, crashAt_ok.mp h1, crashAt_ok.mp h2, h3, rfl⟩
  · rintro ⟨sender, msg, o, w, s1, s2, hr⟩
    obtain ⟨hi, hm, hrun, h1, h2, h3, rfl⟩ := hr
    obtain ⟨msg', hm', hb⟩ := beginTx_accepts i hi
    rw [hm] at hm'; cases hm'
    unfold processTransaction
    rw [hb]
    dsimp only
    rw [hrun]
    dsimp only
    have hg := gasLeft_le hm hrun
    have hfk := processMessageCall_fork hrun
    rw [endTx_eq (f := b.state.fork) (out0 := b.out) rfl (by omega) hi.valid.floor (hfk.trans (prepaid_fork B b.state tx sender)) (by rw [show w.state.fork = b.state.fork from hfk.trans (prepaid_fork B b.state tx sender)]; exact blobSum hi)]
    rw [except_bind_ok]
    refine ⟨s1, crashAt_ok.mpr h1, ?_⟩
    rw [except_bind_ok]
    refine ⟨s2, crashAt_ok.mpr h2, ?_⟩
    rw [except_bind_ok]
    exact ⟨_, crashAt_ok.mpr h3, rfl⟩

theorem ran_fork {C : Crypto} {B : BlockEnv} {b b' : BlockState} {tx : Transaction} {i : Nat} {sender : Address}
    {msg : Message} {o : MessageCallOutput} {w : World} {s1 s2 : State} (h : Ran C B b tx i b' sender msg o w s1 s2) :
    b'.state.fork = b.state.fork := by
  have hres : b'.state = finalDeletions s2 o := by rw [h.result]
  rw [hres, (finalDeletions_ok s2 o).fork, (payCoinbase_ok h.pay).2.fork, (refundSender_ok h.refund).2.fork]
  exact (processMessageCall_fork h.run).trans (prepaid_fork ..)

end Verif
