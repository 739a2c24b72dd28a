import Verif.Spec.Authority
import Verif.Lemmas.CallSpec
import Verif.Lemmas.World
import Verif.Props.C37_C39
/-! C44: EIP-7702 authorizations. -/
namespace Verif
open Spec

theorem recoverAuthority_iff (C : Crypto) (auth : Authorization) (a : Address) :
    recoverAuthority C auth = some a ↔ SignedBy C auth a := by
  have h1 : (auth.r = 0 ↔ auth.r.toNat = 0) := ⟨fun h => by rw [h]; rfl, fun h => BitVec.eq_of_toNat_eq h⟩
  have h2 : (auth.s = 0 ↔ auth.s.toNat = 0) := ⟨fun h => by rw [h]; rfl, fun h => BitVec.eq_of_toNat_eq h⟩
  have h3 : auth.r ≥ SECP256K1N ↔ secpOrder ≤ auth.r.toNat := BitVec.le_def
  have h4 : auth.s > SECP256K1N / 2 ↔ secpOrder / 2 < auth.s.toNat := BitVec.lt_def
  have h5 : authorizationSigningHash C auth = authorizationHash C auth := rfl
  unfold recoverAuthority SignedBy
  by_cases c1 : auth.yParity ≠ 0 ∧ auth.yParity ≠ 1
  · rw [if_pos c1]; constructor
    · intro h; cases h
    · intro h; omega
  rw [if_neg c1]
  by_cases c2 : auth.r = 0 ∨ auth.r ≥ SECP256K1N
  · rw [if_pos c2]
    rw [h1, h3] at c2
    constructor
    · intro h; cases h
    · intro h; omega
  rw [if_neg c2]
  rw [h1, h3] at c2
  by_cases c3 : auth.s = 0 ∨ auth.s > SECP256K1N / 2
  · rw [if_pos c3]
    rw [h2, h4] at c3
    constructor
    · intro h; cases h
    · intro h; omega
  rw [if_neg c3]
  rw [h2, h4] at c3
  rw [h5]
  constructor
  · intro h
    refine ⟨by omega, by omega, by omega, by omega, by omega, ?_⟩
    split at h
    · cases h
    · rename_i pub hp
      exact ⟨pub, hp, (Option.some.inj h).symm⟩
  · rintro ⟨-, -, -, -, -, pub, hp, rfl⟩
    rw [hp]; rfl

theorem signedBy_unique {C : Crypto} {auth : Authorization} {a b : Address} (h : SignedBy C auth a) (h' : SignedBy C auth b) :
    a = b := by
  have h1 := (recoverAuthority_iff C auth a).mpr h
  have h2 := (recoverAuthority_iff C auth b).mpr h'
  exact Option.some.inj (h1.symm.trans h2)

theorem delegate_iff (code : Bytes) : delegate code ≠ none ↔ isValidDelegation code = true := by
  rw [delegate_eq]
  unfold getDelegatedCodeAddress
  split <;> simp_all

/-- The state after an effective authorization. -/
def delegated (s : State) (a : Address) (target : Address) : State := incrementNonce (setCode s a (designator target)) a

theorem delegated_account (s : State) (a target x : Address) :
    getAccountOptional (delegated s a target) x =
      if a = x then some ⟨(getAccount s a).nonce + 1, (getAccount s a).balance, designator target⟩ else getAccountOptional s x := by
  unfold delegated incrementNonce
  rw [getAccountOptional_modifyState']
  by_cases h : a = x
  · rw [if_pos h, if_pos h]
    unfold setCode
    rw [getAccount_modifyState', if_pos rfl]
    unfold normAccount
    rw [if_neg]
    simp [emptyAccount]
  · rw [if_neg h, if_neg h]
    unfold setCode
    rw [getAccountOptional_modifyState', if_neg h]

theorem delegated_storage (s : State) (a target x : Address) (h : a = x → (getAccount s x).nonce ≠ 0) (k : Word) :
    getStorage (delegated s a target) x k = getStorage s x k := by
  unfold delegated incrementNonce
  rw [getStorage_modifyState', if_neg]
  · unfold setCode
    rw [getStorage_modifyState', if_neg]
    rintro ⟨e, h2⟩
    apply h e
    rw [← e]
    have := congrArg Account.nonce h2.2
    exact this
  · rintro ⟨-, h2⟩
    have := congrArg Account.nonce h2.2
    simp [emptyAccount] at this

theorem delegationStep_cases (E : Env) (acc : DelegationAcc) (auth : Authorization) :
    (∃ a, Effective E.crypto E.block.chainId acc.state auth a ∧
      delegationStep E acc auth = ⟨delegated acc.state a auth.address, setAdd acc.accessed a,
        acc.refund + if getAccountOptional acc.state a = none then 0 else 12500⟩) ∨
    ((∀ a, ¬ Effective E.crypto E.block.chainId acc.state auth a) ∧
      (delegationStep E acc auth).state = acc.state ∧ (delegationStep E acc auth).refund = acc.refund ∧
      ((∃ a, SignedFor E.crypto E.block.chainId auth a ∧ (delegationStep E acc auth).accessed = setAdd acc.accessed a) ∨
       ((∀ a, ¬ SignedFor E.crypto E.block.chainId auth a) ∧ (delegationStep E acc auth).accessed = acc.accessed))) := by
  have hc : (auth.chainId ≠ E.block.chainId.setWidth 256 ∧ auth.chainId ≠ 0) ↔
      ¬ (auth.chainId.toNat = E.block.chainId.toNat ∨ auth.chainId = 0) := by
    have : auth.chainId = E.block.chainId.setWidth 256 ↔ auth.chainId.toNat = E.block.chainId.toNat := by
      constructor
      · intro h; rw [h, BitVec.toNat_setWidth]
        exact Nat.mod_eq_of_lt (Nat.lt_of_lt_of_le E.block.chainId.isLt (by decide))
      · intro h
        apply BitVec.eq_of_toNat_eq
        rw [BitVec.toNat_setWidth, h]
        exact (Nat.mod_eq_of_lt (Nat.lt_of_lt_of_le E.block.chainId.isLt (by decide))).symm
    rw [Ne, this]; simp only [not_or, Ne]
  unfold delegationStep
  by_cases c1 : auth.chainId ≠ E.block.chainId.setWidth 256 ∧ auth.chainId ≠ 0
  · rw [if_pos c1]
    right
    have hn : ∀ a, ¬ SignedFor E.crypto E.block.chainId auth a := fun a h => (hc.mp c1) h.1
    exact ⟨fun a h => hn a h.1, rfl, rfl, .inr ⟨hn, rfl⟩⟩
  rw [if_neg c1]
  rw [hc] at c1
  have c1 := Decidable.not_not.mp c1
  by_cases c2 : auth.nonce.toNat ≥ 2 ^ 64 - 1
  · rw [if_pos c2]
    right
    have hn : ∀ a, ¬ SignedFor E.crypto E.block.chainId auth a := fun a h => by have := h.2.1; omega
    exact ⟨fun a h => hn a h.1, rfl, rfl, .inr ⟨hn, rfl⟩⟩
  rw [if_neg c2]
  match hr : recoverAuthority E.crypto auth with
  | none =>
    right
    have hn : ∀ a, ¬ SignedFor E.crypto E.block.chainId auth a := fun a h => by
      have := (recoverAuthority_iff E.crypto auth a).mpr h.2.2
      rw [hr] at this; cases this
    exact ⟨fun a h => hn a h.1, rfl, rfl, .inr ⟨hn, rfl⟩⟩
  | some a =>
    have hs : SignedFor E.crypto E.block.chainId auth a :=
      ⟨c1, by omega, (recoverAuthority_iff E.crypto auth a).mp hr⟩
    dsimp only
    by_cases c3 : (getAccount acc.state a).code ≠ [] ∧ ¬ isValidDelegation (getAccount acc.state a).code = true
    · rw [if_pos c3]
      right
      refine ⟨fun b hb => ?_, rfl, rfl, .inl ⟨a, hs, rfl⟩⟩
      have : b = a := signedBy_unique hb.1.2.2 hs.2.2
      subst this
      rcases hb.2.1 with h | h
      · exact c3.1 h
      · exact c3.2 ((delegate_iff _).mp h)
    rw [if_neg c3]
    by_cases c4 : (getAccount acc.state a).nonce ≠ auth.nonce.toNat
    · rw [if_pos c4]
      right
      refine ⟨fun b hb => ?_, rfl, rfl, .inl ⟨a, hs, rfl⟩⟩
      have : b = a := signedBy_unique hb.1.2.2 hs.2.2
      subst this
      exact c4 hb.2.2
    rw [if_neg c4]
    left
    refine ⟨a, ⟨hs, ?_, Decidable.not_not.mp c4⟩, ?_⟩
    · by_cases h : (getAccount acc.state a).code = []
      · exact .inl h
      · right; rw [delegate_iff]
        exact Decidable.not_not.mp fun h' => c3 ⟨h, h'⟩
    · unfold delegated designator
      have e1 : (if auth.address = NULL_ADDRESS then [] else EOA_DELEGATION_MARKER ++ addressBytes auth.address) =
        (if auth.address = 0 then [] else [0xef, 0x01, 0x00] ++ addressBytes auth.address) := rfl
      have e2 : PER_EMPTY_ACCOUNT_COST - PER_AUTH_BASE_COST = 12500 := by decide
      rw [e1, e2]
      have e3 : (if accountExists acc.state a = true then acc.refund + 12500 else acc.refund) =
          acc.refund + if getAccountOptional acc.state a = none then 0 else 12500 := by
        generalize 12500 = n
        unfold accountExists
        cases getAccountOptional acc.state a <;> simp
      rw [e3]

theorem authEffect_step (E : Env) (acc : DelegationAcc) (auth : Authorization) :
    ∃ n, AuthEffect E.crypto E.block.chainId auth acc.state (delegationStep E acc auth).state n ∧
      (delegationStep E acc auth).refund = acc.refund + n := by
  rcases delegationStep_cases E acc auth with ⟨a, ha, he⟩ | ⟨hn, h1, h2, -⟩
  · rw [he]
    have hu : ∀ x, Effective E.crypto E.block.chainId acc.state auth x → x = a := fun x hx => signedBy_unique hx.1.2.2 ha.1.2.2
    refine ⟨_, ⟨fun x hx => ?_, fun x hx => ?_, fun x hx k => ?_, fun h => absurd ha (h a)⟩, rfl⟩
    · rw [hu x hx]
      exact ⟨by rw [delegated_account, if_pos rfl], rfl⟩
    · rw [delegated_account, if_neg]
      intro h; subst h; exact hx ha
    · apply delegated_storage
      intro h; subst h
      exact hx.resolve_right fun h => h ha
  · rw [h1, h2]
    exact ⟨0, ⟨fun x hx => absurd hx (hn x), fun _ _ => rfl, fun _ _ _ => rfl, fun _ => rfl⟩, rfl⟩

theorem authEffects_fold (E : Env) : ∀ (l : List Authorization) (acc : DelegationAcc),
    ∃ n, AuthEffects E.crypto E.block.chainId l acc.state (l.foldl (delegationStep E) acc).state n ∧
      (l.foldl (delegationStep E) acc).refund = acc.refund + n
  | [], acc => ⟨0, .nil _, rfl⟩
  | a :: r, acc => by
    obtain ⟨n, h1, h2⟩ := authEffect_step E acc a
    obtain ⟨m, h3, h4⟩ := authEffects_fold E r (delegationStep E acc a)
    refine ⟨n + m, .cons h1 h3, ?_⟩
    show (r.foldl (delegationStep E) (delegationStep E acc a)).refund = _
    rw [h4, h2]; omega

theorem refund_le {C : Crypto} {chainId : U64} {l : List Authorization} {s s' : State} {n : Nat}
    (h : AuthEffects C chainId l s s' n) : n ≤ 12500 * l.length := by
  induction h with
  | nil => exact Nat.zero_le _
  | cons h _ ih =>
    rename_i auth r s s1 s' n m _
    have : n ≤ 12500 := by
      by_cases he : ∃ a, Effective C chainId s auth a
      · obtain ⟨a, ha⟩ := he
        rw [(h.applied a ha).2]; split <;> omega
      · rw [h.skipped fun a ha => he ⟨a, ha⟩]; omega
    rw [List.length_cons]; omega

/-- **C44.** Applying the authorizations of a transaction has on the state exactly the effect described by
`Spec.AuthEffects`, one authorization after the other: an authorization that is for this chain, has a nonce below 2^64 - 1
and a canonical signature of an account with that nonce and no code but a delegation gives this account nonce + 1 and the
designator (or no code, for the null address), and nothing else changes; any other authorization changes nothing. The refund
is 12500 for every account that was there. Nothing else is returned but the message with the code re-read and with more
addresses warm. It fails only if a message without a code address is given (no call has one). -/
theorem C44_authorizations (E : Env) (msg : Message) (s : State) (hl : E.tx.authorizations.length < 2 ^ 200) :
    match msg.codeAddress with
    | none => setDelegation E msg s = .error .invalidBlock
    | some ca => ∃ refund s' warm, setDelegation E msg s =
        .ok (BitVec.ofNat 256 refund, { msg with accessedAddresses := warm, code := (getAccount s' ca).code }, s') ∧
      AuthEffects E.crypto E.block.chainId E.tx.authorizations s s' refund ∧ refund < 2 ^ 256 := by
  obtain ⟨n, h1, h2⟩ := authEffects_fold E E.tx.authorizations ⟨s, msg.accessedAddresses, 0⟩
  have h3 := refund_le h1
  have h4 : ¬ ((E.tx.authorizations.foldl (delegationStep E) ⟨s, msg.accessedAddresses, 0⟩).refund ≥ 2 ^ 256) := by
    rw [h2]; simp only; omega
  unfold setDelegation
  dsimp only
  rw [if_neg h4]
  match msg.codeAddress with
  | none => rfl
  | some ca =>
    refine ⟨n, (E.tx.authorizations.foldl (delegationStep E) ⟨s, msg.accessedAddresses, 0⟩).state,
      (E.tx.authorizations.foldl (delegationStep E) ⟨s, msg.accessedAddresses, 0⟩).accessed, ?_, h1, by omega⟩
    dsimp only
    rw [h2, Nat.zero_add]

/-- **C44.** The addresses warmed are those of the authorities that signed for this chain with a nonce below 2^64 - 1,
whether or not the authorization takes effect. -/
theorem C44_warm (E : Env) (msg msg' : Message) (s s' : State) (r : Word) (h : setDelegation E msg s = .ok (r, msg', s'))
    (a : Address) : a ∈ msg'.accessedAddresses ↔
      a ∈ msg.accessedAddresses ∨ ∃ auth ∈ E.tx.authorizations, SignedFor E.crypto E.block.chainId auth a := by
  have key : ∀ (l : List Authorization) (acc : DelegationAcc), a ∈ (l.foldl (delegationStep E) acc).accessed ↔
      a ∈ acc.accessed ∨ ∃ auth ∈ l, SignedFor E.crypto E.block.chainId auth a := by
    intro l
    induction l with
    | nil => intro acc; simp
    | cons x r ih =>
      intro acc
      show a ∈ (r.foldl (delegationStep E) (delegationStep E acc x)).accessed ↔ _
      rw [ih]
      have : a ∈ (delegationStep E acc x).accessed ↔ a ∈ acc.accessed ∨ SignedFor E.crypto E.block.chainId x a := by
        have hm : ∀ b, SignedFor E.crypto E.block.chainId x b →
            (a ∈ setAdd acc.accessed b ↔ a ∈ acc.accessed ∨ SignedFor E.crypto E.block.chainId x a) := by
          intro b hb
          rw [mem_setAdd]
          constructor
          · rintro (h | h)
            · exact .inl h
            · subst h; exact .inr hb
          · rintro (h | h)
            · exact .inl h
            · exact .inr (signedBy_unique h.2.2 hb.2.2)
        rcases delegationStep_cases E acc x with ⟨b, hb, he⟩ | ⟨-, -, -, ⟨b, hb, he⟩ | ⟨hn, he⟩⟩
        · rw [he]; exact hm b hb.1
        · rw [he]; exact hm b hb
        · rw [he]; simp [hn a]
      rw [this]; simp [or_assoc]
  unfold setDelegation at h
  dsimp only at h
  split at h
  · cases h
  · split at h
    · cases h
    · cases h
      exact key _ _

/-- **C44.** In particular balances never change, and nonces never fall. -/
theorem C44_balances {C : Crypto} {chainId : U64} {l : List Authorization} {s s' : State} {n : Nat}
    (h : AuthEffects C chainId l s s' n) (x : Address) :
    (getAccount s' x).balance = (getAccount s x).balance ∧ (getAccount s x).nonce ≤ (getAccount s' x).nonce := by
  induction h with
  | nil => exact ⟨rfl, Nat.le_refl _⟩
  | cons h _ ih =>
    rename_i auth r s s1 s' n m _
    have : (getAccount s1 x).balance = (getAccount s x).balance ∧ (getAccount s x).nonce ≤ (getAccount s1 x).nonce := by
      by_cases he : Effective C chainId s auth x
      · have := (h.applied x he).1
        unfold getAccount at this ⊢
        rw [this]
        exact ⟨rfl, Nat.le_succ _⟩
      · have := h.others x he
        unfold getAccount
        rw [this]
        exact ⟨rfl, Nat.le_refl _⟩
    exact ⟨ih.1.trans this.1, Nat.le_trans this.2 ih.2⟩

/-- **C44.** Storage never changes in a state where only accounts with a nonce have storage, and such a state results. -/
theorem C44_storage {C : Crypto} {chainId : U64} {l : List Authorization} {s s' : State} {n : Nat}
    (h : AuthEffects C chainId l s s' n) (x : Address) (hx : (getAccount s x).nonce ≠ 0) (k : Word) :
    getStorage s' x k = getStorage s x k := by
  induction h with
  | nil => rfl
  | cons h h' ih =>
    rename_i auth r s s1 s' n m
    have h1 := (C44_balances (AuthEffects.cons h (.nil s1)) x).2
    rw [ih (by omega), h.storage x (.inl hx)]

/-! ### A concrete case -/

/-- An account with a delegation and nonce 3. -/
def delegatingState : State := setAccount State.empty 77 (some ⟨3, 10, [0xef, 0x01, 0x00] ++ addressBytes 5⟩)
/-- Signed by 77 in `sampleCrypto`. -/
def sampleAuthorization : Authorization := ⟨1, 0xabc, 3, 1, 77, 12⟩

theorem sample_effective : Effective sampleCrypto 1 delegatingState sampleAuthorization 77 :=
  ⟨⟨.inl rfl, by decide, (recoverAuthority_iff _ _ _).mp (by decide +kernel)⟩, .inr (by decide +kernel), by decide +kernel⟩

/-- The environment of a transaction with that authorization twice: the second time the nonce does not match. -/
def authorizationEnv : Env :=
  ⟨sampleCrypto, ⟨1, 0, [], 0, 0, 0, 0, 0, 0, 0, 0⟩, ⟨9, 0, 0, [], [], [], [sampleAuthorization, sampleAuthorization]⟩⟩

example : (match setDelegation authorizationEnv ⟨9, none, 8, 0, 0, [], none, [], 0, true, false, [], [], false, []⟩ delegatingState with
    | .error .invalidBlock => true | _ => false) = true := by decide +kernel
example : (match setDelegation authorizationEnv ⟨9, some 77, 77, 0, 0, [], some 77, [], 0, true, false, [], [], false, []⟩ delegatingState with
    | .ok (r, msg, s) => r == 12500 && (getAccount s 77 == ⟨4, 10, [0xef, 0x01, 0x00] ++ addressBytes 0xabc⟩) &&
        msg.code == [0xef, 0x01, 0x00] ++ addressBytes 0xabc
    | _ => false) = true := by decide +kernel

end Verif
