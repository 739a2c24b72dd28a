import Verif.Props.C35_body
import Verif.Props.C77
import Verif.Props.C79
/-!
Property C81: nonces fit into 64 bits, from frontier on. With it, what C34, C35, C54 and C55 say of proof-of-stake chains holds of whole
histories: a chain is mined from `c` to `c'`, changes to proof of stake (`merge`) and goes on to `chain`.
-/
namespace Verif.Props
open Verif Verif.Spec Verif.Pow Ethash

/-- **C81**, messages: no call or creation, with all it does, takes a nonce to 2^64. -/
theorem C81_message {E : Env} {msg : Message} {w w' : World} {out : MessageCallOutput} (h : processMessageCall E msg w = .ok (out, w'))
    (h0 : ∀ a, (getAccount w.state a).nonce < 2 ^ 64) : ∀ a, (getAccount w'.state a).nonce < 2 ^ 64 :=
  top_rel nonceBound_history.toMsgClosed h h0

/-- **C81**, transactions of any fork. -/
theorem C81_transaction {C : Crypto} {B : BlockEnv} {b b' : BlockState} {tx : Transaction} {i : Nat} (h : processTransaction C B b tx i = .ok b')
    (h0 : ∀ a, (getAccount b.state a).nonce < 2 ^ 64) : ∀ a, (getAccount b'.state a).nonce < 2 ^ 64 := by
  obtain ⟨sender, msg, o, w, s1, s2, hr⟩ := processTransaction_ok.mp h
  exact ran_rel nonceBound_history.toBlockClosed hr h0

/-- **C81.** An account whose nonce has reached 2^64 - 1 sends no further transaction. -/
theorem C81_exhausted {C : Crypto} {B : BlockEnv} {b : BlockState} {tx : Transaction} {i : Nat} {sender : Address}
    (hs : recoverSender C b.state.fork B.chainId tx = .ok sender) (hn : (getAccount b.state sender).nonce = 2 ^ 64 - 1) :
    ∃ e b', processTransaction C B b tx i = .error (e, b') ∧ b'.state = b.state := by
  match hb : beginTx C B b tx i with
  | .error (e, b') => exact ⟨e, b', by unfold processTransaction; rw [hb], by rw [(beginTx_rejects hb).1]⟩
  | .ok (p, b1) =>
    obtain ⟨s, hi, -⟩ := beginTx_iff hb
    have h1 := hi.signed
    rw [hs] at h1; cases h1
    have h2 := hi.nonce
    have h3 := hi.valid.nonce
    omega

/-- **C81**, mined histories with changes of fork. -/
theorem C81_mined {C : Crypto} {K : Hashes} {c c' : PowChain Txs} {bs : List (PowFork × PowBlock Txs)} (h : Mined C K c bs c')
    (h0 : ∀ a, (getAccount c.state a).nonce < 2 ^ 64) : ∀ a, (getAccount c'.state a).nonce < 2 ^ 64 :=
  mined_rel nonceBound_history h h0

/-- **C81**, proof-of-stake histories. -/
theorem C81_imports {C : Crypto} {c c' : BlockChain} {bs : List ChainBlock} (h : Imports C c bs c')
    (h0 : ∀ a, (getAccount c.state a).nonce < 2 ^ 64) : ∀ a, (getAccount c'.state a).nonce < 2 ^ 64 :=
  imports_rel nonceBound_history.toBlockClosed nonceBound_history.fork h h0

/-- **C81**, from the genesis block to osaka: only the nonces of the genesis file matter. -/
theorem C81_whole {C : Crypto} {K : Hashes} {F : PowFork} {blocks : List (PowBlock Txs)} {id : U64} {g : Genesis.Configuration} {c c' : PowChain Txs}
    {bs : List (PowFork × PowBlock Txs)} {chain : BlockChain} {bs' : List ChainBlock}
    (hg : Genesis.addGenesisBlock C K F ⟨blocks, State.empty F.fork, id⟩ g = some c)
    (hn : ∀ xs, Matched Denotes g.initialAccounts xs → ∀ x ∈ xs, x.account.nonce < 2 ^ 64) (h : Mined C K c bs c')
    (hf : Fork.since .paris c'.state.fork = true) (h' : Imports C (merge c') bs' chain) :
    (∀ a, (getAccount c'.state a).nonce < 2 ^ 64) ∧ ∀ a, (getAccount chain.state a).nonce < 2 ^ 64 := by
  have h0 : NonceBound c.state := by
    obtain ⟨xs, hx, -, -, ha, -⟩ := C77_state hg
    intro a
    unfold getAccount
    rw [ha a]
    match e : allotted xs a with
    | none => exact Nat.two_pow_pos 64
    | some acc =>
      unfold allotted at e
      obtain ⟨x, hf, rfl⟩ := Option.map_eq_some_iff.mp e
      exact hn xs hx x (List.mem_reverse.mp (List.mem_of_find?_eq_some hf))
  exact ⟨C81_mined h h0, whole_rel nonceBound_history h hf h' h0⟩

/-! ### Whole histories -/

/-- What the theorems below assume of the first state: well-formed dictionaries and no open snapshot, tries that hash their keys, no
storage without an account, nonces of 64 bits. The genesis block gives such a state (C77). -/
structure Orderly (s : State) : Prop where
  quiet : Quiet s
  secured : Secured s
  owned : NoOrphans s
  nonces : NonceBound s

theorem mined_orderly {C : Crypto} {K : Hashes} {c c' : PowChain Txs} {bs : List (PowFork × PowBlock Txs)} (h : Mined C K c bs c')
    (ho : Orderly c.state) : Orderly c'.state :=
  ⟨(C68_history ho.quiet h).1, mined_rel secured_history h ho.secured,
    (mined_rel tidy_history h ⟨ho.quiet.wf.main, ho.quiet.wf.storage, ho.owned⟩).owned, mined_rel nonceBound_history h ho.nonces⟩

theorem whole_orderly {C : Crypto} {K : Hashes} {c c' : PowChain Txs} {bs : List (PowFork × PowBlock Txs)} {chain : BlockChain}
    {bs' : List ChainBlock} (h : Mined C K c bs c') (hf : Fork.since .paris c'.state.fork = true) (h' : Imports C (merge c') bs' chain)
    (ho : Orderly c.state) : Orderly chain.state :=
  ⟨(imports_idle h' ((setFork_quiet .paris (C68_history ho.quiet h).1).idle rfl)).quiet, whole_rel secured_history h hf h' ho.secured,
    (whole_rel tidy_history h hf h' ⟨ho.quiet.wf.main, ho.quiet.wf.storage, ho.owned⟩).owned, whole_rel nonceBound_history h hf h' ho.nonces⟩

/-- **C34**, whole histories: the root of the state that a chain has reached, mined or not, depends on what can be read from it alone. -/
theorem C34_whole (C : Crypto) (s s' : State) (ho : Orderly s) (ho' : Orderly s') (hk : KeysDiffer C s) (hsame : SameState s s') :
    stateRoot C s = stateRoot C s' :=
  stateRoot_reads ho.quiet.wf ho'.quiet.wf ho.secured ho'.secured ho.quiet.snapshots ho'.quiet.snapshots hk hsame.1 hsame.2

/-- **C35**, mined blocks: if the last blocks of two mined histories carry the same state root, the two chains have the same accounts
and storage, unless there is a collision. -/
theorem C35_mined (C : Crypto) (K : Hashes) {c c' d d' : PowChain Txs} {F F' : PowFork} {b b' : PowBlock Txs} (ho : Orderly c.state)
    (ho' : Orderly c'.state) (hF : c.state.fork = F.fork) (hF' : c'.state.fork = F'.fork)
    (h : Pow.stateTransition K (evmExec C K) F c b = .ok d) (h' : Pow.stateTransition K (evmExec C K) F' c' b' = .ok d')
    (hroot : b.header.stateRoot = b'.header.stateRoot) (hE : C.keccak256 [0x80] = emptyTrieRoot)
    (hc : NoCollision C (hashedByStateRoot C d.state ++ hashedByStateRoot C d'.state)) : SameState d.state d'.state := by
  have o := mined_orderly (.block hF h (.nil d)) ho
  have o' := mined_orderly (.block hF' h' (.nil d')) ho'
  obtain ⟨-, -, s, r, -, -, -, -, hr, -⟩ := powTransition_ok h
  obtain ⟨-, -, s', r', -, -, -, -, hr', -⟩ := powTransition_ok h'
  rw [← hroot] at hr'
  exact C35_state C _ _ _ o.quiet o'.quiet o.secured o'.secured o.owned o'.owned o.nonces.fit o'.nonces.fit hE hc hr hr'

/-- **C35**, whole histories: a mined block that gives the same state root as a proof-of-stake block, or as any other state reached from
a genesis block, gives the same accounts and storage. -/
theorem C35_whole (C : Crypto) (s s' : State) (r : Word) (ho : Orderly s) (ho' : Orderly s') (hE : C.keccak256 [0x80] = emptyTrieRoot)
    (hc : NoCollision C (hashedByStateRoot C s ++ hashedByStateRoot C s')) (h : stateRoot C s = .ok r) (h' : stateRoot C s' = .ok r) :
    SameState s s' :=
  C35_state C _ _ _ ho.quiet ho'.quiet ho.secured ho'.secured ho.owned ho'.owned ho.nonces.fit ho'.nonces.fit hE hc h h'

/-- **C35**, the states that the two theorems above speak of: those of every chain that grew from an orderly state. -/
theorem C35_reached {C : Crypto} {K : Hashes} {c c' : PowChain Txs} {bs : List (PowFork × PowBlock Txs)} (ho : Orderly c.state)
    (h : Mined C K c bs c') : Orderly c'.state ∧ (Fork.since .paris c'.state.fork = true →
      ∀ chain bs', Imports C (merge c') bs' chain → Orderly chain.state) :=
  ⟨mined_orderly h ho, fun hf _ _ h' => whole_orderly h hf h' ho⟩

/-- **C54**, mined histories from london on, and on through the change to proof of stake. -/
theorem C54_whole {C : Crypto} {K : Hashes} {c c' : PowChain Txs} {bs : List (PowFork × PowBlock Txs)} (h : Mined C K c bs c')
    (hl : c.state.fork.since .london = true) (h0 : ∀ a, CodeOK (getAccount c.state a).code) :
    (∀ a, CodeOK (getAccount c'.state a).code) ∧ (Fork.since .paris c'.state.fork = true →
      ∀ chain bs', Imports C (merge c') bs' chain → ∀ a, CodeOK (getAccount chain.state a).code) :=
  ⟨(mined_rel codes_history h ⟨hl, h0⟩).2, fun hf _ _ h' => (whole_rel codes_history h hf h' ⟨hl, h0⟩).2⟩

/-- **C55**, whole histories from frontier on: no storage without an account. -/
theorem C55_whole {C : Crypto} {K : Hashes} {c c' : PowChain Txs} {bs : List (PowFork × PowBlock Txs)} (h : Mined C K c bs c') (hw : c.state.WF)
    (h0 : ∀ a k, getAccountOptional c.state a = none → getStorage c.state a k = 0) :
    (∀ a k, getAccountOptional c'.state a = none → getStorage c'.state a k = 0) ∧ (Fork.since .paris c'.state.fork = true →
      ∀ chain bs', Imports C (merge c') bs' chain → ∀ a k, getAccountOptional chain.state a = none → getStorage chain.state a k = 0) :=
  ⟨(mined_rel tidy_history h ⟨hw.main, hw.storage, h0⟩).owned, fun hf _ _ h' => (whole_rel tidy_history h hf h' ⟨hw.main, hw.storage, h0⟩).owned⟩

/-! ### Concrete cases -/

theorem powEvm_orderly : Orderly powEvmChain.state :=
  ⟨powEvm_quiet, ⟨rfl, fun a t h => by rw [show powEvmChain.state.storageTries = Dict.empty from rfl] at h; simp at h⟩, fun _ _ _ => rfl,
    nonceBound_of rfl (by decide +kernel)⟩

/-- The sample frontier block, then the forks up to cancun. -/
example : Orderly powEvmChain.state ∧ ∃ c' chain, Mined sampleCrypto sampleK powEvmChain [(.frontier, powEvmBlock)] c' ∧
    Fork.since .paris c'.state.fork = true ∧ Imports sampleCrypto (merge c') [] chain ∧ (getAccount chain.state 77).nonce = 1 := by
  obtain ⟨c', h, -, hn⟩ := powEvm_mined_to .grayGlacier (by decide)
  exact ⟨powEvm_orderly, _, _, h.1, by rw [h.2]; rfl, .upgrade .cancun rfl (.nil _), hn⟩

/-- The sender of the sample transaction with the given nonce. -/
def oldSender (n : Nat) : State := setAccount (clearingState .osaka) 77 (some ⟨n, 1000000, []⟩)
def oldSenderRun (n m : Nat) : Option Nat :=
  match processTransaction sampleCrypto sampleBlockEnv ⟨oldSender n, BlockOutput.empty⟩ (.legacy { clearingTx 88 with nonce := BitVec.ofNat 256 m }) 0 with
  | .ok b => some (getAccount b.state 77).nonce
  | .error _ => none

/-- The last transaction of an account takes its nonce to 2^64 - 1; there is none after it. -/
example : oldSenderRun (2 ^ 64 - 2) (2 ^ 64 - 2) = some (2 ^ 64 - 1) ∧ oldSenderRun (2 ^ 64 - 1) (2 ^ 64 - 1) = none := by
  refine ⟨?_, ?_⟩ <;> decide +kernel

end Verif.Props
