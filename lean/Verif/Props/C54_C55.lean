import Verif.Props.C34_C35
import Verif.Lemmas.SampleTx
/-!
Invariants of the state of a chain, over any number of imported blocks: no empty accounts (C05), the form of deployed code
(C54), no storage without an account (C55).
-/
namespace Verif.Props
open Verif Spec

/-- **C05**, for chains: importing blocks never leaves an account with nonce 0, balance 0 and no code in the state, if
there was none before. -/
theorem C05_chain {C : Crypto} {c d : BlockChain} {bs : List ChainBlock} (h : Imports C c bs d)
    (hf : c.state.fork.since .paris = true) (h0 : ∀ a, getAccountOptional c.state a ≠ some ⟨0, 0, []⟩) :
    ∀ a, getAccountOptional d.state a ≠ some ⟨0, 0, []⟩ :=
  (imports_rel noEmpty_closed (fun _ _ hu h => ⟨since_later hu h.1, h.2⟩) h ⟨hf, h0⟩).2

/-- **C54.** However many blocks are imported, with whatever transactions, the code of every account is at most 24576 bytes
and does not start with 0xEF, or it is a delegation designator 0xEF0100 followed by an address; if that was so before. -/
theorem C54_code {C : Crypto} {c d : BlockChain} {bs : List ChainBlock} (h : Imports C c bs d)
    (hf : c.state.fork.since .london = true) (h0 : ∀ a, CodeOK (getAccount c.state a).code) :
    ∀ a, CodeOK (getAccount d.state a).code :=
  (imports_rel codes_all_closed (fun _ _ hu h => ⟨since_later hu h.1, h.2⟩) h ⟨hf, h0⟩).2

/-- **C54.** So no code is longer than 24576 bytes. -/
theorem C54_size {C : Crypto} {c d : BlockChain} {bs : List ChainBlock} (h : Imports C c bs d)
    (hf : c.state.fork.since .london = true) (h0 : ∀ a, CodeOK (getAccount c.state a).code) (a : Address) : (getAccount d.state a).code.length ≤ 24576 := by
  rcases C54_code h hf h0 a with ⟨-, h⟩ | ⟨t, h⟩
  · exact h
  · rw [h, List.length_append, addressBytes_length]; decide

/-- **C55.** However many blocks are imported, a slot of an address at which there is no account reads zero; if that was so
before. -/
theorem C55_owned {C : Crypto} {c d : BlockChain} {bs : List ChainBlock} (h : Imports C c bs d) (hw : c.state.WF)
    (h0 : ∀ a k, getAccountOptional c.state a = none → getStorage c.state a k = 0) :
    ∀ a k, getAccountOptional d.state a = none → getStorage d.state a k = 0 :=
  (imports_rel tidy_closed (fun _ _ _ h => ⟨h.main, h.storage, h.owned.of_eq rfl rfl⟩) h ⟨hw.main, hw.storage, h0⟩).owned

/-! ### A concrete case -/

theorem sample_codeOK : ∀ a, CodeOK (getAccount sampleChain.state a).code := by
  intro a
  unfold getAccount getAccountOptional trieGet
  match e : sampleChain.state.mainTrie.data.get? a with
  | none => exact .inl ⟨by decide, by decide⟩
  | some x =>
    have hall : sampleChain.state.mainTrie.data.entries.all (fun e => match e.2 with
      | none => true
      | some a => decide (a.code.head? ≠ some 0xEF ∧ a.code.length ≤ 0x6000)) = true := by decide +kernel
    have := List.all_eq_true.mp hall (a, x) ((Dict.mem_iff _ _ _).mpr e)
    match x with
    | none => exact .inl ⟨by decide, by decide⟩
    | some acc => exact .inl (by simpa using this)

theorem sample_noEmpty : ∀ a, getAccountOptional sampleChain.state a ≠ some ⟨0, 0, []⟩ := by
  intro a
  unfold getAccountOptional trieGet
  match e : sampleChain.state.mainTrie.data.get? a with
  | none => exact fun h => by cases h
  | some x =>
    have hall : sampleChain.state.mainTrie.data.entries.all (fun e => decide (e.2 ≠ some ⟨0, 0, []⟩)) = true := by decide +kernel
    have := List.all_eq_true.mp hall (a, x) ((Dict.mem_iff _ _ _).mpr e)
    simpa using this

/-- The sample chain meets the hypotheses, and a block that changes nonces, balances and storage is imported into it. -/
example : (∃ d, Imports sampleCrypto sampleChain [⟨.osaka, sampleBlock⟩] d ∧ getStorage d.state 88 1 = 7) ∧ sampleChain.state.WF ∧ sampleChain.state.fork.since .paris = true ∧
    (∀ a, CodeOK (getAccount sampleChain.state a).code) ∧ (∀ a, getAccountOptional sampleChain.state a ≠ some ⟨0, 0, []⟩) ∧
    ∀ a k, getAccountOptional sampleChain.state a = none → getStorage sampleChain.state a k = 0 :=
  ⟨sample_imports, sample_idle.wf, rfl, sample_codeOK, sample_noEmpty, fun _ _ _ => rfl⟩

end Verif.Props
