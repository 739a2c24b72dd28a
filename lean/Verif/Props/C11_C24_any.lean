import Verif.Lemmas.SupplyEq
import Verif.Lemmas.Eoa
import Verif.Lemmas.SamplePowEvm
/-!
Properties C11, C22 and C24 in every fork, from frontier on. Ether can only be lost with accounts that are deleted: an execution that
schedules none for deletion keeps the total.
-/
namespace Verif.Props
open Verif Verif.Spec Verif.Pow

/-- **C11**, any call message in any fork: the total of all balances never grows, and it is the same if the call fails or schedules
no account for deletion. -/
theorem C11_any_message (E : Env) (msg : Message) (w w' : World) (child : Evm) (hw : w.WF)
    (h : processMessage E (exec E) msg w = .ok (child, w')) :
    supply w'.state ≤ supply w.state ∧ (child.error ≠ none ∨ child.accountsToDelete = [] → supply w'.state = supply w.state) := by
  refine ⟨(message_rel noMint_closed.toStateClosed h hw.state.main.1).2, fun he => ?_⟩
  exact (processMessage_eqs (exec_snap E) (exec_eqs E) _ _ _ _ h hw.state.main.1).2
    (he.imp (fun hq => by cases hc : child.error <;> simp_all) id)

/-- **C11**, any creation in any fork. -/
theorem C11_any_create_message (E : Env) (msg : Message) (w w' : World) (child : Evm) (hw : w.WF)
    (h : processCreateMessage E (exec E) msg w = .ok (child, w')) :
    supply w'.state ≤ supply w.state ∧ (child.error ≠ none ∨ child.accountsToDelete = [] → supply w'.state = supply w.state) := by
  refine ⟨(createMessage_rel noMint_closed.toStateClosed (fun s a => noMint_modify s a _ fun _ => rfl) h hw.state.main.1).2, fun he => ?_⟩
  exact (processCreateMessage_eqs (exec_snap E) (exec_eqs E) _ _ _ _ h hw.state.main.1).2
    (he.imp (fun hq => by cases hc : child.error <;> simp_all) id)

/-- **C11**, whole transactions (before fees) in any fork: ether is lost only if accounts are deleted. -/
theorem C11_any_transaction (E : Env) (msg : Message) (w w' : World) (out : MessageCallOutput) (hw : w.WF)
    (h : processMessageCall E msg w = .ok (out, w')) :
    supply w'.state ≤ supply w.state ∧ (out.accountsToDelete = [] → supply w'.state = supply w.state) :=
  ⟨(top_rel noMint_closed h hw.state.main.1).2, top_eqs hw h⟩

/-- **C22**, in every fork before prague: an account without code that has sent a transaction keeps having no code and is not
deleted, whatever is executed. -/
theorem C22_any_senders (E : Env) (msg : Message) (w w' : World) (out : MessageCallOutput) (ht : TopMessage msg w)
    (hf : w.state.fork.since .prague = false) (h : processMessageCall E msg w = .ok (out, w')) (a : Address)
    (hc : (getAccount w.state a).code = []) (hn : (getAccount w.state a).nonce ≠ 0) :
    a ∉ out.accountsToDelete ∧ (getAccount w'.state a).code = [] ∧ (getAccount w'.state a).nonce ≠ 0 :=
  have := spares_top ht hf h (a := a) ⟨hc, hn⟩
  ⟨this.2, this.1⟩

/-- **C24**, in any fork: the total supply falls at least by the base fee of the gas charged and the fee for the blobs,
and by exactly that much if no account is deleted. -/
theorem C24_any_supply {C : Crypto} {B : BlockEnv} {b b' : BlockState} {tx : Transaction} {i : Nat} (hs : Quiet b.state)
    (h : processTransaction C B b tx i = .ok b') :
    Quiet b'.state ∧ ∃ sender env msg start out finish, Executed C B b.state tx sender env msg start out finish ∧
      supply b'.state + (gasCharged b.state.fork tx out * B.baseFeePerGas + blobFee b.state.fork B tx) ≤ supply b.state ∧
      (out.accountsToDelete = [] →
        supply b'.state + (gasCharged b.state.fork tx out * B.baseFeePerGas + blobFee b.state.fork B tx) = supply b.state) := by
  obtain ⟨sender, msg, o, w, s1, s2, hr⟩ := processTransaction_ok.mp h
  obtain ⟨h1, h2⟩ := supply_all hs hr
  exact ⟨h1, sender, _, msg, _, o, _, executed_of_ran hs hr, h2, supply_all_eq hs hr⟩

/-! ### Concrete cases, in frontier

`0xaa` calls `0xbb` with 5 wei, 0 of memory: PUSH1 0 (four times), PUSH1 5, PUSH1 0xbb, PUSH2 0x4000, CALL, PUSH1 0xee, SELFDESTRUCT. -/
section Examples
open Verif.Sample

def oldCode : Bytes := [0x60, 0, 0x60, 0, 0x60, 0, 0x60, 0, 0x60, 5, 0x60, 0xbb, 0x61, 0x40, 0, 0xf1, 0x60, 0xee, 0xff]
def oldWorld : World :=
  let w := worldOf [eoa, (0xaa, ⟨1, 50, oldCode⟩), (0xbb, ⟨0, 50, [0xfe]⟩)] []
  { w with state := { w.state with fork := .frontier } }

theorem oldWorld_wf : oldWorld.WF :=
  have h := worldOf_wf [eoa, (0xaa, ⟨1, 50, oldCode⟩), (0xbb, ⟨0, 50, [0xfe]⟩)] []
  ⟨⟨h.state.main, h.state.storage, h.state.snaps⟩, h.transient⟩
example : TopMessage (callTo oldWorld 0xaa 100000 7) oldWorld ∧ oldWorld.state.fork = .frontier ∧
    (getAccount oldWorld.state 0xee).code = [] ∧ (getAccount oldWorld.state 0xee).nonce ≠ 0 :=
  ⟨⟨rfl, rfl, ⟨rfl, rfl⟩, rfl, fun t ht => by cases ht; exact ⟨rfl, rfl, rfl⟩, rfl⟩, rfl, by decide +kernel, by decide +kernel⟩
example : (match processMessageCall env (callTo oldWorld 0xaa 100000 7) oldWorld with
    | .ok (o, w) => some (o.error, o.accountsToDelete, (getAccount w.state 0xee).balance, (getAccount w.state 0xaa).balance,
        (getAccount w.state 0xbb).balance, supply w.state)
    | .error _ => none) = some (none, [0xaa], 1000050, 0, 50, 1000100) := by decide +kernel
example : supply oldWorld.state = 1000100 := by decide +kernel

/-- A call that fails inside, and no deletions: the total stays. -/
example : (match processMessageCall env (callTo oldWorld 0xbb 100000 7) oldWorld with
    | .ok (o, w) => some (o.accountsToDelete, supply w.state)
    | .error _ => none) = some ([], 1000100) := by decide +kernel

/-- The transaction of the sample frontier block. -/
example : Quiet powEvmState ∧ powEvmState.fork = .frontier := ⟨powEvm_quiet, rfl⟩
example : (match processTransaction sampleCrypto sampleBlockEnv ⟨powEvmState, BlockOutput.empty⟩ (.legacy sampleTx) 0 with
    | .ok b => some (b.out.blockGasUsed, (getAccount b.state 77).balance.toNat, supply b.state + 41142 * 7 == supply powEvmState)
    | .error _ => none) = some (41142, 1000000 - 41142 * 10 - 3, true) := by decide +kernel
end Examples

end Verif.Props
