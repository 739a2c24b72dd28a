import Verif.Lemmas.NoCrashTop
import Verif.Lemmas.SampleFrame
/-!
C20: execution never raises an uncaught Python error.
-/
namespace Verif.Props
open Verif Spec

/-- **C20**: in every fork, `process_message_call` returns an output for every well-formed world, every message
sent at the top level and every environment within the bounds of `Sane`, whatever the code does: no overflowing addition of balances
or of refunds, no transfer beyond the balance, no storage write to a missing account, no read outside the block hashes, no number that
does not fit a word, no snapshot missing at a commit or rollback, no exception of a frame that escapes. The one exception is the
`OverflowError` of the precompile MODEXP from byzantium to prague (C65). -/
theorem C20_message (E : Env) (msg : Message) (w : World) (hw : w.WF) (ht : TopMessage msg w) (hs : Sane E msg w) :
    (OldModexp w.state.fork ∧ ∃ w', processMessageCall E msg w = .error (.crash .overflowError, w')) ∨
    ∃ out w', processMessageCall E msg w = .ok (out, w') :=
  processMessageCall_fits hw ht hs

/-- **C20**, in the forks whose MODEXP cannot overflow, those before byzantium (which have none) and osaka, there is no exception. -/
theorem C20_message_total (E : Env) (msg : Message) (w : World) (hw : w.WF) (ht : TopMessage msg w) (hs : Sane E msg w)
    (hf : w.state.fork.since .byzantium = false ∨ w.state.fork = .osaka) :
    ∃ out w', processMessageCall E msg w = .ok (out, w') :=
  (C20_message E msg w hw ht hs).resolve_left fun h => by
    obtain ⟨⟨h1, h2⟩, -⟩ := h
    rcases hf with hf | hf
    · rw [hf] at h1; cases h1
    · rw [hf] at h2; cases h2

/-- **C20**, for calls at any depth: a message (since spurious_dragon: whose code belongs to a contract) returns a frame, and its output is shorter than 2^256 bytes. -/
theorem C20_call (E : Env) (msg : Message) (w : World) (hw : w.WF) (hs : Sane E msg w) (hd : msg.depth ≤ 1024) (hp : msg.parentsToDelete = [])
    (hcode : w.state.fork.since .spuriousDragon = true → msg.code ≠ [] → (getAccount w.state msg.currentTarget).code ≠ [] ∨
      ((getAccount w.state msg.currentTarget).nonce ≠ 0 ∧ (w.state.fork.since .cancun = true ∨ msg.currentTarget ∈ w.state.createdAccounts))) :
    (OldModexp w.state.fork ∧ ∃ w', processMessage E (exec E) msg w = .error (.crash .overflowError, w')) ∨
    ∃ child w', processMessage E (exec E) msg w = .ok (child, w') ∧ child.output.length < 2 ^ 256 := by
  have small : ∀ n, n < 2 ^ 240 → n ≤ bigD := fun n h => Nat.le_trans (Nat.le_of_lt h) (by decide)
  have hg : 32 * msg.gas ≤ bigD := by
    have := hs.gas; have : 32 * 2 ^ 240 ≤ bigD := by decide
    omega
  refine (exec_message bigD_lt bigD_ge hs.env (fun h => .of hw (hcode h) hd h hp)
    ⟨hw.state.main.1, hd, hg, small _ hs.code, small _ hs.data, fun a => small _ (hs.codes a), hs.supply, rfl, hs.funds⟩).imp id ?_
  rintro ⟨child, w', h1, h2, -⟩
  exact ⟨child, w', h1, Nat.lt_of_le_of_lt h2 bigD_lt⟩

/-- **C20**, for creations at any depth (since spurious_dragon: at a free address). -/
theorem C20_create (E : Env) (msg : Message) (w : World) (hw : w.WF) (hs : Sane E msg w) (hd : msg.depth ≤ 1024) (hp : msg.parentsToDelete = [])
    (hst : msg.isStatic = false)
    (hfree : w.state.fork.since .spuriousDragon = true → (getAccount w.state msg.currentTarget).nonce = 0 ∧ (getAccount w.state msg.currentTarget).code = []) :
    (OldModexp w.state.fork ∧ ∃ w', processCreateMessage E (exec E) msg w = .error (.crash .overflowError, w')) ∨
    ∃ child w', processCreateMessage E (exec E) msg w = .ok (child, w') ∧ child.output.length < 2 ^ 256 := by
  have small : ∀ n, n < 2 ^ 240 → n ≤ bigD := fun n h => Nat.le_trans (Nat.le_of_lt h) (by decide)
  have hg : 32 * msg.gas ≤ bigD := by
    have := hs.gas; have : 32 * 2 ^ 240 ≤ bigD := by decide
    omega
  refine (exec_create bigD_lt bigD_ge hs.env (fun h => ⟨hw, hd, hst, by rw [owned_iff]; simp [hfree h], h, by simp [hp]⟩)
    ⟨hw.state.main.1, hd, hg, small _ hs.code, small _ hs.data, fun a => small _ (hs.codes a), hs.supply, rfl, hs.funds⟩).imp id ?_
  rintro ⟨child, w', h1, h2, -⟩
  exact ⟨child, w', h1, Nat.lt_of_le_of_lt h2 bigD_lt⟩

/-! ### Concrete cases, and why the hypotheses are needed -/
section Examples
open Verif.Sample

/-- The sample environment with enough block hashes. -/
def longEnv : Env := { env with block := { env.block with blockHashes := List.replicate 100 7 } }

/-- `0xaa` reads a block hash (BLOCKHASH 99), stores it, sends 5 wei to `0xbb` and destroys itself in favour of `0xdd`. -/
def saneWorld : World := worldOf [eoa, (0xaa, ⟨1, 50,
  [0x60, 99, 0x40, 0x5f, 0x55, 0x5f, 0x5f, 0x5f, 0x5f, 0x60, 5, 0x60, 0xbb, 0x61, 0xff, 0xff, 0xf1, 0x60, 0xdd, 0xff]⟩)] []

theorem longEnv_fits : EnvFits .osaka longEnv :=
  ⟨by decide, by decide, by decide, by decide, by decide +kernel, by decide, by decide⟩

theorem worldCodes {w : World} {n : Nat} (h : ∀ e ∈ w.state.mainTrie.data.entries, (e.2.map fun acc => acc.code.length).getD 0 < n)
    (hn : 0 < n) (hd : w.state.mainTrie.default = none) (a : Address) : (getAccount w.state a).code.length < n := by
  unfold getAccount getAccountOptional trieGet
  match hg : w.state.mainTrie.data.get? a with
  | none => simp only [Option.getD_none, hd]; exact hn
  | some none => exact hn
  | some (some acc) => exact h _ ((Dict.mem_iff _ _ _).mpr hg)

example : saneWorld.WF ∧ TopMessage (callTo saneWorld 0xaa 200000 3) saneWorld ∧
    Sane longEnv (callTo saneWorld 0xaa 200000 3) saneWorld := by
  refine ⟨worldOf_wf _ _, top_callTo (by decide +kernel) (by decide +kernel) _ _ _, longEnv_fits, by decide, by decide +kernel, by decide,
    ?_, by decide, by decide +kernel, fun _ => by decide +kernel⟩
  exact worldCodes (by decide +kernel) (by decide) (by decide +kernel)

example : (match processMessageCall longEnv (callTo saneWorld 0xaa 200000 3) saneWorld with
    | .ok (o, w') => some (o.error, (getAccount w'.state 0xbb).balance, (getAccount w'.state 0xdd).balance,
        (getAccount w'.state 0xaa).balance, getStorage w'.state 0xaa 0)
    | .error _ => none) = some (none, 5, 48, 0, 7) := by decide +kernel

/-- The world in frontier. -/
def asFrontier (w : World) : World := { w with state := { w.state with fork := .frontier } }

/-- The same in frontier (with PUSH1 0 in place of PUSH0). -/
def saneFrontier : World :=
  asFrontier (worldOf [eoa, (0xaa, ⟨1, 50,
    [0x60, 99, 0x40, 0x60, 0, 0x55, 0x60, 0, 0x60, 0, 0x60, 0, 0x60, 0, 0x60, 5, 0x60, 0xbb, 0x61, 0x9f, 0xff, 0xf1, 0x60, 0xdd, 0xff]⟩)] [])

theorem saneFrontier_wf : saneFrontier.WF :=
  have h {w : World} (h : w.WF) : (asFrontier w).WF := ⟨⟨h.state.main, h.state.storage, h.state.snaps⟩, h.transient⟩
  h (worldOf_wf _ _)

example : saneFrontier.WF ∧ TopMessage (callTo saneFrontier 0xaa 200000 3) saneFrontier ∧
    Sane longEnv (callTo saneFrontier 0xaa 200000 3) saneFrontier ∧ saneFrontier.state.fork.since .byzantium = false := by
  refine ⟨saneFrontier_wf, top_callTo (by decide +kernel) (by decide +kernel) _ _ _, ⟨⟨by decide, by decide, by decide, by decide,
    by decide +kernel, by decide, by decide⟩, by decide, by decide +kernel, by decide, ?_, by decide, by decide +kernel, fun _ => by decide +kernel⟩, rfl⟩
  exact worldCodes (by decide +kernel) (by decide) (by decide +kernel)

example : (match processMessageCall longEnv (callTo saneFrontier 0xaa 200000 3) saneFrontier with
    | .ok (o, w') => some (o.error, (getAccount w'.state 0xbb).balance, (getAccount w'.state 0xdd).balance,
        (getAccount w'.state 0xaa).balance, getStorage w'.state 0xaa 0)
    | .error _ => none) = some (none, 5, 48, 0, 7) := by decide +kernel

def crashOf (r : Except (Exn × World) (MessageCallOutput × World)) : Option Crash :=
  match r with
  | .error (.crash c, _) => some c
  | _ => none

/-- Without the bound on the supply: the recipient's balance overflows. -/
def richWorld : World := worldOf [eoa, (0xaa, ⟨1, BitVec.allOnes 256, [0x00]⟩)] []
example : crashOf (processMessageCall longEnv (callTo richWorld 0xaa 100000 3) richWorld) = some .overflowError := by decide +kernel
/-- Without funds: the assertion in `move_ether`. -/
example : crashOf (processMessageCall longEnv (callTo saneWorld 0xaa 200000 1000001) saneWorld) = some .assertionError := by
  decide +kernel
/-- Without the recent block hashes: BLOCKHASH reads outside the list. -/
example : crashOf (processMessageCall env (callTo saneWorld 0xaa 200000 3) saneWorld) = some .indexError := by decide +kernel
/-- A base fee of 2^256 does not fit a word (BASEFEE). -/
def feeWorld : World := worldOf [eoa, (0xaa, ⟨1, 0, [0x48]⟩)] []
example : crashOf (processMessageCall { longEnv with block := { longEnv.block with baseFeePerGas := 2 ^ 256 } }
    (callTo feeWorld 0xaa 100000 0) feeWorld) = some .overflowError := by decide +kernel

end Examples
end Verif.Props
