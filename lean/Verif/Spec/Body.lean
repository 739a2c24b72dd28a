import Verif.Spec.TxOutcome
import Verif.Spec.Requests
import Verif.Spec.Withdrawals
/-! The executions in the course of a block. -/
namespace Verif.Spec

/-- The outputs of the executions of the transactions of a block. -/
inductive TxOutputs (C : Crypto) (B : BlockEnv) : BlockState → Nat → List (LegacyTx ⊕ Bytes) → BlockState → List MessageCallOutput → Prop
  | nil (b : BlockState) (i : Nat) : TxOutputs C B b i [] b []
  | cons {b b1 b' : BlockState} {i : Nat} {t : LegacyTx ⊕ Bytes} {r : List (LegacyTx ⊕ Bytes)} {tx : Transaction} {sender : Address}
      {env : TxEnv} {msg : Message} {start finish : State} {out : MessageCallOutput} {outs : List MessageCallOutput}
      (decoded : decodeTransaction b.state.fork t = .ok tx) (included : processTransaction C B b tx i = .ok b1)
      (executed : Executed C B b.state tx sender env msg start out finish) (rest : TxOutputs C B b1 (i + 1) r b' outs) :
      TxOutputs C B b i (t :: r) b' (out :: outs)

/-- The block itself calls a contract: the caller is the system address, which pays nothing; there are 30 million gas; no ether is sent. -/
def SystemRun (C : Crypto) (B : BlockEnv) (s : State) (contract : Address) (data : Bytes) (out : MessageCallOutput) (s' : State) : Prop :=
  ∃ w, processMessageCall
    ⟨C, B, { origin := 0xfffffffffffffffffffffffffffffffffffffffe, gasPrice := B.baseFeePerGas, gas := 30000000, accessListAddresses := [],
             accessListStorageKeys := [], blobVersionedHashes := [], authorizations := [] }⟩
    { caller := 0xfffffffffffffffffffffffffffffffffffffffe, target := some contract, gas := 30000000, value := 0, data := data,
      code := (getAccount s contract).code, depth := 0, currentTarget := contract, codeAddress := some contract, shouldTransferValue := false,
      isStatic := false, accessedAddresses := [], accessedStorageKeys := [], disablePrecompiles := false, parentsToDelete := [] }
    ⟨s, TransientStorage.empty⟩ = .ok (out, w) ∧ w.state = s'

/-- The contracts that keep the beacon roots (EIP-4788) and the hashes of the blocks (EIP-2935). -/
def beaconContract : Address := 0x000F3df6D732807Ef1319fB7B8bB8522d0Beac02
def historyContract : Address := 0x0000F90827F1C53a10cb7A02335B175320002935

/-- A system call that is made only under the condition `c`. -/
def SystemCall (c : Bool) (C : Crypto) (B : BlockEnv) (s : State) (target : Address) (data : Bytes) (s' : State)
    (outs : List MessageCallOutput) : Prop :=
  if c then ∃ o, SystemRun C B s target data o s' ∧ outs = [o] else s' = s ∧ outs = []

/-- What withdrawals are worth in the given fork: they came with shanghai. -/
def withdrawn (f : Fork) (ws : List Withdrawal) : Nat := if f.since .shanghai then (ws.map wei).sum else 0

/-- The states in the course of a block, and the outputs of its executions: two system calls (since cancun and since prague), the
transactions, the withdrawals (since shanghai), and two more system calls (since prague). -/
structure BlockTrace (C : Crypto) (B : BlockEnv) (s : State) (txs : List (LegacyTx ⊕ Bytes)) (ws : List Withdrawal) (s' : State)
    (system txOuts : List MessageCallOutput) : Prop where
  trace : ∃ s1 s2 b3 b4 sys1 sys2 sys3 parentHash, system = sys1 ++ sys2 ++ sys3 ∧
    SystemCall (s.fork.since .cancun) C B s beaconContract (wordBytes B.parentBeaconBlockRoot) s1 sys1 ∧
    (s.fork.since .prague = true → B.blockHashes.getLast? = some parentHash) ∧
    SystemCall (s.fork.since .prague) C B s1 historyContract (wordBytes parentHash) s2 sys2 ∧
    TxOutputs C B ⟨s2, BlockOutput.empty⟩ 0 txs b3 txOuts ∧
    (if s.fork.since .shanghai then processWithdrawals b3 ws = .ok b4 else b4 = b3) ∧
    (if s.fork.since .prague then ∃ s5 o3 o4, sys3 = [o3, o4] ∧
        SystemRun C B b4.state withdrawalContract [] o3 s5 ∧ SystemRun C B s5 consolidationContract [] o4 s' ∧ o3.error = none ∧ o4.error = none
      else s' = b4.state ∧ sys3 = [])

end Verif.Spec
