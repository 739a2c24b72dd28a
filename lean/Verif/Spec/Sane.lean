import Verif.Spec.Top
import Verif.Spec.Supply
/-! What is assumed of an environment, a message and a world when no internal error may occur (C20, C26). -/
namespace Verif.Spec

/-- The parts of the environment that instructions convert to 256-bit words fit, and the history is long enough. -/
structure EnvFits (f : Fork) (E : Env) : Prop where
  number : E.block.number < 2 ^ 256
  gasLimit : E.block.blockGasLimit < 2 ^ 256
  baseFee : E.block.baseFeePerGas < 2 ^ 256
  gasPrice : E.tx.gasPrice < 2 ^ 256
  blobPrice : calculateBlobGasPrice f E.block.excessBlobGas < 2 ^ 256
  hashes : min 256 E.block.number ≤ E.block.blockHashes.length
  difficulty : E.block.difficulty < 2 ^ 256

/-- The total ether must stay below this. It fits a 256-bit word; before cancun its double does, because SELFDESTRUCT in favour of
the account itself adds the balance to itself before it is set to 0. -/
def supplyLimit (f : Fork) : Nat := if f.since .cancun then 2 ^ 256 else 2 ^ 255

/-- The forks with a precompile MODEXP that can raise an `OverflowError` (C65): byzantium to prague. -/
def OldModexp (f : Fork) : Prop := f.since .byzantium = true ∧ f.since .osaka = false

/-- The sizes and amounts under which a message is processed. All bounds are far above anything that can be built:
gas and lengths below 2^240, fewer than 2^240 authorizations; the total ether is limited; the caller can pay. -/
structure Sane (E : Env) (msg : Message) (w : World) : Prop where
  env : EnvFits w.state.fork E
  gas : msg.gas < 2 ^ 240
  code : msg.code.length < 2 ^ 240
  data : msg.data.length < 2 ^ 240
  codes : ∀ a, (getAccount w.state a).code.length < 2 ^ 240
  authorizations : E.tx.authorizations.length < 2 ^ 240
  supply : Verif.supply w.state < supplyLimit w.state.fork
  funds : msg.shouldTransferValue = true → msg.value ≤ (getAccount w.state msg.caller).balance

end Verif.Spec
