import Verif.Model.Interpreter
/-!
Concrete environments, worlds and messages, used only by the `example`s beside the property theorems.
-/
namespace Verif.Sample

/-- Toy curve operations: the first coordinate is a number, added and multiplied modulo `p`. -/
def curveLib {p : Nat} [NeZero p] : CurveLib p where
  add1 P Q := ⟨P.x + Q.x, 0, 0⟩
  mul1 P n := ⟨P.x * Fin.ofNat p n, 0, 0⟩
  normalize1 P := (P.x, P.y)
  add2 P _ := P
  mul2 P _ := ⟨P.x, P.y, 0⟩
  normalize2 P := (P.x, P.y)
  pairing _ _ := []
  one12 := []
  mul12 a _ := a

/-- Toy primitives (the theorems hold for all primitives). The "hash" is the big-endian value of the input. -/
def crypto : Crypto where
  keccak256 b := BitVec.ofNat 256 (fromBE b)
  sha256 b := BitVec.ofNat 256 (fromBE b)
  ripemd160 b := BitVec.ofNat 160 (fromBE b)
  coincurveRecover _ _ := none
  p256Verify _ _ _ _ _ := false
  bn := curveLib
  bls :=
    { curve := curveLib, mapToG1 := fun x => ⟨x, 0, 0⟩, mapToG2 := fun x => ⟨x, 0, 0⟩, keyValidate := fun _ => false,
      pubkeyToG1 := fun _ => none, genG1 := ⟨1, 0, 0⟩, genG2 := ⟨1, 0, 0⟩, setupG2 := ⟨1, 0, 0⟩, neg2 := id, miller := fun _ _ => [],
      finalExponentiate := id }

/-- A block and a transaction. -/
def env : Env :=
  { crypto := crypto
    block := { chainId := 1, blockGasLimit := 30000000, blockHashes := [], coinbase := 0xc0, number := 100,
               baseFeePerGas := 7, time := 1000, prevRandao := 0, excessBlobGas := 0, parentBeaconBlockRoot := 0, difficulty := 0 }
    tx := { origin := 0xee, gasPrice := 10, gas := 100000, accessListAddresses := [], accessListStorageKeys := [],
            blobVersionedHashes := [], authorizations := [] } }

/-- A world holding the given accounts and storage slots. -/
def worldOf (accounts : List (Address × Account)) (slots : List (Address × Word × Word)) : World :=
  { state := slots.foldl (fun s x => { s with storageTries := triesSet s.storageTries x.1 x.2.1 x.2.2 })
      (accounts.foldl (fun s x => setAccount s x.1 (some x.2)) State.empty)
    transient := TransientStorage.empty }

/-- A call of `0xee` to `to`, at the top level. -/
def callTo (w : World) (to : Address) (gas : Nat) (value : Word) : Message :=
  { caller := 0xee, target := some to, currentTarget := to, gas := gas, value := value, data := []
    codeAddress := some to, code := (getAccount w.state to).code, depth := 0, shouldTransferValue := true
    isStatic := false, accessedAddresses := [], accessedStorageKeys := [], disablePrecompiles := false, parentsToDelete := [] }

/-- A creation by `0xee` at `at_`, at the top level. -/
def createAt (at_ : Address) (gas : Nat) (value : Word) (code : Bytes) : Message :=
  { caller := 0xee, target := none, currentTarget := at_, gas := gas, value := value, data := []
    codeAddress := none, code := code, depth := 0, shouldTransferValue := true
    isStatic := false, accessedAddresses := [], accessedStorageKeys := [], disablePrecompiles := false, parentsToDelete := [] }

/-- The caller of all samples. -/
def eoa : Address × Account := (0xee, ⟨1, 1000000, []⟩)

end Verif.Sample
