import Verif.Spec.Deposit
import Verif.Model.Fork
/-! What a block asks of the consensus layer (EIP-7685): deposits, withdrawals and consolidations. -/
namespace Verif.Spec

/-- The request of one kind: the number of the kind, then the data. There is none if there is no data. -/
def request (kind : UInt8) (data : Bytes) : List Bytes := if data = [] then [] else [kind :: data]

/-- The requests of a block, in the order of their kinds: deposits (EIP-6110), withdrawals (EIP-7002), consolidations (EIP-7251). -/
def requestList (deposits withdrawals consolidations : Bytes) : List Bytes :=
  request 0 deposits ++ request 1 withdrawals ++ request 2 consolidations

/-- The commitment to a list of requests: the hash of their hashes, one after the other. -/
def requestsCommitment (sha256 : Bytes → BitVec 256) (requests : List Bytes) : BitVec 256 :=
  sha256 (requests.map fun r => toBE 32 (sha256 r).toNat).flatten

/-- The bytes that are hashed for the commitment. -/
def hashedByRequests (sha256 : Bytes → BitVec 256) (requests : List Bytes) : List Bytes :=
  (requests.map fun r => toBE 32 (sha256 r).toNat).flatten :: requests

/-- The block itself calls a contract, which answers with `data`. The caller is the system address, which pays nothing; there are 30 million
gas; neither data nor ether is sent. The contract has code, and the call does not fail. -/
def Answered (C : Crypto) (B : BlockEnv) (s : State) (contract : Address) (data : Bytes) (s' : State) : Prop :=
  (getAccount s contract).code ≠ [] ∧
  ∃ out w, processMessageCall
    ⟨C, B, { origin := 0xfffffffffffffffffffffffffffffffffffffffe, gasPrice := B.baseFeePerGas, gas := 30000000, accessListAddresses := [],
             accessListStorageKeys := [], blobVersionedHashes := [], authorizations := [] }⟩
    { caller := 0xfffffffffffffffffffffffffffffffffffffffe, target := some contract, gas := 30000000, value := 0, data := [],
      code := (getAccount s contract).code, depth := 0, currentTarget := contract, codeAddress := some contract, shouldTransferValue := false,
      isStatic := false, accessedAddresses := [], accessedStorageKeys := [], disablePrecompiles := false, parentsToDelete := [] }
    ⟨s, TransientStorage.empty⟩ = .ok (out, w) ∧ out.error = none ∧ out.returnData = data ∧ w.state = s'

/-- The contracts that collect the requests for withdrawals and for consolidations. -/
def withdrawalContract : Address := 0x00000961Ef480Eb55e80D19ad83579A64c007002
def consolidationContract : Address := 0x0000BBdDc7CE488642fb579F8B00f3a590007251

end Verif.Spec
