import Verif.Lemmas.AccessRun
import Verif.Lemmas.Agree
import Verif.Lemmas.Alike
import Verif.Lemmas.AllForks
import Verif.Lemmas.Alloc
import Verif.Lemmas.Arith
import Verif.Lemmas.Arity
import Verif.Lemmas.B11r
import Verif.Lemmas.Blake2
import Verif.Lemmas.Blob
import Verif.Lemmas.BlockRel
import Verif.Lemmas.Bloom
import Verif.Lemmas.Body
import Verif.Lemmas.BodyTotal
import Verif.Lemmas.Bytes
import Verif.Lemmas.CallRun
import Verif.Lemmas.CallSpec
import Verif.Lemmas.ChainInv
import Verif.Lemmas.Create
import Verif.Lemmas.CurveCodec
import Verif.Lemmas.Curves
import Verif.Lemmas.Dao
import Verif.Lemmas.Deposit
import Verif.Lemmas.Dict
import Verif.Lemmas.Effect
import Verif.Lemmas.EnvJson
import Verif.Lemmas.Eoa
import Verif.Lemmas.Ethash
import Verif.Lemmas.EthashSpec
import Verif.Lemmas.Exec
import Verif.Lemmas.Exec2
import Verif.Lemmas.Frame
import Verif.Lemmas.Fuel
import Verif.Lemmas.Genesis
import Verif.Lemmas.Good
import Verif.Lemmas.HashWindow
import Verif.Lemmas.Header
import Verif.Lemmas.Hex
import Verif.Lemmas.HexPrefix
import Verif.Lemmas.Hollow
import Verif.Lemmas.HollowTx
import Verif.Lemmas.ImportTotal
import Verif.Lemmas.IndexRoot
import Verif.Lemmas.Jumps
import Verif.Lemmas.Keep
import Verif.Lemmas.Lineage
import Verif.Lemmas.LogBound
import Verif.Lemmas.Memory
import Verif.Lemmas.MemoryRun
import Verif.Lemmas.MinedHashes
import Verif.Lemmas.MinedTotal
import Verif.Lemmas.Monitor
import Verif.Lemmas.Mpt
import Verif.Lemmas.NoCrash
import Verif.Lemmas.NoCrashExec
import Verif.Lemmas.NoCrashOps
import Verif.Lemmas.NoCrashRun
import Verif.Lemmas.NoCrashTop
import Verif.Lemmas.Numeric
import Verif.Lemmas.OpEffect
import Verif.Lemmas.OpEffect2
import Verif.Lemmas.OptSim
import Verif.Lemmas.OptState
import Verif.Lemmas.OwnedKeep
import Verif.Lemmas.Parallel
import Verif.Lemmas.ParallelBlock
import Verif.Lemmas.ParallelChain
import Verif.Lemmas.ParallelOps
import Verif.Lemmas.ParallelTool
import Verif.Lemmas.Patricia
import Verif.Lemmas.PatriciaInj
import Verif.Lemmas.Payment
import Verif.Lemmas.Pc
import Verif.Lemmas.Pow
import Verif.Lemmas.PowEvm
import Verif.Lemmas.Precompile
import Verif.Lemmas.Primes
import Verif.Lemmas.PureOps
import Verif.Lemmas.Raises
import Verif.Lemmas.RefundBound
import Verif.Lemmas.Requests
import Verif.Lemmas.Rlp
import Verif.Lemmas.RlpCanonical
import Verif.Lemmas.RlpSize
import Verif.Lemmas.RootContents
import Verif.Lemmas.RootState
import Verif.Lemmas.RootTotal
import Verif.Lemmas.Rpc
import Verif.Lemmas.SameMsg
import Verif.Lemmas.SampleBlock
import Verif.Lemmas.SampleFrame
import Verif.Lemmas.SamplePow
import Verif.Lemmas.SamplePowEvm
import Verif.Lemmas.SampleSync
import Verif.Lemmas.SampleTx
import Verif.Lemmas.SampleWF
import Verif.Lemmas.Snap
import Verif.Lemmas.Space
import Verif.Lemmas.Spared
import Verif.Lemmas.SparedTx
import Verif.Lemmas.State
import Verif.Lemmas.StateProg
import Verif.Lemmas.StateRel
import Verif.Lemmas.Strict
import Verif.Lemmas.Supply
import Verif.Lemmas.SupplyEq
import Verif.Lemmas.Sync
import Verif.Lemmas.SyncNode
import Verif.Lemmas.T8n
import Verif.Lemmas.T8nBody
import Verif.Lemmas.T8nCalls
import Verif.Lemmas.T8nDrop
import Verif.Lemmas.T8nMined
import Verif.Lemmas.T8nRun
import Verif.Lemmas.Top
import Verif.Lemmas.Touch
import Verif.Lemmas.Trace
import Verif.Lemmas.Tx
import Verif.Lemmas.TxCodec
import Verif.Lemmas.TxJson
import Verif.Lemmas.TxRun
import Verif.Lemmas.TxSeq
import Verif.Lemmas.TxTotal
import Verif.Lemmas.WholeRel
import Verif.Lemmas.Withdrawals
import Verif.Lemmas.Work
import Verif.Lemmas.World
import Verif.Model.Alloc
import Verif.Model.AstCompare
import Verif.Model.B11r
import Verif.Model.Base
import Verif.Model.Blake2
import Verif.Model.Blocks
import Verif.Model.Curves
import Verif.Model.Dao
import Verif.Model.EnvJson
import Verif.Model.Ethash
import Verif.Model.Evm
import Verif.Model.Fields
import Verif.Model.Fork
import Verif.Model.Forks
import Verif.Model.Gas
import Verif.Model.Genesis
import Verif.Model.Glacier
import Verif.Model.Hex
import Verif.Model.Instructions
import Verif.Model.Interpreter
import Verif.Model.Lint
import Verif.Model.Numeric
import Verif.Model.Ops
import Verif.Model.OptState
import Verif.Model.Patch
import Verif.Model.Pow
import Verif.Model.PowEvm
import Verif.Model.Precompiles
import Verif.Model.ResultJson
import Verif.Model.Rlp
import Verif.Model.RlpDecode
import Verif.Model.Rpc
import Verif.Model.State
import Verif.Model.StateTest
import Verif.Model.Sync
import Verif.Model.SyncNode
import Verif.Model.System
import Verif.Model.T8n
import Verif.Model.Transactions
import Verif.Model.TrieRoot
import Verif.Model.TxJson
import Verif.Props.C01_C05
import Verif.Props.C06_C07
import Verif.Props.C08
import Verif.Props.C09_C11
import Verif.Props.C100
import Verif.Props.C101
import Verif.Props.C102
import Verif.Props.C102_fork
import Verif.Props.C103
import Verif.Props.C11_C24_any
import Verif.Props.C12_C13
import Verif.Props.C14_C15
import Verif.Props.C16
import Verif.Props.C17
import Verif.Props.C18_C19
import Verif.Props.C20
import Verif.Props.C21_C22_any
import Verif.Props.C21_C23
import Verif.Props.C23_replay
import Verif.Props.C24_C25
import Verif.Props.C26
import Verif.Props.C27
import Verif.Props.C28_C31
import Verif.Props.C32
import Verif.Props.C33
import Verif.Props.C34_C35
import Verif.Props.C35_body
import Verif.Props.C35_mined
import Verif.Props.C36
import Verif.Props.C37_C39
import Verif.Props.C40
import Verif.Props.C41
import Verif.Props.C42_C56
import Verif.Props.C43
import Verif.Props.C44
import Verif.Props.C45
import Verif.Props.C46
import Verif.Props.C47
import Verif.Props.C48
import Verif.Props.C49
import Verif.Props.C50
import Verif.Props.C51_C52
import Verif.Props.C53
import Verif.Props.C54_C55
import Verif.Props.C57
import Verif.Props.C58
import Verif.Props.C59
import Verif.Props.C60
import Verif.Props.C61
import Verif.Props.C62
import Verif.Props.C63
import Verif.Props.C64
import Verif.Props.C65
import Verif.Props.C66_C67
import Verif.Props.C68
import Verif.Props.C69
import Verif.Props.C70
import Verif.Props.C71
import Verif.Props.C72
import Verif.Props.C73
import Verif.Props.C74
import Verif.Props.C74_selfdestruct
import Verif.Props.C75
import Verif.Props.C76
import Verif.Props.C77
import Verif.Props.C78
import Verif.Props.C79
import Verif.Props.C80
import Verif.Props.C80_receipts
import Verif.Props.C80_tool
import Verif.Props.C80_total
import Verif.Props.C81
import Verif.Props.C82
import Verif.Props.C83
import Verif.Props.C84
import Verif.Props.C85
import Verif.Props.C86
import Verif.Props.C87
import Verif.Props.C88
import Verif.Props.C89
import Verif.Props.C90
import Verif.Props.C91
import Verif.Props.C92
import Verif.Props.C93
import Verif.Props.C94
import Verif.Props.C95
import Verif.Props.C96
import Verif.Props.C97
import Verif.Props.C98
import Verif.Props.C99
import Verif.Spec.Access
import Verif.Spec.AllocJson
import Verif.Spec.Allocation
import Verif.Spec.Announced
import Verif.Spec.Arith
import Verif.Spec.Arity
import Verif.Spec.AstCompare
import Verif.Spec.Authority
import Verif.Spec.B11r
import Verif.Spec.Blake2b
import Verif.Spec.Blob
import Verif.Spec.Bloom
import Verif.Spec.Bls
import Verif.Spec.Body
import Verif.Spec.Calls
import Verif.Spec.Client
import Verif.Spec.Code
import Verif.Spec.ContractAddress
import Verif.Spec.Create
import Verif.Spec.CurvePoints
import Verif.Spec.Dao
import Verif.Spec.Deposit
import Verif.Spec.Difficulty
import Verif.Spec.Ecdsa
import Verif.Spec.EnvJson
import Verif.Spec.Ethash
import Verif.Spec.ForkRules
import Verif.Spec.Glacier
import Verif.Spec.Header
import Verif.Spec.HexPrefix
import Verif.Spec.Intrinsic
import Verif.Spec.Kzg
import Verif.Spec.Lint
import Verif.Spec.MemoryOps
import Verif.Spec.Messages
import Verif.Spec.MinedSane
import Verif.Spec.Modexp
import Verif.Spec.Monitor
import Verif.Spec.Mpt
import Verif.Spec.Numerals
import Verif.Spec.Passive
import Verif.Spec.Patch
import Verif.Spec.Payment
import Verif.Spec.PowHistory
import Verif.Spec.PowRules
import Verif.Spec.Prime
import Verif.Spec.Reads
import Verif.Spec.Requests
import Verif.Spec.ResultJson
import Verif.Spec.Rpc
import Verif.Spec.Sample
import Verif.Spec.Sane
import Verif.Spec.Services
import Verif.Spec.StateClearing
import Verif.Spec.StateProg
import Verif.Spec.StateTest
import Verif.Spec.Supply
import Verif.Spec.Sync
import Verif.Spec.SyncNode
import Verif.Spec.T8n
import Verif.Spec.Top
import Verif.Spec.Trace
import Verif.Spec.TrieHash
import Verif.Spec.Tx
import Verif.Spec.TxJson
import Verif.Spec.TxOutcome
import Verif.Spec.TxRules
import Verif.Spec.TxSane
import Verif.Spec.Withdrawals
import Verif.Spec.Work
