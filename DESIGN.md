# Formal model of ethereum/execution-specs in Lean 4

## Scope
All eighteen fork packages `src/ethereum/{frontier..osaka}` are one model: `State.fork` says which one runs, and code that differs
between packages tests `fork.since g`. Every function of the state transition, from `state_transition` and `apply_fork` down to single
instructions, is a total Lean function. Citations are to osaka, and to the older package where the branches differ. Block import is
`Fork.lean` for the proof-of-stake forks (paris..osaka) and `Pow.lean` for the proof-of-work forks (frontier..gray_glacier).
`Pow.lean` leaves the execution of transactions open; `PowEvm.lean` fills it in with the EVM model, and has the activation of the
proof-of-work forks and the change to proof of stake. Shared modules modelled: `ethash.py`, `fork_criteria.py`, `utils/numeric.py`, the fork tracking of
`ethereum_spec_tools/sync.py`, and the journaling state of `ethereum_optimized/state_db.py`.

## Layout
* `Verif/Model/*` - the model. Each definition cites the file and lines it models.
* `Verif/Spec/*` - small vocabularies in which properties are stated, written without the model's helpers where possible.
* `Verif/Lemmas/*` - proofs.
* `Verif/Props/*` - the property theorems, named `Cnn_...`, each with an `example` that meets its hypotheses.
* `seeded/LOG.jsonl` - wrong programs tried against the theorems.

| Model file | Code modelled |
| --- | --- |
| Base | words, addresses, bytes, dictionaries, `Crypto` parameters |
| State | osaka/state.py, osaka/trie.py (map part), osaka/fork_types.py |
| Evm, Gas | osaka (and older)/vm/__init__.py, osaka/vm/gas.py, vm/exceptions.py, vm/memory.py, vm/stack.py |
| Instructions, Ops, System | osaka/vm/instructions/*.py (all opcodes), vm/runtime.py |
| Precompiles | osaka/vm/precompiled_contracts/*.py: gas, input handling, MODEXP in full; curve arithmetic is a parameter |
| Interpreter | osaka/vm/interpreter.py, osaka/vm/eoa_delegation.py |
| Transactions, Blocks, Rlp, RlpDecode | osaka/transactions.py, osaka/blocks.py, RLP |
| TrieRoot | osaka/trie.py roots, `state_root`, `storage_root`, osaka/bloom.py |
| Fork | {paris..osaka}/fork.py, requests.py, `apply_fork` |
| Forks | fork_criteria.py, ordering and tracking of forks |
| Pow, PowEvm, Dao, Ethash, Numeric | frontier..gray_glacier fork.py, dao_fork/dao.py, ethash.py, utils/numeric.py |
| Blake2, Fields, Curves | crypto/blake2.py, crypto/elliptic_curve.py, crypto/kzg.py, point codecs and loops of alt_bn128.py and bls12_381/*.py |
| OptState | ethereum_optimized/state_db.py |
| Hex, Genesis | utils/hexadecimal.py, <fork>/utils/hexadecimal.py, genesis.py |
| T8n | ethereum_spec_tools/evm_tools/t8n: `Env`, `T8N` runs, `Result.update` |
| Alloc | ethereum_spec_tools/evm_tools/t8n/t8n_types.py: `Alloc` (reading and `to_json`), loaders/fixture_loader.py: `json_to_state` |
| B11r | ethereum_spec_tools/evm_tools/b11r: `Body`, `Header`, `build_block` |
| TxJson | ethereum_spec_tools/evm_tools: `loaders/transaction_loader.py`, `t8n/t8n_types.py` `Txs` (`parse_json_tx`, `sign_transaction`, `parse_rlp_tx`), the body put out; `secp256k1_sign` is a parameter |
| Sync | decoding of `Block` in every fork; ethereum_spec_tools/sync.py: `BlockDownloader` (from the parsed answers on; `make_block` is a parameter) |
| Rpc | ethereum_spec_tools/sync.py: `load_transaction`, `make_header`, `make_block`, `fetch_ommers`, `fetch_blocks_eth` on JSON objects |
| EnvJson | ethereum_spec_tools/evm_tools/t8n/env.py: the members of the object `env` and how they are read |
| ResultJson | ethereum_spec_tools/evm_tools/t8n/t8n_types.py: `Result.to_json`, `json_encode_receipts`; t8n/__init__.py: the output `body` for transactions given in RLP |
| Lint | ethereum_spec_tools/lint/lints/import_hygiene.py; lint/__init__.py: `Linter.run` (trees instead of sources, no messages) |
| AstCompare | ethereum_spec_tools/lint/__init__.py: `compare_ast`; lints/glacier_forks_hygiene.py: `GlacierForksHygiene.compare` and its tables |
| Glacier | lints/glacier_forks_hygiene.py: `GlacierForksHygiene.lint`, `_Visitor` (on statements instead of sources, without messages) |
| Patch | ethereum_spec_tools/lint/lints/patch_hygiene.py: `PatchHygiene.lint`, `compare`, `_Visitor` (on trees instead of sources; `lint` on the lists of names) |
| StateTest | ethereum_spec_tools/evm_tools/statetest/__init__.py: `read_test_cases`, `run_test_case`, `run_one`; evm_tools/utils.py: `get_module_name`, `get_supported_forks` |
| SyncNode | ethereum_spec_tools/sync.py: `Sync` (start, process_blocks, process_block, persist) as a machine with a database that commits atomically; blocks come in order (C90) |

## Modelling conventions
* `U256`, `Bytes32` are `BitVec 256`; `Address` is `BitVec 160` (big-endian value of the 20 bytes); `Uint` is `Nat`;
  `Bytes` is `List UInt8`. Python's checked arithmetic is modelled by explicit tests that yield a *crash* outcome.
* Python dictionaries are insertion-ordered association lists with unique keys (`Dict`), or functions in OptState.
* Exceptions are values: exceptional halts, `Revert`, and crashes (uncaught `AssertionError`, `OverflowError`, ...)
  are distinct outcomes, and carry the state at the time of raising (Python objects stay mutated).
* Hash functions, signature recovery and pairing precompiles are fields of a structure `Crypto`; all theorems hold for
  every choice of them.
* Theorems about execution hold in every fork unless their hypotheses name one. Invariants that need the account under which code runs
  to exist (they go through `Pre`) ask for `since .spuriousDragon`: before, a contract under construction may have
  nonce 0, balance 0 and no code, so it counts as absent although its init code is running. The properties that were first proved
  through `Pre` (C11, C19, C21, C22, C24, C68) have versions for every fork (`C11_any_*` etc.) proved by inductions of their own. The no-crash results for
  messages (C20) and transactions (C26) hold in every fork up to the OverflowError that MODEXP can raise from byzantium to prague (C65);
  the ones for blocks (C26 since paris, C78 before) hold up to the same error; before osaka they bound the gas limit of a block by
  2^60 and its size by 2^47 bytes, because a transaction has no gas cap of its own and a block no size limit.
* Header fields that a fork lacks are present in the model's `Header` and ignored: not encoded, not compared.
* Interpreter recursion is bounded by fuel; C06 shows that the fuel the model supplies is always enough.

## Plan per property

* **C01 Rollback restores every account, slot and transient slot** - World = (State, TransientStorage) with explicit snapshot lists. Inductive language of operations (`Op`) with nesting; prove by induction over well-nested sequences that rollback restores the world's contents.
* **C02 Commit keeps exactly the writes made inside it** - Same operation language; run with and without brackets, prove equal contents.
* **C03 State reads and writes behave as independent maps** - get/set laws on the model of trie.py/state.py, refinement to functions `Address -> Option Account` and `Address -> Key -> Word`.
* **C04 Original storage value is fixed for the whole transaction** - Induction over operation sequences inside an outermost snapshot.
* **C05 Touched accounts never end up present but empty** - Invariant by induction over the update operations.
* **C06 Execution of any message terminates** - Interpreter with explicit fuel (one structural recursion shared by loop and calls). Theorem: fuel gas+2 never runs out, and more fuel never changes the result.
* **C07 Execution never manufactures gas** - Hoare-style preservation relation over every instruction, induction over the interpreter.
* **C08 A caller always keeps one sixty-fourth of its gas** - Arithmetic over Nat with the model of calculate_message_call_gas.
* **C09 A failed message leaves no trace but gas** - Induction over interpreter: snapshot stack discipline, hence rollback restores; parent-side effect of incorporate_child_on_error.
* **C10 Static calls cannot change state** - Preservation relation with is_static hypothesis, induction over the interpreter.
* **C11 The EVM never creates ether** - Sum of balances over the account dictionary; preservation over every primitive. 'Never more' and 'the same if nothing is deleted' in every fork (C11_any_*, `Lemmas/SupplyEq.lean`).
* **C12 Stack never exceeds 1024 items and memory stays word-aligned** - Invariant over instructions and interpreter loop.
* **C13 Call depth never exceeds 1024** - Invariant on message depth.
* **C14 Jumps only land on real JUMPDEST instructions** - Independent spec of instruction starts (inductive predicate); equivalence by induction over code.
* **C15 Memory expansion cost is path independent** - Arithmetic; ranges folded over lists.
* **C16 Arithmetic and bitwise instructions compute the 256-bit mathematical function** - Specs on Nat/Int modulo 2^256, one theorem per instruction function.
* **C17 Warm and cold access pricing** - Invariant over instructions.
* **C18 Exceptional halts burn all gas, reverts keep it** - Case analysis of execute_code's exception handler, plus induction for state.
* **C19 The transaction refund is never negative** - Potential function over storage slots; induction over interpreter.
* **C20 No internal error escapes the EVM** - Crash outcomes are explicit values in the model; an invariant over the interpreter shows they are unreachable.
* **C21 Contract creation never overwrites an existing account** - Decision logic of process_create_message and generic_create, induction for execution of init code.
* **C22 Who can be deleted by SELFDESTRUCT** - Invariant: deletion set is contained in created set (since cancun), in created or code-bearing accounts before.
* **C23 Nonces never decrease, so a transaction cannot be replayed** - Invariant on nonces over interpreter, then process_transaction and transaction sequences.
* **C24 Transaction fees are accounted exactly** - Model of process_transaction over the interpreter model; exact balance equations, in every fork.
* **C25 Gas used by a transaction is within its bounds** - Same model, every fork.
* **C26 An invalid transaction changes nothing** - Same model: rejected outcomes carry unchanged world.
* **C27 Block gas and blob gas stay within limits** - Induction over transaction lists in apply_body.
* **C28 Base fee follows the formula and moves by about one eighth at most** - Nat arithmetic on the model of calculate_base_fee_per_gas; two popular stronger claims are refuted with witnesses.
* **C29 Gas limit moves by less than 1/1024 and stays above 5000** - Nat arithmetic, induction over chains.
* **C30 Header validation decides exactly the header rules** - validate_header as decision function, iff theorem.
* **C31 Chain retention and BLOCKHASH window** - List model of chain.blocks; induction over imports.
* **C32 Blob pricing** - Model with fuel-free well-founded loop of taylor_exponential.
* **C33 Logs bloom has no false negatives** - Bit-level model of the 2048-bit bloom.
* **C34 State root depends only on contents** - Model of patricialize/encode on association dictionaries; permutation invariance by induction on depth. Secured tries need that no two keys present have the same hash, because the hash is arbitrary.
* **C35 State root commits to contents** - Injectivity of node encoding. The alternative conclusion is an explicit pair of different byte strings, among those hashed for the two roots, with equal hashes. The roots in the headers of blocks are in `Props/C35_body.lean` and, for mined blocks, in `Props/C35_mined.lean` (`C35_mined_roots` says which receipts and transactions the header commits to, `C35_mined_transactions` that the transactions are determined).
* **C36 Hex-prefix encoding is injective** - List induction.
* **C37 RLP encoding is uniquely decodable** - Model of RLP as defined by the Yellow Paper (ethereum_rlp is an external package; trusted base).
* **C38 Transactions survive encoding and decoding** - RLP layer over transaction fields.
* **C39 Signatures cover every field that matters** - Injectivity of RLP on payload lists.
* **C40 Withdrawals credit exactly their amount** - Induction over withdrawal list.
* **C41 Deposit requests are parsed only from well-formed deposit logs** - Byte-slice model; iff characterisation.
* **C42 Fork activation order is a strict total order and activation is monotone** - Finite data type with comparison; order laws.
* **C43 Optimized state agrees with the reference state** - Journal model of state_db.py; arbitrary adaptive clients (interaction trees) run on both; simulation relation "undoing the journal down to each restore point gives the snapshot taken there". Counterexamples proved for the divergences.
* **C44 EIP-7702 authorizations** - Model of set_delegation with recovery as a parameter; induction over list.
* **C45 Intrinsic gas and transaction validation** - Decision logic, arithmetic.
* **C46 Difficulty stays above its minimum** - Int arithmetic on the models of each fork's formula.
* **C47 Ommer rules and rewards** - List model of validate_ommers; arithmetic of rewards.
* **C48 The DAO irregular state change conserves ether** - Sum of balances, induction over account list.
* **C49 MODEXP computes modular exponentiation** - Byte-slice model, Nat exponentiation.
* **C50 A block neither creates nor hides ether** - Sum over apply_body.
* **C51 Ethash sizes** - Nat model; the downward search stops at the latest at a small prime of the right parity.
* **C52 Numeric helpers** - Nat arithmetic, against independent specifications (primality, little-endian values).
* **C53 Logs are paid for by gas** - Potential argument over the interpreter: log bytes against gas spent. Every fork.
* **C54 Only well-formed code ever gets on chain** - Invariant on account code through creation, delegation, blocks and chains.
* **C55 No storage without an account** - Invariant through transactions, blocks and chains.
* **C56 The active fork does not depend on how a block is reached** - climbing loop of ForkTracking; monotone activation.
* **C57 Light verification agrees with the full dataset** - hashimoto with the computed item equals hashimoto with the stored item.
* **C58 Accepted proof-of-work blocks obey the header rules** - decision functions of the 12 proof-of-work forks against a separate rule book (Spec/PowRules), induction over chains.
* **C59 Only EIP-155 signatures are bound to one chain** - `recoverSender` on two chain ids; arithmetic of `35 + 2 * id`, `36 + 2 * id` modulo 2^256.
* **C60 The BLAKE2 precompile computes the RFC 7693 compression function** - `Blake2.compress` on natural numbers simulates F on 64-bit words (Spec/Blake2b), round by round.
* **C61 The alt_bn128 precompiles accept exactly the canonical encodings of curve points** - the curve arithmetic is a library given as parameter; the codec is modelled and shown equal to number-theoretic conditions on the input (Spec/CurvePoints), the outcome of each call in closed form.
* **C62 The BLS12-381 precompiles check lengths, encodings and subgroups as EIP-2537 says** - same method; the loops over pairs are unrolled to sums and products over all pairs by induction.
* **C63 The point-evaluation precompile accepts only true evaluations of the committed polynomial** - outcome in closed form for any library; the algebraic part assumes a library whose points have logarithms in `ZMod r` and a bilinear pairing (Spec/Kzg), for which a toy instance is given.
* **C64 Key recovery and P-256 verification ask the library only well-formed questions** - Euler's criterion (Mathlib) for the modulus of secp256k1, whose primality is proved by Lucas certificates evaluated in the kernel (Lemmas/Primes); outcomes in closed form.
* **C65 MODEXP before osaka can raise an internal error** - outcome of the precompile in closed form against Spec/Modexp; arithmetic bound for the second error; lifted to `process_message`.
* **C66 Each fork has exactly the opcodes, precompiles and transaction types of its EIPs** - tables from the EIPs (Spec/ForkRules) compared with the model's tables, byte by byte over all 256 bytes and by arithmetic over addresses; effect shown on the frame loop, `execute_code` and `decode_transaction`.
* **C67 A block hash commits to the whole history** - RLP injectivity on the header lists of all forks; induction back along the parent hashes.
* **C68 Mining issues exactly the block rewards, through all forks** - `PowEvm.lean` runs mined blocks on the EVM model; frames never raise the sum of balances in any fork (a relation closed under all state updates, without the invariant on running accounts); rewards and the DAO move computed; induction over `Mined` and `Imports`.
* **C69 No transaction is ever included twice, from frontier to osaka** - accounts without code and with a nonce are spared by every frame (induction over execution, all forks before prague); a relation between states and the transactions between them, composed over blocks, forks and the merge; two forks never recover different senders.
* **C70 The first proof-of-stake block continues the mined chain** - the header lists of gray_glacier and paris are equal field by field; first step of `Imports`.
* **C71 Environment reads return what the transaction and block say** - one table of prices and values (`Spec/Reads.lean`); each instruction run symbolically.
* **C72 Memory behaves as an endless zeroed array** - `Spec/MemoryOps.lean` gives each write as a range and a function from positions to bytes; the list operations of the model are compared with it cell by cell.
* **C73 Stack instructions move exactly the words they name** - symbolic run of each; positions of the stack by index.
* **C74 Logs, stores and outputs are exactly what the code asked for** - symbolic run; memory as in C72, prices as in C17.
* **C75 Calls and creates send the right message and take back the right results** - `Spec/Messages.lean` lists every field of the message and of the frame afterwards; the callee is an arbitrary function.
* **C76 Hexadecimal strings are read as what they denote** - `Spec/Numerals.lean` says what a numeral denotes; each conversion is characterised by an equivalence, over all strings of the modelled syntax (see Model/Hex.lean for the extras of Python's `int` that are left out).
* **C77 The genesis block commits to exactly the configured state** - the loop over the accounts against `Spec/Allocation.lean` (last entry wins); it yields the starting point (`Quiet`) of C68 and C69.
* **C78 Importing a mined block raises no internal error** - as C26, for the proof-of-work import: header, ommers and seal by C58, transactions by the every-fork results of C20 and C26, rewards by C47; an invariant `PowChainFits` from genesis through forks to the merge (`Spec/MinedSane.lean`).
* **C79 No empty accounts since spurious dragon** - since paris by a relation closed under every elementary change of the state; before it by an induction over frames that tracks the set of touched accounts (`Lemmas/Hollow.lean`), then through fees, deletions and rewards. `Hollow` is in `Spec/StateClearing.lean`. `C79_before` shows the failure in each earlier fork.
* **C80 The transition tool agrees with block import** - `Model/T8n.lean` models the driver of t8n on top of the functions of the forks. The loops over transactions are matched step by step (`Lemmas/T8n.lean`), the environment is derived from the parent's values (`Lemmas/T8nBody.lean`; only the last 256 hashes matter, `Lemmas/HashWindow.lean`), and dropping rejected transactions is a simulation up to the trie of transactions (`Lemmas/T8nDrop.lean`). `Describes` and `Reports` are in `Spec/T8n.lean`. `C80_order` is the witness for the order of the system calls. `C80_total` and `C80_state_total` (the tool finishes) go through the steps with the lemmas of C65 that no function of the forks raises an internal error. `C80_receipts` (about the receipts the tool lists) goes back to the tries of the block body (`body_contents` in `Props/C35_body.lean`); `C80_mined_receipts` is the same for mined blocks.
* **C81 Nonces fit into 64 bits** - `HistoryClosed` (`Lemmas/WholeRel.lean`): a relation on states that the single steps keep is kept by whole histories, from frontier to osaka. The step that raises a nonce may assume that it is not 2^64 - 1, because CREATE, the transaction rules, the delegation rules and the collision test check it. The same induction carries C34, C35, C54 and C55 to mined histories (`*_mined`, `*_whole`).
* **C82 Nobody but its owner can take anything from an account** - `Kept` (balance not lower, nonce, code and storage equal) is reflexive and transitive; a frame step of other code keeps it by the instruction effects (`OpEffect`), a frame of the account's own passive code is a step without world effect; induction over the interpreter's calls, then over transactions, bodies, rewards, forks and histories.
* **C83 Code sees the block it is in** - the block environment built by `state_transition` is compared, instruction by instruction, with a table over the header (`Spec/Announced.lean`); mined histories keep the last 255 blocks and stay linked (induction over the history), so the list of hashes is that of the blocks before.
* **C84 What the transition tool writes, it reads back** - `Alloc.to_json`, the preparation in `Alloc.__init__` and `json_to_state` are modelled (Model/Alloc.lean); reading is characterised by what numerals denote (Spec/AllocJson.lean), and the printed text of every state denotes that state; with C55 and C79 for the states of chains.
* **C85 What happens to a state depends on what can be read from it alone** - a relation between states that read alike, with snapshots (Lemmas/Alike.lean), is preserved by every function of the state; every instruction, precompile and frame runs in parallel on related states (Lemmas/Parallel.lean, ParallelOps.lean), and so do transactions, system calls, blocks, mined blocks and the tool (ParallelBlock.lean, ParallelChain.lean, ParallelTool.lean); histories by induction; with C35, for equal roots.
* **C86 What a block asks of the consensus layer** - `Spec/Requests.lean` says what the requests of a block are and what the commitment to
  them is, with literal addresses, kinds and call parameters. `process_general_purpose_requests` is followed step by step; the deposits come
  from C41 and C27. Injectivity of the commitment: the concatenated hashes have 32 bytes each, and the kinds tell the requests apart.
* **C87 Contract addresses** - `Spec/ContractAddress.lean` gives the hashed bytes for each origin; C24 and C75 give the addresses at which
  creations run. Injectivity: RLP is uniquely decodable (C37), the first bytes tell CREATE and CREATE2 apart. Histories: C69.
* **C88 The block builder puts out the block that its input describes** - what an input describes is a relation (Spec/B11r.lean); each reader of the tool is characterised by it, both ways; encodings by C37.
* **C89 The transition tool reads and signs the transactions that its input describes** - what an object describes is a relation (Spec/TxJson.lean); the reader is characterised by it both ways, for each type; signing is an edit of the signature members, which the signed message does not depend on; that signatures can be recovered is a hypothesis on the signing function (`SignsFor`).
* **C90 Blocks survive the wire, and a synchronising node gets them in order** - typed decoding inverts typed encoding field by field; acceptance by another fork by comparison of the shapes; the sorted dictionary of the replies depends on the replies as a function of the number only; induction over the blocks with the invariant that the tracker is not ahead of the next block (Spec/Sync.lean).
* **C91 A synchronising node can be stopped at any time** - a transition system whose steps are the points of the loop, with a stop possible at each; an invariant that relates each phase to the uninterrupted run `syncTo` (Spec/SyncNode.lean); the tracker by C56, the last 255 blocks by induction.
* **C92 The SHA-256, RIPEMD-160 and identity precompiles charge and return exactly what they should** - `pSha256`, `pRipemd160`, `pIdentity` against a table of price and answer (`Spec/Services.lean`) by evaluation of the frame for an arbitrary input; `C92_frame` is the same seen by the caller through `executeCode`. The two hash functions are fields of `Crypto`.
* **C93 What a payment and what a failed transaction do, to the last wei** - the account book `Booked` (`Spec/Payment.lean`) gives every balance, nonce, code and slot after the transaction; proved by composing `processTransaction_ok` (C24) with the evaluation of a message without code (C66) and with the rollback of a failed message (C09), keeping track of deletions of empty accounts.
* **C94 The proof-of-work function is Ethash** - `Spec/Ethash.lean` defines cache, items, mix, digest and result as total recurrences on words; every loop of the model is shown to compute its recurrence by induction on the number of iterations.
* **C95 Roots are the Merkle Patricia roots of the Yellow Paper** - `Spec/Mpt.lean` defines the node of a set of pairs (a relation, not a list) by an inductive predicate with one rule per kind of node. Induction on the fuel of `patricialize` shows that it makes such a node; induction on the predicate shows that there is only one. The roots of storage, state, transactions, receipts and withdrawals follow by giving their pairs.
* **C96 The work of a message is proportional to its gas** - `Spec/Work.lean` counts instructions by the tree of frames whose results are needed for the result of a frame. Each instruction is shown to ask for at most one child message, with less gas than the frame loses (`Lemmas/Work.lean`); then induction on the gas.
* **C97 Blocks described by a standard JSON-RPC endpoint are read as they are** - `Spec/Rpc.lean` says field by field which objects describe a header, a transaction, a withdrawal and a block; the readers are shown equivalent to it member by member, with the lemmas of C88 and C89 on numerals. The table of ommers is characterised by its lookups, then sorted; the fetch by the induction of C90.
* **C98 The transition tool reads exactly the environment that its JSON input describes** - `Spec/EnvJson.lean` says member by member which objects describe an environment of a fork (`DescribesEnv`) and how one is written; the reader is shown equivalent to it; what is read back of a written environment differs only in what the fork does not look at (`seen`), and composing with C80 gives the statement about imported and mined blocks.
* **C99 The JSON output of the transition tool says the result, and the block can be built from it** - `Spec/ResultJson.lean` says member by member which object says a result (`Prints`), what it says of a header (`PrintsHeader`), and what two results with the same object have in common (`SameReport`). `C99_import` composes C98, C80 and `C80_receipts`; `C99_pipeline` and `C99_mined` show that the header put together from the output is the written header of C88.
* **C100 State tests are selected, run and judged as the file says** - `Model/StateTest.lean` models the state test tool and the choice of the fork by name; `Spec/StateTest.lean` has the table of names (`Names`), the choice of the transaction (`Chosen`), the right root (`RightRoot`) and the right verdict (`Judges`). The tables are compared entry by entry, for all names by membership (`C100_fork`); `C100_case` composes C98, C84, C89 and `C80_state_test`; `C100_runs` adds, with `C80_state_total` (no internal error of the forks, C65), that every case that says what is needed is run; `C100_report` and `C100_completes` go through the list of cases.
* **C101 The import lint keeps forks apart** - `Model/Lint.lean` models the visitor, the check of one import and the loops over files and forks; `Spec/Lint.lean` says where in a tree an import statement is (`Inside`), to which fork a module belongs (`FromFork`) and what is wrong with it (`problemOf`). Induction on trees and lists; that the names of the forks of the repository are apart is checked for the whole table (`C101_forks`).
* **C102 The glacier lint notices every change but those of texts** - `Model/AstCompare.lean` models the comparison of trees and of the items of one file; `Spec/AstCompare.lean` says when trees are the same (`SameCode`), which changes pass (`Unnoticed`), and what is wrong with an item (`Wrong`, `Expected`, `Excepted`). Mutual induction on trees and lists; the order of the set of items is a parameter. `Model/Glacier.lean` models the visitor and the loop over files; `Spec/Glacier.lean` says what a source defines (`definedAll`), when it can be read (`Readable`) and what is to be reported (`ToReport`).
* **C103 The patch lint keeps definitions in their order** - `Model/Patch.lean` models the loop with the greatest position so far; `Spec/Patch.lean` says when a name comes before another (`Precedes`) and when it is overtaken (`Overtaken`). Induction over the new list, with the invariant that `maximum` is the greatest old position of the names done. That the visitor finds the definitions in their order (`definitions`) is by induction on trees.

## Not modelled
* External cryptographic packages: keccak, sha256, ripemd160 (pycryptodome, hashlib), public key recovery (coincurve), ECDSA on P-256
  (cryptography), and py_ecc's group operations, pairings, final exponentiation and maps to the curves. They are parameters (`Crypto`,
  `CurveLib`, `BlsLib`). So "recovers the signer" means "what the parameter returns". Modelled are the parts in the repository: BLAKE2,
  the checks before recovery and verification, point encodings with field ranges and curve equations, the loops of the
  multi-scalar multiplications and pairings, and KZG verification. py_ecc's `FQ`, `FQ2` arithmetic and `is_on_curve` are modelled from
  knowledge of that package.
* `ethereum_types` and `ethereum_rlp` are external packages whose source is not in the repository. Their behaviour is modelled from
  knowledge of them: checked unsigned arithmetic, RLP as in the Yellow Paper, the decoder's strictness. RlpDecode.lean lists the
  assumptions.
* Python effects that do not change results: tracing (`evm_trace`), logging, object identity. Copies are values, so aliasing bugs are
  outside the model.
* The floating-point square root in `is_prime` is the exact integer root.
* `ethereum_spec_tools` except fork order, the import lint, tracking and the driver of `evm_tools/t8n` (without files, tracing, signing, and of JSON the `alloc`, the transactions, the `env` and the `result` without error messages, in Model/Alloc.lean, Model/TxJson.lean, Model/EnvJson.lean and Model/ResultJson.lean) of the block builder `evm_tools/b11r` and of the state test tool (without tracing and error messages), and the synchronisation tool (from the parsed answers of the provider on, without logging and the schedule of commits, which is arbitrary); the Rust database behind the optimized state (taken to be two maps, and to commit atomically).
* Resource exhaustion (memory, recursion limit of the Python interpreter).

## Trusted base
* Lean 4.33.0 kernel. Axioms used by the theorems: only `propext`, `Classical.choice`, `Quot.sound` (checked with `#print axioms`).
  No axiom is declared, and there is no `sorry`, `admit`, `native_decide` or `bv_decide`.
* Mathlib for `Nat.Prime`, `ZMod`, `Polynomial` and some tactics (`ring`, `norm_num`, `linear_combination`), checked by the same kernel.
* That the Lean definitions mirror the Python text they cite; nothing checks this mechanically.
* The packages listed above.

## Findings about the code
Recorded while modelling. Each is either proved (theorem named) or noted in the comment of the definition.
* The base fee can rise by more than one eighth for odd gas limits, and small fees need not fall (`C28_rise_can_exceed`, `C28_may_not_fall`).
* `validate_header` on an empty chain raises IndexError, not InvalidBlock. BLOCKHASH can raise IndexError for short histories.
* The first block of a blob fork treats the parent's excess blob gas as 0.
* `decode_transaction(b"")` raises IndexError. RLP of 2^64 bytes or more is ambiguous.
* Deposit event parsing does not check the padding bytes.
* `created_accounts` is not restored by a nested rollback, so `get_storage_original` may answer 0 for an account whose creation was undone.
* `set_delegation` works outside any snapshot; its effects survive the failure of the transaction (as EIP-7702 wants).
* CALLCODE with value is allowed in a static frame; a refused call returns its gas and the stipend.
* `modify_state` erases the storage of emptied accounts; the emptiness check after withdrawals is dead code.
* Refund counters can be negative below the top frame; the transaction's total is not (C19).
* `state_transition` is not atomic: an invalid block leaves the mutated state behind.
* BLOBBASEFEE can overflow U256 for absurd excess blob gas (a crash, excluded by hypotheses on headers).
* `tx.chain_id` of typed transactions is never compared with the chain's id (`recover_sender` uses the chain's id for legacy transactions only).
* System transactions do not process `accounts_to_delete`.
* A genesis account without a balance raises AttributeError: the default is the number 0, not a string. Two strings that denote the same address are merged (last account, all slots).
* A timestamp fork can be active before an earlier block-number fork if schedules mix them (`C42_mixed`).
* Proof-of-work forks accept a block whose parent is any retained block, not only the last (`C58_stale`).
* London's first block has no gas limit check against its parent; an ommer older than London in one of its first blocks makes the import raise AttributeError rather than be judged (`C78_old_ommer`, with an ommer that keeps the rules of Berlin).
* Frontier: `parent_timestamp + 13` can overflow; the bomb adds an `int` to a `Uint`.
* Ethash: for very late epochs (dataset rows reaching 2^32) OverflowError.
* `apply_dao` leaves listed accounts that did not exist present but empty.
* Difficulty from homestead on is not monotone in the parent's difficulty.
* Optimized state: destroying a storage, writing to it and destroying it again in one outermost transaction breaks rollback
  (`C43_twice_lost`, `C43_twice_error`); `account_has_storage` can be wrong after slots are zeroed (`C43_zeroed`); two checks of the reference
  state are missing (`C43_lenient`).
* BLAKE2: the slice assignment `v[8:15] = IV` makes the work vector 17 words long; the last one is never used (harmless).
* `decode_g1_scalar_pair` and `decode_g2_scalar_pair` build an exception for a wrong length but do not raise it (the callers always pass
  the right length, so it has no effect).
* Before osaka, a call of MODEXP whose base length is within 96 of 2^256 raises OverflowError before any gas is charged (`C65_message`).
* Before cancun a contract that destroys itself in its own favour burns its ether, and its nonce falls to 0 (so C23 excludes accounts
  with code before cancun); `balance + balance` is computed on the way, which overflows from 2^255 wei on.
* `t8n` stores the parent hash before the beacon root, `apply_body` does it the other way round (`C80_order`: visible only if the two contracts interact).
* `t8n` leaves rejected transactions in the trie from which it computes the transaction root (`C80_tx_root`, `C80_rejected`).
* `t8n`'s `pay_block_rewards` reads `number` and `coinbase` of ommers, which the tool's class `Ommer` does not have: with an ommer it raises AttributeError (`C80_ommers`).
* `t8n` never sets `Result.blob_gas_used`. At the first block of a blob fork it uses the parent's blob gas values if they are given, where the fork counts them as 0. Block hashes missing in the input are None.
* **C84**: `Alloc.__init__` calls `apply_dao` whenever the fork is the DAO fork, not only at its first block. Ether that an account of the list received in an earlier run of `t8n` is moved away when the next run reads the state (`C84_dao`). A decimal number in the input is turned into `0x0x...` (`"0x" + hex(int(value))`); it is only read because `int(_, 16)` accepts a prefix itself. Code without the prefix `0x` is therefore never read.
* The block builder (b11r) knows the header fields up to `withdrawals_root` only: it ignores `blobGasUsed`, `excessBlobGas`, `parentBeaconBlockRoot`
  and `requestsHash` and puts out a shorter header with another hash (C88_later). It does not compare the body with the header either: withdrawals
  without a root, or a root without withdrawals, give a block that no fork can decode.
* **C89**: the loader of JSON transactions ignores `chainId` and always sets 1, so that a transaction for another chain is read as another
  transaction. When the tool signs a legacy transaction that has a member `y_parity`, the signature is lost, since `y_parity` has precedence
  over the `v` it sets. The body it puts out for typed transactions read from JSON lacks their type bytes (`rlp.encode` of the dataclasses), so that
  they are gone (`C89_body_lost`); given RLP it keeps them.
* **C90**: `fetch_blocks_eth` makes the blocks in the order of the replies, which a JSON-RPC provider may choose freely: at a fork a block can be read by the
  code of a later fork (`C90_eth_order`); it also does not notice missing replies, and cannot build headers since cancun (`make_header` knows
  the fields up to `withdrawals_root` only). When it resumes, the downloader goes back by one fork only: if two forks by time began within the last 255
  blocks, it refuses the blocks before them (`C90_start_limit`). `Load.json_to_block` (loaders/fixture_loader.py) reads the member `rlp` also in the
  branch for blocks without it, which thus always raises KeyError. `CountTracer` (evm_trace/count.py) forgets its counts at every transaction.
* **C91**: a node that is started with a database of a block before the 255th lacks the genesis block in `chain.blocks` (`C91_restart`), and then refuses
  every block with an ommer of number 1 (`C91_early_ommer`). At the end of the chain, without `--stop-at`, the blocks since the last commit are not committed.
* **C97**: since cancun `make_header` passes too few arguments to `Header`, so nothing can be read from a standard endpoint (`C97_later`). `fetch_ommers`
  makes the headers of ommers with the fork that was active before the blocks asked for: in a batch that begins before london, ommers of blocks of london lose
  their base fee, so that the block no longer has the hash of its ommers (`C97_ommer_fork`).
  Transactions of any type but 0x1 and 0x2 are taken for legacy ones (`C97_other_types`). Since shanghai a block without the member `withdrawals`
  raises UnboundLocalError.
* **C98**: `parentHash` and the `delta` of ommers have to be there or to be well formed, but nothing looks at them. `currentRandom` is padded after its
  prefix was cut, so "0x0x…" is read as well as "0x…". The keys of `blockHashes` are always read as hexadecimal, where
  every other number without the prefix is decimal: the key "10" is block 16.
* **C99**: `Result.to_json` puts out a base fee or a difficulty only if it is not 0 (`if self.base_fee:`), so that a base fee of 0 looks like a fork without
  one (`C99_zero`). The member `gasUsed` of a receipt is the cumulative gas.
* **C100**: `StateTest.run_one` compares the names of forks without case, `get_module_name` with it: a case for `LONDON` is not skipped, but ends the whole
  run with `SystemExit` (`C100_letters`). With a block number over 1 the state test has no hash for the blocks after block 0 (they are None).
* **C101**: the import lint looks only at the first name of `import a, b` and at the module of `from m import a`, without the dots: `import os, ethereum.osaka.fork`,
  `from ethereum import osaka` and `from ...osaka import fork` pass in every fork (`C101_unseen`).
* **C102**: `compare_ast` looks only at the old side for text statements: a docstring may be replaced by any expression statement, for instance a call, without a
  report (`C102_blind`, `C102_asymmetric`). `delay_blocks` has no entry for `dao_fork`, which is linted as well (`C102_dao`; the item is not in these forks).
