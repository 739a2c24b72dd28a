{"id": "C01", "title": "Rollback restores every account, slot and transient slot", "statement": "After begin_transaction, any sequence of account, storage and transient-storage writes and of properly nested begin/commit/rollback pairs, followed by rollback_transaction, makes get_account_optional, get_storage and get_transient_storage answer for every address and key exactly as they did before begin_transaction, and the nesting level is what it was.", "quantifier": "every starting state, every finite well-nested sequence of operations of any length and depth, every address and key", "why_tests_cant": "The number of operation sequences and nestings is unbounded; a test fixes one.", "anchors": ["src/ethereum/osaka/state.py:begin_transaction", "src/ethereum/osaka/state.py:rollback_transaction", "src/ethereum/osaka/state.py:commit_transaction"]}
{"id": "C02", "title": "Commit keeps exactly the writes made inside it", "statement": "Bracketing any well-nested sequence of state operations with begin_transaction and commit_transaction leaves every account, slot and transient slot as if the brackets had not been there.", "quantifier": "every state, every finite well-nested operation sequence, every address and key", "why_tests_cant": "Must hold for every history of nested writes.", "anchors": ["src/ethereum/osaka/state.py:begin_transaction", "src/ethereum/osaka/state.py:commit_transaction"]}
{"id": "C03", "title": "State reads and writes behave as independent maps", "statement": "Reading an account or storage slot or transient slot returns the last value written to that same address (and key), and a write to one address/key never changes what any other address/key reads; writing zero is the same as never having written; destroying storage makes every slot of that address zero and touches no other address.", "quantifier": "every state, address, key and value", "why_tests_cant": "Aliasing between addresses and keys and default-deleting writes must be right for all pairs, not for sampled ones.", "anchors": ["src/ethereum/osaka/state.py:get_storage", "src/ethereum/osaka/state.py:set_storage", "src/ethereum/osaka/state.py:set_account", "src/ethereum/osaka/state.py:destroy_storage", "src/ethereum/osaka/trie.py:trie_set", "src/ethereum/osaka/trie.py:trie_get"]}
{"id": "C04", "title": "Original storage value is fixed for the whole transaction", "statement": "get_storage_original returns the value the slot had when the transaction's outermost snapshot was taken, regardless of any later writes and nested snapshots, commits and rollbacks; for an account marked as created in the transaction it returns zero.", "quantifier": "every state and every sequence of operations inside the outermost snapshot", "why_tests_cant": "SSTORE pricing depends on it at any point of an arbitrary history.", "anchors": ["src/ethereum/osaka/state.py:get_storage_original", "src/ethereum/osaka/state.py:mark_account_created"]}
{"id": "C05", "title": "Touched accounts never end up present but empty", "statement": "modify_state, and every balance, nonce or code update built on it, leaves the account absent whenever its nonce, balance and code are all empty; a state with no present-but-empty account keeps that property under any sequence of such updates. The same holds for the state of a chain after any number of imported blocks.", "quantifier": "every state with the property and every sequence of updates", "why_tests_cant": "EIP-161 emptiness must hold after every history.", "anchors": ["src/ethereum/osaka/state.py:modify_state", "src/ethereum/osaka/state.py:move_ether", "src/ethereum/osaka/state.py:set_account_balance"]}
{"id": "C06", "title": "Execution of any message terminates", "statement": "For every code, calldata, state, and gas amount, executing a message (with every call and create it makes, recursively) finishes; the number of nested interpreter steps on any path is at most the supplied gas plus a small constant.", "quantifier": "every message, code, state and gas amount", "why_tests_cant": "Termination over all programs is not observable by running some of them.", "anchors": ["src/ethereum/osaka/vm/interpreter.py:execute_code", "src/ethereum/osaka/vm/interpreter.py:process_message", "src/ethereum/osaka/vm/instructions/system.py:generic_call"]}
{"id": "C07", "title": "Execution never manufactures gas", "statement": "Gas left in a frame never increases from one instruction to the next; the gas handed back by a call or create frame never exceeds the gas it was given; every instruction that does not end the frame costs at least one unit.", "quantifier": "every instruction, frame state, and nested execution", "why_tests_cant": "Must hold for every program, including all call/refund/stipend combinations.", "anchors": ["src/ethereum/osaka/vm/gas.py:charge_gas", "src/ethereum/osaka/vm/interpreter.py:execute_code", "src/ethereum/osaka/vm/instructions/system.py"]}
{"id": "C08", "title": "A caller always keeps one sixty-fourth of its gas", "statement": "The gas given to a callee by CALL, CALLCODE, DELEGATECALL, STATICCALL, CREATE and CREATE2 is at most all-but-one-64th of what remains after the other charges, plus a 2300 stipend exactly when ether is transferred; the amount charged plus kept equals what was there before.", "quantifier": "every requested gas, gas left, memory cost and extra cost", "why_tests_cant": "Arithmetic relation over all values including the boundaries.", "anchors": ["src/ethereum/osaka/vm/gas.py:calculate_message_call_gas", "src/ethereum/osaka/vm/gas.py:max_message_call_gas"]}
{"id": "C09", "title": "A failed message leaves no trace but gas", "statement": "If processing a message ends with an error (exceptional halt or revert), then all accounts, storage and transient storage read exactly as before the message, and its caller's logs, refund counter, deletion set and warm sets are unchanged by it.", "quantifier": "every message, state and execution that ends in error", "why_tests_cant": "Failures can happen at any instruction at any depth after any prefix of effects.", "anchors": ["src/ethereum/osaka/vm/interpreter.py:process_message", "src/ethereum/osaka/vm/interpreter.py:process_create_message", "src/ethereum/osaka/vm/__init__.py:incorporate_child_on_error"]}
{"id": "C10", "title": "Static calls cannot change state", "statement": "Executing any message marked static, with every call it makes, leaves every account, storage slot and transient slot unchanged, emits no log, schedules no account deletion.", "quantifier": "every code, message, state", "why_tests_cant": "Quantifies over all programs and all call trees under a static frame.", "anchors": ["src/ethereum/osaka/vm/instructions/system.py", "src/ethereum/osaka/vm/instructions/storage.py", "src/ethereum/osaka/vm/instructions/log.py"]}
{"id": "C11", "title": "The EVM never creates ether", "statement": "The sum of all balances after processing any message is at most the sum before it, and is equal to it when no account was scheduled for deletion.", "quantifier": "every message, code and state", "why_tests_cant": "Global sum over unbounded state and all programs.", "anchors": ["src/ethereum/osaka/state.py:move_ether", "src/ethereum/osaka/vm/interpreter.py:process_message", "src/ethereum/osaka/vm/instructions/system.py:selfdestruct"]}
{"id": "C12", "title": "Stack never exceeds 1024 items and memory stays word-aligned", "statement": "At every point of every execution the stack holds at most 1024 items and memory length is a multiple of 32; an instruction that would overflow or underflow the stack halts the frame with an error.", "quantifier": "every program and every step", "why_tests_cant": "Invariant over all reachable machine states.", "anchors": ["src/ethereum/osaka/vm/stack.py", "src/ethereum/osaka/vm/instructions/stack.py", "src/ethereum/osaka/vm/instructions/memory.py"]}
{"id": "C13", "title": "Call depth never exceeds 1024", "statement": "No execution started at depth 0 ever reaches a frame deeper than 1024, and the depth-limit error of the message processor is never raised; a call or create beyond the limit pushes zero to the caller instead.", "quantifier": "every program and call tree", "why_tests_cant": "Unbounded recursion over all programs.", "anchors": ["src/ethereum/osaka/vm/interpreter.py:process_message", "src/ethereum/osaka/vm/instructions/system.py:generic_call", "src/ethereum/osaka/vm/instructions/system.py:generic_create"]}
{"id": "C14", "title": "Jumps only land on real JUMPDEST instructions", "statement": "The valid jump destinations of a code are exactly the offsets holding 0x5b that are instruction starts, i.e. not inside push data; after a JUMP or taken JUMPI the program counter is one of them, otherwise the frame halts.", "quantifier": "every byte string as code, every stack content", "why_tests_cant": "All codes of any length.", "anchors": ["src/ethereum/osaka/vm/runtime.py:get_valid_jump_destinations", "src/ethereum/osaka/vm/instructions/control_flow.py:jump", "src/ethereum/osaka/vm/instructions/control_flow.py:jumpi"]}
{"id": "C15", "title": "Memory expansion cost is path independent", "statement": "The total gas charged for growing memory depends only on the final size: growing in several steps costs exactly what growing once costs; cost is monotone and zero when nothing grows; the new size is the least multiple of 32 covering all accessed non-empty ranges.", "quantifier": "every memory size and sequence of accessed ranges", "why_tests_cant": "All sizes and access sequences.", "anchors": ["src/ethereum/osaka/vm/gas.py:calculate_memory_gas_cost", "src/ethereum/osaka/vm/gas.py:calculate_gas_extend_memory"]}
{"id": "C16", "title": "Arithmetic and bitwise instructions compute the 256-bit mathematical function", "statement": "ADD, MUL, SUB, DIV, SDIV, MOD, SMOD, ADDMOD, MULMOD, EXP, SIGNEXTEND, LT, GT, SLT, SGT, EQ, ISZERO, AND, OR, XOR, NOT, BYTE, SHL, SHR, SAR and CLZ replace their operands by the mathematical result (two's complement for signed ones) for all operands, including zero divisors and the minimum signed integer.", "quantifier": "all 256-bit operands", "why_tests_cant": "2^512 operand pairs per instruction.", "anchors": ["src/ethereum/osaka/vm/instructions/arithmetic.py", "src/ethereum/osaka/vm/instructions/comparison.py", "src/ethereum/osaka/vm/instructions/bitwise.py"]}
{"id": "C17", "title": "Warm and cold access pricing", "statement": "Within a frame an address or slot is charged the cold price at most once: after any instruction that accessed it and succeeded it is warm; warm sets never shrink along a successful execution, and warmings made by a failed child frame are forgotten.", "quantifier": "every program, address and slot", "why_tests_cant": "Quantifies over all access histories and call trees.", "anchors": ["src/ethereum/osaka/vm/instructions/storage.py", "src/ethereum/osaka/vm/instructions/environment.py", "src/ethereum/osaka/vm/__init__.py:incorporate_child_on_success"]}
{"id": "C18", "title": "Exceptional halts burn all gas, reverts keep it", "statement": "A frame that ends with an exceptional halt reports zero gas and empty output; a frame ending with REVERT reports the gas not yet used and its chosen output; in both cases state is rolled back.", "quantifier": "every program and state", "why_tests_cant": "Every possible failing instruction.", "anchors": ["src/ethereum/osaka/vm/interpreter.py:execute_code", "src/ethereum/osaka/vm/exceptions.py"]}
{"id": "C19", "title": "The transaction refund is never negative", "statement": "Although each frame's refund counter may be negative, the counter of a successful top-level message is never negative, so the conversion to an unsigned number at the end of the transaction cannot fail.", "quantifier": "every fork, top-level message, program and state", "why_tests_cant": "Refunds add and subtract over arbitrary interleavings of storage writes and reverted frames.", "anchors": ["src/ethereum/osaka/vm/instructions/storage.py:sstore", "src/ethereum/osaka/vm/interpreter.py:process_message_call"]}
{"id": "C20", "title": "No internal error escapes the EVM", "statement": "In every fork, for a well-formed state (total ether below 2^256, below 2^255 before cancun) and message, execution never raises an uncaught Python error, with one exception (the OverflowError of the MODEXP precompile from byzantium to prague, C65): balance additions never overflow, ether transfers never exceed the sender's balance, storage is never written on a non-existent account.", "quantifier": "every well-formed state, message and program", "why_tests_cant": "Uncaught errors may hide on any path.", "anchors": ["src/ethereum/osaka/state.py:move_ether", "src/ethereum/osaka/state.py:set_storage", "src/ethereum/osaka/vm/interpreter.py"]}
{"id": "C21", "title": "Contract creation never overwrites an existing account", "statement": "CREATE, CREATE2 and creation transactions deploy code only at an address that had no code, zero nonce and no storage; on collision the existing account is untouched and the gas is consumed; deployed code is at most 24576 bytes (since spurious_dragon) and never begins with 0xEF (since london), and costs 200 gas per byte.", "quantifier": "every fork, state, creator, init code and salt", "why_tests_cant": "All states and init code behaviours.", "anchors": ["src/ethereum/osaka/vm/interpreter.py:process_create_message", "src/ethereum/osaka/vm/instructions/system.py:generic_create", "src/ethereum/osaka/utils/message.py:prepare_message"]}
{"id": "C22", "title": "Who can be deleted by SELFDESTRUCT", "statement": "Since cancun, only addresses that had neither code nor nonce before the current transaction (that is, contracts it created) are ever scheduled for deletion; before, only these and addresses that had code. SELFDESTRUCT moves the whole balance of the executing account to the beneficiary; if it is its own beneficiary the balance is burnt before cancun or when the account was created in the same transaction and stays otherwise.", "quantifier": "every fork, program and state", "why_tests_cant": "All programs and call trees.", "anchors": ["src/ethereum/osaka/vm/instructions/system.py:selfdestruct"]}
{"id": "C23", "title": "Nonces never decrease, so a transaction cannot be replayed", "statement": "Executing any message never decreases the nonce of any account other than those scheduled for deletion (before cancun: of any account without code); including a transaction raises its sender's nonce above the transaction's nonce, so the same transaction is rejected ever after, also after later forks were activated, which decode it to the same transaction.", "quantifier": "every state, transaction and subsequent sequence of transactions", "why_tests_cant": "Holds over unbounded histories.", "anchors": ["src/ethereum/osaka/fork.py:check_transaction", "src/ethereum/osaka/fork.py:process_transaction", "src/ethereum/osaka/state.py:increment_nonce"]}
{"id": "C24", "title": "Transaction fees are accounted exactly", "statement": "For an included transaction the sender is charged exactly gas_used times the effective gas price plus blob gas times blob price beyond the effects of execution, the coinbase receives exactly gas_used times (effective price - base fee), and the remainder (base fee and blob fee) disappears from the total supply.", "quantifier": "every state, block environment and valid transaction", "why_tests_cant": "All prices, refunds and execution outcomes.", "anchors": ["src/ethereum/osaka/fork.py:process_transaction"]}
{"id": "C25", "title": "Gas used by a transaction is within its bounds", "statement": "gas used is at most the gas limit, at least the calldata floor (where the fork has one), at least 4/5 of the gas consumed before refunds, and every receipt's cumulative gas is the sum over the block so far.", "quantifier": "every included transaction", "why_tests_cant": "All executions.", "anchors": ["src/ethereum/osaka/fork.py:process_transaction", "src/ethereum/osaka/transactions.py:calculate_intrinsic_cost"]}
{"id": "C26", "title": "An invalid transaction changes nothing", "statement": "If a transaction is rejected, it is rejected before any account, storage slot, gas counter or receipt of the block has been changed, and the rejection is one of the declared invalid-transaction/invalid-block errors, never an arithmetic, index or assertion error; a transaction that meets the rules of inclusion is included. Likewise importing a block fails only with a declared error or because a transaction cannot be decoded, and leaves the list of blocks alone. The one exception is the OverflowError that the precompile MODEXP raises before osaka (C65).", "quantifier": "every state and transaction in every fork, every chain and block in the forks since paris", "why_tests_cant": "All rejected transactions.", "anchors": ["src/ethereum/osaka/fork.py:check_transaction", "src/ethereum/osaka/transactions.py:validate_transaction"]}
{"id": "C27", "title": "Block gas and blob gas stay within limits", "statement": "After any sequence of included transactions block gas used is at most the block gas limit and blob gas used is at most the per-block maximum of the fork; cumulative gas in receipts strictly grows.", "quantifier": "every block body of any length, in every proof-of-stake fork", "why_tests_cant": "Any number of transactions with any gas use.", "anchors": ["src/ethereum/osaka/fork.py:apply_body", "src/ethereum/osaka/fork.py:check_transaction"]}
{"id": "C28", "title": "Base fee follows the formula and moves by about one eighth at most", "statement": "With a gas limit that passes validation no error occurs and the base fee computed from the parent is the one of EIP-1559. It equals the parent's fee when usage equals the target, is strictly higher above the target and never higher below it, and strictly lower once usage is a rounding unit below. A fall is at most an eighth of the parent's fee. A rise is at most an eighth (or 1) whenever usage is at most twice the target, as it always is for even gas limits; for odd gas limits it is at most an eighth of fee + fee/target (or 1). The simpler claims - a rise is never above an eighth, a fee below target always falls - are false and have counterexamples.", "quantifier": "all parent gas limits, gas used and base fees", "why_tests_cant": "Unbounded integers with truncating divisions.", "anchors": ["src/ethereum/osaka/fork.py:calculate_base_fee_per_gas"]}
{"id": "C29", "title": "Gas limit moves by less than 1/1024 and stays above 5000", "statement": "check_gas_limit accepts exactly the limits strictly within parent/1024 of the parent's and at least 5000; any chain of accepted headers keeps the limit at least 5000.", "quantifier": "all gas limits; all header chains", "why_tests_cant": "All integers; induction over chains.", "anchors": ["src/ethereum/osaka/fork.py:check_gas_limit"]}
{"id": "C30", "title": "Header validation decides exactly the header rules", "statement": "validate_header accepts a header iff each of the fork's header conditions holds against its parent, otherwise raises InvalidBlock; in particular accepted chains have consecutive numbers, strictly increasing timestamps and hash-linked parents.", "quantifier": "all headers and chains", "why_tests_cant": "Decision logic over all field combinations.", "anchors": ["src/ethereum/osaka/fork.py:validate_header"]}
{"id": "C31", "title": "Chain retention and BLOCKHASH window", "statement": "After importing any number of blocks the chain retains the last min(n,255) blocks in order; the last-256 hashes list is the parents' hashes in order, and BLOCKHASH returns the hash of exactly the requested ancestor when it is within the window and zero otherwise.", "quantifier": "every chain history and requested number", "why_tests_cant": "Any number of blocks.", "anchors": ["src/ethereum/osaka/fork.py:state_transition", "src/ethereum/osaka/fork.py:get_last_256_block_hashes", "src/ethereum/osaka/vm/instructions/block.py:block_hash"]}
{"id": "C32", "title": "Blob pricing", "statement": "taylor_exponential terminates, is at least the factor and monotone in its numerator; excess blob gas never underflows and follows the update rule; the blob fee is at least 1.", "quantifier": "all excess values and headers", "why_tests_cant": "Loop over unbounded integers.", "anchors": ["src/ethereum/osaka/vm/gas.py:calculate_excess_blob_gas", "src/ethereum/osaka/vm/gas.py:calculate_blob_gas_price", "src/ethereum/utils/numeric.py:taylor_exponential"]}
{"id": "C33", "title": "Logs bloom has no false negatives", "statement": "The bloom of a list of logs has set all bits of every address and topic in them, and only bits of those; the bloom of a concatenation is the union.", "quantifier": "all logs lists and hash functions", "why_tests_cant": "Any number of logs.", "anchors": ["src/ethereum/osaka/bloom.py:logs_bloom", "src/ethereum/osaka/bloom.py:add_to_bloom"]}
{"id": "C34", "title": "Roots depend only on contents", "statement": "root gives the same result for two tries holding the same key/value pairs regardless of insertion and deletion order, and state_root gives the same result for two states in which every account and every storage slot reads the same, whatever histories led to them (no two keys of a secured trie having the same hash).", "quantifier": "all tries and histories", "why_tests_cant": "All permutations of unbounded maps.", "anchors": ["src/ethereum/osaka/trie.py:root", "src/ethereum/osaka/trie.py:patricialize", "src/ethereum/osaka/state.py:state_root", "src/ethereum/osaka/state.py:storage_root"]}
{"id": "C35", "title": "Roots commit to contents", "statement": "Two tries with the same root hold the same key/value pairs, two states with the same state root have the same accounts and storage, and two blocks that can be imported, mined ones included, with the same transactions root, withdrawals root or receipts root have the same transactions, withdrawals or receipts in the same order, unless two different byte strings hashed while computing these two roots collide under keccak256.", "quantifier": "all pairs of tries, states and blocks", "why_tests_cant": "All pairs of maps of unbounded size.", "anchors": ["src/ethereum/osaka/trie.py:root", "src/ethereum/osaka/trie.py:encode_internal_node", "src/ethereum/osaka/trie.py:patricialize", "src/ethereum/osaka/state.py:state_root", "src/ethereum/osaka/fork.py:state_transition"]}
{"id": "C36", "title": "Hex-prefix encoding is injective", "statement": "nibble_list_to_compact together with its leaf flag can be decoded back, for every nibble list of even or odd length; bytes_to_nibble_list is injective and prefix preserving.", "quantifier": "all nibble lists and flags", "why_tests_cant": "Unbounded lists.", "anchors": ["src/ethereum/osaka/trie.py:nibble_list_to_compact", "src/ethereum/osaka/trie.py:bytes_to_nibble_list"]}
{"id": "C37", "title": "RLP encoding is uniquely decodable", "statement": "Decoding an RLP encoding returns the encoded item; two distinct items never have the same encoding; the decoder accepts only canonical encodings.", "quantifier": "all nested byte/list structures", "why_tests_cant": "Unbounded nested data.", "anchors": ["src/ethereum/osaka/trie.py:encode_internal_node", "src/ethereum/osaka/transactions.py:encode_transaction", "src/ethereum/osaka/blocks.py"]}
{"id": "C38", "title": "Transactions survive encoding and decoding", "statement": "decode_transaction(encode_transaction(tx)) returns tx for each of the five transaction types; typed and legacy encodings never clash.", "quantifier": "all transactions", "why_tests_cant": "All field values and list lengths.", "anchors": ["src/ethereum/osaka/transactions.py:encode_transaction", "src/ethereum/osaka/transactions.py:decode_transaction"]}
{"id": "C39", "title": "Signatures cover every field that matters", "statement": "Two transactions whose signing payloads (before hashing) are equal agree on type and on every field except the signature; pre-155 and chain-bound legacy payloads never coincide.", "quantifier": "all pairs of transactions", "why_tests_cant": "All pairs.", "anchors": ["src/ethereum/osaka/transactions.py:signing_hash_pre155", "src/ethereum/osaka/transactions.py:signing_hash_155", "src/ethereum/osaka/transactions.py:signing_hash_2930", "src/ethereum/osaka/transactions.py:signing_hash_1559", "src/ethereum/osaka/transactions.py:signing_hash_4844", "src/ethereum/osaka/transactions.py:signing_hash_7702"]}
{"id": "C40", "title": "Withdrawals credit exactly their amount", "statement": "Processing withdrawals adds to each recipient exactly the sum of its amounts in Gwei times 10^9 and changes no other account.", "quantifier": "all withdrawal lists and states", "why_tests_cant": "Any list length, repeated addresses.", "anchors": ["src/ethereum/osaka/fork.py:process_withdrawals"]}
{"id": "C41", "title": "Deposit requests are parsed only from well-formed deposit logs", "statement": "extract_deposit_data accepts exactly the 576-byte ABI layout and returns the 192 bytes of the five fields in order; requests are concatenated in log order over all receipts.", "quantifier": "all byte strings and log lists", "why_tests_cant": "All byte strings.", "anchors": ["src/ethereum/osaka/requests.py:extract_deposit_data", "src/ethereum/osaka/requests.py:parse_deposit_requests"]}
{"id": "C42", "title": "Fork activation order is a strict total order and activation is monotone", "statement": "Comparison of fork criteria is a total order with block-number forks before timestamp forks before unscheduled ones; once a criterion is active it stays active for later blocks.", "quantifier": "all criteria, block numbers and timestamps", "why_tests_cant": "All integers.", "anchors": ["src/ethereum/fork_criteria.py"]}
{"id": "C43", "title": "Optimized state agrees with the reference state", "statement": "Any program that uses the state interface - reads whose answers decide what it does next, writes, storage destructions, transactions nested, committed and rolled back in any order - gets the same answers and the same result from the journaling database state as from the reference snapshot state, and leaves the same accounts and storage in the database. Exceptions, each shown by an example: destroying, writing and destroying the same storage again within one outermost transaction and then rolling back; writing storage of an account that does not exist; asking for an original value outside a transaction; account_has_storage after every stored slot was set to zero.", "quantifier": "all programs over the state interface, all nestings, all initial contents", "why_tests_cant": "Unbounded histories of a journal with undo.", "anchors": ["src/ethereum_optimized/state_db.py", "src/ethereum/osaka/state.py"]}
{"id": "C44", "title": "EIP-7702 authorizations", "statement": "Applying authorizations changes only authorities whose recovered address, chain id, and nonce match and which have no code other than a delegation; each such authority gets nonce+1 and either a 23-byte delegation designator or empty code; balances and storage never change.", "quantifier": "all authorization lists and states", "why_tests_cant": "Any list of authorizations with repeats.", "anchors": ["src/ethereum/osaka/vm/eoa_delegation.py:set_delegation"]}
{"id": "C45", "title": "Intrinsic gas and transaction validation", "statement": "validate_transaction accepts exactly when the gas limit covers the intrinsic and floor cost, is at most 2^24, nonce is below 2^64-1 and init code is at most 49152 bytes; intrinsic cost is the documented sum and the floor never below 21000.", "quantifier": "all transactions", "why_tests_cant": "All field values.", "anchors": ["src/ethereum/osaka/transactions.py:validate_transaction", "src/ethereum/osaka/transactions.py:calculate_intrinsic_cost"]}
{"id": "C46", "title": "Difficulty stays above its minimum", "statement": "For each proof-of-work fork the computed block difficulty is at least the minimum difficulty and within the documented distance of the parent's, with the bomb term as documented.", "quantifier": "all parent difficulties, timestamps and numbers", "why_tests_cant": "Unbounded signed arithmetic with truncation.", "anchors": ["src/ethereum/frontier/fork.py:calculate_block_difficulty", "src/ethereum/homestead/fork.py:calculate_block_difficulty", "src/ethereum/byzantium/fork.py:calculate_block_difficulty"]}
{"id": "C47", "title": "Ommer rules and rewards", "statement": "A list of ommers is accepted exactly if the block names its hash, it has at most two different members, each a valid header of generation 1 to 6 whose parent is a recent ancestor other than the block's parent, and that is neither a recent ancestor nor an already included ommer; so each is a sibling of an ancestor, and over a whole history none is included twice. The rewards paid are exactly the documented fractions, and the supply grows by their sum.", "quantifier": "all chains, headers and ommer lists", "why_tests_cant": "All combinations of headers.", "anchors": ["src/ethereum/frontier/fork.py:validate_ommers", "src/ethereum/frontier/fork.py:pay_rewards"]}
{"id": "C48", "title": "The DAO irregular state change conserves ether", "statement": "Applying the DAO fork moves the whole balance of each listed account to the recovery account and keeps the total supply.", "quantifier": "all states", "why_tests_cant": "All states and lists.", "anchors": ["src/ethereum/dao_fork/dao.py:apply_dao"]}
{"id": "C49", "title": "MODEXP computes modular exponentiation", "statement": "The MODEXP precompile returns base^exp mod modulus in exactly modulus_length bytes (zeros for modulus 0), reading missing input as zeros, with gas at least 500, and rejects lengths above 1024.", "quantifier": "all inputs", "why_tests_cant": "All byte strings.", "anchors": ["src/ethereum/osaka/vm/precompiled_contracts/modexp.py"]}
{"id": "C50", "title": "A block neither creates nor hides ether", "statement": "Over apply_body the total supply changes by exactly plus the withdrawals minus what was burnt; it never exceeds the supply before plus withdrawals, and over a chain the supply never exceeds the initial one plus all withdrawals, whatever forks are activated on the way.", "quantifier": "all blocks and states", "why_tests_cant": "All block contents.", "anchors": ["src/ethereum/osaka/fork.py:apply_body"]}
{"id": "C51", "title": "Ethash dataset sizes", "statement": "cache_size is 64 times, and dataset_size 128 times, the largest prime number below the linearly growing bound for the epoch of the block; the search for the prime always ends; both are constant within an epoch and never shrink.", "quantifier": "all block numbers", "why_tests_cant": "All epochs.", "anchors": ["src/ethereum/ethash.py"]}
{"id": "C52", "title": "Numeric helpers", "statement": "ceil32 is the least multiple of 32 at least its argument; get_sign is the signum; is_prime recognises exactly the primes; the little-endian conversions between bytes, 32-bit numbers and integers are inverse to each other and lose nothing; taylor_exponential equals the truncated Taylor series its docstring describes.", "quantifier": "all naturals", "why_tests_cant": "All naturals.", "anchors": ["src/ethereum/utils/numeric.py"]}
{"id": "C53", "title": "Logs are paid for by gas", "statement": "If a message, transaction or block is processed, the logs it leaves cost at least 375 gas per log, 375 per topic and 8 per byte of data, and this sum together with the gas left is at most the gas given; so the size of every receipt is bounded by the gas of its transaction.", "quantifier": "all code, calldata, nested calls and transactions", "why_tests_cant": "Bounds over all executions, including nested calls that revert.", "anchors": ["src/ethereum/osaka/vm/instructions/log.py", "src/ethereum/osaka/vm/interpreter.py:process_message_call", "src/ethereum/osaka/fork.py:make_receipt"]}
{"id": "C54", "title": "Only well-formed code ever gets on chain", "statement": "After importing any blocks, the code of every account is either at most 24576 bytes long and not starting with 0xEF, or exactly a 23-byte delegation designator 0xEF0100 || address, provided this held before.", "quantifier": "all chains with the property and all sequences of imported blocks", "why_tests_cant": "Every transaction, nested creation and authorization in every history can write code.", "anchors": ["src/ethereum/osaka/vm/interpreter.py:process_create_message", "src/ethereum/osaka/vm/eoa_delegation.py:set_delegation", "src/ethereum/osaka/fork.py:state_transition"]}
{"id": "C55", "title": "No storage without an account", "statement": "After importing any blocks, every storage slot of an address at which no account exists reads zero, provided this held before.", "quantifier": "all chains with the property and all sequences of imported blocks", "why_tests_cant": "Accounts can vanish by destruction or by becoming empty at any point of any history.", "anchors": ["src/ethereum/osaka/state.py:destroy_account", "src/ethereum/osaka/state.py:modify_state", "src/ethereum/osaka/state.py:set_storage"]}
{"id": "C56", "title": "The active fork does not depend on how a block is reached", "statement": "set_block makes the fork in force at that block and timestamp the active one (every fork up to it active, the next one not); calling advance_block block by block with non-decreasing timestamps gives exactly the fork that jumping to the last block would; the active fork never goes back, and advance_block returns True exactly when it changed.", "quantifier": "all lists of forks, block numbers, timestamps and sequences of steps", "why_tests_cant": "Any schedule of forks and any number of steps.", "anchors": ["src/ethereum_spec_tools/sync.py:ForkTracking", "src/ethereum_spec_tools/forks.py:Hardfork", "src/ethereum/fork_criteria.py:ForkCriteria"]}
{"id": "C57", "title": "Light verification agrees with the full dataset", "statement": "For every block, header hash and nonce, hashimoto_light with the block's cache returns the same mix digest and result as hashimoto reading the full dataset of generate_dataset; neither raises an exception, only items inside the dataset are read, and the digest and the result have 32 bytes.", "quantifier": "all blocks below number 1950000000, all header hashes, nonces and hash functions", "why_tests_cant": "The full dataset is gigabytes and any nonce can select any item.", "anchors": ["src/ethereum/ethash.py:hashimoto_light", "src/ethereum/ethash.py:hashimoto", "src/ethereum/ethash.py:generate_dataset", "src/ethereum/ethash.py:generate_cache", "src/ethereum/ethash.py:generate_dataset_item"]}
{"id": "C58", "title": "Accepted proof-of-work blocks obey the header rules", "statement": "In every proof-of-work fork a header is accepted exactly if it satisfies all consensus rules (number, parent hash, timestamp, gas, base fee, extra data, difficulty, ethash proof) against a block of the chain; a block is accepted exactly if header, ommers, execution and roots agree; histories of next-number blocks stay linked; a rejected header raises InvalidBlock and nothing else. The code accepts any retained block as parent, not only the last one (shown by a witness).", "quantifier": "all hash functions, forks, chains, headers and histories", "why_tests_cant": "All headers, chains and hash values, including ones that cannot be mined in a test.", "anchors": ["src/ethereum/frontier/fork.py:validate_header", "src/ethereum/frontier/fork.py:validate_proof_of_work", "src/ethereum/frontier/fork.py:state_transition", "src/ethereum/london/fork.py:validate_header"]}
{"id": "C59", "title": "Only EIP-155 signatures are bound to one chain", "statement": "A legacy transaction with a replay-protected (EIP-155) signature yields a sender on at most one chain id. Every other signature - the old form and all typed transactions - yields the same result (same sender or same refusal) whatever the chain's id is, although typed transactions carry a chain id: sender recovery does not compare it with the chain's.", "quantifier": "all transactions of all types, all pairs of chain ids, all recovery functions", "why_tests_cant": "Quantifies over all pairs of chain ids and all signatures, including the ones whose v value wraps or coincides for two ids.", "anchors": ["src/ethereum/osaka/transactions.py:recover_sender", "src/ethereum/osaka/fork.py:check_transaction"]}
{"id": "C60", "title": "The BLAKE2 precompile computes the RFC 7693 compression function", "statement": "A call to address 9 with a 213-byte input whose last byte is 0 or 1 charges one gas per round and returns the 64 bytes of the BLAKE2b compression function F of RFC 7693 applied to the state, message block, offset counter and final flag encoded in the input as EIP-152 says; every other input is refused with InvalidParameter, and no input makes the node crash.", "quantifier": "all inputs, round numbers up to 2^32-1, gas amounts and machine states", "why_tests_cant": "2^1704 inputs; the number of rounds alone ranges over 2^32 values and test vectors cover a handful.", "anchors": ["src/ethereum/crypto/blake2.py:Blake2.compress", "src/ethereum/crypto/blake2.py:Blake2.G", "src/ethereum/osaka/vm/precompiled_contracts/blake2f.py:blake2f"]}
{"id": "C61", "title": "The alt_bn128 precompiles accept exactly the canonical encodings of curve points", "statement": "Calls to addresses 6, 7 and 8 charge 150, 6000 and 45000 + 34000 per pair gas (500, 40000 and 100000 + 80000 per pair before istanbul). Missing input bytes read as zeros (addition and multiplication), the pairing input must be whole 192-byte pairs. A coordinate not below the field prime, a point off the curve (the all-zero encoding standing for infinity), or, for the pairing, a point outside the subgroup of order n, makes the call fail and lose all its gas; every other input returns the 64-byte affine form of the library's sum or multiple, or the word 1 if the product of the pairings is one and 0 otherwise. No input makes the node crash, and two accepted encodings denote the same point only if they are equal.", "quantifier": "all inputs of any length, gas amounts, machine states and curve libraries", "why_tests_cant": "The inputs are unbounded byte strings; boundary coordinates, trailing bytes and off-curve points are separate cases for each of the points of an input of any number of pairs.", "anchors": ["src/ethereum/osaka/vm/precompiled_contracts/alt_bn128.py:bytes_to_g1", "src/ethereum/osaka/vm/precompiled_contracts/alt_bn128.py:bytes_to_g2", "src/ethereum/osaka/vm/precompiled_contracts/alt_bn128.py:alt_bn128_add", "src/ethereum/osaka/vm/precompiled_contracts/alt_bn128.py:alt_bn128_mul", "src/ethereum/osaka/vm/precompiled_contracts/alt_bn128.py:alt_bn128_pairing_check"]}
{"id": "C62", "title": "The BLS12-381 precompiles check lengths, encodings and subgroups as EIP-2537 says", "statement": "Calls to addresses 0x0b to 0x11 first refuse an input of the wrong length, then charge the EIP-2537 price (with the discount table for multi-scalar multiplications, 519 and 524 per mille beyond 128 pairs), then refuse any coordinate whose 64 bytes are not below the field prime and any point off the curve; multi-scalar multiplication and pairing also refuse points outside the subgroup while addition does not. Accepted inputs return the padded affine form of the library's sum, multi-scalar sum or mapped point, or the word 1 exactly if the product of the pairings is one.", "quantifier": "all inputs of any length, gas amounts, machine states and curve libraries", "why_tests_cant": "Any number of pairs is allowed, and each point has independent boundary cases; test vectors use few pairs.", "anchors": ["src/ethereum/osaka/vm/precompiled_contracts/bls12_381/__init__.py:bytes_to_g1", "src/ethereum/osaka/vm/precompiled_contracts/bls12_381/__init__.py:bytes_to_g2", "src/ethereum/osaka/vm/precompiled_contracts/bls12_381/bls12_381_g1.py:bls12_g1_msm", "src/ethereum/osaka/vm/precompiled_contracts/bls12_381/bls12_381_g2.py:bls12_g2_msm", "src/ethereum/osaka/vm/precompiled_contracts/bls12_381/bls12_381_pairing.py:bls12_pairing"]}
{"id": "C63", "title": "The point-evaluation precompile accepts only true evaluations of the committed polynomial", "statement": "A call to address 0x0a with a 192-byte input charges 50000 gas and returns the two constants of EIP-4844 exactly if the versioned hash is that of the commitment, z and y are below the scalar field's order, commitment and proof are valid points and the pairing equation holds; otherwise it fails with KZGProofError. If the pairing library is correct, the equation says that commitment - y = proof * (s - z) in the scalar field for the setup's secret s; so one proof opens a commitment at a point z to one value only, two proofs for different values determine 1/(s - z), and for every polynomial the quotient proof of its true value is accepted.", "quantifier": "all 192-byte inputs and all others, all polynomials over the scalar field, all libraries meeting the stated algebraic laws", "why_tests_cant": "The claim ranges over all polynomials, points and proofs of a 255-bit field.", "anchors": ["src/ethereum/crypto/kzg.py:verify_kzg_proof", "src/ethereum/crypto/kzg.py:verify_kzg_proof_impl", "src/ethereum/crypto/kzg.py:pairing_check", "src/ethereum/osaka/vm/precompiled_contracts/point_evaluation.py:point_evaluation"]}
{"id": "C64", "title": "Key recovery and P-256 verification ask the library only well-formed questions", "statement": "Public key recovery refuses every r that is not the first coordinate of a point of secp256k1 and otherwise returns what the library recovers from r, s, v. A call to ECRECOVER (address 1) charges 3000 gas and succeeds; it returns the address of the recovered key, left-padded to 32 bytes, exactly if v is 27 or 28, r and s are in [1, n) and the library recovers a key; otherwise it returns nothing. A call to P256VERIFY (address 0x100) charges 6900 gas and succeeds; it returns the word 1 exactly if the input is 160 bytes long, r and s are in [1, n), the public key is a point of P-256 with coordinates in range and the library accepts the signature. The library's exception for invalid public keys can never occur.", "quantifier": "all inputs, gas amounts, machine states and libraries", "why_tests_cant": "Which of 2^256 values of r are coordinates of points is a number-theoretic fact (Euler's criterion modulo a prime); tests try a few.", "anchors": ["src/ethereum/crypto/elliptic_curve.py:secp256k1_recover", "src/ethereum/crypto/elliptic_curve.py:secp256r1_verify", "src/ethereum/crypto/elliptic_curve.py:is_on_curve_secp256r1", "src/ethereum/osaka/vm/precompiled_contracts/ecrecover.py:ecrecover", "src/ethereum/osaka/vm/precompiled_contracts/p256verify.py:p256verify"]}
{"id": "C65", "title": "MODEXP before osaka can raise an internal error", "statement": "In the forks from byzantium to prague, MODEXP computes base^exp mod modulus at the price of EIP-198 or EIP-2565, except that a claimed base length within 96 of 2^256 raises an uncaught OverflowError, whatever the gas; with less than 2^240 gas that is the only internal error. So any account can make the specification fail in these forks.", "quantifier": "every input, gas amount and fork from byzantium to prague", "why_tests_cant": "Needs all inputs: the price formula and the absence of other errors range over three 256-bit lengths.", "anchors": ["src/ethereum/prague/vm/precompiled_contracts/modexp.py:modexp", "src/ethereum/istanbul/vm/precompiled_contracts/modexp.py:gas_cost"]}
{"id": "C66", "title": "Each fork has exactly the opcodes, precompiles and transaction types of its EIPs", "statement": "In each fork, a byte that is no opcode of the fork halts the frame with InvalidOpcode and a byte that is one means the same instruction in all later forks; a message to an address that is no precompile of the fork runs the account's code; a typed transaction is refused for its type exactly if the fork does not have that type.", "quantifier": "every byte, address and frame of every fork from frontier to osaka; every transaction type and fork since berlin", "why_tests_cant": "All bytes in all frames, all addresses.", "anchors": ["src/ethereum/osaka/vm/instructions/__init__.py:Ops", "src/ethereum/osaka/vm/precompiled_contracts/mapping.py:PRE_COMPILED_CONTRACTS", "src/ethereum/osaka/transactions.py:decode_transaction"]}
{"id": "C67", "title": "A block hash commits to the whole history", "statement": "The encoding of a header determines all its fields and the set of fields its fork has. If two histories, through whatever forks, end in blocks of the same hash, their headers agree field by field, going back as far as both reach, unless two different header encodings collide under keccak256.", "quantifier": "every pair of imported histories of any length", "why_tests_cant": "Induction over histories of any length; all headers of all forks.", "anchors": ["src/ethereum/osaka/blocks.py:Header", "src/ethereum/osaka/fork.py:validate_header", "src/ethereum/osaka/fork.py:state_transition"]}
{"id": "C68", "title": "Mining issues exactly the block rewards, through all forks", "statement": "Along any history of mined blocks, through any sequence of fork activations including the DAO fork, the total of all balances is at most what it was plus the rewards of miners and ommers, less the base fees burnt; and after the change to proof of stake at most that plus the withdrawals. The total after a block is exactly that, unless a transaction deletes an account.", "quantifier": "every state between blocks, every mined history of any length and any fork activations", "why_tests_cant": "Every program that the EVM can run in 18 forks, and histories of any length.", "anchors": ["src/ethereum/frontier/fork.py:state_transition", "src/ethereum/frontier/fork.py:pay_rewards", "src/ethereum/dao_fork/fork.py:apply_fork", "src/ethereum/paris/fork.py:apply_fork", "src/ethereum/london/fork.py:process_transaction"]}
{"id": "C69", "title": "No transaction is ever included twice, from frontier to osaka", "statement": "Along any history that is mined from any fork on, changes to proof of stake and goes on to any later fork, the transactions of one sender have increasing nonces in the order of inclusion, no transaction occurs twice, and a transaction once included is rejected ever after without changing an account. The nonce of an account without code never falls.", "quantifier": "every history of any length through any forks, every transaction in it, every later state", "why_tests_cant": "Quantifies over whole histories and all code run in them, by the rules of 18 forks.", "anchors": ["src/ethereum/frontier/fork.py:process_transaction", "src/ethereum/frontier/vm/interpreter.py:process_message_call", "src/ethereum/frontier/transactions.py:recover_sender", "src/ethereum/paris/fork.py:apply_fork"]}
{"id": "C70", "title": "The first proof-of-stake block continues the mined chain", "statement": "The first block accepted after the change to proof of stake names as parent the hash by which the proof-of-work code knows the last mined block, has the next number, a later time, the base fee computed from that block and zero difficulty; BLOCKHASH sees the same window of hashes before and after.", "quantifier": "every mined chain whose last block has a base fee, every history after the change", "why_tests_cant": "All headers and chains; the two forks have separate header classes that must encode alike.", "anchors": ["src/ethereum/paris/fork.py:apply_fork", "src/ethereum/paris/fork.py:validate_header", "src/ethereum/paris/fork.py:get_last_256_block_hashes", "src/ethereum/gray_glacier/blocks.py:Header"]}
{"id": "C71", "title": "Environment reads return what the transaction and block say", "statement": "ADDRESS, ORIGIN, CALLER, CALLVALUE, CALLDATASIZE, CODESIZE, GASPRICE, RETURNDATASIZE, the block reads, MSIZE, PC, GAS and the like charge their stated price, push exactly the value named by the message, transaction or block, and change nothing else; CALLDATALOAD, BLOBHASH and TLOAD replace their argument by the value looked up, with zeros past the end; BLOCKHASH gives the hash of one of the last 256 ancestors and zero otherwise. Too little gas, a full stack and a value over 256 bits are the only ways to fail.", "quantifier": "every such instruction, every frame, environment and fork", "why_tests_cant": "All frames, stacks, offsets and values; boundaries at the end of data and of the window of ancestors.", "anchors": ["src/ethereum/osaka/vm/instructions/environment.py", "src/ethereum/osaka/vm/instructions/block.py", "src/ethereum/osaka/vm/instructions/control_flow.py:pc", "src/ethereum/osaka/vm/instructions/memory.py:msize"]}
{"id": "C72", "title": "Memory behaves as an endless zeroed array", "statement": "MSTORE, MSTORE8, CALLDATACOPY, CODECOPY, EXTCODECOPY, RETURNDATACOPY and MCOPY change exactly the bytes of their range, to the bytes of their source (zero past its end, and RETURNDATACOPY halts there), leave every other byte as it was, grow memory to the words touched and charge for that and for the words copied; MLOAD and KECCAK256 see those bytes. An access of size zero grows nothing.", "quantifier": "every such instruction, all offsets and sizes of 256 bits, every frame and fork", "why_tests_cant": "All 256-bit offsets and sizes, overlapping copies, ranges past the end of the source.", "anchors": ["src/ethereum/osaka/vm/instructions/memory.py", "src/ethereum/osaka/vm/instructions/environment.py:calldatacopy", "src/ethereum/osaka/vm/instructions/keccak.py", "src/ethereum/osaka/vm/memory.py", "src/ethereum/osaka/vm/gas.py:calculate_gas_extend_memory"]}
{"id": "C73", "title": "Stack instructions move exactly the words they name", "statement": "PUSH0 to PUSH32 push the bytes that follow in the code as a big-endian number, zeros past its end, and skip them; DUPn copies item n; SWAPn exchanges the top with item n+1 and leaves the others; POP drops the top; JUMPDEST and STOP do nothing else. Prices are 2, 3, 3, 3, 2, 1 and 0. Underflow, a full stack and too little gas halt, and nothing else happens.", "quantifier": "every such instruction, every frame, stack and code, every fork", "why_tests_cant": "All stacks, depths, codes and positions including those past the end of the code.", "anchors": ["src/ethereum/osaka/vm/instructions/stack.py", "src/ethereum/osaka/vm/instructions/control_flow.py:stop", "src/ethereum/osaka/vm/stack.py"]}
{"id": "C74", "title": "Logs, stores and outputs are exactly what the code asked for", "statement": "LOG0 to LOG4 add one entry at the end: the running account, the topics in pop order, the bytes of memory; TSTORE and SSTORE change exactly one slot of the running account; each halts in a static frame. RETURN and REVERT give as output the bytes of memory. SELFDESTRUCT ends the frame and moves all ether of the running account to the beneficiary, changes nothing else of any account, and marks the account for deletion (since cancun only if the same transaction created it). Prices, refunds and warm slots are as the EIPs of the fork say.", "quantifier": "every such instruction, all operands, every well-formed frame and fork", "why_tests_cant": "All 256-bit offsets, sizes, keys and values, all prior contents.", "anchors": ["src/ethereum/osaka/vm/instructions/log.py:log_n", "src/ethereum/osaka/vm/instructions/storage.py", "src/ethereum/osaka/vm/instructions/system.py:return_", "src/ethereum/osaka/vm/instructions/system.py:revert", "src/ethereum/osaka/vm/instructions/system.py:selfdestruct"]}
{"id": "C75", "title": "Calls and creates send the right message and take back the right results", "statement": "CALL, CALLCODE, DELEGATECALL and STATICCALL run exactly one message, whose account, caller, value, data, code (through a delegation), static flag, depth, gas and warm sets are those of the EIPs; afterwards the frame has the flag, the whole output as return data, as much of it as fits in the output range of memory and all other bytes unchanged, and the logs, refunds, deletions and warm sets of a successful callee only. CREATE and CREATE2 likewise, with the nonce of the creator used up before the init code runs, return data only after a failure, and nothing run when refused or when the address is taken.", "quantifier": "every call and create instruction, all operands, any behaviour of the callee, every frame and fork", "why_tests_cant": "Any behaviour of the callee and all operands and overlapping ranges.", "anchors": ["src/ethereum/osaka/vm/instructions/system.py:generic_call", "src/ethereum/osaka/vm/instructions/system.py:generic_create", "src/ethereum/osaka/vm/__init__.py:incorporate_child_on_success", "src/ethereum/osaka/vm/eoa_delegation.py:access_delegation"]}
{"id": "C76", "title": "Hexadecimal strings are read as what they denote", "statement": "The conversions to bytes, to byte strings of fixed length, to addresses and to integers accept exactly the strings of hexadecimal digits (in either case, with or without 0x) of the right length or size, and yield the number or the bytes the digits denote; fixed length conversions pad on the left, hashes and roots need all their digits. Printed bytes are read back.", "quantifier": "every string", "why_tests_cant": "All strings of all lengths, upper and lower case, odd lengths and overflow.", "anchors": ["src/ethereum/utils/hexadecimal.py", "src/ethereum/osaka/utils/hexadecimal.py:hex_to_address", "src/ethereum/genesis.py:hex_or_base_10_str_to_u256"]}
{"id": "C77", "title": "The genesis block commits to exactly the configured state", "statement": "add_genesis_block succeeds exactly if every entry of the configuration is well formed. Then every address holds the account the configuration gives to it and no other account exists, every slot holds the value written to it, the total ether is the sum of the configured balances, the header carries the root of that state and the configured fields, and everything else in it is zero or the root of an empty trie. Along every chain that starts from it, through all forks and the merge, there is never more ether than that plus the rewards and withdrawals, and no transaction is included twice.", "quantifier": "every configuration, every fork, every later history", "why_tests_cant": "All configurations, including ones where two strings denote the same address, and all later histories.", "anchors": ["src/ethereum/genesis.py:add_genesis_block", "src/ethereum/genesis.py:get_genesis_configuration"]}
{"id": "C78", "title": "Importing a mined block raises no internal error", "statement": "In every proof-of-work fork, state_transition either imports a block or fails with a declared exception (an invalid block or transaction, or an undecodable transaction); the only other error is the overflow inside MODEXP since byzantium. What has to hold of the chain for this holds after genesis, is kept by every import of a block with the next number and by every fork activation (which always succeeds), and gives what is needed after the merge. The exception to it: an ommer older than london in one of the first blocks of london makes the import fail with an AttributeError.", "quantifier": "every proof-of-work fork, chain, block, transaction list and history; block numbers below 1950000000, gas limits below 2^60, base fees and difficulties below 2^256, total ether below 2^255 wei", "why_tests_cant": "All blocks an attacker may send, and all histories through all forks.", "anchors": ["src/ethereum/frontier/fork.py:state_transition", "src/ethereum/byzantium/fork.py:validate_ommers", "src/ethereum/london/fork.py:validate_header", "src/ethereum/gray_glacier/fork.py:apply_body", "src/ethereum/dao_fork/fork.py:apply_fork"]}
{"id": "C79", "title": "No empty accounts since spurious dragon", "statement": "Since spurious dragon (EIP-161), an account that exists after a transaction, a block or a history although it has nonce 0, balance 0 and no code existed like that before it: execution never leaves a new empty account behind, whatever the contracts call, create or destroy. The sender and the block producer are never empty afterwards; up to gray glacier a successful call also removes its empty target. Before spurious dragon this is false in every fork.", "quantifier": "every transaction, block and history since spurious dragon, through the merge and the later forks", "why_tests_cant": "All programs: the empty accounts come from nested calls, reverted frames, self-destructs and fee payments in any combination.", "anchors": ["src/ethereum/spurious_dragon/state.py:destroy_touched_empty_accounts", "src/ethereum/spurious_dragon/vm/__init__.py:incorporate_child_on_success", "src/ethereum/spurious_dragon/fork.py:process_transaction", "src/ethereum/paris/state.py:modify_state", "src/ethereum/osaka/fork.py:process_transaction"]}
{"id": "C80", "title": "The transition tool agrees with block import", "statement": "t8n, given the environment and the transactions of a block that the fork imports, rejects none of them, ends in the same state and reports the gas used, roots, bloom, base fee, excess blob gas, difficulty and requests hash of its header, the hash of its logs and the receipts and requests that the header commits to; values left out of the environment (base fee, excess blob gas, difficulty) are derived as header validation requires them. Conversely a block whose valid header says what t8n reports is imported, with the same state. In every fork, a transaction is rejected exactly when the rules of inclusion are broken, and the result is the same as if the rejected transactions had not been given, up to the list of rejections and the transaction root. With values in range and rewards that can be paid, the tool always finishes with a result, whatever transactions it is given, unless the precompile MODEXP overflows (from byzantium to prague). The limits: since prague the tool makes the two system calls in the other order, which is visible when the two contracts interact; the transaction root counts rejected transactions; before paris an ommer makes the tool fail.", "quantifier": "every fork, chain, block, environment description, list of transactions and state", "why_tests_cant": "Agreement of two drivers over all blocks, and the absence of leftovers of failed transactions for all lists of good and bad transactions.", "anchors": ["src/ethereum_spec_tools/evm_tools/t8n/__init__.py:T8N._run_blockchain_test", "src/ethereum_spec_tools/evm_tools/t8n/env.py:Env", "src/ethereum_spec_tools/evm_tools/t8n/t8n_types.py:Result.update", "src/ethereum/osaka/fork.py:apply_body", "src/ethereum/frontier/fork.py:state_transition"]}
{"id": "C81", "title": "Nonces fit into 64 bits", "statement": "If the nonces of the genesis file are below 2^64, every account of every chain grown from it, mined or proof-of-stake, through all changes of fork, has a nonce below 2^64: no transaction, creation, delegation, block reward, withdrawal or fork change takes one to 2^64. An account whose nonce is 2^64 - 1 sends no further transaction. With it, the state roots of whole histories commit to their contents.", "quantifier": "every genesis file, history of blocks of every fork, transaction, message and account", "why_tests_cant": "A nonce near the limit cannot be reached by running transactions; the bound needs an induction over histories and over everything a frame may do.", "anchors": ["src/ethereum/osaka/transactions.py:validate_transaction", "src/ethereum/osaka/vm/instructions/system.py:generic_create", "src/ethereum/osaka/vm/interpreter.py:process_create_message", "src/ethereum/osaka/vm/eoa_delegation.py:set_delegation", "src/ethereum/osaka/state.py:increment_nonce"]}
{"id": "C82", "title": "Nobody but its owner can take anything from an account", "statement": "If an account has been used (it has sent a transaction, or it has code) and its code contains no instruction that writes storage, calls, creates or destroys - in particular if it has no code -, then as long as no included transaction is signed by it and no EIP-7702 authorization is, its balance never falls and its nonce, code and storage do not change: whatever contracts others deploy and call, whatever blocks are mined or imported, with rewards, withdrawals and system calls, through all forks. The one exception is the DAO fork, which empties the listed accounts. With code that can act, the claim is false.", "quantifier": "every account, transaction, contract code, block, fork and history", "why_tests_cant": "It is about all code that others can deploy and call, at any depth, and about all histories; a test runs a few contracts.", "anchors": ["src/ethereum/osaka/fork.py:process_transaction", "src/ethereum/osaka/vm/instructions/system.py", "src/ethereum/osaka/vm/interpreter.py:process_message", "src/ethereum/osaka/vm/eoa_delegation.py:set_delegation", "src/ethereum/frontier/fork.py:pay_rewards", "src/ethereum/dao_fork/dao.py:apply_dao"]}
{"id": "C83", "title": "Code sees the block it is in", "statement": "The transactions of a block are executed in an environment in which COINBASE, TIMESTAMP, NUMBER, GASLIMIT, CHAINID, BASEFEE, PREVRANDAO (DIFFICULTY before the merge) and BLOBBASEFEE report exactly what the header of that block says, and the system contracts receive the beacon root and the parent hash of the header. In a mined chain BLOCKHASH gives the hashes of the up to 256 blocks before, and 0 for every number outside that window.", "quantifier": "every imported block of every fork, every chain and mined history, every frame", "why_tests_cant": "It relates every header to every execution in its block, and the window of hashes to every history, across the limit of 255 retained blocks.", "anchors": ["src/ethereum/osaka/fork.py:state_transition", "src/ethereum/frontier/fork.py:apply_body", "src/ethereum/frontier/fork.py:get_last_256_block_hashes", "src/ethereum/osaka/vm/instructions/block.py"]}
{"id": "C84", "title": "What the transition tool writes, it reads back", "statement": "The state that `t8n` prints as `alloc` and reads as `input.alloc`: reading succeeds exactly if every member denotes an account (and, with proof of stake, none is empty), and yields exactly the accounts and slots that are given. Printing any state without orphaned storage (and, with proof of stake, without empty accounts) and reading it again, in the same fork, gives a state with the same accounts, the same storage and the same root; this covers every state a chain reaches. The DAO fork is an exception: each reading makes the irregular state change again.", "quantifier": "all JSON objects of accounts, all states, all forks, all histories of blocks", "why_tests_cant": "the round trip must hold for every state, and the conversions of numbers and bytes for every value", "anchors": ["src/ethereum_spec_tools/evm_tools/t8n/t8n_types.py:Alloc", "src/ethereum_spec_tools/evm_tools/loaders/fixture_loader.py:Load.json_to_state", "src/ethereum/utils/hexadecimal.py:hex_to_uint"]}
{"id": "C85", "title": "What happens to a state depends on what can be read from it alone", "statement": "Take two states between two transactions, under the same rules, from which the same accounts and the same storage are read, however they were built and stored. Every message, transaction and block has the same outcome on both: the same outputs, receipts and gas or the same exception, and results from which the same is read again. So do whole histories, mined or not, and runs of `t8n`, including one that starts from a state that was printed and read back. Together with C35: a state that was obtained elsewhere and has the right root can take the place of the one computed block by block. State roots only agree if no two keys of the state have the same hash.", "quantifier": "all pairs of states that read alike, all messages, transactions, blocks and histories, all forks", "why_tests_cant": "a dependence on the order of insertion, on leftovers of rolled back changes or on empty tries would only show for particular histories of a state; the claim is about every pair of representations", "anchors": ["src/ethereum/osaka/state.py:State", "src/ethereum/osaka/trie.py:Trie", "src/ethereum/osaka/vm/interpreter.py:process_message_call", "src/ethereum/osaka/fork.py:state_transition", "src/ethereum/osaka/fork.py:process_transaction", "src/ethereum/frontier/fork.py:state_transition", "src/ethereum_spec_tools/evm_tools/t8n/__init__.py:T8N.run_blockchain_test"]}
{"id": "C86", "title": "What a block asks of the consensus layer, and that its header commits to it", "statement": "From prague on, the requests of an accepted block are, in this order: all its deposits (the well-formed deposit events of its receipts, in order, under kind 0), what the withdrawal contract answers (kind 1) and what the consolidation contract answers (kind 2). A kind without data is left out. Both contracts are called by the block itself after the transactions and the withdrawals, one after the other, by the system address, with 30 million gas and without data or ether; both must have code, and neither call may fail. The header carries the hash of the hashes of the requests, and this commitment determines the deposits, the withdrawals and the consolidations, unless the hash function collides.", "quantifier": "every chain, every imported block since prague, whatever the code of the contracts is and whatever its transactions log", "why_tests_cant": "the requests depend on the logs of arbitrary transactions and on the answers of contracts run in arbitrary states; that the commitment separates requests is a claim about all pairs of request lists", "anchors": ["src/ethereum/osaka/fork.py:process_general_purpose_requests", "src/ethereum/osaka/fork.py:process_checked_system_transaction", "src/ethereum/osaka/fork.py:process_system_transaction", "src/ethereum/osaka/requests.py:parse_deposit_requests", "src/ethereum/osaka/requests.py:compute_requests_hash", "src/ethereum/osaka/fork.py:state_transition"]}
{"id": "C87", "title": "Contract addresses: where a contract is created, and that no other is created there", "statement": "A creation transaction runs its data at the last 20 bytes of the hash of the RLP encoding of its sender and nonce, CREATE runs init code at that of its account and its nonce, and CREATE2 at the last 20 bytes of the hash of 0xff, its account, the salt and the hash of the init code; at no other address. Unless the hashes collide in their last 20 bytes, contracts with another creator, nonce, salt or init code have another address, and CREATE never meets an address of CREATE2. No two creation transactions in the whole history from frontier to osaka create at the same address.", "quantifier": "every transaction in every state, every CREATE and CREATE2 in every frame, every pair of origins, every history of mined and imported blocks", "why_tests_cant": "that addresses of all creators, nonces, salts and init codes are apart is a claim about all pairs of them, and the claim about histories ranges over unboundedly many blocks", "anchors": ["src/ethereum/osaka/utils/address.py:compute_contract_address", "src/ethereum/osaka/utils/address.py:compute_create2_contract_address", "src/ethereum/osaka/utils/message.py:prepare_message", "src/ethereum/osaka/vm/instructions/system.py:create", "src/ethereum/osaka/vm/instructions/system.py:create2", "src/ethereum/osaka/vm/instructions/system.py:generic_create"]}
{"id": "C88", "title": "The block builder puts out the block that its input describes", "statement": "`evm b11r`: it succeeds exactly if the header object, the transactions, the ommers and the withdrawals it is given are well formed, and then it puts out the RLP encoding of the block with exactly these contents and the hash of its header, each value in its place. For a block of any fork up to shanghai, however it is written, this is the encoding and the hash that the chain uses, and every such block can be written. No input makes it put out a block of cancun or later.", "quantifier": "every input of the tool, every block of every fork", "why_tests_cant": "All headers and bodies and all ways to write them.", "anchors": ["src/ethereum_spec_tools/evm_tools/b11r/__init__.py:B11R", "src/ethereum_spec_tools/evm_tools/b11r/b11r_types.py:Body", "src/ethereum_spec_tools/evm_tools/b11r/b11r_types.py:Header", "src/ethereum_spec_tools/evm_tools/utils.py:parse_hex_or_int"]}
{"id": "C89", "title": "The transition tool reads and signs the transactions that its input describes", "statement": "`evm t8n` with transactions in JSON: a transaction is read exactly if its members are well formed and the fork knows its type, and then it has exactly the values written, on chain 1. If it has a secret key and no signature, it is signed with the key: the signature is of the message that the fork prescribes for the type (for a legacy transaction with the chain unless `protected` is false or the fork is older), and the sender that the chain recovers is the account of the key. Every transaction for chain 1 can be written. The others keep their places in the input. The body put out holds the legacy transactions, but loses all others.", "quantifier": "every JSON transaction, every key, every fork, every signature scheme whose signatures can be recovered", "why_tests_cant": "All transactions of five types, all ways to write them and all keys, in 18 forks.", "anchors": ["src/ethereum_spec_tools/evm_tools/t8n/t8n_types.py:Txs.parse_json_tx", "src/ethereum_spec_tools/evm_tools/t8n/t8n_types.py:Txs.sign_transaction", "src/ethereum_spec_tools/evm_tools/t8n/t8n_types.py:Txs.parse_rlp_tx", "src/ethereum_spec_tools/evm_tools/loaders/transaction_loader.py:TransactionLoad", "src/ethereum_spec_tools/evm_tools/utils.py:secp256k1_sign", "src/ethereum/osaka/transactions.py:recover_sender"]}
{"id": "C90", "title": "Blocks survive the wire, and a synchronising node gets them in order", "statement": "`rlp.decode_to(Block, rlp.encode(block))` is the block, in every fork; whatever a fork decodes is a block of that fork, and it decodes the blocks of another fork exactly if their headers have the same number of fields and it knows their transactions. The downloader of `ethereum-spec-sync`, given right answers with the replies in any order, puts the blocks of the chain into its queue in order and without gaps, each read by the fork in force at its number and time, and stops at the end of the chain; whatever it is answered, it accepts exactly one result per requested number. It starts at the right fork if at most one fork begins between its first block and the block persisted last. With the standard endpoint this only holds for replies in order.", "quantifier": "every fork, every block, every chain and list of forks, every starting point, every order of the replies, any number of rounds", "why_tests_cant": "All blocks of 18 forks, all chains with forks at any place, and all orders in which a provider may answer.", "anchors": ["src/ethereum/osaka/blocks.py:Block", "src/ethereum/osaka/blocks.py:Header", "src/ethereum/frontier/blocks.py:Block", "src/ethereum_spec_tools/sync.py:BlockDownloader.fetch_blocks_debug", "src/ethereum_spec_tools/sync.py:BlockDownloader.fetch_blocks_eth", "src/ethereum_spec_tools/sync.py:BlockDownloader.download", "src/ethereum_spec_tools/sync.py:BlockDownloader.__init__"]}
{"id": "C91", "title": "A synchronising node can be stopped at any time", "statement": "Whatever the history of blocks, commits, stops (also by crashes and exceptions, at any point) and starts, the database of `ethereum-spec-sync` is empty or holds exactly the state after the first n valid blocks of the chain together with the number and time of block n. What was committed is never lost; a node started again has the fork, the last blocks, the state and the chain id of one that never stopped, so nodes with different histories agree; none gets stuck before the first invalid block and none gets past it; each fork is applied to the chain exactly once. This holds if the first commit comes after 255 blocks or more: before that the genesis block is missing from the chain after a start.", "quantifier": "every chain with any forks at any places, every schedule of commits, every sequence of stops and starts at every point of the loop", "why_tests_cant": "A stop can come between any two of the steps of any of millions of blocks, any number of times.", "anchors": ["src/ethereum_spec_tools/sync.py:Sync.__init__", "src/ethereum_spec_tools/sync.py:Sync.persist", "src/ethereum_spec_tools/sync.py:Sync.fetch_chain_id", "src/ethereum_spec_tools/sync.py:Sync.process_blocks", "src/ethereum_spec_tools/sync.py:Sync.process_block", "src/ethereum_spec_tools/sync.py:ForkTracking", "src/ethereum/dao_fork/fork.py:apply_fork", "src/ethereum/osaka/fork.py:state_transition"]}
{"id": "C92", "title": "The SHA-256, RIPEMD-160 and identity precompiles charge and return exactly what they should", "statement": "In every fork a call to address 2, 3 or 4 with any input costs 60+12, 600+120 or 15+3 gas per started word of 32 bytes, returns the SHA-256 hash, the RIPEMD-160 hash after twelve zero bytes, or the input itself, whatever code the account has, and changes nothing else; with less gas the call fails, all its gas is gone and nothing is returned.", "quantifier": "all forks, inputs of any length, gas amounts, machine states and callers", "why_tests_cant": "Inputs of every length and every gas amount around the price, in eighteen forks.", "anchors": ["src/ethereum/osaka/vm/precompiled_contracts/sha256.py:sha256", "src/ethereum/osaka/vm/precompiled_contracts/ripemd160.py:ripemd160", "src/ethereum/osaka/vm/precompiled_contracts/identity.py:identity", "src/ethereum/osaka/vm/interpreter.py:execute_code"]}
{"id": "C93", "title": "What a payment and what a failed transaction do, to the last wei", "statement": "An included transaction without authorizations whose recipient has no code and is no precompiled contract, or delegates to an account without code or to a precompiled contract (which is not run then), succeeds, is charged exactly its intrinsic gas (or the floor of EIP-7623, if that is more), emits no log, and changes the state in nothing but this: the value moves from the sender to the recipient, the sender pays the price of the gas and the fee for its blobs, the producer of the block gets the tip, and the nonce of the sender grows by one; also if these accounts coincide. A transaction without authorizations whose code ends with an error changes nothing but nonce and fees, and leaves no log.", "quantifier": "all forks, block states between transactions, blocks, transactions of every type, senders, recipients and producers, equal or not", "why_tests_cant": "Every account and slot of every state is claimed to be unchanged, for every choice of the accounts involved and every code that fails.", "anchors": ["src/ethereum/osaka/fork.py:process_transaction", "src/ethereum/osaka/vm/interpreter.py:process_message_call", "src/ethereum/osaka/vm/interpreter.py:process_message", "src/ethereum/osaka/state.py:move_ether", "src/ethereum/osaka/utils/message.py:prepare_message"]}
{"id": "C94", "title": "The proof-of-work function is Ethash", "statement": "For every block number, header hash, nonce and hash function: generate_cache, generate_dataset_item, generate_dataset and hashimoto_light return exactly what the recurrences of Ethash (Yellow Paper, appendix J) define: the chain of hashes and three rounds of replacements for the cache, 256 parents for an item, 64 accesses to pages of two items for the mix, folded four words at a time into the digest, and the last hash. A header's seal is accepted exactly when its mix digest is that digest and the result times the difficulty is at most 2^256.", "quantifier": "all block numbers below 1950000000, all header hashes, nonces, item numbers below 2^512 and hash functions", "why_tests_cant": "Each nonce walks a different path through gigabytes of data; a slip in an order or an index on a rarely chosen path shows only for some nonces.", "anchors": ["src/ethereum/ethash.py:generate_cache", "src/ethereum/ethash.py:generate_dataset_item", "src/ethereum/ethash.py:hashimoto", "src/ethereum/ethash.py:hashimoto_light", "src/ethereum/frontier/fork.py:validate_proof_of_work"]}
{"id": "C95", "title": "Roots are the Merkle Patricia roots of the Yellow Paper", "statement": "The root of a trie is the hash of the node that appendix D of the Yellow Paper defines for the set of its pairs: a leaf for one pair, an extension with the longest common continuation or a branch for several, with hex-prefix keys, and each node embedded if its encoding has fewer than 32 bytes and hashed otherwise. There is at most one such root. The storage root of an account is the root of its slots other than zero, the state root that of all accounts with nonce, balance, storage root and code hash, and the header of every block that is imported or mined holds these roots of its transactions, receipts and withdrawals in order and of the state after it.", "quantifier": "all sets of entries with distinct keys and non-empty values, all states, all blocks that are accepted, in every fork; hash functions that do not collide on the keys", "why_tests_cant": "The shape of a trie depends on how all of its keys overlap; tests compare a few fixed roots.", "anchors": ["src/ethereum/osaka/trie.py:root", "src/ethereum/osaka/trie.py:patricialize", "src/ethereum/osaka/trie.py:encode_internal_node", "src/ethereum/osaka/trie.py:nibble_list_to_compact", "src/ethereum/osaka/state.py:state_root", "src/ethereum/osaka/state.py:storage_root", "src/ethereum/osaka/fork_types.py:encode_account", "src/ethereum/osaka/fork.py:state_transition", "src/ethereum/frontier/fork.py:state_transition"]}
{"id": "C96", "title": "The work of a message is proportional to its gas", "statement": "Processing a message executes, in its frame and all frames called from it together, at most two instructions per unit of gas and one more; a frame that ends or reverts with gas left has executed at most two per unit of gas it spent, and one more. No code, however it calls itself or others, can make a node do more.", "quantifier": "all messages, code, states, environments and frames in the middle of their execution, in every fork", "why_tests_cant": "The number of instructions depends on the whole tree of calls, which grows with the gas; tests run a few programs.", "anchors": ["src/ethereum/osaka/vm/interpreter.py:execute_code", "src/ethereum/osaka/vm/interpreter.py:process_message_call", "src/ethereum/osaka/vm/instructions/system.py:generic_call", "src/ethereum/osaka/vm/instructions/system.py:generic_create", "src/ethereum/osaka/vm/gas.py:calculate_message_call_gas", "src/ethereum/frontier/vm/gas.py:calculate_message_call_gas"]}
{"id": "C97", "title": "Blocks described by a standard JSON-RPC endpoint are read as they are", "statement": "From the JSON description of a block of a fork before cancun, as a standard endpoint gives it, the synchronisation tool makes exactly the block that it describes: every field of the header in its place, with the fields that headers of the fork have, the transactions in their types, the withdrawals and the ommers; what describes no block of the fork is refused. Every block can be described. Ommers come to their blocks and places in whatever order the endpoint answers. With answers about blocks in the order of the requests the tool gets the next blocks of the chain.", "quantifier": "all JSON objects with string members, forks, blocks, chains, numbers of requests and orders of the replies about ommers", "why_tests_cant": "Descriptions and chains are unbounded; the code is only run against a live endpoint, with the blocks that happen to be there.", "anchors": ["src/ethereum_spec_tools/sync.py:BlockDownloader.load_transaction", "src/ethereum_spec_tools/sync.py:BlockDownloader.make_header", "src/ethereum_spec_tools/sync.py:BlockDownloader.make_block", "src/ethereum_spec_tools/sync.py:BlockDownloader.fetch_ommers", "src/ethereum_spec_tools/sync.py:BlockDownloader.fetch_blocks_eth"]}
{"id": "C98", "title": "The transition tool reads exactly the environment that its JSON input describes", "statement": "From the JSON object `env` the transition tool makes, in every fork, exactly the environment that the object describes: numbers in decimal or hexadecimal (the keys of the block hashes in hexadecimal only), absent members as absent or as the documented default, members that the fork does not use unread, the last hash given for a block number, the random value padded to 32 bytes; an object that describes no environment is refused. Every environment can be written, and what is read back makes the same block environment. So every block that can be imported can be handed to the tool in JSON, and the tool accepts its transactions, arrives at its state and reports what its header says.", "quantifier": "all JSON objects with string and integer members, forks, environments, chains and blocks", "why_tests_cant": "Objects are unbounded and every member may be written in several ways, be absent or be meant for another fork; tests have a few of the combinations.", "anchors": ["src/ethereum_spec_tools/evm_tools/t8n/env.py:Env", "src/ethereum_spec_tools/evm_tools/t8n/env.py:Env.read_block_hashes", "src/ethereum_spec_tools/evm_tools/t8n/env.py:Env.read_randao", "src/ethereum_spec_tools/evm_tools/t8n/env.py:Env.read_ommers", "src/ethereum_spec_tools/evm_tools/utils.py:parse_hex_or_int"]}
{"id": "C99", "title": "The JSON output of the transition tool says the result, and the block can be built from it", "statement": "The JSON object `result` that the transition tool puts out says the result member by member, and determines it: two results that the same object says agree in everything but the logs of receipts, except that a base fee or difficulty of 0 is put out like none. For every block that can be imported, the tool, given the block's environment in JSON and its transactions, puts out the roots, bloom, gas and fees of the block's header and the receipts of all its transactions in order, with their hashes. Before cancun the block builder makes exactly this block and its hash from the output `result` and `body` and the header members that the tool does not put out.", "quantifier": "all results, chains and blocks that can be imported or mined (without ommers), environments that describe them", "why_tests_cant": "Results, blocks and histories are unbounded, and the statement ties two tools and the import together for all of them; tests compare a few outputs with recorded files.", "anchors": ["src/ethereum_spec_tools/evm_tools/t8n/t8n_types.py:Result.to_json", "src/ethereum_spec_tools/evm_tools/t8n/t8n_types.py:Result.json_encode_receipts", "src/ethereum_spec_tools/evm_tools/t8n/t8n_types.py:Result.get_receipts_from_output", "src/ethereum_spec_tools/evm_tools/t8n/__init__.py:T8N.run", "src/ethereum_spec_tools/evm_tools/b11r/__init__.py:B11R.build_block"]}
{"id": "C100", "title": "State tests are selected, run and judged as the file says", "statement": "The tools run the fork that a name stands for in the block with the given number (the old one before block 5 of a transition, the new one from it on) and refuse every other name. A file of state tests has one case for each post-state of each fork of each test; a case runs the transaction that its indexes choose from the lists of data, access lists, gas limits and values, on the state and in the environment of its test, where the only block hash is that of block 0. The root it reports is that of the state the transaction leaves, if it can be read and included, and otherwise that of the state before; the case passes exactly if this is the expected root. There is a verdict for every case with a known name, in the order of the file, exactly if all of them can be run; a case that says what is needed, with values in range, can be run, unless the precompile MODEXP overflows in its transaction (from byzantium to prague). The limit: a name in other letters is selected but then not found, and the whole file is left without a report.", "quantifier": "all names, block numbers, files of tests, transactions and states", "why_tests_cant": "Files, lists, names and states are unbounded; the tool is itself what judges tests, so that a wrong selection or a wrong verdict shows in no test.", "anchors": ["src/ethereum_spec_tools/evm_tools/statetest/__init__.py:read_test_cases", "src/ethereum_spec_tools/evm_tools/statetest/__init__.py:run_test_case", "src/ethereum_spec_tools/evm_tools/statetest/__init__.py:StateTest.run_one", "src/ethereum_spec_tools/evm_tools/utils.py:get_module_name", "src/ethereum_spec_tools/evm_tools/utils.py:get_supported_forks", "src/ethereum_spec_tools/evm_tools/t8n/__init__.py:T8N.run_state_test"]}
{"id": "C101", "title": "The import lint keeps forks apart", "statement": "ethereum-spec-lint's import check reports, for every file of every fork, exactly the import statements, at any depth, whose module belongs to a fork other than the one just before, and says of each whether it is from the fork itself, a later one or an older one; it passes exactly if there are none. An import statement counts with its first name or its module. The limits: it does not see further names of an import statement, names imported from the package ethereum itself, or relative imports that leave the fork.", "quantifier": "all lists of forks with distinct names, syntax trees and imports", "why_tests_cant": "Syntax trees and sets of forks are unbounded, and a missed import shows in no test of the forks.", "anchors": ["src/ethereum_spec_tools/lint/lints/import_hygiene.py:ImportHygiene.check_import", "src/ethereum_spec_tools/lint/lints/import_hygiene.py:_Visitor", "src/ethereum_spec_tools/lint/__init__.py:Linter.run"]}
{"id": "C102", "title": "The glacier lint notices every change but those of texts", "statement": "ethereum-spec-lint compares the syntax trees of a glacier fork with those of the fork before it. Unchanged code is never reported; two trees are found equal in both directions exactly if they are the same up to the contents of text statements and to Nones at the end of lists. For every file that both forks have, the report lists exactly the items, other than the named exceptions, that were added, deleted or changed, where the delay of the difficulty bomb has to be the one of the fork. For a glacier fork and the DAO fork the lint as a whole reports these items and the files that were added or deleted, other than the table of the DAO; for other forks nothing. The limits: an expression statement of any kind may take the place of a text statement without a report, and for the DAO fork a delay would end the lint with an error.", "quantifier": "all syntax trees in which nodes of a kind have the same number of fields, all sets of items, forks and files", "why_tests_cant": "Syntax trees and files are unbounded, and a change that is not noticed shows in no test of the lint.", "anchors": ["src/ethereum_spec_tools/lint/__init__.py:compare_ast", "src/ethereum_spec_tools/lint/lints/glacier_forks_hygiene.py:GlacierForksHygiene.compare", "src/ethereum_spec_tools/lint/lints/glacier_forks_hygiene.py:EXCEPTIONAL_DIFFS", "src/ethereum_spec_tools/lint/lints/glacier_forks_hygiene.py:GlacierForksHygiene.lint", "src/ethereum_spec_tools/lint/lints/glacier_forks_hygiene.py:_Visitor"]}
{"id": "C103", "title": "The patch lint keeps definitions in their order", "statement": "For every file of a fork that the fork before it has as well, ethereum-spec-lint's check of the order of definitions reports exactly the names that are overtaken: some name that followed them in the fork before now comes before them. Names are reported in the order of the file and only once, and nothing is reported exactly if any two names that both forks have are in the same order in both. Nothing is reported for the first fork and for new files. The names are the functions, classes and targets of assignments of the file in their order, with the classes around them; a file that defines a name twice ends the check with an error instead of a report.", "quantifier": "all syntax trees, all lists of distinct names, all files and forks", "why_tests_cant": "Lists of definitions are unbounded, and the check keeps only the greatest position so far; that this is enough to find every exchange needs an argument about all orders.", "anchors": ["src/ethereum_spec_tools/lint/lints/patch_hygiene.py:PatchHygiene.lint", "src/ethereum_spec_tools/lint/lints/patch_hygiene.py:PatchHygiene.compare", "src/ethereum_spec_tools/lint/lints/patch_hygiene.py:_Visitor"]}
