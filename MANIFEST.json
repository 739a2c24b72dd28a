{
 "claims": [
  {
   "property": "C01",
   "status": "proved",
   "theorems": [
    "Verif.Props.C01_rollback_restores",
    "Verif.Props.C01_rollback_forgotten"
   ],
   "note": ""
  },
  {
   "property": "C02",
   "status": "proved",
   "theorems": [
    "Verif.Props.C02_commit_transparent"
   ],
   "note": ""
  },
  {
   "property": "C03",
   "status": "proved",
   "theorems": [
    "Verif.Props.C03_reachable_wf",
    "Verif.Props.C03_account_map",
    "Verif.Props.C03_storage_map",
    "Verif.Props.C03_has_storage_iff",
    "Verif.Props.C03_transient_map",
    "Verif.Props.C03_destroy_storage",
    "Verif.Props.C03_destroy_account"
   ],
   "note": ""
  },
  {
   "property": "C04",
   "status": "proved",
   "theorems": [
    "Verif.Props.C04_original_storage"
   ],
   "note": ""
  },
  {
   "property": "C05",
   "status": "proved",
   "theorems": [
    "Verif.Props.C05_modify_state",
    "Verif.Props.C05_no_empty_accounts",
    "Verif.Props.C05_chain"
   ],
   "note": ""
  },
  {
   "property": "C06",
   "status": "proved",
   "theorems": [
    "Verif.Props.C06_solves_recursion",
    "Verif.Props.C06_unique",
    "Verif.Props.C06_frame_bound",
    "Verif.Props.C06_message_bound",
    "Verif.Props.C06_message_terminates"
   ],
   "note": ""
  },
  {
   "property": "C07",
   "status": "proved",
   "theorems": [
    "Verif.Props.C07_instruction",
    "Verif.Props.C07_instruction_raises",
    "Verif.Props.C07_frame",
    "Verif.Props.C07_message",
    "Verif.Props.C07_create_message",
    "Verif.Props.C07_message_call"
   ],
   "note": ""
  },
  {
   "property": "C08",
   "status": "proved",
   "theorems": [
    "Verif.Props.C08_call_unpayable",
    "Verif.Props.C08_call_sends",
    "Verif.Props.C08_forwarded_bound",
    "Verif.Props.C08_call_accounting",
    "Verif.Props.C08_create_unpayable",
    "Verif.Props.C08_create_sends",
    "Verif.Props.C08_create_accounting"
   ],
   "note": ""
  },
  {
   "property": "C09",
   "status": "proved",
   "theorems": [
    "Verif.Props.C09_frames_good",
    "Verif.Props.C09_message",
    "Verif.Props.C09_create_message",
    "Verif.Props.C09_transaction",
    "Verif.Props.C09_call",
    "Verif.Props.C09_create"
   ],
   "note": ""
  },
  {
   "property": "C10",
   "status": "proved",
   "theorems": [
    "Verif.Props.C10_instruction",
    "Verif.Props.C10_frame",
    "Verif.Props.C10_message",
    "Verif.Props.C10_staticcall",
    "Verif.Props.C10_inherited"
   ],
   "note": ""
  },
  {
   "property": "C11",
   "status": "proved",
   "theorems": [
    "Verif.Props.C11_instruction",
    "Verif.Props.C11_message",
    "Verif.Props.C11_create_message",
    "Verif.Props.C11_transaction",
    "Verif.Props.C11_any_message",
    "Verif.Props.C11_any_create_message",
    "Verif.Props.C11_any_transaction"
   ],
   "note": ""
  },
  {
   "property": "C12",
   "status": "proved",
   "theorems": [
    "Verif.Props.C12_limits_hold",
    "Verif.Props.C12_limits_hold_message",
    "Verif.Props.C12_stack_effect",
    "Verif.Props.C12_underflow_halts",
    "Verif.Props.C12_overflow_ends",
    "Verif.Props.C12_decoded"
   ],
   "note": ""
  },
  {
   "property": "C13",
   "status": "proved",
   "theorems": [
    "Verif.Props.C13_sends",
    "Verif.Props.C13_depth_error",
    "Verif.Props.C13_call_at_limit",
    "Verif.Props.C13_create_at_limit"
   ],
   "note": ""
  },
  {
   "property": "C14",
   "status": "proved",
   "theorems": [
    "Verif.Props.C14_destinations",
    "Verif.Props.C14_jump",
    "Verif.Props.C14_jumpi",
    "Verif.Props.C14_at_instruction"
   ],
   "note": ""
  },
  {
   "property": "C15",
   "status": "proved",
   "theorems": [
    "Verif.Props.C15_size",
    "Verif.Props.C15_cost",
    "Verif.Props.C15_path_independent",
    "Verif.Props.C15_depends_on_final_size",
    "Verif.Props.C15_free",
    "Verif.Props.C15_monotone"
   ],
   "note": ""
  },
  {
   "property": "C16",
   "status": "proved",
   "theorems": [
    "Verif.Props.C16_unary",
    "Verif.Props.C16_binary",
    "Verif.Props.C16_ternary",
    "Verif.Props.C16_opcodes"
   ],
   "note": ""
  },
  {
   "property": "C17",
   "status": "proved",
   "theorems": [
    "Verif.Props.C17_touched",
    "Verif.Props.C17_stays_warm",
    "Verif.Props.C17_cold_once",
    "Verif.Props.C17_callee",
    "Verif.Props.C17_balance",
    "Verif.Props.C17_extcodehash",
    "Verif.Props.C17_extcodesize",
    "Verif.Props.C17_extcodecopy",
    "Verif.Props.C17_sload",
    "Verif.Props.C17_sstore",
    "Verif.Props.C17_selfdestruct"
   ],
   "note": ""
  },
  {
   "property": "C18",
   "status": "proved",
   "theorems": [
    "Verif.Props.C18_error_kinds",
    "Verif.Props.C18_halt",
    "Verif.Props.C18_create_halt",
    "Verif.Props.C18_revert",
    "Verif.Props.C18_create_revert"
   ],
   "note": ""
  },
  {
   "property": "C19",
   "status": "proved",
   "theorems": [
    "Verif.Props.C19_call",
    "Verif.Props.C19_create",
    "Verif.Props.C19_conversion"
   ],
   "note": ""
  },
  {
   "property": "C20",
   "status": "proved",
   "theorems": [
    "Verif.Props.C20_message",
    "Verif.Props.C20_message_total",
    "Verif.Props.C20_call",
    "Verif.Props.C20_create"
   ],
   "note": ""
  },
  {
   "property": "C21",
   "status": "proved",
   "theorems": [
    "Verif.Props.C21_any_transaction",
    "Verif.Props.C21_any_codes",
    "Verif.Props.C21_deploy",
    "Verif.Props.C21_create",
    "Verif.Props.C21_transaction",
    "Verif.Props.C21_codes"
   ],
   "note": ""
  },
  {
   "property": "C22",
   "status": "proved",
   "theorems": [
    "Verif.Props.C22_any_senders",
    "Verif.Props.C22_any_transaction",
    "Verif.Props.C22_selfdestruct",
    "Verif.Props.C22_transaction"
   ],
   "note": ""
  },
  {
   "property": "C23",
   "status": "proved",
   "theorems": [
    "Verif.Props.C23_message",
    "Verif.Props.C23_create_message",
    "Verif.Props.C23_execution",
    "Verif.Props.C23_transaction",
    "Verif.Props.C23_decode",
    "Verif.Props.C23_block",
    "Verif.Props.C23_chain",
    "Verif.Props.C23_order",
    "Verif.Props.C23_no_replay",
    "Verif.Props.C23_rejected"
   ],
   "note": ""
  },
  {
   "property": "C24",
   "status": "proved",
   "theorems": [
    "Verif.Props.C24_any_supply",
    "Verif.Props.C24_fees",
    "Verif.Props.C24_charge",
    "Verif.Props.C24_supply",
    "Verif.Props.C24_idle"
   ],
   "note": ""
  },
  {
   "property": "C25",
   "status": "proved",
   "theorems": [
    "Verif.Props.C25_gas"
   ],
   "note": ""
  },
  {
   "property": "C26",
   "status": "proved",
   "theorems": [
    "Verif.Props.C26_rejected",
    "Verif.Props.C26_rejected_always",
    "Verif.Props.C26_included",
    "Verif.Props.C26_included_iff",
    "Verif.Props.C26_blob_overflow",
    "Verif.Props.C26_import",
    "Verif.Props.C26_history"
   ],
   "note": ""
  },
  {
   "property": "C27",
   "status": "proved",
   "theorems": [
    "Verif.Props.C27_limits",
    "Verif.Props.C27_receipts"
   ],
   "note": ""
  },
  {
   "property": "C28",
   "status": "proved",
   "theorems": [
    "Verif.C28_baseFee",
    "Verif.C28_rise_can_exceed",
    "Verif.C28_may_not_fall",
    "Verif.C28_refused"
   ],
   "note": "C28_rise_can_exceed and C28_may_not_fall are the counterexamples to the simpler claims."
  },
  {
   "property": "C29",
   "status": "proved",
   "theorems": [
    "Verif.C29_accepts_iff",
    "Verif.C29_sequence",
    "Verif.C29_chain"
   ],
   "note": ""
  },
  {
   "property": "C30",
   "status": "proved",
   "theorems": [
    "Verif.C30_accepts_iff",
    "Verif.C30_refuses",
    "Verif.C30_sound",
    "Verif.C30_empty_chain",
    "Verif.C30_history"
   ],
   "note": ""
  },
  {
   "property": "C31",
   "status": "proved",
   "theorems": [
    "Verif.C31_retention",
    "Verif.C31_blockhash",
    "Verif.C31_short_history"
   ],
   "note": ""
  },
  {
   "property": "C32",
   "status": "proved",
   "theorems": [
    "Verif.C32_exponential",
    "Verif.C32_fuel",
    "Verif.C32_lower_bound_monotone",
    "Verif.C32_price",
    "Verif.C32_price_exact",
    "Verif.C32_excess_rule",
    "Verif.C32_excess_bounds"
   ],
   "note": ""
  },
  {
   "property": "C33",
   "status": "proved",
   "theorems": [
    "Verif.C33_bits",
    "Verif.C33_append",
    "Verif.C33_order",
    "Verif.C33_bytes"
   ],
   "note": ""
  },
  {
   "property": "C34",
   "status": "proved",
   "theorems": [
    "Verif.Props.C34_fuel",
    "Verif.Props.C34_root",
    "Verif.Props.C34_history",
    "Verif.Props.C34_state",
    "Verif.Props.C34_chain",
    "Verif.Props.C34_whole"
   ],
   "note": "Secured tries: the hypothesis that no two keys have the same hash is needed, since the model's hash is arbitrary."
  },
  {
   "property": "C35",
   "status": "proved",
   "theorems": [
    "Verif.Props.C35_root",
    "Verif.Props.C35_index",
    "Verif.Props.C35_state",
    "Verif.Props.C35_block",
    "Verif.Props.C35_roots",
    "Verif.Props.C35_withdrawals",
    "Verif.Props.C35_transactions",
    "Verif.Props.C35_receipts",
    "Verif.Props.C35_hypotheses_met",
    "Verif.Props.C35_mined_roots",
    "Verif.Props.C35_mined_transactions",
    "Verif.Props.C35_mined",
    "Verif.Props.C35_whole",
    "Verif.Props.C35_reached"
   ],
   "note": "The alternative conclusion is an explicit collision among the finitely many byte strings hashed for the two roots."
  },
  {
   "property": "C36",
   "status": "proved",
   "theorems": [
    "Verif.C36_decode",
    "Verif.C36_injective",
    "Verif.C36_nibbles"
   ],
   "note": ""
  },
  {
   "property": "C37",
   "status": "proved",
   "theorems": [
    "Verif.C37_decode_encode",
    "Verif.C37_injective",
    "Verif.C37_fuel",
    "Verif.C37_canonical"
   ],
   "note": ""
  },
  {
   "property": "C38",
   "status": "proved",
   "theorems": [
    "Verif.Props.C38_receipt",
    "Verif.C38_round_trip",
    "Verif.C38_no_clash"
   ],
   "note": ""
  },
  {
   "property": "C39",
   "status": "proved",
   "theorems": [
    "Verif.C39_recovered_from_signed_bytes",
    "Verif.C39_covers_all_fields",
    "Verif.C39_not_malleable"
   ],
   "note": ""
  },
  {
   "property": "C40",
   "status": "proved",
   "theorems": [
    "Verif.C40_credit",
    "Verif.C40_succeeds_iff",
    "Verif.C40_fails"
   ],
   "note": ""
  },
  {
   "property": "C41",
   "status": "proved",
   "theorems": [
    "Verif.Props.C41_block",
    "Verif.C41_event",
    "Verif.C41_event_length",
    "Verif.C41_requests",
    "Verif.C41_unique"
   ],
   "note": ""
  },
  {
   "property": "C42",
   "status": "proved",
   "theorems": [
    "Verif.Props.C42_eq",
    "Verif.Props.C42_total",
    "Verif.Props.C42_transitive",
    "Verif.Props.C42_le",
    "Verif.Props.C42_kinds",
    "Verif.Props.C42_active",
    "Verif.Props.C42_check",
    "Verif.Props.C42_earlier",
    "Verif.Props.C42_mixed",
    "Verif.Props.C42_sorted"
   ],
   "note": ""
  },
  {
   "property": "C43",
   "status": "proved",
   "theorems": [
    "Verif.C43_refines",
    "Verif.C43_flush",
    "Verif.C43_hasStorage",
    "Verif.C43_db",
    "Verif.C43_modify",
    "Verif.C43_twice_lost",
    "Verif.C43_twice_error",
    "Verif.C43_lenient",
    "Verif.C43_zeroed"
   ],
   "note": ""
  },
  {
   "property": "C44",
   "status": "proved",
   "theorems": [
    "Verif.C44_authorizations",
    "Verif.C44_warm",
    "Verif.C44_balances",
    "Verif.C44_storage"
   ],
   "note": ""
  },
  {
   "property": "C45",
   "status": "proved",
   "theorems": [
    "Verif.C45_cost",
    "Verif.C45_minimum",
    "Verif.C45_accepts_iff"
   ],
   "note": ""
  },
  {
   "property": "C46",
   "status": "proved",
   "theorems": [
    "Verif.C46_difficulty",
    "Verif.C46_minimum",
    "Verif.C46_distance",
    "Verif.C46_monotone",
    "Verif.C46_delays"
   ],
   "note": ""
  },
  {
   "property": "C47",
   "status": "proved",
   "theorems": [
    "Verif.C47_ommers",
    "Verif.C47_sibling",
    "Verif.C47_once",
    "Verif.C47_rewards",
    "Verif.C47_issuance"
   ],
   "note": ""
  },
  {
   "property": "C48",
   "status": "proved",
   "theorems": [
    "Verif.C48_list",
    "Verif.C48_dao",
    "Verif.Props.C48_only"
   ],
   "note": ""
  },
  {
   "property": "C49",
   "status": "proved",
   "theorems": [
    "Verif.C49_modexp",
    "Verif.C49_price"
   ],
   "note": ""
  },
  {
   "property": "C50",
   "status": "proved",
   "theorems": [
    "Verif.Props.C50_bound",
    "Verif.Props.C50_exact",
    "Verif.Props.C50_chain"
   ],
   "note": ""
  },
  {
   "property": "C51",
   "status": "proved",
   "theorems": [
    "Verif.C51_cache",
    "Verif.C51_dataset",
    "Verif.C51_steps",
    "Verif.C51_monotone"
   ],
   "note": ""
  },
  {
   "property": "C52",
   "status": "proved",
   "theorems": [
    "Verif.C52_ceil32",
    "Verif.C52_sign",
    "Verif.C52_prime",
    "Verif.C52_words",
    "Verif.C52_bytes",
    "Verif.C52_number",
    "Verif.C52_number_injective",
    "Verif.C52_exponential"
   ],
   "note": ""
  },
  {
   "property": "C53",
   "status": "proved",
   "theorems": [
    "Verif.Props.C53_message",
    "Verif.Props.C53_transaction",
    "Verif.Props.C53_block"
   ],
   "note": ""
  },
  {
   "property": "C54",
   "status": "proved",
   "theorems": [
    "Verif.Props.C54_code",
    "Verif.Props.C54_size",
    "Verif.Props.C54_whole"
   ],
   "note": ""
  },
  {
   "property": "C55",
   "status": "proved",
   "theorems": [
    "Verif.Props.C55_owned",
    "Verif.Props.C55_whole"
   ],
   "note": ""
  },
  {
   "property": "C56",
   "status": "proved",
   "theorems": [
    "Verif.Props.C56_bound",
    "Verif.Props.C56_set_block",
    "Verif.Props.C56_advance",
    "Verif.Props.C56_path",
    "Verif.Props.C56_last_active"
   ],
   "note": ""
  },
  {
   "property": "C57",
   "status": "proved",
   "theorems": [
    "Verif.C57_fnv",
    "Verif.C57_fnv_injective",
    "Verif.C57_seed",
    "Verif.C57_cache",
    "Verif.C57_dataset",
    "Verif.C57_in_range",
    "Verif.C57_total",
    "Verif.C57_light_full"
   ],
   "note": ""
  },
  {
   "property": "C58",
   "status": "proved",
   "theorems": [
    "Verif.C58_header",
    "Verif.C58_accepts",
    "Verif.C58_linked",
    "Verif.C58_rejects",
    "Verif.C58_stale"
   ],
   "note": ""
  },
  {
   "property": "C59",
   "status": "proved",
   "theorems": [
    "Verif.C59_protected",
    "Verif.C59_before",
    "Verif.C59_unprotected"
   ],
   "note": ""
  },
  {
   "property": "C60",
   "status": "proved",
   "theorems": [
    "Verif.C60_blake2f",
    "Verif.C60_output_size"
   ],
   "note": ""
  },
  {
   "property": "C61",
   "status": "proved",
   "theorems": [
    "Verif.C61_add",
    "Verif.C61_mul",
    "Verif.C61_pairing",
    "Verif.C61_unique"
   ],
   "note": ""
  },
  {
   "property": "C62",
   "status": "proved",
   "theorems": [
    "Verif.C62_g1_add",
    "Verif.C62_g2_add",
    "Verif.C62_g1_msm",
    "Verif.C62_g2_msm",
    "Verif.C62_map_g1",
    "Verif.C62_map_g2",
    "Verif.C62_pairing"
   ],
   "note": ""
  },
  {
   "property": "C63",
   "status": "proved",
   "theorems": [
    "Verif.C63_outcome",
    "Verif.C63_equation",
    "Verif.C63_one_value",
    "Verif.C63_complete",
    "Verif.C63_binding",
    "Verif.C63_one_proof"
   ],
   "note": ""
  },
  {
   "property": "C64",
   "status": "proved",
   "theorems": [
    "Verif.C64_recover",
    "Verif.C64_ecrecover",
    "Verif.C64_p256verify"
   ],
   "note": ""
  },
  {
   "property": "C65",
   "status": "proved",
   "theorems": [
    "Verif.C65_modexp",
    "Verif.C65_only",
    "Verif.C65_message"
   ],
   "note": ""
  },
  {
   "property": "C66",
   "status": "proved",
   "theorems": [
    "Verif.Props.C66_opcodes",
    "Verif.Props.C66_precompiles",
    "Verif.Props.C66_types"
   ],
   "note": ""
  },
  {
   "property": "C67",
   "status": "proved",
   "theorems": [
    "Verif.Props.C67_header",
    "Verif.Props.C67_history"
   ],
   "note": ""
  },
  {
   "property": "C68",
   "status": "proved",
   "theorems": [
    "Verif.Props.C68_block",
    "Verif.Props.C68_exact",
    "Verif.Props.C68_history",
    "Verif.Props.C68_merge"
   ],
   "note": ""
  },
  {
   "property": "C69",
   "status": "proved",
   "theorems": [
    "Verif.Props.C69_nonces",
    "Verif.Props.C69_order",
    "Verif.Props.C69_no_replay",
    "Verif.Props.C69_rejected",
    "Verif.Props.C69_rejected_mining"
   ],
   "note": ""
  },
  {
   "property": "C70",
   "status": "proved",
   "theorems": [
    "Verif.Props.C70_hash",
    "Verif.Props.C70_hash_needs",
    "Verif.Props.C70_window",
    "Verif.Props.C70_first"
   ],
   "note": ""
  },
  {
   "property": "C71",
   "status": "proved",
   "theorems": [
    "Verif.Props.C71_reading",
    "Verif.Props.C71_lookup",
    "Verif.Props.C71_blockhash"
   ],
   "note": ""
  },
  {
   "property": "C72",
   "status": "proved",
   "theorems": [
    "Verif.Props.C72_write",
    "Verif.Props.C72_extcodecopy",
    "Verif.Props.C72_read"
   ],
   "note": ""
  },
  {
   "property": "C73",
   "status": "proved",
   "theorems": [
    "Verif.Props.C73_push",
    "Verif.Props.C73_dup",
    "Verif.Props.C73_swap",
    "Verif.Props.C73_pop",
    "Verif.Props.C73_jumpdest",
    "Verif.Props.C73_stop"
   ],
   "note": ""
  },
  {
   "property": "C74",
   "status": "proved",
   "theorems": [
    "Verif.Props.C74_log",
    "Verif.Props.C74_return",
    "Verif.Props.C74_revert",
    "Verif.Props.C74_tstore",
    "Verif.Props.C74_sstore",
    "Verif.Props.C74_selfdestruct"
   ],
   "note": ""
  },
  {
   "property": "C75",
   "status": "proved",
   "theorems": [
    "Verif.Props.C75_call_sends",
    "Verif.Props.C75_call",
    "Verif.Props.C75_create_sends",
    "Verif.Props.C75_create"
   ],
   "note": ""
  },
  {
   "property": "C76",
   "status": "proved",
   "theorems": [
    "Verif.Props.C76_bytes",
    "Verif.Props.C76_padded",
    "Verif.Props.C76_hash",
    "Verif.Props.C76_uint",
    "Verif.Props.C76_bounded",
    "Verif.Props.C76_either",
    "Verif.Props.C76_round_trip"
   ],
   "note": ""
  },
  {
   "property": "C77",
   "status": "proved",
   "theorems": [
    "Verif.Props.C77_accepts",
    "Verif.Props.C77_state",
    "Verif.Props.C77_block",
    "Verif.Props.C77_pos",
    "Verif.Props.C77_chain",
    "Verif.Props.C77_configuration"
   ],
   "note": ""
  },
  {
   "property": "C78",
   "status": "proved",
   "theorems": [
    "Verif.Props.C78_import",
    "Verif.Props.C78_imported",
    "Verif.Props.C78_fork",
    "Verif.Props.C78_merge",
    "Verif.Props.C78_history",
    "Verif.Props.C78_genesis",
    "Verif.Props.C78_old_ommer"
   ],
   "note": ""
  },
  {
   "property": "C79",
   "status": "proved",
   "theorems": [
    "Verif.Props.C79_transaction",
    "Verif.Props.C79_target",
    "Verif.Props.C79_mined",
    "Verif.Props.C79_import",
    "Verif.Props.C79_history",
    "Verif.Props.C79_onwards",
    "Verif.Props.C79_before"
   ],
   "note": ""
  },
  {
   "property": "C80",
   "status": "proved",
   "theorems": [
    "Verif.Props.C80_mined_receipts",
    "Verif.Props.C80_import",
    "Verif.Props.C80_built",
    "Verif.Props.C80_rejected",
    "Verif.Props.C80_rejected_iff",
    "Verif.Props.C80_tx_root",
    "Verif.Props.C80_mined",
    "Verif.Props.C80_ommers",
    "Verif.Props.C80_order",
    "Verif.Props.C80_receipts",
    "Verif.Props.C80_reward",
    "Verif.Props.C80_state_test",
    "Verif.Props.C80_state_total",
    "Verif.Props.C80_state_none",
    "Verif.Props.C80_total"
   ],
   "note": ""
  },
  {
   "property": "C81",
   "status": "proved",
   "theorems": [
    "Verif.Props.C81_message",
    "Verif.Props.C81_transaction",
    "Verif.Props.C81_exhausted",
    "Verif.Props.C81_mined",
    "Verif.Props.C81_imports",
    "Verif.Props.C81_whole"
   ],
   "note": ""
  },
  {
   "property": "C82",
   "status": "proved",
   "theorems": [
    "Verif.Props.C82_transaction",
    "Verif.Props.C82_message",
    "Verif.Props.C82_mined_block",
    "Verif.Props.C82_import",
    "Verif.Props.C82_mined",
    "Verif.Props.C82_imports",
    "Verif.Props.C82_whole"
   ],
   "note": ""
  },
  {
   "property": "C83",
   "status": "proved",
   "theorems": [
    "Verif.Props.C83_import",
    "Verif.Props.C83_mined",
    "Verif.Props.C83_blockhash"
   ],
   "note": ""
  },
  {
   "property": "C84",
   "status": "proved",
   "theorems": [
    "Verif.Props.C84_accepts",
    "Verif.Props.C84_state",
    "Verif.Props.C84_round_trip",
    "Verif.Props.C84_root",
    "Verif.Props.C84_empty",
    "Verif.Props.C84_mined",
    "Verif.Props.C84_whole",
    "Verif.Props.C84_dao"
   ],
   "note": ""
  },
  {
   "property": "C85",
   "status": "proved",
   "theorems": [
    "Verif.Props.C85_message",
    "Verif.Props.C85_transaction",
    "Verif.Props.C85_block",
    "Verif.Props.C85_history",
    "Verif.Props.C85_whole",
    "Verif.Props.C85_root",
    "Verif.Props.C85_tool"
   ],
   "note": ""
  },
  {
   "property": "C86",
   "status": "proved",
   "theorems": [
    "Verif.Props.C86_body",
    "Verif.Props.C86_header",
    "Verif.Props.C86_commitment"
   ],
   "note": ""
  },
  {
   "property": "C87",
   "status": "proved",
   "theorems": [
    "Verif.Props.C87_transaction",
    "Verif.Props.C87_instruction",
    "Verif.Props.C87_apart",
    "Verif.Props.C87_history"
   ],
   "note": ""
  },
  {
   "property": "C88",
   "status": "proved",
   "theorems": [
    "Verif.Props.C88_output",
    "Verif.Props.C88_mined",
    "Verif.Props.C88_block",
    "Verif.Props.C88_later",
    "Verif.Props.C88_every_mined",
    "Verif.Props.C88_every_block"
   ],
   "note": ""
  },
  {
   "property": "C89",
   "status": "proved",
   "theorems": [
    "Verif.C89_load",
    "Verif.C89_read",
    "Verif.C89_sign",
    "Verif.C89_sender",
    "Verif.C89_places",
    "Verif.C89_written",
    "Verif.C89_body_lost",
    "Verif.C89_body"
   ],
   "note": ""
  },
  {
   "property": "C90",
   "status": "proved",
   "theorems": [
    "Verif.Props.C90_decode",
    "Verif.Props.C90_distinct",
    "Verif.Props.C90_class",
    "Verif.Props.C90_other_fork",
    "Verif.Props.C90_fetch",
    "Verif.Props.C90_right",
    "Verif.Props.C90_download",
    "Verif.Props.C90_start",
    "Verif.Props.C90_start_known",
    "Verif.Props.C90_eth",
    "Verif.Props.C90_eth_order",
    "Verif.Props.C90_start_limit"
   ],
   "note": ""
  },
  {
   "property": "C91",
   "status": "proved",
   "theorems": [
    "Verif.Props.C91_disk",
    "Verif.Props.C91_resume",
    "Verif.Props.C91_same",
    "Verif.Props.C91_durable",
    "Verif.Props.C91_progress",
    "Verif.Props.C91_refused",
    "Verif.Props.C91_restart",
    "Verif.Props.C91_block",
    "Verif.Props.C91_transition",
    "Verif.Props.C91_valid",
    "Verif.Props.C91_accepts",
    "Verif.Props.C91_applied",
    "Verif.Props.C91_early_ommer"
   ],
   "note": ""
  },
  {
   "property": "C92",
   "status": "proved",
   "theorems": [
    "Verif.C92_outcome",
    "Verif.C92_frame",
    "Verif.C92_sizes"
   ],
   "note": ""
  },
  {
   "property": "C93",
   "status": "proved",
   "theorems": [
    "Verif.Props.C93_payment",
    "Verif.Props.C93_failed"
   ],
   "note": ""
  },
  {
   "property": "C94",
   "status": "proved",
   "theorems": [
    "Verif.C94_cache",
    "Verif.C94_item",
    "Verif.C94_dataset",
    "Verif.C94_light",
    "Verif.C94_seal"
   ],
   "note": ""
  },
  {
   "property": "C95",
   "status": "proved",
   "theorems": [
    "Verif.Props.C95_unique",
    "Verif.Props.C95_plain",
    "Verif.Props.C95_hashed",
    "Verif.Props.C95_storage",
    "Verif.Props.C95_state",
    "Verif.Props.C95_import",
    "Verif.Props.C95_mined"
   ],
   "note": ""
  },
  {
   "property": "C96",
   "status": "proved",
   "theorems": [
    "Verif.Props.C96_frame",
    "Verif.Props.C96_spent",
    "Verif.Props.C96_message"
   ],
   "note": ""
  },
  {
   "property": "C97",
   "status": "proved",
   "theorems": [
    "Verif.Props.C97_header",
    "Verif.Props.C97_transaction",
    "Verif.Props.C97_block",
    "Verif.Props.C97_unique",
    "Verif.Props.C97_later",
    "Verif.Props.C97_other_types",
    "Verif.Props.C97_written",
    "Verif.Props.C97_ommers",
    "Verif.Props.C97_fetch",
    "Verif.Props.C97_ommer_fork"
   ],
   "note": ""
  },
  {
   "property": "C98",
   "status": "proved",
   "theorems": [
    "Verif.Props.C98_read",
    "Verif.Props.C98_unique",
    "Verif.Props.C98_written",
    "Verif.Props.C98_seen",
    "Verif.Props.C98_import",
    "Verif.Props.C98_mined"
   ],
   "note": ""
  },
  {
   "property": "C99",
   "status": "proved",
   "theorems": [
    "Verif.Props.C99_prints",
    "Verif.Props.C99_determines",
    "Verif.Props.C99_zero",
    "Verif.Props.C99_import",
    "Verif.Props.C99_body",
    "Verif.Props.C99_pipeline",
    "Verif.Props.C99_mined"
   ],
   "note": ""
  },
  {
   "property": "C100",
   "status": "proved",
   "theorems": [
    "Verif.Props.C100_fork",
    "Verif.Props.C100_supported",
    "Verif.Props.C100_cases",
    "Verif.Props.C100_transaction",
    "Verif.Props.C100_case",
    "Verif.Props.C100_runs",
    "Verif.Props.C100_report",
    "Verif.Props.C100_completes",
    "Verif.Props.C100_letters"
   ],
   "note": ""
  },
  {
   "property": "C101",
   "status": "proved",
   "theorems": [
    "Verif.Props.C101_reports",
    "Verif.Props.C101_passes",
    "Verif.Props.C101_unseen",
    "Verif.Props.C101_forks"
   ],
   "note": ""
  },
  {
   "property": "C102",
   "status": "proved",
   "theorems": [
    "Verif.Props.C102_same",
    "Verif.Props.C102_quiet",
    "Verif.Props.C102_unchanged",
    "Verif.Props.C102_exact",
    "Verif.Props.C102_passes",
    "Verif.Props.C102_blind",
    "Verif.Props.C102_asymmetric",
    "Verif.Props.C102_reports",
    "Verif.Props.C102_dao",
    "Verif.Props.C102_items",
    "Verif.Props.C102_fork",
    "Verif.Props.C102_others"
   ],
   "note": ""
  },
  {
   "property": "C103",
   "status": "proved",
   "theorems": [
    "Verif.Props.C103_reports",
    "Verif.Props.C103_once",
    "Verif.Props.C103_silent",
    "Verif.Props.C103_fork",
    "Verif.Props.C103_names",
    "Verif.Props.C103_order",
    "Verif.Props.C103_sources"
   ],
   "note": ""
  }
 ]
}