{
 "claims": [
  {
   "property": "C01",
   "status": "proved",
   "theorems": [
    "Silkworm.Properties.c01_uint64_roundtrip",
    "Silkworm.Properties.c01_uint256_roundtrip",
    "Silkworm.Properties.c01_uint_minimal",
    "Silkworm.Properties.c01_be_minimal"
   ],
   "note": ""
  },
  {
   "property": "C02",
   "status": "proved",
   "theorems": [
    "Silkworm.Properties.c02_bytes_roundtrip",
    "Silkworm.Properties.c02_array_roundtrip",
    "Silkworm.Properties.c02_bytes_spec"
   ],
   "note": ""
  },
  {
   "property": "C03",
   "status": "proved",
   "theorems": [
    "Silkworm.Properties.c03_uint_canonical",
    "Silkworm.Properties.c03_bytes_canonical",
    "Silkworm.Properties.c03_array_canonical",
    "Silkworm.Properties.c03_unique_encoding"
   ],
   "note": ""
  },
  {
   "property": "C04",
   "status": "proved",
   "theorems": [
    "Silkworm.Properties.c04_decoders_safe",
    "Silkworm.Properties.c04_vector_safe",
    "Silkworm.Properties.c04_vector_bytes32_safe",
    "Silkworm.Properties.c04_header_in_bounds"
   ],
   "note": ""
  },
  {
   "property": "C05",
   "status": "proved",
   "theorems": [
    "Silkworm.Properties.c05_length_block_header",
    "Silkworm.Properties.c05_length_log",
    "Silkworm.Properties.c05_length_logs",
    "Silkworm.Properties.c05_length_basic",
    "Silkworm.Properties.c05_length_vector",
    "Silkworm.Properties.c05_length_access_list_entry",
    "Silkworm.Properties.c05_length_transaction"
   ],
   "note": ""
  },
  {
   "property": "C06",
   "status": "proved",
   "theorems": [
    "Silkworm.Properties.c06_prefix_free",
    "Silkworm.Properties.c06_injective",
    "Silkworm.Properties.c06_vector_roundtrip",
    "Silkworm.Properties.c06_vector_bytes32_injective"
   ],
   "note": ""
  },
  {
   "property": "C07",
   "status": "proved",
   "theorems": [
    "Silkworm.Properties.c07_header_roundtrip",
    "Silkworm.Properties.c07_header_spec",
    "Silkworm.Properties.c07_header_canonical"
   ],
   "note": ""
  },
  {
   "property": "C08",
   "status": "proved",
   "theorems": [
    "Silkworm.Properties.c08_body_roundtrip",
    "Silkworm.Properties.c08_body_spec",
    "Silkworm.Properties.c08_block_decode"
   ],
   "note": ""
  },
  {
   "property": "C09",
   "status": "proved",
   "theorems": [
    "Silkworm.Properties.c09_legacy_roundtrip",
    "Silkworm.Properties.c09_legacy_spec",
    "Silkworm.Properties.c09_chain_id_bound_needed"
   ],
   "note": ""
  },
  {
   "property": "C10",
   "status": "proved",
   "theorems": [
    "Silkworm.Properties.c10_typed_roundtrip",
    "Silkworm.Properties.c10_typed_spec"
   ],
   "note": ""
  },
  {
   "property": "C11",
   "status": "partial",
   "theorems": [
    "Silkworm.Properties.c11_canonical_violated",
    "Silkworm.Properties.c11_legacy_canonical_partial",
    "Silkworm.Properties.c11_typed_canonical_partial"
   ],
   "note": "Violated: the inner list length of typed transactions is ignored and trailing bytes inside the string are accepted (witness). Partial: legacy encodings are canonical, typed ones are canonical up to the inner header."
  },
  {
   "property": "C12",
   "status": "partial",
   "theorems": [
    "Silkworm.Properties.c12_header_safe",
    "Silkworm.Properties.c12_body_violated",
    "Silkworm.Properties.c12_body_safe_partial",
    "Silkworm.Properties.c12_transaction_violated",
    "Silkworm.Properties.c12_typed_transaction_violated",
    "Silkworm.Properties.c12_transaction_safe_partial",
    "Silkworm.Properties.c12_access_list_safe"
   ],
   "note": "Violated: from[0] is read on an empty view when the input ends before the recipient (witnesses for legacy, typed, body). Headers and access lists are proved safe; partial: no other read is out of bounds."
  },
  {
   "property": "C13",
   "status": "proved",
   "theorems": [
    "Silkworm.Properties.c13_signing_payload_spec",
    "Silkworm.Properties.c13_signing_payload_injective",
    "Silkworm.Properties.c13_sender_spec",
    "Silkworm.Properties.c13_recover_sender"
   ],
   "note": ""
  },
  {
   "property": "C14",
   "status": "proved",
   "theorems": [
    "Silkworm.Properties.c14_split_join",
    "Silkworm.Properties.c14_join_split",
    "Silkworm.Properties.c14_join_spec"
   ],
   "note": ""
  },
  {
   "property": "C15",
   "status": "partial",
   "theorems": [
    "Silkworm.Properties.c15_signature_range_violated",
    "Silkworm.Properties.c15_signature_range_partial"
   ],
   "note": "Violated: r and s out of range are accepted because of && in place of || (witness). Partial: what is accepted is characterised."
  },
  {
   "property": "C16",
   "status": "proved",
   "theorems": [
    "Silkworm.Properties.c16_account_roundtrip",
    "Silkworm.Properties.c16_account_spec",
    "Silkworm.Properties.c16_account_length",
    "Silkworm.Properties.c16_account_injective"
   ],
   "note": ""
  },
  {
   "property": "C17",
   "status": "partial",
   "theorems": [
    "Silkworm.Properties.c17_safe_violated",
    "Silkworm.Properties.c17_long_balance_violated",
    "Silkworm.Properties.c17_empty_violated",
    "Silkworm.Properties.c17_safe_partial",
    "Silkworm.Properties.c17_extract_agrees"
   ],
   "note": "Violated: truncated records, balances longer than 32 bytes and the empty record cause out-of-bounds accesses (witnesses). Partial: safe on every complete record; agreement of both decoders is proved in full."
  },
  {
   "property": "C18",
   "status": "proved",
   "theorems": [
    "Silkworm.Properties.c18_logs_bloom",
    "Silkworm.Properties.c18_no_false_negatives",
    "Silkworm.Properties.c18_append",
    "Silkworm.Properties.c18_join"
   ],
   "note": ""
  },
  {
   "property": "C19",
   "status": "proved",
   "theorems": [
    "Silkworm.Properties.c19_intrinsic_gas",
    "Silkworm.Properties.c19_intrinsic_gas_ge"
   ],
   "note": ""
  },
  {
   "property": "C20",
   "status": "proved",
   "theorems": [
    "Silkworm.Properties.c20_effective_gas_price",
    "Silkworm.Properties.c20_precondition"
   ],
   "note": ""
  },
  {
   "property": "C21",
   "status": "proved",
   "theorems": [
    "Silkworm.Properties.c21_difficulty_min",
    "Silkworm.Properties.c21_difficulty_spec",
    "Silkworm.Properties.c21_difficulty_mono",
    "Silkworm.Properties.c21_difficulty_fits"
   ],
   "note": ""
  },
  {
   "property": "C22",
   "status": "proved",
   "theorems": [
    "Silkworm.Properties.c22_base_fee_spec",
    "Silkworm.Properties.c22_base_fee_initial",
    "Silkworm.Properties.c22_base_fee_direction"
   ],
   "note": ""
  },
  {
   "property": "C23",
   "status": "proved",
   "theorems": [
    "Silkworm.Properties.c23_header_verdict",
    "Silkworm.Properties.c23_accepted_header",
    "Silkworm.Properties.c23_accepted_base_fee",
    "Silkworm.Properties.c23_parent_base_fee"
   ],
   "note": ""
  },
  {
   "property": "C24",
   "status": "partial",
   "theorems": [
    "Silkworm.Properties.c24_transaction_violated",
    "Silkworm.Properties.c24_transaction_verdict_partial",
    "Silkworm.Properties.c24_transaction_accepted_partial"
   ],
   "note": "Violated: a signature with exactly one of r, s at or above the group order passes (witness). Partial: the verdict is exact for all other signatures; all other rules hold for every accepted transaction."
  },
  {
   "property": "C25",
   "status": "proved",
   "theorems": [
    "Silkworm.Properties.c25_is_kin",
    "Silkworm.Properties.c25_ommers"
   ],
   "note": ""
  },
  {
   "property": "C26",
   "status": "proved",
   "theorems": [
    "Silkworm.Properties.c26_revision_spec",
    "Silkworm.Properties.c26_revision_highest",
    "Silkworm.Properties.c26_revision_mono",
    "Silkworm.Properties.c26_revision_ordered",
    "Silkworm.Properties.c26_set_revision_block"
   ],
   "note": ""
  },
  {
   "property": "C27",
   "status": "proved",
   "theorems": [
    "Silkworm.Properties.c27_canonical_chain_heaviest",
    "Silkworm.Properties.c27_total_difficulty",
    "Silkworm.Properties.c27_head_changes"
   ],
   "note": ""
  },
  {
   "property": "C28",
   "status": "proved",
   "theorems": [
    "Silkworm.Properties.c28_revert_restores",
    "Silkworm.Properties.c28_later_behaviour"
   ],
   "note": ""
  },
  {
   "property": "C29",
   "status": "proved",
   "theorems": [
    "Silkworm.Properties.c29_reads_pure",
    "Silkworm.Properties.c29_reads_do_not_matter_later"
   ],
   "note": ""
  },
  {
   "property": "C30",
   "status": "proved",
   "theorems": [
    "Silkworm.Properties.c30_write_read_back",
    "Silkworm.Properties.c30_dead_and_exists",
    "Silkworm.Properties.c30_frame",
    "Silkworm.Properties.c30_frame_reachable"
   ],
   "note": ""
  },
  {
   "property": "C31",
   "status": "partial",
   "theorems": [
    "Silkworm.Properties.c31_commit_partial",
    "Silkworm.Properties.c31_settled_after_finalize",
    "Silkworm.Properties.c31_commit_violated_storage",
    "Silkworm.Properties.c31_commit_violated_code"
   ],
   "note": "Violated: an incarnation reused after destroy-fund-recreate makes a fresh state read stale storage or no code (witnesses). Partial: holds for all executions that do not reuse incarnations, for every order of the hash maps."
  },
  {
   "property": "C32",
   "status": "partial",
   "theorems": [
    "Silkworm.Properties.c32_unwind_restores",
    "Silkworm.Properties.c32_unwind_blocks_partial",
    "Silkworm.Properties.c32_unwind_violated"
   ],
   "note": "Violated: with a reused incarnation the recorded initial value is wrong and unwinding erases the slot (witness). Proved for all calls that record what is in the buffer and for all chains of blocks that do not reuse incarnations."
  },
  {
   "property": "C33",
   "status": "partial",
   "theorems": [
    "Silkworm.Properties.c33_created_storage_zero_partial",
    "Silkworm.Properties.c33_stale_storage_violated_same_block",
    "Silkworm.Properties.c33_stale_storage_violated_later_block"
   ],
   "note": "Violated within one block and across blocks by destroy-fund-recreate (witnesses). Partial: holds for all executions over all chains of blocks that do not reuse incarnations."
  },
  {
   "property": "C34",
   "status": "proved",
   "theorems": [
    "Silkworm.Properties.c34_hash_builder_root",
    "Silkworm.Properties.c34_bad_keys_are_ub",
    "Silkworm.Properties.c34_root_with_collector",
    "Silkworm.Properties.c34_root_of_map"
   ],
   "note": ""
  },
  {
   "property": "C35",
   "status": "proved",
   "theorems": [
    "Silkworm.Properties.c35_visits_each_index_once",
    "Silkworm.Properties.c35_keys_increase",
    "Silkworm.Properties.c35_list_root"
   ],
   "note": ""
  },
  {
   "property": "C36",
   "status": "proved",
   "theorems": [
    "Silkworm.Properties.c36_node_round_trip",
    "Silkworm.Properties.c36_node_canonical",
    "Silkworm.Properties.c36_malformed_records"
   ],
   "note": ""
  },
  {
   "property": "C37",
   "status": "proved",
   "theorems": [
    "Silkworm.Properties.c37_path_is_hex_prefix",
    "Silkworm.Properties.c37_path_injective",
    "Silkworm.Properties.c37_path_length",
    "Silkworm.Properties.c37_unpack_nibbles"
   ],
   "note": ""
  },
  {
   "property": "C38",
   "status": "proved",
   "theorems": [
    "Silkworm.Properties.c38_status",
    "Silkworm.Properties.c38_session",
    "Silkworm.Properties.c38_fresh"
   ],
   "note": ""
  },
  {
   "property": "C39",
   "status": "proved",
   "theorems": [
    "Silkworm.Properties.c39_transaction",
    "Silkworm.Properties.c39_transactions",
    "Silkworm.Properties.c39_block"
   ],
   "note": ""
  },
  {
   "property": "C40",
   "status": "proved",
   "theorems": [
    "Silkworm.Properties.c40_total",
    "Silkworm.Properties.c40_settlement",
    "Silkworm.Properties.c40_sender"
   ],
   "note": ""
  },
  {
   "property": "C41",
   "status": "proved",
   "theorems": [
    "Silkworm.Properties.c41_verdict",
    "Silkworm.Properties.c41_pure",
    "Silkworm.Properties.c41_can_pay"
   ],
   "note": ""
  },
  {
   "property": "C42",
   "status": "partial",
   "theorems": [
    "Silkworm.Properties.c42_block_hash_violated",
    "Silkworm.Properties.c42_block_hash_partial",
    "Silkworm.Properties.c42_ancestor"
   ],
   "note": "Violated: a query for the number of the block itself or a later one makes the index wrap and reads outside of the cache (witness). Interpreters do not ask for these. Partial: for all sequences of queries in range the answer is the hash of the ancestor, or zero if a header is missing."
  },
  {
   "property": "C43",
   "status": "proved",
   "theorems": [
    "Silkworm.Properties.c43_rewards"
   ],
   "note": ""
  },
  {
   "property": "C44",
   "status": "partial",
   "theorems": [
    "Silkworm.Properties.c44_gas",
    "Silkworm.Properties.c44_expmod_gas_violated",
    "Silkworm.Properties.c44_expmod_gas_partial",
    "Silkworm.Properties.c44_expmod_affordable"
   ],
   "note": "Violated: before Berlin the gas of a modular exponentiation with an exponent of 2^64 or more declared bytes is the largest number instead of the formula (witness). Partial: exact otherwise; with less than 2^62 gas the difference cannot be observed. All other contracts are proved exactly."
  },
  {
   "property": "C45",
   "status": "proved",
   "theorems": [
    "Silkworm.Properties.c45_modexp",
    "Silkworm.Properties.c45_lengths_wrap"
   ],
   "note": ""
  },
  {
   "property": "C46",
   "status": "proved",
   "theorems": [
    "Silkworm.Properties.c46_block_key_order",
    "Silkworm.Properties.c46_block_hash_key_order",
    "Silkworm.Properties.c46_storage_prefix_order",
    "Silkworm.Properties.c46_storage_prefix_kinds",
    "Silkworm.Properties.c46_storage_change_key_order",
    "Silkworm.Properties.c46_account_history_key_order",
    "Silkworm.Properties.c46_storage_history_key_order",
    "Silkworm.Properties.c46_log_key_order"
   ],
   "note": ""
  },
  {
   "property": "C47",
   "status": "partial",
   "theorems": [
    "Silkworm.Properties.c47_one_slot_partial",
    "Silkworm.Properties.c47_first_slot_partial",
    "Silkworm.Properties.c47_violated",
    "Silkworm.Properties.c47_overwrite_violated"
   ],
   "note": "Violated: find_multivalue ignores the location, so that a write to a second slot of a contract removes the first, or leaves the old value in place (witnesses). Partial: exact for contracts with one slot, and for writes to the first stored slot."
  },
  {
   "property": "C48",
   "status": "partial",
   "theorems": [
    "Silkworm.Properties.c48_lookup_partial",
    "Silkworm.Properties.c48_account_partial",
    "Silkworm.Properties.c48_storage_partial",
    "Silkworm.Properties.c48_storage_violated",
    "Silkworm.Properties.c48_account_violated"
   ],
   "note": "Violated: accounts are looked up in the code table and history keys are sought exactly, so that the current value is returned for past blocks (witnesses). Partial: what is returned is characterised for all histories; right if the value has not changed since."
  },
  {
   "property": "C49",
   "status": "partial",
   "theorems": [
    "Silkworm.Properties.c49_cut64_partial",
    "Silkworm.Properties.c49_cut32_partial",
    "Silkworm.Properties.c49_violated",
    "Silkworm.Properties.c49_large_violated"
   ],
   "note": "Violated: of a bitmap that must be cut the largest number is lost and the chunk exceeds the limit; numbers from 2^32 are lost or lead to a null pointer (witnesses). Partial: exact result for all bitmaps below 2^32; right if the bitmap fits."
  },
  {
   "property": "C50",
   "status": "partial",
   "theorems": [
    "Silkworm.Properties.c50_load_partial",
    "Silkworm.Properties.c50_space",
    "Silkworm.Properties.c50_independent_partial",
    "Silkworm.Properties.c50_violated",
    "Silkworm.Properties.c50_reuse_violated"
   ],
   "note": "Violated: an entry with empty key and empty value is lost because a buffer of size 0 is not flushed (witness); a collector whose files were loaded keeps null providers, so that the next load dereferences one (witness). Partial: exact for all other entries, buffer sizes, disk spaces and queue choices, including the error outcomes."
  },
  {
   "property": "C51",
   "status": "proved",
   "theorems": [
    "Silkworm.Properties.c51_roundtrip",
    "Silkworm.Properties.c51_space"
   ],
   "note": ""
  },
  {
   "property": "C52",
   "status": "partial",
   "theorems": [
    "Silkworm.Properties.c52_repeats_violated",
    "Silkworm.Properties.c52_stuck_violated",
    "Silkworm.Properties.c52_stage_violated",
    "Silkworm.Properties.c52_uncommitted_violated",
    "Silkworm.Properties.c52_migrations",
    "Silkworm.Properties.c52_once_partial",
    "Silkworm.Properties.c52_violated"
   ],
   "note": "Violated: the block at which the batch fills is executed again by the next round, and the same round repeats without end if the first block of a round fills the batch. Partial: without a full batch each block is executed exactly once and in order."
  },
  {
   "property": "C53",
   "status": "partial",
   "theorems": [
    "Silkworm.Properties.c53_accounts_partial",
    "Silkworm.Properties.c53_created_violated",
    "Silkworm.Properties.c53_gap_violated",
    "Silkworm.Properties.c53_storage_partial",
    "Silkworm.Properties.c53_cleared_violated",
    "Silkworm.Properties.c53_genesis_violated",
    "Silkworm.Properties.c53_nothing",
    "Silkworm.Properties.c53_tables_partial",
    "Silkworm.Properties.c53_leftovers_violated",
    "Silkworm.Properties.c53_slots_violated",
    "Silkworm.Properties.c53_violated",
    "Silkworm.Properties.c53_code_kept",
    "Silkworm.Properties.c53_code_removed"
   ],
   "note": "Violated: accounts created since stay, the record of a slot erases another slot, a target block without records undoes everything, a cleared slot ends in an exception, block zero deletes the state, storage records and logs remain. Partial: accounts that existed, single slots, tables with an entry for the next block, progress."
  },
  {
   "property": "C54",
   "status": "partial",
   "theorems": [
    "Silkworm.Properties.c54_shift",
    "Silkworm.Properties.c54_batches_shift",
    "Silkworm.Properties.c54_partial",
    "Silkworm.Properties.c54_batches_partial",
    "Silkworm.Properties.c54_failed_violated",
    "Silkworm.Properties.c54_ahead_violated",
    "Silkworm.Properties.c54_stage_violated",
    "Silkworm.Properties.c54_batches_violated",
    "Silkworm.Properties.c54_violated"
   ],
   "note": "violated by blocks without transactions, keys not recovered, late batches, more batches than workers, and for lack of a commit; proved for any number of batches of blocks with transactions"
  },
  {
   "property": "C55",
   "status": "partial",
   "theorems": [
    "Silkworm.Properties.c55_always_violated",
    "Silkworm.Properties.c55_violated",
    "Silkworm.Properties.c55_nothing_partial"
   ],
   "note": "Violated: the stage never advances to the next header it compares, so it reports a bad sequence for every chain with a block to index (c55_always_violated). Partial: with nothing to index it succeeds and changes nothing."
  },
  {
   "property": "C56",
   "status": "partial",
   "theorems": [
    "Silkworm.Properties.c56_keys_violated",
    "Silkworm.Properties.c56_one_value_violated",
    "Silkworm.Properties.c56_accounts_partial",
    "Silkworm.Properties.c56_code_partial",
    "Silkworm.Properties.c56_leftovers_violated",
    "Silkworm.Properties.c56_violated"
   ],
   "note": "violated: slots lie under a key without the location and only one per contract is kept; proved for accounts and code hashes"
  },
  {
   "property": "C57",
   "status": "proved",
   "theorems": [
    "Silkworm.Properties.c57_lru_refines",
    "Silkworm.Properties.c57_lru_retains",
    "Silkworm.Properties.c57_lru_evicts"
   ],
   "note": ""
  },
  {
   "property": "C58",
   "status": "proved",
   "theorems": [
    "Silkworm.Properties.c58_hex_roundtrip",
    "Silkworm.Properties.c58_hex_accepts",
    "Silkworm.Properties.c58_hex_rejects",
    "Silkworm.Properties.c58_hex_lower"
   ],
   "note": ""
  },
  {
   "property": "C59",
   "status": "partial",
   "theorems": [
    "Silkworm.Properties.c59_left_pad_partial",
    "Silkworm.Properties.c59_left_pad_violated",
    "Silkworm.Properties.c59_right_pad",
    "Silkworm.Properties.c59_left_pad_value_partial",
    "Silkworm.Properties.c59_zeroless_view",
    "Silkworm.Properties.c59_to_bytes32",
    "Silkworm.Properties.c59_to_address"
   ],
   "note": "Violated: left_pad of a view into the buffer reads freed memory when the buffer must grow (witness). Partial: proved for external views and for sufficient capacity; right_pad, zeroless_view, to_bytes32 and to_address are proved in full."
  },
  {
   "property": "C60",
   "status": "proved",
   "theorems": [
    "Silkworm.Properties.c60_stored_body_roundtrip",
    "Silkworm.Properties.c60_stored_body_canonical",
    "Silkworm.Properties.c60_stored_body_spec",
    "Silkworm.Properties.c60_stored_body_safe"
   ],
   "note": ""
  },
  {
   "property": "C61",
   "status": "proved",
   "theorems": [
    "Silkworm.Properties.c61_mode_roundtrip",
    "Silkworm.Properties.c61_mode_uninitialized",
    "Silkworm.Properties.c61_mode_parse"
   ],
   "note": ""
  },
  {
   "property": "C62",
   "status": "proved",
   "theorems": [
    "Silkworm.Properties.c62_full_injective",
    "Silkworm.Properties.c62_seal_injective",
    "Silkworm.Properties.c62_hash_commits"
   ],
   "note": ""
  },
  {
   "property": "C63",
   "status": "proved",
   "theorems": [
    "Silkworm.Properties.c63_receipt_spec",
    "Silkworm.Properties.c63_receipt_injective"
   ],
   "note": ""
  },
  {
   "property": "C64",
   "status": "partial",
   "theorems": [
    "Silkworm.Properties.c64_key",
    "Silkworm.Properties.c64_address_partial",
    "Silkworm.Properties.c64_violated",
    "Silkworm.Properties.c64_nothing_violated"
   ],
   "note": "violated: the key ends at its first zero byte; proved: the exact key, and that it gives the address if that has no zero byte"
  },
  {
   "property": "C65",
   "status": "partial",
   "theorems": [
    "Silkworm.Properties.c65_reused_target_violated",
    "Silkworm.Properties.c65_reused_target_partial"
   ],
   "note": "Violated: the old access list survives legacy decoding (witness). Partial: holds for typed transactions and for targets without access list, on encoder outputs."
  },
  {
   "property": "C66",
   "status": "proved",
   "theorems": [
    "Silkworm.Properties.c66_account_rlp_spec",
    "Silkworm.Properties.c66_account_rlp_injective"
   ],
   "note": ""
  },
  {
   "property": "C67",
   "status": "proved",
   "theorems": [
    "Silkworm.Properties.c67_json_roundtrip",
    "Silkworm.Properties.c67_equality",
    "Silkworm.Properties.c67_no_chain_id"
   ],
   "note": ""
  },
  {
   "property": "C68",
   "status": "proved",
   "theorems": [
    "Silkworm.Properties.c68_block_verdict"
   ],
   "note": ""
  },
  {
   "property": "C69",
   "status": "proved",
   "theorems": [
    "Silkworm.Properties.c69_version_order",
    "Silkworm.Properties.c69_schema_version",
    "Silkworm.Properties.c69_storage_mode",
    "Silkworm.Properties.c69_info_independent"
   ],
   "note": ""
  },
  {
   "property": "C70",
   "status": "proved",
   "theorems": [
    "Silkworm.Properties.c70_state_root",
    "Silkworm.Properties.c70_storage_root",
    "Silkworm.Properties.c70_root_of_observable_state"
   ],
   "note": ""
  },
  {
   "property": "C71",
   "status": "partial",
   "theorems": [
    "Silkworm.Properties.c71_state_of_head_violated",
    "Silkworm.Properties.c71_state_of_head_partial",
    "Silkworm.Properties.c71_insert_total"
   ],
   "note": "Violated: inserting a block that is canonical already throws after the state was unwound (witness). Partial: for all sequences in which no insertion throws, the state is that of the canonical chain, and insertion never runs into undefined behaviour."
  },
  {
   "property": "C72",
   "status": "proved",
   "theorems": [
    "Silkworm.Properties.c72_ecrecover"
   ],
   "note": ""
  },
  {
   "property": "C73",
   "status": "proved",
   "theorems": [
    "Silkworm.Properties.c73_nonce"
   ],
   "note": ""
  },
  {
   "property": "C74",
   "status": "proved",
   "theorems": [
    "Silkworm.Properties.c74_bystander"
   ],
   "note": ""
  },
  {
   "property": "C75",
   "status": "proved",
   "theorems": [
    "Silkworm.Properties.c75_call",
    "Silkworm.Properties.c75_create"
   ],
   "note": ""
  },
  {
   "property": "C76",
   "status": "proved",
   "theorems": [
    "Silkworm.Properties.c76_static"
   ],
   "note": ""
  },
  {
   "property": "C77",
   "status": "proved",
   "theorems": [
    "Silkworm.Properties.c77_created",
    "Silkworm.Properties.c77_collision"
   ],
   "note": ""
  },
  {
   "property": "C78",
   "status": "proved",
   "theorems": [
    "Silkworm.Properties.c78_create",
    "Silkworm.Properties.c78_create2",
    "Silkworm.Properties.c78_message"
   ],
   "note": ""
  },
  {
   "property": "C79",
   "status": "proved",
   "theorems": [
    "Silkworm.Properties.c79_block",
    "Silkworm.Properties.c79_transaction"
   ],
   "note": ""
  },
  {
   "property": "C80",
   "status": "proved",
   "theorems": [
    "Silkworm.Properties.c80_transfer"
   ],
   "note": ""
  },
  {
   "property": "C81",
   "status": "proved",
   "theorems": [
    "Silkworm.Properties.c81_accounts",
    "Silkworm.Properties.c81_copyCode",
    "Silkworm.Properties.c81_access",
    "Silkworm.Properties.c81_warm"
   ],
   "note": ""
  },
  {
   "property": "C82",
   "status": "partial",
   "theorems": [
    "Silkworm.Properties.c82_calls",
    "Silkworm.Properties.c82_accounts_partial",
    "Silkworm.Properties.c82_code",
    "Silkworm.Properties.c82_incarnations",
    "Silkworm.Properties.c82_storage_partial",
    "Silkworm.Properties.c82_blocks_violated"
   ],
   "note": "Violated: headers, bodies and total difficulties are not written (witness); storage as in C47. Proved for code and incarnations; partial for accounts (code of accounts without code hash) and for storage of contracts with one slot."
  },
  {
   "property": "C84",
   "status": "proved",
   "theorems": [
    "Silkworm.Properties.c84_account_changes",
    "Silkworm.Properties.c84_storage_changes"
   ],
   "note": ""
  },
  {
   "property": "C86",
   "status": "proved",
   "theorems": [
    "Silkworm.Properties.c86_progress",
    "Silkworm.Properties.c86_unwind",
    "Silkworm.Properties.c86_unknown",
    "Silkworm.Properties.c86_bad_record"
   ],
   "note": ""
  },
  {
   "property": "C85",
   "status": "proved",
   "theorems": [
    "Silkworm.Properties.c85_read_block",
    "Silkworm.Properties.c85_read_senders",
    "Silkworm.Properties.c85_missing"
   ],
   "note": ""
  },
  {
   "property": "C87",
   "status": "proved",
   "theorems": [
    "Silkworm.Properties.c87_contracts",
    "Silkworm.Properties.c87_result",
    "Silkworm.Properties.c87_call"
   ],
   "note": ""
  },
  {
   "property": "C88",
   "status": "partial",
   "theorems": [
    "Silkworm.Properties.c88_violated",
    "Silkworm.Properties.c88_end_partial"
   ],
   "note": "Violated: the entries that follow in the table are taken whatever their keys, so that a transaction of another block takes the place of the missing one (witness). Partial: noticed if the first one is missing or the table ends, and senders are read."
  },
  {
   "property": "C89",
   "status": "partial",
   "theorems": [
    "Silkworm.Properties.c89_always_violated",
    "Silkworm.Properties.c89_violated",
    "Silkworm.Properties.c89_lookup_partial"
   ],
   "note": "Violated: bodies are stored under 40 bytes and the stage looks for a key of 8 bytes exactly, so nothing is ever indexed (c89_always_violated). Partial: for bodies stored under their number alone every transaction is indexed and other keys keep their values."
  },
  {
   "property": "C90",
   "status": "proved",
   "theorems": [
    "Silkworm.Properties.c90_success",
    "Silkworm.Properties.c90_single",
    "Silkworm.Properties.c90_failure",
    "Silkworm.Properties.c90_runs",
    "Silkworm.Properties.c90_unknown_chain"
   ],
   "note": ""
  },
  {
   "property": "C91",
   "status": "partial",
   "theorems": [
    "Silkworm.Properties.c91_lost_violated",
    "Silkworm.Properties.c91_complete_partial",
    "Silkworm.Properties.c91_ends",
    "Silkworm.Properties.c91_violated"
   ],
   "note": "Violated: at the end of the chain results are not written though the progress is recorded. Partial: if every call succeeds, all results are in the database."
  },
  {
   "property": "C83",
   "status": "proved",
   "theorems": [
    "Silkworm.Properties.c83_header",
    "Silkworm.Properties.c83_difficulty",
    "Silkworm.Properties.c83_account",
    "Silkworm.Properties.c83_account_hash",
    "Silkworm.Properties.c83_incarnation"
   ],
   "note": ""
  },
  {
   "property": "C92",
   "status": "proved",
   "theorems": [
    "Silkworm.Properties.c92_encoding",
    "Silkworm.Properties.c92_logs_injective",
    "Silkworm.Properties.c92_receipts_injective"
   ],
   "note": ""
  },
  {
   "property": "C93",
   "status": "proved",
   "theorems": [
    "Silkworm.Properties.c93_insert",
    "Silkworm.Properties.c93_difficulty",
    "Silkworm.Properties.c93_chain"
   ],
   "note": ""
  },
  {
   "property": "C94",
   "status": "proved",
   "theorems": [
    "Silkworm.Properties.c94_receipts"
   ],
   "note": ""
  },
  {
   "property": "C95",
   "status": "partial",
   "theorems": [
    "Silkworm.Properties.c95_accounts_partial",
    "Silkworm.Properties.c95_accounts_violated",
    "Silkworm.Properties.c95_undefined_violated",
    "Silkworm.Properties.c95_code_partial",
    "Silkworm.Properties.c95_storage_violated",
    "Silkworm.Properties.c95_violated"
   ],
   "note": "violated: accounts are stored under their hash cut at its first zero byte (undefined without one) and no slot is ever written; proved for the shortened keys and for code hashes"
  },
  {
   "property": "C96",
   "status": "partial",
   "theorems": [
    "Silkworm.Properties.c96_accounts_partial",
    "Silkworm.Properties.c96_changed_violated",
    "Silkworm.Properties.c96_undefined_violated",
    "Silkworm.Properties.c96_storage_partial",
    "Silkworm.Properties.c96_refuses",
    "Silkworm.Properties.c96_violated",
    "Silkworm.Properties.c96_code"
   ],
   "note": "violated: hashes are cut at their first zero byte (undefined without one), so changed accounts stay as they are; proved for unchanged accounts, slots, code hashes and refusals"
  },
  {
   "property": "C97",
   "status": "partial",
   "theorems": [
    "Silkworm.Properties.c97_gap_violated",
    "Silkworm.Properties.c97_cut_violated",
    "Silkworm.Properties.c97_accounts_partial",
    "Silkworm.Properties.c97_violated"
   ],
   "note": "violated: nothing is indexed if the last block processed has no record, and cut bitmaps lose a block; proved otherwise"
  },
  {
   "property": "C98",
   "status": "partial",
   "theorems": [
    "Silkworm.Properties.c98_nothing_violated",
    "Silkworm.Properties.c98_partial",
    "Silkworm.Properties.c98_violated"
   ],
   "note": "violated: keys of logs are never found; proved for logs under keys of blocks, where data may count as a topic or address"
  },
  {
   "property": "C99",
   "status": "partial",
   "theorems": [
    "Silkworm.Properties.c99_progress",
    "Silkworm.Properties.c99_kept_violated",
    "Silkworm.Properties.c99_one_violated",
    "Silkworm.Properties.c99_partial",
    "Silkworm.Properties.c99_stage_violated",
    "Silkworm.Properties.c99_violated"
   ],
   "note": "violated: nothing is erased from height 2 on and everything at height 1, and nothing is committed; proved at height 0 and where nothing has to go"
  },
  {
   "property": "C100",
   "status": "proved",
   "theorems": [
    "Silkworm.Properties.c100_collected_records",
    "Silkworm.Properties.c100_record_unique",
    "Silkworm.Properties.c100_record_invariants",
    "Silkworm.Properties.c100_ancestors_of_records"
   ],
   "note": ""
  },
  {
   "property": "C101",
   "status": "partial",
   "theorems": [
    "Silkworm.Properties.c101_collector_succeeds_iff",
    "Silkworm.Properties.c101_long_values",
    "Silkworm.Properties.c101_distinct_keys",
    "Silkworm.Properties.c101_collector_total_violated",
    "Silkworm.Properties.c101_small_branches_fail"
   ],
   "note": "violated by short branch nodes; proved exactly when it fails, and that it does not for values of 6 bytes or keys that differ in 27 bytes"
  },
  {
   "property": "C102",
   "status": "proved",
   "theorems": [
    "Silkworm.Properties.c102_root",
    "Silkworm.Properties.c102_state_root",
    "Silkworm.Properties.c102_wrong_root",
    "Silkworm.Properties.c102_undecodable_account",
    "Silkworm.Properties.c102_short_slot",
    "Silkworm.Properties.c102_duplicate_location"
   ],
   "note": ""
  },
  {
   "property": "C103",
   "status": "partial",
   "theorems": [
    "Silkworm.Properties.c103_records",
    "Silkworm.Properties.c103_record_exists",
    "Silkworm.Properties.c103_state_bits",
    "Silkworm.Properties.c103_storage_root",
    "Silkworm.Properties.c103_leftovers_violated",
    "Silkworm.Properties.c103_firstLevel_violated",
    "Silkworm.Properties.c103_ancestors_violated",
    "Silkworm.Properties.c103_ancestors_partial"
   ],
   "note": "violated: old records stay, and two of the listed invariants fail; proved which records both tables hold"
  },
  {
   "property": "C104",
   "status": "partial",
   "theorems": [
    "Silkworm.Properties.c104_storage_ignored",
    "Silkworm.Properties.c104_no_storage_partial",
    "Silkworm.Properties.c104_violated"
   ],
   "note": "violated: storage never reaches the root; proved for states without storage"
  },
  {
   "property": "C105",
   "status": "partial",
   "theorems": [
    "Silkworm.Properties.c105_violated",
    "Silkworm.Properties.c105_partial",
    "Silkworm.Properties.c105_total",
    "Silkworm.Properties.c105_constants",
    "Silkworm.Properties.c105_contract"
   ],
   "note": "violated: an array whose contents are needed goes out of scope; proved for compilers that keep the contents"
  },
  {
   "property": "C106",
   "status": "partial",
   "theorems": [
    "Silkworm.Properties.c106_partial",
    "Silkworm.Properties.c106_length",
    "Silkworm.Properties.c106_long",
    "Silkworm.Properties.c106_contract"
   ],
   "note": "proved below 2^32 bytes; beyond, proved that the padding has the wrong length"
  },
  {
   "property": "C107",
   "status": "proved",
   "theorems": [
    "Silkworm.Properties.c107_compress",
    "Silkworm.Properties.c107_contract"
   ],
   "note": ""
  },
  {
   "property": "C108",
   "status": "proved",
   "theorems": [
    "Silkworm.Properties.c108_encoding",
    "Silkworm.Properties.c108_determined",
    "Silkworm.Properties.c108_add",
    "Silkworm.Properties.c108_mul",
    "Silkworm.Properties.c108_contract"
   ],
   "note": ""
  },
  {
   "property": "C109",
   "status": "proved",
   "theorems": [
    "Silkworm.Properties.c109_determined",
    "Silkworm.Properties.c109_check",
    "Silkworm.Properties.c109_contract",
    "Silkworm.Properties.c109_inverse"
   ],
   "note": ""
  },
  {
   "property": "C110",
   "status": "proved",
   "theorems": [
    "Silkworm.Properties.c110_caches"
   ],
   "note": ""
  },
  {
   "property": "C111",
   "status": "proved",
   "theorems": [
    "Silkworm.Properties.c111_pool"
   ],
   "note": ""
  },
  {
   "property": "C112",
   "status": "partial",
   "theorems": [
    "Silkworm.Properties.c112_order",
    "Silkworm.Properties.c112_all_violated",
    "Silkworm.Properties.c112_all_partial",
    "Silkworm.Properties.c112_possible"
   ],
   "note": "violated: a batch may be missing; proved that what is loaded is a prefix in order, and when it is complete"
  },
  {
   "property": "C113",
   "status": "partial",
   "theorems": [
    "Silkworm.Properties.c113_defined_partial",
    "Silkworm.Properties.c113_single",
    "Silkworm.Properties.c113_queue_violated",
    "Silkworm.Properties.c113_failure_violated"
   ],
   "note": "violated: destroyed queue and lost batch are used; proved for one batch and until results are pulled early"
  },
  {
   "property": "C114",
   "status": "partial",
   "theorems": [
    "Silkworm.Properties.c114_more_violated",
    "Silkworm.Properties.c114_early_violated",
    "Silkworm.Properties.c114_lost_kick_violated",
    "Silkworm.Properties.c114_interrupt_violated",
    "Silkworm.Properties.c114_ends_partial"
   ],
   "note": "violated: never ends with more batches than workers, after a lost kick or an interrupt; proved after all batches are dispatched"
  },
  {
   "property": "C115",
   "status": "partial",
   "theorems": [
    "Silkworm.Properties.c115_ascii_partial",
    "Silkworm.Properties.c115_other_violated",
    "Silkworm.Properties.c115_violated"
   ],
   "note": "violated: tolower is undefined for characters beyond ASCII; proved for ASCII"
  },
  {
   "property": "C116",
   "status": "partial",
   "theorems": [
    "Silkworm.Properties.c116_format",
    "Silkworm.Properties.c116_value_partial",
    "Silkworm.Properties.c116_remainder_violated",
    "Silkworm.Properties.c116_saturated_violated",
    "Silkworm.Properties.c116_violated"
   ],
   "note": "violated: sizes of 2^64 and more are taken modulo 2^64 or saturated; format proved, value proved below 2^64"
  },
  {
   "property": "C117",
   "status": "partial",
   "theorems": [
    "Silkworm.Properties.c117_join_partial",
    "Silkworm.Properties.c117_trailing_partial",
    "Silkworm.Properties.c117_parts_partial",
    "Silkworm.Properties.c117_delimiter_violated",
    "Silkworm.Properties.c117_trailing_violated",
    "Silkworm.Properties.c117_violated"
   ],
   "note": "violated: a delimiter at the end is lost and the delimiter is its own part; proved otherwise"
  },
  {
   "property": "C118",
   "status": "partial",
   "theorems": [
    "Silkworm.Properties.c118_directory_partial",
    "Silkworm.Properties.c118_accepts",
    "Silkworm.Properties.c118_existing",
    "Silkworm.Properties.c118_violated"
   ],
   "note": "violated for the empty base path; proved for all others"
  },
  {
   "property": "C119",
   "status": "partial",
   "theorems": [
    "Silkworm.Properties.c119_state_root_partial",
    "Silkworm.Properties.c119_database_violated",
    "Silkworm.Properties.c119_zero_violated"
   ],
   "note": "violated: the database behind the buffer is ignored and slots set to zero count; proved over an empty database without zeros"
  },
  {
   "property": "C120",
   "status": "partial",
   "theorems": [
    "Silkworm.Properties.c120_genesis_partial",
    "Silkworm.Properties.c120_nonce_violated",
    "Silkworm.Properties.c120_extra_violated",
    "Silkworm.Properties.c120_allocations_violated",
    "Silkworm.Properties.c120_violated",
    "Silkworm.Properties.c120_code_violated"
   ],
   "note": "violated: little-endian nonce, ignored nonces, codes and storage of allocations, extra data that is not hexadecimal; proved otherwise"
  },
  {
   "property": "C121",
   "status": "partial",
   "theorems": [
    "Silkworm.Properties.c121_valid_partial",
    "Silkworm.Properties.c121_empty_violated",
    "Silkworm.Properties.c121_incomplete",
    "Silkworm.Properties.c121_difficulty_violated",
    "Silkworm.Properties.c121_violated"
   ],
   "note": "violated: empty alloc refused, extra data that is not hexadecimal accepted, undefined behaviour for difficulties without a zero byte; proved otherwise"
  },
  {
   "property": "C122",
   "status": "partial",
   "theorems": [
    "Silkworm.Properties.c122_header_partial",
    "Silkworm.Properties.c122_accounts",
    "Silkworm.Properties.c122_canonical_violated",
    "Silkworm.Properties.c122_difficulty_violated",
    "Silkworm.Properties.c122_violated"
   ],
   "note": "violated: no canonical hash, hence no block by number and no configuration; total difficulty only from 1 to 127; header, body and accounts by hash proved"
  },
  {
   "property": "C123",
   "status": "partial",
   "theorems": [
    "Silkworm.Properties.c123_accounts_partial",
    "Silkworm.Properties.c123_code_partial",
    "Silkworm.Properties.c123_storage_violated",
    "Silkworm.Properties.c123_unseen_violated",
    "Silkworm.Properties.c123_command_partial",
    "Silkworm.Properties.c123_after_hashing",
    "Silkworm.Properties.c123_violated"
   ],
   "note": "violated: reading beyond the address of any account, hashed slots are not looked at; accounts and code hashes proved"
  },
  {
   "property": "C124",
   "status": "partial",
   "theorems": [
    "Silkworm.Properties.c124_positions_partial",
    "Silkworm.Properties.c124_numbers_partial",
    "Silkworm.Properties.c124_fork_violated",
    "Silkworm.Properties.c124_violated"
   ],
   "note": "violated after forks, since bodies are counted; proved for positions, and where positions are numbers"
  },
  {
   "property": "C125",
   "status": "proved",
   "theorems": [
    "Silkworm.Properties.c125_hashes",
    "Silkworm.Properties.c125_genesis"
   ],
   "note": ""
  },
  {
   "property": "C126",
   "status": "proved",
   "theorems": [
    "Silkworm.Properties.c126_block",
    "Silkworm.Properties.c126_untouched",
    "Silkworm.Properties.c126_written",
    "Silkworm.Properties.c126_command"
   ],
   "note": ""
  },
  {
   "property": "C127",
   "status": "partial",
   "theorems": [
    "Silkworm.Properties.c127_headers_partial",
    "Silkworm.Properties.c127_texts",
    "Silkworm.Properties.c127_empty_violated",
    "Silkworm.Properties.c127_missing",
    "Silkworm.Properties.c127_wrap_violated",
    "Silkworm.Properties.c127_violated"
   ],
   "note": "violated: empty file without headers, undefined behaviour for an empty header value, endless loop when numbers wrap; proved otherwise"
  },
  {
   "property": "C128",
   "status": "partial",
   "theorems": [
    "Silkworm.Properties.c128_check_partial",
    "Silkworm.Properties.c128_init",
    "Silkworm.Properties.c128_init_check",
    "Silkworm.Properties.c128_zero_violated",
    "Silkworm.Properties.c128_zero_same_violated",
    "Silkworm.Properties.c128_violated",
    "Silkworm.Properties.c128_spelling_violated"
   ],
   "note": "violated for described slots with value zero and for two spellings of an address or key; proved otherwise"
  },
  {
   "property": "C129",
   "status": "partial",
   "theorems": [
    "Silkworm.Properties.c129_blocks",
    "Silkworm.Properties.c129_state",
    "Silkworm.Properties.c129_root",
    "Silkworm.Properties.c129_skipped",
    "Silkworm.Properties.c129_repeated_violated",
    "Silkworm.Properties.c129_counts",
    "Silkworm.Properties.c129_exit_partial",
    "Silkworm.Properties.c129_exit_violated"
   ],
   "note": "violated: a block that is canonical already ends the program, and 256 failures give exit status 0; proved otherwise"
  },
  {
   "property": "C130",
   "status": "partial",
   "theorems": [
    "Silkworm.Properties.c130_networks_partial",
    "Silkworm.Properties.c130_unknown",
    "Silkworm.Properties.c130_spelling_violated"
   ],
   "note": "violated for senders spelled with 0x or capitals; proved for the usual spelling"
  },
  {
   "property": "C131",
   "status": "proved",
   "theorems": [
    "Silkworm.Properties.c131_rules",
    "Silkworm.Properties.c131_transitions",
    "Silkworm.Properties.c131_dao",
    "Silkworm.Properties.c131_muir_glacier",
    "Silkworm.Properties.c131_names",
    "Silkworm.Properties.c131_chain"
   ],
   "note": ""
  },
  {
   "property": "C132",
   "status": "partial",
   "theorems": [
    "Silkworm.Properties.c132_execution",
    "Silkworm.Properties.c132_calls_partial",
    "Silkworm.Properties.c132_blocks_partial",
    "Silkworm.Properties.c132_results_partial",
    "Silkworm.Properties.c132_previous_violated",
    "Silkworm.Properties.c132_results_violated",
    "Silkworm.Properties.c132_storage_violated"
   ],
   "note": "violated where a destroyed contract's address is used again in particular ways; proved for blocks that do not reuse incarnations"
  },
  {
   "property": "C133",
   "status": "partial",
   "theorems": [
    "Silkworm.Properties.c133_each_partial",
    "Silkworm.Properties.c133_each_violated",
    "Silkworm.Properties.c133_count_partial",
    "Silkworm.Properties.c133_more_violated",
    "Silkworm.Properties.c133_fewer_violated"
   ],
   "note": "violated: the first record is handed out each time, and the count wraps; the exact behaviour is proved"
  },
  {
   "property": "C134",
   "status": "partial",
   "theorems": [
    "Silkworm.Properties.c134_free_partial",
    "Silkworm.Properties.c134_free_none",
    "Silkworm.Properties.c134_free_violated",
    "Silkworm.Properties.c134_scan"
   ],
   "note": "violated for free pages with different entries; proved for scans and the progress bar"
  },
  {
   "property": "C135",
   "status": "partial",
   "theorems": [
    "Silkworm.Properties.c135_single_partial",
    "Silkworm.Properties.c135_next_partial",
    "Silkworm.Properties.c135_empty_partial",
    "Silkworm.Properties.c135_copy_violated",
    "Silkworm.Properties.c135_status_violated",
    "Silkworm.Properties.c135_create_violated",
    "Silkworm.Properties.c135_merge"
   ],
   "note": "violated for two tables, empty tables and --create; proved for a single table, copied or merged"
  },
  {
   "property": "C136",
   "status": "partial",
   "theorems": [
    "Silkworm.Properties.c136_compact",
    "Silkworm.Properties.c136_replace_partial",
    "Silkworm.Properties.c136_replace_violated"
   ],
   "note": "violated with --replace, whose exact behaviour is proved; proved without it"
  },
  {
   "property": "C137",
   "status": "partial",
   "theorems": [
    "Silkworm.Properties.c137_yes",
    "Silkworm.Properties.c137_answers",
    "Silkworm.Properties.c137_silence_violated",
    "Silkworm.Properties.c137_end_violated"
   ],
   "note": "violated at the end of the input; proved when the questions are answered"
  },
  {
   "property": "C138",
   "status": "partial",
   "theorems": [
    "Silkworm.Properties.c138_fresh",
    "Silkworm.Properties.c138_accounts_partial",
    "Silkworm.Properties.c138_accounts_violated",
    "Silkworm.Properties.c138_storage_violated",
    "Silkworm.Properties.c138_logs_violated",
    "Silkworm.Properties.c138_lookup_violated",
    "Silkworm.Properties.c138_failed_violated",
    "Silkworm.Properties.c138_violated"
   ],
   "note": "violated: indices are emptied and not rebuilt, exactly characterised; proved for accounts changed in block 0 with lists of one chunk"
  },
  {
   "property": "C139",
   "status": "partial",
   "theorems": [
    "Silkworm.Properties.c139_status_partial",
    "Silkworm.Properties.c139_failed",
    "Silkworm.Properties.c139_point",
    "Silkworm.Properties.c139_trie",
    "Silkworm.Properties.c139_bad_hash_violated",
    "Silkworm.Properties.c139_chain_violated",
    "Silkworm.Properties.c139_violated"
   ],
   "note": "violated for blockhashes, exactly characterised; proved for the other commands"
  },
  {
   "property": "C140",
   "status": "partial",
   "theorems": [
    "Silkworm.Properties.c140_plain",
    "Silkworm.Properties.c140_reset",
    "Silkworm.Properties.c140_failed",
    "Silkworm.Properties.c140_full_partial",
    "Silkworm.Properties.c140_increment_violated",
    "Silkworm.Properties.c140_violated"
   ],
   "note": "violated for --full --increment; proved for the other combinations, storage aside (C56)"
  },
  {
   "property": "C141",
   "status": "partial",
   "theorems": [
    "Silkworm.Properties.c141_list_partial",
    "Silkworm.Properties.c141_interhashes_violated",
    "Silkworm.Properties.c141_twice_violated"
   ],
   "note": "violated for the intermediate hashes; proved for the other stages"
  },
  {
   "property": "C142",
   "status": "proved",
   "theorems": [
    "Silkworm.Properties.c142_keccak256",
    "Silkworm.Properties.c142_keccak512",
    "Silkworm.Properties.c142_padding",
    "Silkworm.Properties.c142_constants",
    "Silkworm.Properties.c142_state_root"
   ],
   "note": ""
  },
  {
   "property": "C143",
   "status": "partial",
   "theorems": [
    "Silkworm.Properties.c143_largest_prime_partial",
    "Silkworm.Properties.c143_violated"
   ],
   "note": "violated for the bound 2; proved for every other bound"
  },
  {
   "property": "C144",
   "status": "partial",
   "theorems": [
    "Silkworm.Properties.c144_cache_partial",
    "Silkworm.Properties.c144_dataset_partial",
    "Silkworm.Properties.c144_violated"
   ],
   "note": "violated from epoch 65408 (dataset) and 2097024 (cache) on, exactly characterised"
  },
  {
   "property": "C145",
   "status": "proved",
   "theorems": [
    "Silkworm.Properties.c145_cache",
    "Silkworm.Properties.c145_no_items",
    "Silkworm.Properties.c145_dataset"
   ],
   "note": ""
  },
  {
   "property": "C146",
   "status": "partial",
   "theorems": [
    "Silkworm.Properties.c146_hash",
    "Silkworm.Properties.c146_verify_partial",
    "Silkworm.Properties.c146_yellow_paper",
    "Silkworm.Properties.c146_violated",
    "Silkworm.Properties.c146_no_memory_violated",
    "Silkworm.Properties.c146_headers",
    "Silkworm.Properties.c146_accepted_header"
   ],
   "note": "violated in epoch 65408 and without memory; proved for blocks below 979230000"
  },
  {
   "property": "C147",
   "status": "partial",
   "theorems": [
    "Silkworm.Properties.c147_comparison",
    "Silkworm.Properties.c147_boundary_partial",
    "Silkworm.Properties.c147_violated"
   ],
   "note": "violated where result * difficulty is 2^256; otherwise proved"
  },
  {
   "property": "C148",
   "status": "partial",
   "theorems": [
    "Silkworm.Properties.c148_epoch_partial",
    "Silkworm.Properties.c148_violated"
   ],
   "note": "violated for epochs from 30000 on; answers that are given are proved right"
  },
  {
   "property": "C149",
   "status": "partial",
   "theorems": [
    "Silkworm.Properties.c149_report_partial",
    "Silkworm.Properties.c149_complete",
    "Silkworm.Properties.c149_status_violated",
    "Silkworm.Properties.c149_height_violated"
   ],
   "note": "violated: the exit status is always 0 and the height is reduced to 32 bits; the report is proved for blocks below 979230000"
  },
  {
   "property": "C150",
   "status": "partial",
   "theorems": [
    "Silkworm.Properties.c150_lines",
    "Silkworm.Properties.c150_sum_partial",
    "Silkworm.Properties.c150_refused",
    "Silkworm.Properties.c150_violated",
    "Silkworm.Properties.c150_invalid_violated"
   ],
   "note": "violated: transactions after the last multiple of 50000 are not reported, invalid blocks do not change the status; lines proved"
  },
  {
   "property": "C151",
   "status": "partial",
   "theorems": [
    "Silkworm.Properties.c151_known",
    "Silkworm.Properties.c151_wellFormed",
    "Silkworm.Properties.c151_revision",
    "Silkworm.Properties.c151_clique_violated",
    "Silkworm.Properties.c151_violated",
    "Silkworm.Properties.c151_reward_violated"
   ],
   "note": "violated: no header of Clique is accepted on Rinkeby and Goerli, and their blocks are rewarded; the rest is proved"
  },
  {
   "property": "C152",
   "status": "partial",
   "theorems": [
    "Silkworm.Properties.c152_existing",
    "Silkworm.Properties.c152_create",
    "Silkworm.Properties.c152_request",
    "Silkworm.Properties.c152_path",
    "Silkworm.Properties.c152_violated",
    "Silkworm.Properties.c152_refused_partial"
   ],
   "note": "violated: a refused combination of options leaves a new directory; otherwise proved"
  },
  {
   "property": "C153",
   "status": "partial",
   "theorems": [
    "Silkworm.Properties.c153_order",
    "Silkworm.Properties.c153_possible",
    "Silkworm.Properties.c153_reset_violated",
    "Silkworm.Properties.c153_defined_partial",
    "Silkworm.Properties.c153_return_violated",
    "Silkworm.Properties.c153_all_violated",
    "Silkworm.Properties.c153_failure_violated",
    "Silkworm.Properties.c153_lost_kick_violated"
   ],
   "note": "violated: a worker that gets a batch before it resets the last one does something undefined, results can be missing, failures give success, a lost kick never ends; order and the rest proved"
  },
  {
   "property": "C154",
   "status": "partial",
   "theorems": [
    "Silkworm.Properties.c154_exit",
    "Silkworm.Properties.c154_unwind_partial",
    "Silkworm.Properties.c154_one_violated",
    "Silkworm.Properties.c154_violated"
   ],
   "note": "violated at height 1, where everything is erased; proved from height 2 on; no commit on failure or --dry proved"
  },
  {
   "property": "C155",
   "status": "partial",
   "theorems": [
    "Silkworm.Properties.c155_shift",
    "Silkworm.Properties.c155_partial",
    "Silkworm.Properties.c155_kept",
    "Silkworm.Properties.c155_failed_violated",
    "Silkworm.Properties.c155_ahead_violated",
    "Silkworm.Properties.c155_to_violated",
    "Silkworm.Properties.c155_force",
    "Silkworm.Properties.c155_overflow_violated",
    "Silkworm.Properties.c155_violated",
    "Silkworm.Properties.c155_force_violated"
   ],
   "note": "violated by blocks without transactions, keys not recovered, late batches, --to below the last body, canonical hashes beyond the bodies, --force from block 2, and blocks larger than a batch; proved otherwise"
  },
  {
   "property": "C156",
   "status": "partial",
   "theorems": [
    "Silkworm.Properties.c156_root_without_memory_violated",
    "Silkworm.Properties.c156_truncated_transaction_violated",
    "Silkworm.Properties.c156_host_rules_partial",
    "Silkworm.Properties.c156_nothing_left",
    "Silkworm.Properties.c156_use_after_delete",
    "Silkworm.Properties.c156_null",
    "Silkworm.Properties.c156_delete_null",
    "Silkworm.Properties.c156_failed_constructor",
    "Silkworm.Properties.c156_chain_refers",
    "Silkworm.Properties.c156_unwritten"
   ],
   "note": "violated without memory for a root, and for truncated transactions; proved if malloc succeeds and the decoders, execution and validation are defined"
  },
  {
   "property": "C157",
   "status": "partial",
   "theorems": [
    "Silkworm.Properties.c157_history",
    "Silkworm.Properties.c157_read_account",
    "Silkworm.Properties.c157_read_code",
    "Silkworm.Properties.c157_read_storage",
    "Silkworm.Properties.c157_number_of_accounts",
    "Silkworm.Properties.c157_storage_size",
    "Silkworm.Properties.c157_root",
    "Silkworm.Properties.c157_root_of_world",
    "Silkworm.Properties.c157_long_location_violated",
    "Silkworm.Properties.c157_long_value_violated",
    "Silkworm.Properties.c157_removed_storage_violated",
    "Silkworm.Properties.c157_previous_incarnation_violated"
   ],
   "note": "violated for locations and values of more than 32 bytes and for removed accounts; the rest is proved"
  },
  {
   "property": "C158",
   "status": "partial",
   "theorems": [
    "Silkworm.Properties.c158_heaviest",
    "Silkworm.Properties.c158_state_partial",
    "Silkworm.Properties.c158_block_senders",
    "Silkworm.Properties.c158_written_between_violated"
   ],
   "note": "violated if the host writes to the state between blocks, and for blocks inserted again (C71); proved otherwise"
  },
  {
   "property": "C159",
   "status": "proved",
   "theorems": [
    "Silkworm.Properties.c159_hex",
    "Silkworm.Properties.c159_uint256",
    "Silkworm.Properties.c159_difficulty",
    "Silkworm.Properties.c159_intrinsic_gas",
    "Silkworm.Properties.c159_transaction",
    "Silkworm.Properties.c159_transaction_legacy",
    "Silkworm.Properties.c159_block",
    "Silkworm.Properties.c159_keccak",
    "Silkworm.Properties.c159_sender",
    "Silkworm.Properties.c159_fork_block",
    "Silkworm.Properties.c159_account",
    "Silkworm.Properties.c159_header"
   ],
   "note": ""
  }
 ]
}