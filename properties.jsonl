{"id": "C01", "title": "RLP integers round-trip and are minimal", "statement": "Decoding the RLP encoding of any 64-bit or 256-bit unsigned integer, followed by arbitrary further bytes, returns exactly that integer and leaves exactly the further bytes; the encoding is the unique shortest one (no leading zero byte, single byte below 0x80).", "quantifier": "for all n < 2^64 (resp. n < 2^256) and all byte strings that may follow", "why_tests_cant": "2^64 and 2^256 values with arbitrary trailing data; boundary lengths interact with the single-byte rule.", "anchors": ["core/silkworm/rlp/encode.cpp: rlp::encode(uint64_t), rlp::encode(uint256), rlp::big_endian", "core/silkworm/rlp/decode.cpp: rlp::decode<uint64_t>, rlp::decode<uint256>, read_uint64, read_uint256"]}
{"id": "C02", "title": "RLP byte strings and fixed-size arrays round-trip", "statement": "Decoding the RLP encoding of any byte string shorter than 2^64 bytes, or of any fixed-size array of 2..55 bytes, followed by arbitrary further bytes, returns exactly that string and leaves exactly the further bytes.", "quantifier": "for all byte strings of length < 2^64, all suffixes", "why_tests_cant": "Unbounded set of strings; long-form length headers cannot be exhausted.", "anchors": ["core/silkworm/rlp/encode.cpp: rlp::encode(ByteView), encode_header", "core/silkworm/rlp/decode.cpp: rlp::decode<Bytes>, decode_header", "core/silkworm/rlp/decode.hpp: decode(gsl::span<uint8_t,N>)"]}
{"id": "C03", "title": "RLP decoding accepts only canonical encodings", "statement": "Whenever the integer, byte-string or fixed-array decoder succeeds, the bytes it consumed are exactly the encoder's output for the value it returned; hence no value has two accepted encodings.", "quantifier": "for all input byte strings", "why_tests_cant": "Needs all malformed inputs to be rejected, an infinite set.", "anchors": ["core/silkworm/rlp/decode.cpp: decode_header, read_uint64, read_uint256, decode<...>"]}
{"id": "C04", "title": "RLP decoders never read outside their input", "statement": "On every input, the header, integer, bool, byte-string, fixed-array and vector decoders either succeed or return an error without ever accessing memory outside the given view, and on success the remaining view is a suffix of the input.", "quantifier": "for all input byte strings of length < 2^64", "why_tests_cant": "Out-of-bounds reads are undefined behaviour and show only for particular adversarial inputs.", "anchors": ["core/silkworm/rlp/decode.cpp: decode_header, decode<...>", "core/silkworm/rlp/decode.hpp: decode_vector, decode(span)"]}
{"id": "C05", "title": "length() equals the size of the encoding", "statement": "For every encodable value (integers, strings, vectors, access list entries, transactions, block headers, logs) rlp::length returns exactly the number of bytes rlp::encode appends.", "quantifier": "for all values whose encoding is shorter than 2^64 bytes", "why_tests_cant": "Length is computed by separate code from the encoder; a mismatch corrupts enclosing list headers only for particular values.", "anchors": ["core/silkworm/rlp/encode.cpp: rlp::length, length_of_length", "core/silkworm/types/block.cpp: rlp_header, length(BlockHeader)", "core/silkworm/types/transaction.cpp: rlp_header, length(Transaction), length(AccessListEntry)", "core/silkworm/types/log.cpp: length(Log)"]}
{"id": "C06", "title": "RLP lists are uniquely decodable", "statement": "Concatenated item encodings in a list payload determine the items: two lists of encodable items with the same list encoding are equal, and no item encoding is a proper prefix of another.", "quantifier": "for all pairs of lists of items", "why_tests_cant": "Statement about all pairs of values.", "anchors": ["core/silkworm/rlp/encode.hpp: encode(vector<T>)", "core/silkworm/rlp/decode.hpp: decode_vector"]}
{"id": "C07", "title": "Block header RLP round-trips", "statement": "Decoding the encoding of any block header (with or without base fee) returns an equal header and consumes exactly the encoding.", "quantifier": "for all block headers with extra data shorter than 2^63 bytes, all suffixes", "why_tests_cant": "Sixteen fields with arbitrary values, optional last field.", "anchors": ["core/silkworm/types/block.cpp: rlp::encode(BlockHeader), rlp::decode<BlockHeader>"]}
{"id": "C08", "title": "Block body and block RLP round-trip", "statement": "Decoding the encoding of any block body (transactions and ommers), or of a full block in wire form, returns an equal body/block and consumes exactly the encoding.", "quantifier": "for all block bodies made of round-trippable transactions and headers", "why_tests_cant": "Unbounded lists of transactions of three types and of ommers.", "anchors": ["core/silkworm/types/block.cpp: rlp::encode(BlockBody), rlp::decode<BlockBody>, rlp::decode<Block>"]}
{"id": "C09", "title": "Legacy transaction RLP round-trips", "statement": "Decoding the encoding of a legacy transaction returns an equal transaction (fields compared as operator== does), for every transaction whose chain id does not overflow v.", "quantifier": "for all legacy transactions with equal fee fields and empty access list and 2*chain_id+36 < 2^256", "why_tests_cant": "Field values unbounded; interaction between v and chain id.", "anchors": ["core/silkworm/types/transaction.cpp: legacy_encode, legacy_decode, rlp::decode<Transaction>"]}
{"id": "C10", "title": "Typed (EIP-2930/EIP-1559) transaction RLP round-trips", "statement": "Decoding the wrapped encoding of any type-1 or type-2 transaction returns an equal transaction and consumes exactly the encoding.", "quantifier": "for all typed transactions with present chain id (and equal fee fields for type 1)", "why_tests_cant": "Arbitrary access lists.", "anchors": ["core/silkworm/types/transaction.cpp: eip2718_encode, eip2718_decode, rlp::decode<Transaction>"]}
{"id": "C11", "title": "Transaction decoding accepts only canonical encodings", "statement": "Whenever decoding a transaction succeeds, re-encoding the result reproduces exactly the consumed bytes, so that a transaction cannot be given a second wire form.", "quantifier": "for all input byte strings", "why_tests_cant": "Malleability shows only for adversarial encodings.", "anchors": ["core/silkworm/types/transaction.cpp: rlp::decode<Transaction>, legacy_decode, eip2718_decode"]}
{"id": "C12", "title": "Transaction, header and body decoders are memory safe", "statement": "On every input the transaction, access list, header, body and block decoders either succeed or return an error, never reading outside the input.", "quantifier": "for all input byte strings", "why_tests_cant": "Reading one byte past the end of a view needs a precisely truncated input.", "anchors": ["core/silkworm/types/transaction.cpp: legacy_decode, eip2718_decode", "core/silkworm/types/block.cpp: decode<BlockHeader>, decode<BlockBody>, decode<Block>"]}
{"id": "C13", "title": "The signed payload commits to every transaction field", "statement": "Two transactions with the same signing payload have the same type, nonce, fees, gas limit, recipient, value, data, chain id and access list, so a signature cannot be transplanted to a different transaction, another chain id or another type.", "quantifier": "for all pairs of transactions", "why_tests_cant": "Injectivity over all pairs of transactions including across types.", "anchors": ["core/silkworm/types/transaction.cpp: rlp::encode(Transaction, for_signing, wrap)"]}
{"id": "C14", "title": "v and (y parity, chain id) convert both ways without loss", "statement": "Splitting any 256-bit v and recombining gives back v; combining any parity and chain id with 2*chain_id+36 < 2^256 and splitting gives them back.", "quantifier": "for all 256-bit v; for all parities and chain ids in range", "why_tests_cant": "2^256 values with wrap-around arithmetic.", "anchors": ["core/silkworm/crypto/ecdsa.cpp: y_parity_and_chain_id_to_v, v_to_y_parity_and_chain_id", "core/silkworm/types/transaction.cpp: v, set_v"]}
{"id": "C15", "title": "Only signatures with r and s in range are valid", "statement": "A signature is accepted exactly when 0 < r < n and 0 < s < n and, under homestead rules, s <= n/2, where n is the secp256k1 group order.", "quantifier": "for all 256-bit r, s and both rule sets", "why_tests_cant": "Out-of-range r has negligible probability in random tests.", "anchors": ["core/silkworm/crypto/ecdsa.cpp: is_valid_signature"]}
{"id": "C16", "title": "Account storage encoding round-trips", "statement": "Decoding the storage encoding of any account returns the same account; when the code hash is omitted everything else is preserved; the predicted encoding length is exact.", "quantifier": "for all accounts (nonce, incarnation < 2^64, balance < 2^256, any code hash)", "why_tests_cant": "All field values and all combinations of present fields.", "anchors": ["core/silkworm/types/account.cpp: Account::encode_for_storage, encoding_length_for_storage, decode_account_from_storage"]}
{"id": "C17", "title": "Account storage decoding is memory safe on any input", "statement": "Decoding an account from storage, or extracting its incarnation, on any byte string either succeeds or returns an error without reading or writing out of bounds, and the two agree on the incarnation whenever full decoding succeeds.", "quantifier": "for all byte strings", "why_tests_cant": "Needs truncated or corrupt database records.", "anchors": ["core/silkworm/types/account.cpp: decode_account_from_storage, extract_incarnation"]}
{"id": "C18", "title": "Log blooms have no false negatives and are compositional", "statement": "For every list of logs, each address and topic of each log tests positive against the bloom; every set bit is justified by one of them; the bloom of a concatenation is the join of the blooms; join is commutative, associative and idempotent.", "quantifier": "for all lists of logs and every hash function", "why_tests_cant": "Quantifies over all logs and hash outputs.", "anchors": ["core/silkworm/types/bloom.cpp: m3_2048, logs_bloom", "core/silkworm/types/bloom.hpp: join"]}
{"id": "C19", "title": "Intrinsic gas matches the protocol formula", "statement": "The intrinsic gas of a transaction equals 21000 (plus 32000 for creation from Homestead) plus 4 per zero byte and 68 or 16 (Istanbul) per non-zero byte of data plus 2400 per access list address and 1900 per storage key, computed without overflow.", "quantifier": "for all transactions and fork flags", "why_tests_cant": "Unbounded data and access lists; overflow only for huge inputs.", "anchors": ["core/silkworm/chain/intrinsic_gas.cpp: intrinsic_gas"]}
{"id": "C20", "title": "Effective gas price respects the user's caps", "statement": "For a transaction whose max fee covers the base fee, the effective gas price is at least the base fee, at most the max fee, the priority fee is at most the max priority fee, price minus base fee equals the priority fee, and no arithmetic wraps.", "quantifier": "for all transactions and base fees with max_fee >= base_fee", "why_tests_cant": "Arithmetic over all 256-bit values.", "anchors": ["core/silkworm/types/transaction.cpp: priority_fee_per_gas, effective_gas_price"]}
{"id": "C21", "title": "Difficulty follows the protocol rules", "statement": "Canonical difficulty is never below 131072, is monotone non-increasing in the block timestamp, and equals the Homestead/Byzantium (EIP-100)/Frontier formula plus the delayed bomb without wrap-around.", "quantifier": "for all parent difficulties, timestamps, block numbers and fork configurations", "why_tests_cant": "Integer wrap and clamping corner cases over 64/256-bit ranges.", "anchors": ["core/silkworm/chain/difficulty.cpp: canonical_difficulty"]}
{"id": "C22", "title": "Base fee adjustment is bounded and directed", "statement": "The expected base fee equals the parent's when gas used equals the target, rises by at least 1 above target (and by at most 1/8 or 1 if at most twice the target was used), falls by at most 1/8 below target, and is the initial value at the London block.", "quantifier": "for all parent headers with positive gas target", "why_tests_cant": "256-bit arithmetic and integer division over the whole range.", "anchors": ["core/silkworm/chain/validity.cpp: expected_base_fee_per_gas"]}
{"id": "C23", "title": "Header validation enforces every header rule", "statement": "A header accepted against a state satisfies: gas used <= gas limit, gas limit within bounds of the parent and at least 5000, extra data at most 32 bytes, timestamp after the parent, number = parent number + 1, difficulty as computed, DAO extra data, base fee exact; and each rejection code is returned only when its rule is broken.", "quantifier": "for all headers, parents and configurations", "why_tests_cant": "Conjunction of many rules; wrap-around in bounds.", "anchors": ["core/silkworm/chain/validity.cpp: validate_block_header"]}
{"id": "C24", "title": "Transaction pre-validation accepts exactly the well-formed transactions", "statement": "Pre-validation succeeds exactly when the chain id (if any) matches, the type is enabled by the fork, the priority fee does not exceed the max fee, the base fee is covered, the signature is valid and the gas limit covers the intrinsic gas.", "quantifier": "for all transactions, block numbers, configurations, base fees", "why_tests_cant": "Combination of fork flags and field values.", "anchors": ["core/silkworm/chain/validity.cpp: pre_validate_transaction"]}
{"id": "C25", "title": "Ommer validation enforces uniqueness and kinship", "statement": "If a block's ommers are accepted, there are at most two of them, distinct, each a valid header that is not an ancestor, whose parent is an ancestor within six generations, and not included by any of those ancestors; kinship never accepts a header as its own branch.", "quantifier": "for all block trees and blocks", "why_tests_cant": "Requires arbitrary block trees.", "anchors": ["core/silkworm/chain/validity.cpp: pre_validate_block, is_kin, get_parent"]}
{"id": "C26", "title": "Fork activation is monotone and total", "statement": "The active EVM revision is a monotone function of the block number, equals the highest fork whose configured block is reached, and configurations with missing forks never activate them.", "quantifier": "for all configurations with ordered fork blocks and all block numbers", "why_tests_cant": "All configurations and numbers.", "anchors": ["core/silkworm/chain/config.cpp: ChainConfig::revision"]}
{"id": "C27", "title": "Canonical chain is the heaviest valid known chain", "statement": "After any sequence of block insertions, canonical hashes form a parent-linked chain ending at the head, and no accepted block has larger total difficulty than the canonical head.", "quantifier": "for all sequences of block insertions", "why_tests_cant": "Requires arbitrary forks and reorgs.", "anchors": ["core/silkworm/chain/blockchain.cpp: Blockchain::insert_block, re_execute_canonical_chain, unwind_last_changes"]}
{"id": "C28", "title": "Reverting to a snapshot undoes everything since", "statement": "For any state and any sequence of state-changing operations executed after taking a snapshot, reverting restores every observable of the state: existence, balance, nonce, code, original and current storage, destruct flags, refund, logs, access lists and touched set (except the historical RIPEMD-160 touch).", "quantifier": "for all states and all finite sequences of operations, including nested snapshots", "why_tests_cant": "Unbounded interleavings of operations.", "anchors": ["core/silkworm/state/intra_block_state.cpp: take_snapshot, revert_to_snapshot", "core/silkworm/state/delta.cpp: revert"]}
{"id": "C29", "title": "Reading state never changes it", "statement": "Any sequence of read operations (existence, balance, nonce, code, storage) leaves every later observation unchanged, although the implementation caches what it reads.", "quantifier": "for all states and all sequences of reads", "why_tests_cant": "Caching bugs show only for specific later sequences.", "anchors": ["core/silkworm/state/intra_block_state.cpp: get_object, get_balance, get_nonce, get_code, get_storage"]}
{"id": "C30", "title": "State writes are read back and do not interfere", "statement": "A balance, nonce, code or storage write is visible to the next read of that item and changes the observation of no other account or slot.", "quantifier": "for all states, accounts, slots and values", "why_tests_cant": "Frame conditions over all other accounts and slots.", "anchors": ["core/silkworm/state/intra_block_state.cpp: set_balance, add_to_balance, set_nonce, set_code, set_storage"]}
{"id": "C31", "title": "Committing a block's state changes makes them the new database state", "statement": "After finalising and writing to the database, reading accounts, storage and code through a fresh state over that database returns what the in-memory state reported.", "quantifier": "for all databases and all sequences of operations within a block", "why_tests_cant": "Combination of creation, destruction, empties and storage.", "anchors": ["core/silkworm/state/intra_block_state.cpp: finalize_transaction, write_to_db, destruct_suicides, destruct_touched_dead", "core/silkworm/state/memory_buffer.cpp: update_account, update_account_code, update_storage"]}
{"id": "C32", "title": "Unwinding a block restores the previous database state", "statement": "Executing a block's writes and then unwinding them restores every account and storage value to what it was before the block.", "quantifier": "for all database states and all block writes", "why_tests_cant": "All combinations of overwritten, created and deleted entries.", "anchors": ["core/silkworm/state/memory_buffer.cpp: unwind_state_changes, begin_block, update_account, update_storage"]}
{"id": "C33", "title": "A re-created contract never sees the storage of its destroyed predecessor", "statement": "After a contract is destroyed and a contract is created again at the same address, all storage of the new contract reads zero until written.", "quantifier": "for all sequences of transactions within and across blocks", "why_tests_cant": "Needs destroy / fund / recreate sequences.", "anchors": ["core/silkworm/state/intra_block_state.cpp: create_contract, destruct, get_storage"]}
{"id": "C34", "title": "Trie hash builder computes the Merkle-Patricia root", "statement": "Feeding any strictly increasing prefix-free sequence of keys with values to the hash builder yields the root of the Merkle-Patricia trie of that map as defined by the Yellow Paper, for every hash function.", "quantifier": "for all finite sorted key-value sequences", "why_tests_cant": "Infinitely many tries; embedded short nodes and branch/extension shapes.", "anchors": ["core/silkworm/trie/hash_builder.cpp: HashBuilder::add, gen_struct_step, finalize, root_hash", "core/silkworm/trie/vector_root.hpp: root_hash"]}
{"id": "C35", "title": "List roots enumerate list items in key order", "statement": "The index transformation used for transaction/receipt roots enumerates 0..n-1 exactly once in the order of the RLP-encoded index keys, so keys reach the hash builder strictly increasing.", "quantifier": "for all list lengths", "why_tests_cant": "Boundary at 127/128/255/256/65536 for any length.", "anchors": ["core/silkworm/trie/vector_root.hpp: adjust_index_for_rlp, root_hash"]}
{"id": "C36", "title": "Trie node database records round-trip", "statement": "Unmarshalling a marshalled intermediate trie node returns the same masks, hashes and optional root hash.", "quantifier": "for all valid nodes", "why_tests_cant": "All masks and hash lists.", "anchors": ["db/silkworm/trie/db_trie.cpp: marshal_node, unmarshal_node", "db/silkworm/trie/db_trie.hpp: marshal_node"]}
{"id": "C37", "title": "Hex-prefix path encoding is injective", "statement": "Distinct (nibble path, leaf flag) pairs have distinct encodings and the encoding of a path has the length prescribed by the Yellow Paper.", "quantifier": "for all nibble paths and flags", "why_tests_cant": "Infinite set of paths.", "anchors": ["core/silkworm/trie/hash_builder.cpp: encode_path, unpack_nibbles"]}
{"id": "C38", "title": "SSTORE status and refunds follow EIP-2200/3529/1283", "statement": "For every original, current and new storage value the status reported to the EVM and the refund counter change agree with the net-metering specification, and over any write sequence the refund counter equals the specification's total and never underflows.", "quantifier": "for all value triples, all revisions, all write sequences", "why_tests_cant": "Long write sequences to the same slot.", "anchors": ["core/silkworm/execution/evm.cpp: EvmHost::set_storage"]}
{"id": "C39", "title": "Transaction gas accounting is consistent", "statement": "Gas used plus gas returned equals the gas limit, the refund never exceeds half (a fifth from London) of the gas consumed, gas used is at most the gas limit, and cumulative gas used in a block is the sum of per-transaction gas and never exceeds the block gas limit.", "quantifier": "for all transactions, EVM outcomes and blocks", "why_tests_cant": "EVM results arbitrary.", "anchors": ["core/silkworm/execution/processor.cpp: execute_transaction, refund_gas, available_gas, execute_block"]}
{"id": "C40", "title": "Ether is conserved by transaction execution", "statement": "Executing a transaction changes the total balance exactly by the burnt base fee (if London) and self-destruct losses; the miner is paid priority fee times gas used; the sender pays at most gas limit times effective price plus value.", "quantifier": "for all states, transactions and value-preserving EVM executions", "why_tests_cant": "Sum over all accounts.", "anchors": ["core/silkworm/execution/processor.cpp: execute_transaction, refund_gas"]}
{"id": "C41", "title": "A valid transaction can always pay", "statement": "If transaction validation succeeds, the sender exists, its nonce equals the transaction's, its balance covers gas limit times price plus value without overflow, and the block has enough gas left; buying gas then never makes a balance negative.", "quantifier": "for all transactions and states", "why_tests_cant": "512-bit arithmetic and overflow corner cases.", "anchors": ["core/silkworm/execution/processor.cpp: validate_transaction"]}
{"id": "C42", "title": "BLOCKHASH returns the ancestor's hash", "statement": "The hash returned to the EVM for block number n is the hash of the ancestor at that height on the block's own branch for any n within range, and zero otherwise, regardless of the order of queries (cached results agree with uncached ones).", "quantifier": "for all chains and query sequences", "why_tests_cant": "Stateful cache extended by arbitrary query orders.", "anchors": ["core/silkworm/execution/evm.cpp: EvmHost::get_block_hash"]}
{"id": "C43", "title": "Block rewards follow the protocol", "statement": "Miner receives base reward plus 1/32 per ommer, each ommer miner receives (8 + ommer number - block number)/8 of the reward, with 5/3/2 ether by fork.", "quantifier": "for all blocks with valid ommers", "why_tests_cant": "All ommer distances and fork settings.", "anchors": ["core/silkworm/execution/processor.cpp: apply_rewards"]}
{"id": "C44", "title": "Precompile gas formulas match the specification", "statement": "Gas for identity, SHA-256, RIPEMD-160, modexp (EIP-198 and EIP-2565), bn128 and blake2f equals the specified formula for every input length, saturating rather than wrapping.", "quantifier": "for all inputs", "why_tests_cant": "Overflow occurs only for huge declared lengths.", "anchors": ["core/silkworm/execution/precompiled.cpp: expmod_gas, mult_complexity_eip198, mult_complexity_eip2565, id_gas, sha256_gas, rip160_gas, snarkv_gas, blake2_f_gas"]}
{"id": "C45", "title": "Modexp output has the declared length and value", "statement": "Whenever the modexp precompile runs, the output has exactly modulus-length bytes and represents base^exponent mod modulus (zero when the modulus is zero).", "quantifier": "for all inputs with feasible lengths", "why_tests_cant": "Arbitrary-precision arithmetic.", "anchors": ["core/silkworm/execution/precompiled.cpp: expmod_run"]}
{"id": "C46", "title": "Database keys are injective and order-preserving", "statement": "Block, storage-prefix, change-set, history and log keys decode back to their components, and comparing keys bytewise orders them by block number (and then hash).", "quantifier": "for all block numbers, hashes, addresses, incarnations and slots", "why_tests_cant": "Ordering over all pairs.", "anchors": ["db/silkworm/db/util.cpp: block_key, storage_prefix, storage_change_key, account_history_key, storage_history_key, log_key"]}
{"id": "C47", "title": "Plain-state storage keeps exactly one current value per slot", "statement": "After writing any sequence of values to a storage slot in the database, reading the slot returns the last value written (zero if it was set to zero).", "quantifier": "for all sequences of writes to any slots", "why_tests_cant": "Depends on previously stored values in the multi-value table.", "anchors": ["db/silkworm/db/buffer.cpp: upsert_storage_value, write_to_state_table", "db/silkworm/db/access_layer.cpp: read_storage", "db/silkworm/db/util.cpp: find_value_suffix"]}
{"id": "C48", "title": "Historical reads return the value as of the requested block", "statement": "Reading an account or storage slot at a historical block returns the value it had at that block.", "quantifier": "for all histories, accounts, slots and block numbers", "why_tests_cant": "All histories.", "anchors": ["db/silkworm/db/access_layer.cpp: read_account, read_storage, historical_account, historical_storage"]}
{"id": "C49", "title": "Splitting a history bitmap into chunks loses no block number", "statement": "Repeatedly cutting chunks off a bitmap until it is empty yields chunks whose union is the original set, each within the size limit, in increasing order.", "quantifier": "for all sets of block numbers and size limits", "why_tests_cant": "Needs bitmaps exceeding the chunk limit.", "anchors": ["db/silkworm/db/bitmap.cpp: cut_left"]}
{"id": "C50", "title": "ETL load delivers every collected entry exactly once in key order", "statement": "Loading a collector calls the load function with exactly the collected entries, as a multiset, in non-decreasing key order, independent of buffer size and number of flushes.", "quantifier": "for all sequences of collected entries and all buffer sizes", "why_tests_cant": "Flush boundaries and k-way merging across files.", "anchors": ["db/silkworm/etl/collector.cpp: Collector::collect, Collector::load", "db/silkworm/etl/buffer.cpp: Buffer", "db/silkworm/etl/file_provider.cpp: FileProvider"]}
{"id": "C51", "title": "ETL spill files round-trip", "statement": "Reading back a flushed buffer yields the same entries in the same order and then end of data.", "quantifier": "for all entries with lengths below 2^32", "why_tests_cant": "All lengths and contents.", "anchors": ["db/silkworm/etl/file_provider.cpp: flush, read_entry"]}
{"id": "C52", "title": "Execution stage executes each block exactly once and makes progress", "statement": "Running the execution stage over a range executes every block of the range exactly once, in order, whatever the batch size.", "quantifier": "for all ranges and batch sizes", "why_tests_cant": "Depends on where the batch fills.", "anchors": ["db/silkworm/stagedsync/stage_execution.cpp: execute, stage_execution"]}
{"id": "C53", "title": "Unwinding the execution stage restores the state at the target block", "statement": "Unwinding to block n yields the plain state as of n.", "quantifier": "for all change-set histories and targets", "why_tests_cant": "All histories, including blocks without changes.", "anchors": ["db/silkworm/stagedsync/stage_execution.cpp: unwind_execution, walk_collect, collect_for_unwind"]}
{"id": "C54", "title": "Recovered senders are stored under their own block", "statement": "After sender recovery every canonical block's senders are stored under that block's hash in transaction order.", "quantifier": "for all chains, including blocks without transactions and any batching", "why_tests_cant": "Depends on empty blocks and batch boundaries.", "anchors": ["db/silkworm/stagedsync/recovery/recovery_farm.cpp: RecoveryFarm::recover, bufferize_workers_results"]}
{"id": "C55", "title": "Block-hash stage indexes every canonical header", "statement": "On a contiguous canonical chain the block-hash stage succeeds and maps every header hash to its number.", "quantifier": "for all contiguous chains", "why_tests_cant": "All chain lengths.", "anchors": ["db/silkworm/stagedsync/stage_blockhashes.cpp: stage_blockhashes"]}
{"id": "C56", "title": "Hashed state keys are hash(address) ++ incarnation ++ hash(slot)", "statement": "After hashing the plain state, a storage entry for (address, incarnation, slot) is found under keccak(address) ++ incarnation ++ keccak(slot).", "quantifier": "for all plain states", "why_tests_cant": "All entries and any hash function.", "anchors": ["db/silkworm/stagedsync/stage_hashstate.cpp: hashstate_promote_clean_state"]}
{"id": "C57", "title": "LRU cache returns the latest put value and evicts the least recently used", "statement": "Get returns the last value put for a key if it has not been evicted; size never exceeds the limit; only the least recently used key is evicted.", "quantifier": "for all operation sequences and capacities", "why_tests_cant": "Arbitrary operation sequences.", "anchors": ["core/silkworm/common/lru_cache.hpp: lru_cache"]}
{"id": "C58", "title": "Hex conversion round-trips and rejects non-hex", "statement": "from_hex(to_hex(b)) = b with or without 0x prefix, and from_hex fails exactly on strings containing a non-hex digit or an odd number of digits behind the optional prefix; on success the bytes represent the same number.", "quantifier": "for all byte strings / all character strings", "why_tests_cant": "Infinite sets.", "anchors": ["core/silkworm/common/util.cpp: to_hex, from_hex, decode_hex_digit"]}
{"id": "C59", "title": "Padding helpers preserve the value", "statement": "Left padding yields a big-endian representation of the same number of at least the minimum size, right padding appends zeros; both return views valid for any argument including an already padded view.", "quantifier": "for all views and sizes", "why_tests_cant": "Aliasing between view and internal buffer.", "anchors": ["core/silkworm/common/util.cpp: left_pad, right_pad, zeroless_view"]}
{"id": "C60", "title": "Stored block body records round-trip", "statement": "Decoding an encoded stored block body returns the same base transaction id, count and ommers.", "quantifier": "for all stored bodies", "why_tests_cant": "All ommers and counts.", "anchors": ["db/silkworm/db/util.cpp: BlockBodyForStorage::encode, decode_stored_block_body"]}
{"id": "C61", "title": "Storage mode strings round-trip", "statement": "Parsing the printed form of an initialized storage mode gives the mode back (an uninitialized one prints as the default), a text is accepted exactly if it is \"default\" or consists of known letters, and sets exactly the flags of its letters.", "quantifier": "for all storage modes and strings", "why_tests_cant": "All strings.", "anchors": ["db/silkworm/db/access_layer.cpp: parse_storage_mode", "db/silkworm/db/util.hpp: storage_mode_t::to_string"]}
{"id": "C62", "title": "Block seal and header hash commitments are injective in the header", "statement": "Two headers with equal RLP (sealing or full form) agree on every field covered by that form; the sealing form omits exactly mix hash and nonce.", "quantifier": "for all pairs of headers", "why_tests_cant": "All pairs.", "anchors": ["core/silkworm/types/block.cpp: BlockHeader::hash, rlp::encode(BlockHeader, for_sealing)"]}
{"id": "C63", "title": "Receipt RLP is injective", "statement": "Two receipts with equal RLP have the same type, status, cumulative gas, bloom and logs.", "quantifier": "for all pairs of receipts", "why_tests_cant": "All pairs.", "anchors": ["core/silkworm/types/receipt.cpp: rlp::encode(Receipt)", "core/silkworm/types/log.cpp: rlp::encode(Log)"]}
{"id": "C64", "title": "History index keys identify address and slot", "statement": "Storage history index entries for different (address, slot) pairs never share an index key.", "quantifier": "for all addresses and slots", "why_tests_cant": "Depends on zero bytes inside binary keys.", "anchors": ["db/silkworm/stagedsync/stage_history_index.cpp: history_index_stage"]}
{"id": "C65", "title": "Decoding a transaction into a reused object gives the same result as into a fresh one", "statement": "Decoding the same bytes into any existing transaction object and into a default one produces equal transactions (or the same error).", "quantifier": "for all byte strings and all previous contents of the target object", "why_tests_cant": "Tests decode into fresh objects; stale fields only show up for particular previous contents.", "anchors": ["core/silkworm/types/transaction.cpp: legacy_decode, rlp::decode<Transaction>"]}
{"id": "C66", "title": "Account trie encoding is the consensus one and injective", "statement": "Account::rlp equals the RLP list of nonce, balance, storage root and code hash, and two accounts with storage roots have the same encoding exactly if those four agree.", "quantifier": "for all pairs of accounts and storage roots", "why_tests_cant": "All pairs of values.", "anchors": ["core/silkworm/types/account.cpp: Account::rlp"]}
{"id": "C67", "title": "Chain configurations survive JSON", "statement": "Reading back the JSON form of a chain configuration gives the same configuration, so that operator==, which compares JSON forms, is equality; JSON without a numeric chain id gives no configuration.", "quantifier": "for all configurations with the ten fork slots", "why_tests_cant": "All combinations of present and absent forks, seal engines and numbers.", "anchors": ["core/silkworm/chain/config.cpp: ChainConfig::to_json, ChainConfig::from_json, operator=="]}
{"id": "C68", "title": "Block pre-validation accepts exactly the blocks obeying all rules", "statement": "Pre-validation of a block succeeds exactly when the header rules hold, the ommers hash and transactions root commit to the body, there are at most two distinct ommers, each ommer obeys the ommer rules and each transaction obeys the transaction rules; otherwise it returns the code of the first broken rule, and never runs into undefined behaviour.", "quantifier": "for all blocks with in-range signatures, header stores and configurations", "why_tests_cant": "Arbitrary block trees and combinations of rules.", "anchors": ["core/silkworm/chain/validity.cpp: pre_validate_block"]}
{"id": "C69", "title": "Storage mode and schema version survive the database", "statement": "A storage mode written to the information table is read back; setting a schema version succeeds exactly if no newer one is stored and is then read back; the two do not disturb each other; versions are ordered lexicographically.", "quantifier": "for all table contents, modes and versions", "why_tests_cant": "All table contents and all pairs of versions.", "anchors": ["db/silkworm/db/access_layer.cpp: get_schema_version, set_schema_version, get_storage_mode, set_storage_mode", "db/silkworm/db/util.hpp: version_t"]}
{"id": "C70", "title": "The memory buffer's state root is the Yellow Paper state root", "statement": "For every buffer reachable by its operations, state_root_hash returns the root of the trie mapping keccak(address) to the RLP of the account with its storage root, the storage root being that of the trie mapping keccak(location) to the RLP of the nonzero value; it depends only on the accounts and slots that can be read.", "quantifier": "for all reachable buffers and hash functions without collision among the keys present", "why_tests_cant": "All states and all iteration orders of hash maps.", "anchors": ["core/silkworm/state/memory_buffer.cpp: account_storage_root", "core/silkworm/state/memory_buffer.cpp: state_root_hash"]}
{"id": "C71", "title": "The state after insertions is the state of the canonical chain", "statement": "After any sequence of block insertions the accounts and storage values in the buffer are those that execution of the canonical blocks from the initial state leads to, also after reorganisations, failed executions and lighter side chains; and insertion never dereferences an empty optional nor fails the assertion that canonical blocks execute again.", "quantifier": "for all sequences of insertions and all executions that record what they change", "why_tests_cant": "All interleavings of forks, failures and re-executions.", "anchors": ["core/silkworm/chain/blockchain.cpp: Blockchain::insert_block", "core/silkworm/chain/blockchain.cpp: Blockchain::unwind_last_changes", "core/silkworm/chain/blockchain.cpp: Blockchain::re_execute_canonical_chain", "core/silkworm/state/memory_buffer.cpp: unwind_state_changes"]}
{"id": "C72", "title": "The signature recovery contract follows the Yellow Paper", "statement": "For every input the contract at address 1 never fails: it returns the address of the recovered key padded to 32 bytes if v is 27 or 28, r and s are in range and a key exists, and nothing otherwise; short inputs count as padded with zeros.", "quantifier": "for all inputs and all recovery functions that respect the group order", "why_tests_cant": "All inputs of all lengths, including v with high bytes set and r, s on either side of the group order.", "anchors": ["core/silkworm/execution/precompiled.cpp: ecrec_run"]}
{"id": "C73", "title": "A transaction increases its sender's nonce by one", "statement": "Executing a valid transaction increases the nonce of its sender, an account without code, by exactly one, for calls and creations, whether it succeeds or fails and whatever code runs; the sender gets no code.", "quantifier": "for all states, transactions, interpreters that respect the host interface and revisions", "why_tests_cant": "All programs, including those that call back, create contracts at chosen addresses and revert.", "anchors": ["core/silkworm/execution/processor.cpp: execute_transaction", "core/silkworm/execution/evm.cpp: EVM::create"]}
{"id": "C74", "title": "A transaction takes nothing from accounts that did not sign it", "statement": "Whatever code runs, an account without code and with a nonzero nonce that is not the sender does not lose balance, keeps its nonce and gets no code in a transaction.", "quantifier": "for all states, transactions, bystanders and interpreters that respect the host interface", "why_tests_cant": "All programs and all nestings of calls, creations, delegate calls and self-destructions.", "anchors": ["core/silkworm/execution/evm.cpp: EVM::call", "core/silkworm/execution/evm.cpp: EVM::create", "core/silkworm/execution/processor.cpp: execute_transaction"]}
{"id": "C75", "title": "Failed messages leave no trace", "statement": "A call that fails leaves accounts, storage, logs, destroyed accounts and the refund counter as they were, and takes all gas unless code reverted or the sender could not pay. A creation that fails leaves nothing but the sender's increased nonce; if the sender cannot pay the value, not even that.", "quantifier": "for all states, messages, nesting depths and interpreters that respect the host interface", "why_tests_cant": "All programs that run before the failure, with nested calls, creations and reverts.", "anchors": ["core/silkworm/execution/evm.cpp: EVM::call", "core/silkworm/execution/evm.cpp: EVM::create"]}
{"id": "C76", "title": "Static messages change nothing", "statement": "A message with the static flag changes no balance, nonce, code or storage slot, emits no log, destroys no account and does not change the refund counter, whatever it calls and however it ends.", "quantifier": "for all states, static messages and interpreters that respect the host interface", "why_tests_cant": "All nestings of static and non-static calls.", "anchors": ["core/silkworm/execution/evm.cpp: EVM::call"]}
{"id": "C77", "title": "Contract creation", "statement": "A creation succeeds only at an address without nonce and code, at most with 24576 bytes of code from Spurious Dragon on, not beginning with 0xEF from London on, and after paying 200 gas per byte; then the code hash of the account is that of the output and the address is reported. A collision fails and takes all gas.", "quantifier": "for all states, creation messages and interpreters", "why_tests_cant": "All outputs of all constructors in all revisions.", "anchors": ["core/silkworm/execution/evm.cpp: EVM::create"]}
{"id": "C78", "title": "Contract addresses", "statement": "The address of a contract is the last 20 bytes of the hash of the RLP list of sender and nonce; with CREATE2 of 0xff, sender, salt and hash of the code.", "quantifier": "for all senders, nonces, salts and codes", "why_tests_cant": "All nonces, whose encodings have different lengths.", "anchors": ["core/silkworm/execution/address.cpp: create_address", "core/silkworm/execution/address.cpp: create2_address"]}
{"id": "C79", "title": "Execution of a block is defined", "statement": "For every block of pre-validated transactions execution ends with receipts or an error: no assertion fails, no empty optional is dereferenced, no empty stack is popped, no precompiled contract runs into undefined behaviour and messages nest at most 1024 deep.", "quantifier": "for all blocks, states and interpreters that respect the host interface and ask for hashes in range", "why_tests_cant": "All programs and inputs of precompiled contracts.", "anchors": ["core/silkworm/execution/execution.cpp: execute_block", "core/silkworm/execution/processor.cpp: execute_transaction", "core/silkworm/execution/evm.cpp: recipient_of_call_message"]}
{"id": "C80", "title": "Plain transfers", "statement": "A call to an account without code succeeds if the sender can pay the value, costs no gas, moves exactly the value and changes nothing else of existing accounts.", "quantifier": "for all states with total balance below 2^256 and all such messages", "why_tests_cant": "All states, including absent recipients and transfers to oneself.", "anchors": ["core/silkworm/execution/evm.cpp: EVM::call"]}
{"id": "C81", "title": "Queries of the host", "statement": "EXTCODEHASH is zero for absent and empty accounts; account_exists follows EIP-161; copied code is the requested part; precompiled contracts are warm and other accounts and slots cold exactly the first time; at the beginning of a transaction exactly sender, recipient and the access list are warm.", "quantifier": "for all states, addresses, keys, offsets and access lists", "why_tests_cant": "All access lists and histories of accesses.", "anchors": ["core/silkworm/execution/evm.cpp: EvmHost::get_code_hash", "core/silkworm/execution/evm.cpp: EvmHost::copy_code", "core/silkworm/execution/evm.cpp: EvmHost::access_account", "core/silkworm/execution/processor.cpp: execute_transaction"]}
{"id": "C82", "title": "Flushing a buffer does not change what is read", "statement": "After a buffer is written to the database, accounts, code, previous incarnations, storage, headers, bodies and total difficulties read from the database are those read through the buffer before.", "quantifier": "for all sequences of calls on a buffer, all databases and all keys", "why_tests_cant": "All sequences of calls and all contents of the database.", "anchors": ["db/silkworm/db/buffer.cpp: write_to_db", "db/silkworm/db/buffer.cpp: write_to_state_table", "db/silkworm/db/access_layer.cpp: read_account"]}
{"id": "C84", "title": "Change sets written to the database are those recorded", "statement": "After a buffer is written to the database, the account and storage changes read for each block are exactly the values that the calls since the beginning of the block reported as initial, each account and slot once.", "quantifier": "for all sequences of calls, databases and block numbers without change set", "why_tests_cant": "All sequences of calls.", "anchors": ["db/silkworm/db/buffer.cpp: write_to_db", "db/silkworm/db/access_layer.cpp: read_account_changes", "db/silkworm/db/access_layer.cpp: read_storage_changes"]}
{"id": "C86", "title": "Progress of stages", "statement": "The progress of a stage is read as it was written last, stages and their unwind points are independent of each other, and unknown stages are rejected without effect.", "quantifier": "for all databases, stages and block numbers", "why_tests_cant": "All databases and numbers.", "anchors": ["db/silkworm/db/stages.cpp: get_stage_progress", "db/silkworm/db/stages.cpp: set_stage_progress"]}
{"id": "C85", "title": "Reading a block returns the stored block", "statement": "A block stored as canonical hash, header, body record, transactions under consecutive numbers and senders is read back with its hash, each transaction with its sender; a wrong number of senders is reported; without hash, header or body there is no block.", "quantifier": "for all blocks, databases and numbers", "why_tests_cant": "All blocks and all surrounding contents of the tables.", "anchors": ["db/silkworm/db/access_layer.cpp: read_block", "db/silkworm/db/access_layer.cpp: read_body", "db/silkworm/db/access_layer.cpp: read_transactions", "db/silkworm/db/access_layer.cpp: read_senders"]}
{"id": "C87", "title": "Messages to precompiled contracts", "statement": "The precompiled contracts of a revision are those of the EIPs; a message to one takes exactly the specified cost and returns the specified output, or takes all gas if it costs too much or fails; a successful call moves exactly the value.", "quantifier": "for all revisions, messages and states", "why_tests_cant": "All inputs, gas amounts and states.", "anchors": ["core/silkworm/execution/evm.cpp: EVM::call", "core/silkworm/execution/evm.cpp: is_precompiled", "core/silkworm/execution/precompiled.hpp: kContracts"]}
{"id": "C88", "title": "A missing transaction is noticed", "statement": "If a transaction of a stored body is missing in the table of transactions, no block is returned.", "quantifier": "for all stored blocks and all of their transactions", "why_tests_cant": "Needs damaged databases with all possible neighbours of the missing entry.", "anchors": ["db/silkworm/db/access_layer.cpp: read_transactions", "db/silkworm/db/access_layer.cpp: read_body"]}
{"id": "C89", "title": "Transaction-lookup stage indexes every transaction", "statement": "After the transaction-lookup stage the hash of every transaction of the canonical blocks beyond the previous progress leads to the number of its block.", "quantifier": "for all databases with canonical blocks and all of their transactions", "why_tests_cant": "All chains, numbers of transactions and hash values, including the order in which entries are loaded.", "anchors": ["db/silkworm/stagedsync/stage_tx_lookup.cpp: stage_tx_lookup"]}
{"id": "C90", "title": "silkworm_execute_blocks executes the canonical blocks in order and reports the last one", "statement": "If it returns success, every block from the first to the last executed one was executed exactly once and in order with the results of all of them in the database; on failure the last executed block precedes the failing one and the returned code says why.", "quantifier": "for all databases, ranges, batch sizes and behaviours of the block executor", "why_tests_cant": "All batch boundaries, failures at any block and error codes.", "anchors": ["tg_api/silkworm_tg_api.cpp: silkworm_execute_blocks"]}
{"id": "C91", "title": "Command to execute blocks records progress only for what is in the database", "statement": "When the command ends, the recorded progress of the execution stage is a block up to which all results are in the database.", "quantifier": "for all databases, targets and batch sizes", "why_tests_cant": "Depends on where the chain ends and where batches fill.", "anchors": ["cmd/execute.cpp: main"]}
{"id": "C83", "title": "Single records of the database are read back", "statement": "Headers, total difficulties, accounts (with the code hash restored where the record leaves it out) and previous incarnations are read as they are stored; absent records yield none or zero.", "quantifier": "for all databases and values", "why_tests_cant": "All values and lengths, including omitted code hashes and empty records.", "anchors": ["db/silkworm/db/access_layer.cpp: read_header, read_total_difficulty, read_account, read_previous_incarnation"]}
{"id": "C92", "title": "Logs and receipts are stored as CBOR and determined by it", "statement": "Logs are encoded as the CBOR array of address, topics and data, receipts as the array of type, null, status and gas; logs, and these fields of receipts, are determined by the encoding.", "quantifier": "for all lists of logs and receipts", "why_tests_cant": "All lengths, where the form of the head changes, and all concatenations.", "anchors": ["db/silkworm/types/log_cbor.cpp: cbor_encode", "db/silkworm/types/receipt_cbor.cpp: cbor_encode"]}
{"id": "C93", "title": "Blocks inserted into a buffer are read back with their total difficulty", "statement": "After inserting a block its header, body and total difficulty are read through the buffer, other blocks as before; along a chain the total difficulty is the sum of the difficulties.", "quantifier": "for all databases, buffers and chains", "why_tests_cant": "All chains and all buffers.", "anchors": ["db/silkworm/db/buffer.cpp: insert_block, total_difficulty, read_header, read_body"]}
{"id": "C94", "title": "Receipts and logs are written under their block and index", "statement": "After inserting receipts and writing the buffer, the receipts are under the number of the block and the logs of each receipt that has any under number and index; no other record is changed.", "quantifier": "for all databases, buffers, blocks and receipts", "why_tests_cant": "All numbers of receipts, with and without logs.", "anchors": ["db/silkworm/db/buffer.cpp: insert_receipts, write_to_db"]}
{"id": "C95", "title": "Hashing moves on with the changes", "statement": "After the hash-state stage has moved on from a block, every account and slot changed since is stored under its hashed key as it is in the plain state, and is absent if it is absent there.", "quantifier": "for all databases, hash functions without collision and progress", "why_tests_cant": "All sets of changes, including deletions, and any hash function.", "anchors": ["db/silkworm/stagedsync/stage_hashstate.cpp: hashstate_promote, stage_hashstate"]}
{"id": "C96", "title": "Unwinding the hashed state restores it", "statement": "If unwinding the hash-state stage succeeds, the hashed accounts are those there were after the target block; otherwise nothing is changed.", "quantifier": "for all databases, hash functions without collision and target blocks", "why_tests_cant": "All change sets and any hash function.", "anchors": ["db/silkworm/stagedsync/stage_hashstate.cpp: hashstate_unwind, unwind_hashstate"]}
{"id": "C97", "title": "The history of accounts lists every change", "statement": "After the account history stage every block from its progress on at which an account was changed is listed in a chunk of the account's index.", "quantifier": "for all databases, ways of writing bitmaps, orders of hash maps and progress", "why_tests_cant": "All change sets, including blocks without changes, and any number of blocks per account.", "anchors": ["db/silkworm/stagedsync/stage_history_index.cpp: history_index_stage, stage_account_history"]}
{"id": "C98", "title": "The log index lists exactly the blocks with a topic or address", "statement": "After the log index stage a block is listed for an address if and only if one of its logs has that address, and for a topic if and only if one of its logs has that topic.", "quantifier": "for all stored logs, ways of writing bitmaps and orders of hash maps", "why_tests_cant": "All logs, including those whose data looks like a topic or an address.", "anchors": ["db/silkworm/stagedsync/stage_log_index.cpp: stage_log_index, loader_function", "db/silkworm/stagedsync/listener_log_index.hpp: on_bytes"]}
{"id": "C99", "title": "Unwinding senders keeps those up to the new height", "statement": "After unwinding sender recovery to a height, exactly the senders of blocks up to that height are stored, and the progress is that height.", "quantifier": "for all tables of senders and heights", "why_tests_cant": "All heights and block hashes.", "anchors": ["db/silkworm/stagedsync/recovery/recovery_farm.cpp: RecoveryFarm::unwind", "db/silkworm/stagedsync/stage_senders.cpp: unwind_senders"]}
{"id": "C100", "title": "The hash builder collects the trie records that db_trie.hpp describes", "statement": "For strictly increasing prefix-free keys the node collector is called exactly once for each branch node that has a branch node as a child or below, with the path of the node, the mask of its children, the mask of children with records, the mask of children that are branch nodes, their hashes and, at the root, the root hash.", "quantifier": "for all entries and hash functions with 32-byte results", "why_tests_cant": "Unbounded key sets; the tests have two.", "anchors": ["core/silkworm/trie/hash_builder.cpp: HashBuilder::gen_struct_step", "core/silkworm/trie/hash_builder.hpp: class Node"]}
{"id": "C101", "title": "Collecting trie records does not fail", "statement": "With a node collector, adding entries and taking the root does not fail an assertion.", "quantifier": "for all strictly increasing prefix-free entries", "why_tests_cant": "Only small tries with short values fail.", "anchors": ["core/silkworm/trie/hash_builder.cpp: HashBuilder::gen_struct_step"]}
{"id": "C102", "title": "Regenerating the tries returns the state root of the hashed state", "statement": "regenerate_db_tries returns the root of the state trie over the hashed accounts and their storage, throws WrongRoot exactly if another root is expected, and reports records that cannot be read.", "quantifier": "for all hashed states, expected roots and disks", "why_tests_cant": "All states and orders of keys; the tests have two states.", "anchors": ["db/silkworm/trie/db_trie.cpp: DbTrieLoader::calculate_root", "db/silkworm/trie/db_trie.cpp: regenerate_db_tries"]}
{"id": "C103", "title": "Regenerating the tries leaves exactly the trie records of the state", "statement": "After regenerate_db_tries the tables of trie records hold exactly the records of the state trie and of the storage tries, and the invariants listed in db_trie.hpp hold.", "quantifier": "for all hashed states and previous tables", "why_tests_cant": "All states; leftovers and missing first levels do not occur in the tests.", "anchors": ["db/silkworm/trie/db_trie.cpp: regenerate_db_tries", "db/silkworm/trie/db_trie.hpp: Invariants"]}
{"id": "C104", "title": "Hashing the state and regenerating the tries gives the state root", "statement": "After the stage that hashes the plain state, regenerate_db_tries returns the state root of that plain state.", "quantifier": "for all plain states", "why_tests_cant": "No test runs the two after each other.", "anchors": ["db/silkworm/stagedsync/stage_hashstate.cpp: hashstate_promote_clean_state", "db/silkworm/trie/db_trie.cpp: regenerate_db_tries"]}
{"id": "C105", "title": "calc_sha_256 computes SHA-256", "statement": "The function computes the hash of FIPS 180-4 for every input.", "quantifier": "for all inputs", "why_tests_cant": "All lengths and contents; the tests have a few messages, and compilers that happen to keep an array in place.", "anchors": ["core/silkworm/crypto/sha-256.c: calc_sha_256", "core/silkworm/crypto/sha-256.c: calc_chunk"]}
{"id": "C106", "title": "calculate_ripemd_160 computes RIPEMD-160", "statement": "The function computes RIPEMD-160 of every input.", "quantifier": "for all inputs", "why_tests_cant": "All lengths and contents; nobody tests with 4 GiB.", "anchors": ["core/silkworm/crypto/rmd160.cpp: calculate_ripemd_160", "core/silkworm/crypto/rmd160.c: rmd160_compress", "core/silkworm/crypto/rmd160.c: rmd160_finish"]}
{"id": "C107", "title": "Contract 9 is the compression function of EIP-152", "statement": "blake2b_compress is the function F of RFC 7693 for any number of rounds, and blake2_f_run accepts and returns what EIP-152 says.", "quantifier": "for all inputs", "why_tests_cant": "All numbers of rounds, states and blocks; the tests have the vectors of the EIP.", "anchors": ["core/silkworm/crypto/blake2b-ref.c: blake2b_compress", "core/silkworm/execution/precompiled.cpp: blake2_f_run"]}
{"id": "C108", "title": "Contracts 6 and 7 are the addition and multiplication of EIP-196", "statement": "For every input, bn_add_run and bn_mul_run return the encoding of the sum of the two points, and of the multiple of the point, of the curve alt_bn128, if the padded input encodes points, and fail otherwise.", "quantifier": "for all inputs", "why_tests_cant": "All inputs of any length: coordinates at and above the modulus, points off the curve, infinity, numbers above the order.", "anchors": ["core/silkworm/crypto/snark.cpp: decode_g1_element", "core/silkworm/crypto/snark.cpp: encode_g1_element", "core/silkworm/execution/precompiled.cpp: bn_add_run", "core/silkworm/execution/precompiled.cpp: bn_mul_run"]}
{"id": "C109", "title": "Contract 8 is the pairing check of EIP-197", "statement": "For every input, snarkv_run fails unless the input is a sequence of pairs of points of G1 and G2, and otherwise returns one or zero according to whether the product of their pairings is one.", "quantifier": "for all inputs", "why_tests_cant": "Any number of pairs, points of the twist outside of the subgroup, infinity in any place.", "anchors": ["core/silkworm/crypto/snark.cpp: decode_g2_element", "core/silkworm/crypto/snark.cpp: decode_fp2_element", "core/silkworm/execution/precompiled.cpp: snarkv_run"]}
{"id": "C110", "title": "The analysis cache and the pool of execution states change no result", "statement": "For every sequence of uses of the EVM that share an analysis cache and a pool, under whatever revisions and with whatever nested messages, the results, the gas, the outputs and the states are those without caches, if codes are stored under their hashes and no two of them have the same hash.", "quantifier": "for all engines, sequences of transactions, revisions, states and cache sizes", "why_tests_cant": "Caches make the result of one execution depend on all earlier ones; evictions, changes of revision and nested calls can be combined in unboundedly many ways.", "anchors": ["core/silkworm/execution/evm.cpp: execute_with_default_interpreter", "core/silkworm/execution/evm.cpp: execute_with_baseline_interpreter", "core/silkworm/execution/analysis_cache.cpp: AnalysisCache::get", "core/silkworm/execution/analysis_cache.cpp: AnalysisCache::put"]}
{"id": "C111", "title": "Execution states are never used twice at a time and all return to the pool", "statement": "For every sequence of uses of the EVM, no execution state is handed out while it is in use; afterwards none is in use and the pool has every state that was made exactly once.", "quantifier": "for all engines, sequences of transactions, revisions, states and cache sizes", "why_tests_cant": "Messages nest up to 1024 deep and states are acquired and released in every order the code of contracts can bring about.", "anchors": ["core/silkworm/execution/state_pool.cpp: ExecutionStatePool::acquire", "core/silkworm/execution/state_pool.cpp: ExecutionStatePool::release", "core/silkworm/execution/evm.cpp: execute_with_default_interpreter"]}
{"id": "C112", "title": "Threads that recover senders deliver results in order", "statement": "Whatever the threads of sender recovery do in whatever order: the results that are loaded are those of the first batches in the order of the batches; if every key is recovered and nobody interrupts, they are those of all batches.", "quantifier": "for all batches, numbers of workers and schedules of the threads", "why_tests_cant": "The result depends on the interleaving of the threads, of which a test sees one at a time; the wrong ones need a pause of a thread between two particular instructions.", "anchors": ["db/silkworm/stagedsync/recovery/recovery_farm.cpp: RecoveryFarm::recover", "db/silkworm/stagedsync/recovery/recovery_farm.cpp: RecoveryFarm::bufferize_workers_results", "db/silkworm/stagedsync/recovery/recovery_farm.cpp: RecoveryFarm::wait_workers_completion", "db/silkworm/stagedsync/recovery/recovery_worker.cpp: RecoveryWorker::work"]}
{"id": "C113", "title": "Threads that recover senders do nothing undefined", "statement": "No schedule of the threads of sender recovery makes a thread use a batch that it has lost, a worker that is destroyed, or a queue that is destroyed.", "quantifier": "for all batches, numbers of workers and schedules of the threads", "why_tests_cant": "Uses of destroyed objects depend on the interleaving of the threads and often do no visible harm.", "anchors": ["db/silkworm/stagedsync/recovery/recovery_farm.cpp: RecoveryFarm::dispatch_batch", "db/silkworm/stagedsync/recovery/recovery_farm.cpp: RecoveryFarm::worker_completed_handler", "db/silkworm/stagedsync/recovery/recovery_worker.cpp: RecoveryWorker::set_work", "db/silkworm/stagedsync/recovery/recovery_worker.cpp: RecoveryWorker::work", "db/silkworm/common/worker.cpp: Worker::~Worker"]}
{"id": "C114", "title": "Sender recovery ends", "statement": "If every thread gets its turn again and again, sender recovery ends, with success or with an exception.", "quantifier": "for all batches, numbers of workers and fair schedules of the threads", "why_tests_cant": "That a program ends is not seen by waiting; that it does not end depends on the interleaving of the threads.", "anchors": ["db/silkworm/stagedsync/recovery/recovery_farm.cpp: RecoveryFarm::dispatch_batch", "db/silkworm/stagedsync/recovery/recovery_farm.cpp: RecoveryFarm::stop_all_workers", "db/silkworm/common/worker.cpp: Worker::wait_for_kick", "db/silkworm/common/worker.cpp: Worker::kick", "db/silkworm/common/worker.cpp: Worker::stop", "db/silkworm/common/worker.cpp: Worker::~Worker"]}
{"id": "C115", "title": "Comparison without regard to case", "statement": "iequals answers true if and only if the two texts have the same length and their characters are equal up to the case of letters.", "quantifier": "for all pairs of texts", "why_tests_cant": "Tests compare a few words of ASCII letters; characters beyond ASCII, where tolower is undefined, and characters 32 apart that are no letters are not tried.", "anchors": ["core/silkworm/common/util.cpp: iequals"]}
{"id": "C116", "title": "Sizes with units are read correctly", "statement": "parse_size accepts exactly the texts that consist of digits, at most three decimals, blanks and a known unit, if the size is less than 2^64 bytes, and returns that size rounded down.", "quantifier": "for all texts", "why_tests_cant": "The set of texts is infinite; products beyond 64 bits and saturated numbers lie outside of the examples.", "anchors": ["core/silkworm/common/util.cpp: parse_size"]}
{"id": "C117", "title": "Splitting a text loses nothing", "statement": "The parts that split returns have no delimiter in them, and joined with the delimiter they are the text again.", "quantifier": "for all texts and all delimiters that are not empty", "why_tests_cant": "Delimiters of several characters, at the end, or as long as the text are rarely among the examples.", "anchors": ["core/silkworm/common/util.cpp: split"]}
{"id": "C118", "title": "The data directory is found from the path of the chain data", "statement": "For every data directory, from_chaindata applied to the path of its chain data returns the directory; other paths are rejected.", "quantifier": "for all base paths", "why_tests_cant": "Tests use one temporary directory with an absolute path.", "anchors": ["db/silkworm/common/data_dir.cpp: DataDirectory::from_chaindata", "db/silkworm/common/data_dir.cpp: DataDirectory::DataDirectory"]}
{"id": "C119", "title": "The root of the state in a buffer", "statement": "state_root_hash of a buffer over a database is the root of the state that is read through the buffer.", "quantifier": "for all databases, sequences of calls on a new buffer and hash functions without collision among the keys", "why_tests_cant": "Tests compute the root of one genesis allocation; buffers with deleted accounts, zero slots or a database behind them are not tried.", "anchors": ["db/silkworm/db/buffer.cpp: Buffer::state_root_hash", "db/silkworm/db/buffer.cpp: Buffer::account_storage_root"]}
{"id": "C120", "title": "The genesis block is that of the document", "statement": "The header that initialize_with_genesis stores is the genesis header of the document: its numbers, nonce, extra data and mix hash, the root of its allocations, and empty lists otherwise.", "quantifier": "for all documents from which a database is initialised, all hash functions with the known hashes of empty data", "why_tests_cant": "The program has no tests; three documents are built in, and two of them have a nonce of zero.", "anchors": ["cmd/initialize_with_genesis.cpp: main"]}
{"id": "C121", "title": "Databases are initialised from exactly the valid documents", "statement": "A database is initialised if and only if the document has all members in the right form, a configuration, and no address twice.", "quantifier": "for all documents", "why_tests_cant": "There are as many ways to be malformed as members; the program has no tests.", "anchors": ["cmd/initialize_with_genesis.cpp: main"]}
{"id": "C122", "title": "The genesis block and its accounts are read back", "statement": "After initialisation the access layer finds the block by its number and by its hash, its total difficulty, the accounts with their balances, and the chain configuration.", "quantifier": "for all documents from which a database is initialised", "why_tests_cant": "The program that writes and the functions that read are in different parts of the code and are nowhere run together in a test.", "anchors": ["cmd/initialize_with_genesis.cpp: main", "db/silkworm/db/access_layer.cpp: read_chain_config", "db/silkworm/db/access_layer.cpp: read_total_difficulty", "db/silkworm/db/access_layer.cpp: read_block"]}
{"id": "C123", "title": "check_hashstate finds exactly the errors of the hashed state", "statement": "The command says nothing if and only if every account, slot and code hash of the plain state is in the hashed tables under its hashed key with its value, and nothing else is.", "quantifier": "for all databases with 32-byte hashes", "why_tests_cant": "The command has no tests; it is itself the test of the hash state stage.", "anchors": ["cmd/check_hashstate.cpp: check"]}
{"id": "C124", "title": "check_tx_lookup finds exactly the wrong lookups", "statement": "The command says nothing if and only if the hash of every stored transaction leads to the number of its block.", "quantifier": "for all databases of bodies, transactions and lookups", "why_tests_cant": "Bodies that are not canonical appear only after forks, and the command has no tests.", "anchors": ["cmd/check_tx_lookup.cpp: main"]}
{"id": "C125", "title": "check_blockhashes finds exactly the wrong numbers", "statement": "The command says nothing if and only if every canonical hash leads back to the number it is stored under, and every complaint is about a hash that is missing or leads elsewhere.", "quantifier": "for all databases of canonical hashes and header numbers", "why_tests_cant": "The command has no tests.", "anchors": ["cmd/check_blockhashes.cpp: main"]}
{"id": "C126", "title": "check_changes finds exactly the wrong change sets", "statement": "The command is content with a block if and only if what executing it records of accounts and slots is what the change sets say, apart from three addresses that may have a record without being touched; it ends silently exactly if it is content with all blocks up to the first missing one; change sets that the buffer wrote satisfy it.", "quantifier": "for all databases, all executions and all ranges of blocks", "why_tests_cant": "The command runs over millions of blocks of one chain; wrong change sets of other shapes do not occur there.", "anchors": ["cmd/check_changes.cpp: main"]}
{"id": "C127", "title": "extract_headers writes the canonical headers at every step", "statement": "The file that the command writes lists, one per line and in base64 without padding, exactly the encoded headers of the canonical blocks at multiples of the step up to the first number without a canonical hash, framed as a C++ array; a missing header ends it with an exception; the base64 text determines the bytes.", "quantifier": "for all databases, steps and header values", "why_tests_cant": "The command has no tests, and what it does at an empty database, at an empty header or at the end of the numbers is not what it does on a chain.", "anchors": ["cmd/extract_headers.cpp: main", "cmd/extract_headers.cpp: base64encode"]}
{"id": "C128", "title": "Consensus tests start from and end with the states they describe", "statement": "The state that the consensus test runner builds from \"pre\" has exactly the described accounts, with their balances, nonces, codes and storage; its check of \"postState\" succeeds exactly if the accounts and storage of the state are those described, so the built state passes its own description.", "quantifier": "for all descriptions and all reachable states", "why_tests_cant": "The runner is what the tests are run by: a comparison that is too weak makes every test pass, and no test of the suite would show it.", "anchors": ["cmd/consensus.cpp: init_pre_state", "cmd/consensus.cpp: post_check"]}
{"id": "C129", "title": "A blockchain test passes exactly if every block is accepted or rejected as expected and the end state is the expected one", "statement": "A blockchain test passes exactly if each of its blocks, in order, is inserted if no exception is expected and refused (or unreadable) if one is, and the final state equals the described one, or has the given root; tests with unknown proof engines are skipped; the results count the tests, and the exit status is zero exactly if none failed.", "quantifier": "for all tests, networks, executions and results", "why_tests_cant": "A runner that passes a test wrongly is not noticed by running it; counts that wrap need more failures than any run has.", "anchors": ["cmd/consensus.cpp: run_block", "cmd/consensus.cpp: blockchain_test", "cmd/consensus.cpp: run_test_file", "cmd/consensus.cpp: main"]}
{"id": "C130", "title": "A transaction test passes exactly if the transaction is valid, with the given sender, in the networks where it should be", "statement": "A transaction test passes exactly if in every named network the transaction decodes completely, passes validation and has the expected sender, or, if no sender is expected, not all of that holds.", "quantifier": "for all texts, networks and recoveries", "why_tests_cant": "As for C129: the runner is the judge, and errors in its own verdicts are invisible in its results.", "anchors": ["cmd/consensus.cpp: transaction_test"]}
{"id": "C131", "title": "The networks of the consensus tests have the rules of their names", "statement": "Each network named after a set of rules has these rules in every block; each network named after a transition has the first rules before block 5 and the second from block 5 on; the DAO and Muir Glacier blocks are set exactly where they belong, and there are no other networks.", "quantifier": "for all network names and block numbers", "why_tests_cant": "A block number that is wrong in the table changes results only for tests at the transition, and such an error was possible in 17 hand-written entries.", "anchors": ["cmd/consensus.cpp: kNetworkConfig"]}
{"id": "C132", "title": "The two implementations of the state behave alike", "statement": "If MemoryBuffer and db::Buffer answer all questions about accounts, codes, storage and previous incarnations alike, then blocks executed on either give the same results and the same calls of write_to_db, in whatever order hash maps are visited, and afterwards the buffers again answer alike.", "quantifier": "for all sequences of blocks, operations, databases and orders of calls", "why_tests_cant": "The consensus tests run on MemoryBuffer and the node on db::Buffer; no test runs both on the same blocks, and they differ only after particular sequences of destruction and re-creation.", "anchors": ["core/silkworm/state/memory_buffer.cpp: MemoryBuffer::update_account, MemoryBuffer::update_storage, MemoryBuffer::read_storage", "db/silkworm/db/buffer.cpp: Buffer::update_account, Buffer::update_storage, Buffer::read_storage, Buffer::previous_incarnation", "core/silkworm/state/intra_block_state.cpp: IntraBlockState::write_to_db"]}
{"id": "C133", "title": "Walks over a table see each record", "statement": "for_each calls the function with each record from the cursor on, in order, until it refuses one; for_count with at most so many of them.", "quantifier": "for all functions, cursors and counts", "why_tests_cant": "The functions that are tested only count; that the same record is handed out each time shows only with functions that look at it, and the wrapping of the count only after 2^64 calls.", "anchors": ["db/silkworm/db/mdbx.cpp: for_each, for_count"]}
{"id": "C134", "title": "The numbers that the tool reports are those of the tables", "statement": "The free pages reported are those of the entries of the list of free pages; the sizes reported by a scan are the sums over all entries; a progress bar is complete and never wraps.", "quantifier": "for all tables", "why_tests_cant": "There are no tests of the tool, and the numbers look plausible.", "anchors": ["cmd/dbtool.cpp: get_freeInfo, do_scan, Progress"]}
{"id": "C135", "title": "Copying a database copies the tables", "statement": "After copying succeeded, each table selected is in the target with its entries, merged with those there if so requested, and the other tables are as they were; copying to a database without these tables succeeds.", "quantifier": "for all databases, selections and commit sizes", "why_tests_cant": "There are no tests of the tool; with a single table with entries it works, and what goes wrong depends on which tables have entries and on the commit size.", "anchors": ["cmd/dbtool.cpp: do_copy, main", "db/silkworm/db/mdbx.cpp: open_env"]}
{"id": "C136", "title": "Compacting a database keeps it", "statement": "Compacting leaves the original as it was, or, when asked to replace it, in the backup unless told otherwise, with the compacted one in its place.", "quantifier": "for all files", "why_tests_cant": "There are no tests of the tool; a test of the command without --replace passes.", "anchors": ["cmd/dbtool.cpp: do_compact"]}
{"id": "C137", "title": "Tables are emptied only when that is confirmed", "statement": "Exactly the tables named for which the answer is yes are emptied or dropped, the others are as they were, and the command ends.", "quantifier": "for all databases, names and inputs", "why_tests_cant": "There are no tests of the tool; the answers that matter are those that are missing or malformed.", "anchors": ["cmd/dbtool.cpp: do_clear"]}
{"id": "C138", "title": "Rebuilding an index from block 0 rebuilds it", "statement": "After history_index, log_index or tx_lookup with --full ended with status 0, the index holds what the database says from block 0 on, whatever it held before.", "quantifier": "for all databases, indices and stored progress", "why_tests_cant": "There are no tests of these commands; on an empty index the command and the stage look alike, and both end with status 0.", "anchors": ["cmd/history_index.cpp: main", "cmd/log_index.cpp: main", "cmd/tx_lookup.cpp: main"]}
{"id": "C139", "title": "The status of a command tells whether its stage succeeded", "statement": "A command that runs a stage ends with status 0 exactly if the stage succeeded, and otherwise leaves the database as it was.", "quantifier": "for all databases and options", "why_tests_cant": "There are no tests of the commands; which results are thrown shows only with a stage that returns each of them.", "anchors": ["cmd/blockhashes.cpp: main", "cmd/history_index.cpp: main", "cmd/log_index.cpp: main", "cmd/tx_lookup.cpp: main", "cmd/trie.cpp: main", "cmd/unwind_execution.cpp: main", "cmd/unwind_hashstate.cpp: main", "db/silkworm/stagedsync/util.cpp: check_stagedsync_error"]}
{"id": "C140", "title": "The command for the hashed state hashes the plain state", "statement": "With --full the whole plain state is hashed anew, with --reset nothing is hashed afterwards, without options the command does what the stage does, and a failure leaves the hashed state as it was.", "quantifier": "for all databases and combinations of the options", "why_tests_cant": "There are no tests of the command, and combinations of options are easily left out.", "anchors": ["cmd/hashstate.cpp: main"]}
{"id": "C141", "title": "Every stage is undone by its own function", "statement": "The list of stages has every stage once, in the order of their numbers, and each with the function that undoes it.", "quantifier": "for all stages; for all databases on which the hashed state is undone", "why_tests_cant": "The list is not used by any test.", "anchors": ["db/silkworm/stagedsync/stages.cpp: get_default_stages"]}
{"id": "C142", "title": "The hash function is Keccak", "statement": "keccak256 and keccak512 are the Keccak sponge over Keccak-f[1600] with capacities of 512 and 1024 bits; the constants for the empty code, list and trie are hashes of it.", "quantifier": "for all messages of any length", "why_tests_cant": "Tests hash a few messages; the two unrolled rounds, the words of the last block and the place of the padding depend on the length and on every bit of the state.", "anchors": ["ethash/ethash/keccak.cpp: keccakf1600_implementation", "ethash/ethash/keccak.cpp: keccak", "ethash/ethash/keccak.cpp: keccak256", "ethash/ethash/keccak.cpp: keccak512", "core/silkworm/common/base.hpp: kEmptyRoot"]}
{"id": "C143", "title": "The largest prime up to a bound", "statement": "find_largest_unsigned_prime gives the largest prime not above the bound, and 0 if the bound is at most 1.", "quantifier": "for all bounds of 32 bits", "why_tests_cant": "Tests try some bounds; that a prime is found before the search leaves the range, and the bounds where the search ends at a number that is no prime, need a proof for all.", "anchors": ["ethash/ethash/ethash.cpp: is_unsigned_odd_prime", "ethash/ethash/ethash.cpp: find_largest_unsigned_prime"]}
{"id": "C144", "title": "The sizes of the cache and of the dataset", "statement": "The numbers of items of the light cache and of the full dataset are those of the Ethash specification, in every epoch.", "quantifier": "for all epochs of 32 bits", "why_tests_cant": "Tests compare a table of some thousand epochs; the epochs in which the arithmetic of 32 bits wraps are far beyond.", "anchors": ["ethash/ethash/ethash.cpp: calculate_light_cache_num_items", "ethash/ethash/ethash.cpp: calculate_full_dataset_num_items"]}
{"id": "C145", "title": "The light cache and the items of the dataset", "statement": "build_light_cache makes the cache of the Ethash specification byte by byte, and calculate_dataset_item_1024 makes two items of its dataset.", "quantifier": "for all numbers of items, all seeds and all items", "why_tests_cant": "Tests compare a few items of a few epochs; each item depends on 256 others that its content chooses.", "anchors": ["ethash/ethash/ethash.cpp: build_light_cache", "ethash/ethash/ethash.cpp: calculate_dataset_item_1024", "ethash/ethash/ethash.cpp: fnv1", "ethash/ethash/ethash.cpp: fnv1_512"]}
{"id": "C146", "title": "A seal is accepted exactly if it is a proof of work", "statement": "verify_full accepts a header exactly if the mix digest is that of the Ethash specification for the epoch of its number and the result is within the boundary, whatever headers were checked before.", "quantifier": "for all block numbers, headers, nonces, mix digests, difficulties and sequences of checks", "why_tests_cant": "Tests check seals of some blocks in order; acceptance of a wrong seal, the context that is kept from earlier checks and the epochs whose dataset is empty are not tried.", "anchors": ["ethash/ethash/ethash.cpp: verify_full", "ethash/ethash/ethash.cpp: hash_mix", "ethash/ethash/ethash.cpp: hash_final", "ethash/ethash/ethash.cpp: create_epoch_context", "core/silkworm/chain/validity.cpp: validate_block_header"]}
{"id": "C147", "title": "The boundary of a difficulty", "statement": "A result is within the boundary exactly if as a big-endian number it is at most 2^256 / difficulty.", "quantifier": "for all results and difficulties", "why_tests_cant": "Tests compare boundaries of a few difficulties; results at the boundary itself never occur in them.", "anchors": ["ethash/ethash/ethash.cpp: get_boundary_from_diff", "ethash/ethash/hash_types.hpp: is_less_or_equal"]}
{"id": "C148", "title": "The epoch of a seed", "statement": "calculate_epoch_from_seed answers with an epoch of the seed that is asked for, whatever was asked before.", "quantifier": "for all hash functions, epochs and sequences of questions", "why_tests_cant": "Tests ask for some seeds in order; answers depend on the question before, which only shows beyond the epochs that the search tries.", "anchors": ["ethash/ethash/ethash.cpp: calculate_epoch_from_seed", "ethash/ethash/ethash.cpp: calculate_seed_from_epoch"]}
{"id": "C149", "title": "The command check_pow", "statement": "The command ends, tells the first block of the range whose canonical header is missing or whose seal is not right, and what is wrong with it; its exit status is 0 exactly if all seals are right.", "quantifier": "for all databases, ranges and heights", "why_tests_cant": "The command has no tests; reports depend on the whole chain and on contexts kept between blocks.", "anchors": ["cmd/check_pow.cpp: main"]}
{"id": "C150", "title": "The command scan_txs", "statement": "The lines that are printed account for every transaction of the range once, and for every failed one; the command fails if a block is not valid.", "quantifier": "for all databases, ranges and results of execution", "why_tests_cant": "The command has no tests; what is lost between two lines only shows in sums over ranges of 50000 blocks.", "anchors": ["cmd/scan_txs.cpp: main"]}
{"id": "C151", "title": "The configurations of the public networks", "statement": "A configuration is found exactly for the four networks, carries the chain id asked for, has its forks in order, applies at every block the rules of the hard forks of that network, and blocks are judged and rewarded by the rules of its consensus engine.", "quantifier": "for all chain ids and block numbers; for all headers and states", "why_tests_cant": "Tests compare pointers; that at every block the right rules are in force, and that no header of a whole engine is ever accepted, are statements about all blocks.", "anchors": ["core/silkworm/chain/config.hpp: lookup_chain_config", "core/silkworm/chain/config.hpp: kRopstenConfig", "core/silkworm/chain/config.hpp: kRinkebyConfig", "core/silkworm/chain/config.hpp: kGoerliConfig"]}
{"id": "C152", "title": "Opening a database", "statement": "Without create a database is opened exactly if there is one, with create exactly if there is none; the request to libmdbx says what the options say; what is refused changes nothing.", "quantifier": "for all options, paths and contents of the path", "why_tests_cant": "Tests open temporary databases; combinations of options and states of the disk are many and refusals are not looked at afterwards.", "anchors": ["db/silkworm/db/mdbx.cpp: open_env", "db/silkworm/db/mdbx.hpp: get_datafile_path"]}
{"id": "C153", "title": "The threads of check_senders", "statement": "What check_senders loads is the results of the first batches in their order; all batches can be recovered with any number of workers; nothing undefined is done, all results are loaded, failures are reported, and the command ends.", "quantifier": "for all schedules of the threads, interrupts, failures and lack of memory; for all numbers of workers and batches", "why_tests_cant": "Tests see a few schedules; these are statements about all of them, and what goes wrong needs a particular interleaving.", "anchors": ["cmd/check_senders.cpp: dispatch_batch", "cmd/check_senders.cpp: bufferize_workers_results", "cmd/check_senders.cpp: wait_workers_completion", "cmd/check_senders.cpp: worker_completed_handler", "cmd/check_senders.cpp: set_work"]}
{"id": "C154", "title": "check_senders commits and unwinds", "statement": "Unless check_senders exits with zero, and with --dry always, the database is unchanged; after `unwind` exactly the senders of blocks up to the given height are left and the progress is that height.", "quantifier": "for all databases, options, heights and behaviours of the workers", "why_tests_cant": "There are no tests of the tool; that nothing else is changed or lost is a statement about all databases.", "anchors": ["cmd/check_senders.cpp: unwind", "cmd/check_senders.cpp: main"]}
{"id": "C155", "title": "check_senders recovers", "statement": "After `check_senders recover` has exited with zero the senders of every canonical block after the progress of the stage up to --to are stored under its number and hash; without --force nothing stored is lost or changed.", "quantifier": "for all databases, chains of blocks, options, batch sizes and behaviours of the workers", "why_tests_cant": "There are no tests of the tool; the result depends on which blocks are empty, how they fall into batches, and what lies beyond the range.", "anchors": ["cmd/check_senders.cpp: recover", "cmd/check_senders.cpp: fill_canonical_headers", "cmd/check_senders.cpp: dispatch_batch", "cmd/check_senders.cpp: bufferize_workers_results"]}
{"id": "C156", "title": "The WebAssembly functions and memory", "statement": "If the host keeps the rules of the header \u2014 it passes pointers to objects of the right kind that it got and has not deleted, buffers with enough bytes, and deletes each object once \u2014 then no function does anything undefined; after all objects were deleted none is left, and functions that give null leave nothing behind.", "quantifier": "for all sequences of calls by a host and all contents of its memory", "why_tests_cant": "There are no tests of the functions; leaks and uses after deletion depend on the order of all calls.", "anchors": ["wasm/silkworm_wasm_api.cpp: new_buffer, delete_buffer, new_bytes_from_hex, state_root_hash_new, blockchain_insert_block", "wasm/silkworm_wasm_api.hpp: new_buffer, new_blockchain"]}
{"id": "C157", "title": "States of a WebAssembly host", "statement": "After any calls a state holds exactly what the updates by the host say: accounts, code and values are read back, the counts are those of the accounts and of the values other than zero, and the root is that of the Yellow Paper for these contents.", "quantifier": "for all sequences of updates among other calls, all accounts, locations and values", "why_tests_cant": "The contents after a sequence of updates range over all sequences; the root depends on all of them.", "anchors": ["wasm/silkworm_wasm_api.cpp: state_update_account, state_update_code, state_update_storage", "wasm/silkworm_wasm_api.cpp: state_read_account, state_read_code, state_read_storage", "wasm/silkworm_wasm_api.cpp: state_root_hash_new, state_number_of_accounts, state_storage_size", "core/silkworm/state/memory_buffer.cpp"]}
{"id": "C158", "title": "Chains of a WebAssembly host", "statement": "Blocks that the host inserts into a chain over a state without blocks make the heaviest chain of accepted blocks canonical, and the accounts and storage of the state are those after these blocks.", "quantifier": "for all sequences of blocks among other calls, all genesis blocks, states and configurations", "why_tests_cant": "The canonical chain depends on the order of all blocks and their difficulties, and the state on the objects that the chain refers to.", "anchors": ["wasm/silkworm_wasm_api.cpp: new_blockchain", "wasm/silkworm_wasm_api.cpp: blockchain_insert_block", "core/silkworm/chain/blockchain.cpp"]}
{"id": "C159", "title": "Values of the WebAssembly functions", "statement": "Hexadecimal text, numbers of four words, difficulties, fork blocks, intrinsic gas, transactions, blocks, senders, hashes and the parts of accounts and headers that the functions give are those of the specifications.", "quantifier": "for all texts, words, transactions, blocks, configurations and memories", "why_tests_cant": "There are no tests of the functions; the values range over 2^256 numbers and all encodings.", "anchors": ["wasm/silkworm_wasm_api.cpp: new_bytes_from_hex, new_uint256_le, difficulty, config_set_fork_block", "wasm/silkworm_wasm_api.cpp: new_transaction, check_intrinsic_gas, recover_sender, keccak256", "wasm/silkworm_wasm_api.cpp: new_account, account_nonce, account_balance, account_code_hash", "wasm/silkworm_wasm_api.cpp: new_block, block_header, header_number, header_state_root"]}
