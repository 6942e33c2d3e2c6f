# Verification design

Subject: torquem-ch/silkworm, the C++ sources in `/repo` (`core/silkworm`, `db/silkworm`).
The properties are listed in `properties.jsonl`; this file says, per property, what is modelled
and how it is proved; `MANIFEST.json` maps properties to theorem names.

## 1. Method

* The model is a set of total computable Lean 4 functions written function by function after the C++
  code. Every definition cites the file and lines it follows and lists its simplifications.
* Undefined behaviour (out-of-range `operator[]`, `memcpy` outside an object, `*nullopt`, division by zero,
  failed `assert`) is a separate outcome `ub` (`Outcome.ub`), different from success and from error codes.
* Specifications live in separate `Spec` files and do not use the model's helpers.
* Property theorems live in `Verif/Properties/*.lean`; helper lemmas are next to the model
  (`Verif/**/Lemmas.lean`). Each property theorem is followed by an `example` showing that its
  hypotheses are met by a concrete non-trivial case.
* If the code violates a property, the negation is proved with a concrete witness (theorem name ends in
  `_violated`) and the strongest true part is proved as `..._partial`.

## 2. Modelling conventions

| C++ | Lean |
|---|---|
| `Bytes`, `ByteView` | `List UInt8` (a view is its contents; a decoder returns the remaining view) |
| `uint64_t`, `uint256`, `uint128` | `Nat` with the type's bound carried by a `WF` predicate; every operation that can wrap is written with an explicit `% 2^64` / `% 2^256` |
| `evmc::address`, `evmc::bytes32`, `std::array<uint8_t,N>` | `List UInt8`, `WF` fixes the length |
| `std::optional` | `Option` |
| `std::pair<T, DecodingResult>` | `Outcome T` = `ok t`, `err code`, `ub` |
| `unordered_map` | total functions or association lists (noted per definition) |
| `secp256k1`, `evmone`, roaring bitmaps' internal layout, mdbx | parameters / abstract types, see trusted base |

## 3. Trusted base

* Lean 4.33.0 kernel; axioms `propext`, `Classical.choice`, `Quot.sound` only (checked by `#print axioms`
  for all theorems listed in the manifest). No `sorry`, no own axioms, no `native_decide`, no `bv_decide`.
* That the model follows the C++: this is by inspection, with line references.
* keccak256 (but see C142) / secp256k1 / evmone / libff are parameters of the model. Theorems hold for every instantiation
  unless a hypothesis (e.g. output length 32, or `Snark.Correct` for libff) is stated. SHA-256, RIPEMD-160 and the
  BLAKE2b compression are parameters of the contracts and are modelled on their own (C105-C107).
* GMP (`mpz_*`) is modelled by `Nat` arithmetic; `intx` by `Nat` modulo 2^n.
* libmdbx's B-tree is trusted. A table is a list of (key, value) pairs in bytewise order; the cursor functions are
  functions on that list as libmdbx/mdbx.h++ and the operation codes in libmdbx/mdbx.h define them (`Db/Table.lean`):
  `find` and `seek` = exact key; `lower_bound` = first key >= argument; `find_multivalue` = exact key, the value argument
  being ignored (it uses `MDBX_SET_KEY`, mdbx.h++:4295-4299); `lower_bound_multivalue` = exact key, first value >=
  argument; `upsert` on a multi-value table inserts the pair if it is absent; `to_next`/`to_previous` move one entry.
  CRoaring, evmone, libff and secp256k1 are not in the tree.
* Not modelled: logging, threads' scheduling outside of C112 to C114 (elsewhere worker pools are modelled by the order in which results may
  arrive), file system failures, memory exhaustion outside of C146, JSON text syntax, parsing of command lines, WASM API.

## 4. Per property

C01–C06 (RLP). `Rlp/Model.lean` models encode.cpp/decode.cpp/decode.hpp. C01, C02: round trip, by
induction on the big-endian representation. C03: inverse direction (decode ok ⇒ input = encode value ++ rest).
C04: no outcome is `ub`. C05: `length` against `encode`. C06: uniqueness from round trip with arbitrary suffix.

C07, C08, C62 (headers, bodies). Model of block.cpp. Round trip from the field round trips; C62 injectivity
from round trip (full form) and from prefix-freeness (sealing form).

C09–C13 (transactions). Model of transaction.cpp including both decoders. C11 and C12 are violated by the
typed decoder (inner list length ignored) and by `from[0]` on an empty view; negations are proved with
witnesses, with partial theorems: legacy transactions are canonical; typed ones are canonical up to the inner header;
out-of-range access happens only at the identified place. C13: injectivity of the signing payload.

C14, C15 (ecdsa.cpp). Arithmetic; C15 is violated (`&&` for `||`): witness, plus partial characterisation of what
is accepted.

C16, C17 (account.cpp). Round trip; C17 is violated (truncated records): witness, plus partial theorem:
no UB on every output of the encoder and on every record passing an explicit structural check; agreement of
`extract_incarnation` with the full decoder.

C18 (bloom.cpp, bloom.hpp). Hash is a parameter.

C19, C21–C26, C67, C68 (chain/*.cpp). `Chain/*.lean` model config, intrinsic gas, difficulty and validity with
wrap-around explicit; `Spec/Chain.lean` states the rules over unbounded integers. Validation functions are proved to
return the *verdict* of an ordered list of rules (`Spec/Verdict.lean`): success exactly if all rules hold, otherwise the
code of the first broken rule. Preconditions: stored headers are in range and stored under their number; the true
difficulty fits 256 bits; the parent has a base fee when needed (proved to be an invariant of accepted headers with
ordered forks, `c23_parent_base_fee`); `dao_block + 9` does not wrap. The Ethash seal check (but see C146), keccak and the list root are
parameters. C24 is violated because of C15's bug (witness and partials). C25: the kinship search is equivalent to a
relation over generations of ancestors. C67: JSON objects as finite maps.

C28–C33 (intra_block_state.cpp, delta.cpp, object.hpp, memory_buffer.cpp). `State/IntraBlockState.lean` models every
operation and delta, `State/MemoryBuffer.lean` the buffer; hash maps are association lists (`Base/AMap.lean`), their
iteration order being the order of the list. Executions are data (`State/Trace.lean`): operations with nested snapshots,
and the phases of a block. Observations (`Spec/State.lean`) are what the public operations return.
Proofs go through a view of the state (effective objects, storage and code, whether cached or in the database,
`State/Views.lean`, `Semantics.lean`): operations are functions of the view, reads leave it alone (C29), writes are
pointwise updates (C30), and each delta undoes its operation on views (`Undo.lean`, `Revert.lean`, C28).
C28, C29 and the code parts of C30 assume that a code written has the hash of no account with a different code.
C31–C33 need that incarnations are not reused. The code reuses them: `create_contract` takes the incarnation from the
current account if there is one, so a contract destroyed and brought back as a plain account (incarnation 0) before it is
created again gets incarnation 1 again; witnesses `c31_commit_violated_storage`, `c31_commit_violated_code`,
`c32_unwind_violated`, `c33_stale_storage_violated_same_block`, `c33_stale_storage_violated_later_block`. The partial
theorems exclude exactly such sequences (`Spec.SafeOp`, `Spec.SafeEnd`) and hold for every order of the hash maps, over
every buffer reached by such blocks from one without left-over storage (`Spec.SafeDb`, preserved by `blocks_safeDb`).
`c32_unwind_restores` is unconditional for calls that record the values in the buffer.

C34–C37 (trie). `Trie/HashBuilder.lean` models hash_builder.cpp and vector_root.hpp with keccak as parameter (results of
32 bytes); masks, stack and the collector are as in the code, indexing outside a vector and failed assertions are `ub`.
The specification is the recursive function of Yellow Paper appendix D over a list of entries (`Spec/Trie.lean`), shown to
be independent of the order of the list. C34: the invariant of the loop of `gen_struct_step` says which groups are open and
that the stack holds the references of all finished subtrees left of the pending key (`Trie/BuilderLemmas.lean`,
`Trie/BuilderProof.lean`); totality shows that no assertion fails without collector, and the builder is `ub` exactly for
keys that are empty, not increasing or prefixes of others. With a collector the root is the same whenever the run succeeds.
The root of the empty trie is a constant in the code; equality with `keccak(0x80)` is a hypothesis, true by C142. C35: order of RLP keys,
permutation of indices, and the root against the trie of {rlp(i) -> value}. C36: `Trie/NodeCodec.lean`, round trip,
canonicity, and which records throw or fail an assertion. C37: hex-prefix.

C70 (memory_buffer.cpp `account_storage_root`, `state_root_hash`). `std::map` is an ordered table. For every buffer
reachable by its operations, and hash functions without collision among the keys present, the root is the world state root
of the Yellow Paper (`Spec/StateRoot.lean`), and it depends only on what the readers return.

C27, C71 (blockchain.cpp). `Chain/Blockchain.lean` models the object over the memory buffer; execution of a block is a
parameter (a list of calls to the buffer, or an error without effect), sender recovery too. An exception keeps the objects
as they are. C27 is an invariant over all sequences of insertions (`Chain/BlockchainLemmas.lean`): stored headers are the
accepted ones, total difficulties are sums along chains of the specification (`Spec/Blockchain.lean`), the canonical hashes
are one such chain, and no accepted chain is heavier. Hypotheses: no two different offered headers with one hash, sums below
2^256, numbers below 2^64 - 1, genesis number 0; nothing is assumed about execution. C71 is violated: inserting a block that
is canonical already makes `intermediate_chain` create a vector of about 2^64 elements; the exception leaves the state
unwound (`c71_state_of_head_violated`). Partial: without such insertions the state is that of the canonical chain, and
insertion is total; assumed of execution (`ExecOk`): it records what it changes under the block's number (proved for
`write_to_db` in C32 for blocks that do not reuse incarnations), and its result depends on accounts and storage values only
(code is looked up by its hash; previous incarnations, which unwinding does not restore, are outside of this assumption).

Execution (C38–C43, C73–C81). `Execution/Evm.lean` models evm.cpp: messages, contract creation, calls, precompiled contracts
and all functions of the host. The interpreter (evmone) is a parameter: for a message and code it gives a `Program`, a
possibly infinitely branching tree that asks the host and continues with the answer. `InterpreterOk` (Spec/Execution.lean)
says what is assumed of it: it writes, destroys and logs only for the account it runs for, and not in static mode; it calls
in its own name, with non-negative gas, at most 1024 deep; it returns at most the gas it was given, provided calls do so too.
`Execution/Processor.lean` models processor.cpp and execution.cpp. Every execution of a message is described by a sequence of
effects (`Execution/Effects.lean`, `Run.lean: message_ok`, by induction over the nesting and over programs) from which the
properties follow. Nesting is bounded by fuel of 1026 levels, which the model turns into an error, not a result.

C38. `Spec/Execution.lean` has the rules of EIP-1283, EIP-2200, EIP-2929 and EIP-3529 as functions of the original, current
and new value, and the metering of nested scopes. `c38_status`: status and change of the counter for one write (mod 2^64).
`c38_session`: over all sequences of writes in scopes, some reverted, slots, originals and counter are those of the
specification, the total is never negative and the subtraction never wraps. `c38_fresh`: transactions start as required.

C39. `c39_transaction`, `c39_transactions`, `c39_block`: preconditions are that intrinsic gas has been checked
(pre_validate_transaction, C24) and block gas limits below 2^63 (the model converts to a signed number as the code does).

C40, C73, C74. Totals are sums over any list of addresses outside of which balances are zero (`HasTotal`; unique). The total
before the transaction is below 2^256. `Execution/Totals.lean` shows what effects do to the total and to a guarded account,
`Execution/Settlement.lean` follows a transaction from the purchase of gas to the end. The loss through self-destruction is
the total of destroyed accounts plus what accounts burn that name themselves as beneficiary. C73 and C74 need that the
guarded account has no code and, if it is not the sender, a nonzero nonce (otherwise a contract could be created there).

C75–C78, C80. `Execution/Messages.lean` takes `create` apart and follows failures: the state after a failed message has the same
view as before (`Unchanged`), up to caches. C75 for CALLCODE and DELEGATECALL assumes, as holds while code runs, that the
account in whose name code runs exists. C76 is an induction over effects. C77: before Homestead a contract whose code cannot be
paid for is created without code, so that the claims about code start there; the cost claim assumes less than 2^56 bytes of
output. C78 compares with the RLP of `Spec/Rlp.lean`. C80: transfers from and to accounts whose total balance fits.

C79. `Execution/Total.lean`: by induction over nesting and programs every message has a result. Assumed in addition to
`InterpreterOk` is `InterpreterInRange` (hashes in range, gas below 2^62) and that key recovery respects the group order.

C81. Direct; the warm sets at the beginning of a transaction are exact.

C41, C43. Exact verdict and exact rewards; sums are checked against 2^256.

C42. Violated: a query for the number of the block itself or a later one wraps and reads outside of the cache
(`c42_block_hash_violated`); evmone only asks in range. Partial: for all sequences of queries in range the answer is the
specified ancestor, by an invariant of the cache.

C44, C45, C72 (precompiled.cpp). `Execution/Precompiled.lean`; hashes, curve operations and key recovery are parameters, as
is the modular power of GMP (on `Nat`). Specifications in `Spec/Precompiled.lean` are written from EIP-198, EIP-2565,
EIP-1108, EIP-152 and the Yellow Paper and index the input directly. C44 is violated before Berlin: an exponent declared to
be 2^64 bytes long returns the largest number although the formula gives a smaller (huge) one. Partial: the formula holds
otherwise, and for callers with less than 2^62 gas the charge is affordable exactly when the specified one is, and then
equal to it. C45 holds whenever the gas charged is below 2^62; `c45_lengths_wrap` shows that without that bound bytes outside
of the input would be read. C72: assumed of recovery is that keys exist only for r, s below the group order, and that they
are uncompressed points.

C87 (evm.cpp 190-203). `Spec/Contracts.lean` collects which contracts exist, their costs and outputs; the theorem combines
C44, C45 and C72 with the message. Inputs shorter than 2^48 bytes and gas below 2^62 are assumed.

C46 (db/util.cpp). Keys as byte strings; order and injectivity from the order of equally long big-endian numbers.

C47, C82, C84 (db/buffer.cpp, access_layer.cpp). `Db/Table.lean` is a table as sorted list of pairs, with the cursor
operations as in mdbx.h++ (`find` and `seek` are exact; `find_multivalue` ignores the value, because its operation is
`MDBX_SET_KEY`). `Db/StateBuffer.lean` models `db::Buffer`, `Db/Access.lean` the functions of access_layer.cpp and stages.cpp,
`Types/Cbor.lean` the CBOR encodings of logs and receipts (cbor-cpp is not in the repository; its output follows RFC 7049).
Batches are flushed in any order of the hash maps.
- C47 is violated: `upsert_storage_value` erases the first value of the contract, whichever slot it belongs to
  (`c47_violated`), and reading finds the smaller of two values of a slot (`c47_overwrite_violated`). Partial: contracts with
  one slot, for all sequences of writes; a write to the first slot of a contract with any slots.
- C82: `Db/BufferInvariant.lean` proves an invariant of buffers over all sequences of calls; `Db/FlushLemmas.lean` gives the
  tables after writing. Blocks are not written at all (`c82_blocks_violated`). The partial theorems state in their hypotheses
  what is missing: a record of a code hash for an account without code, and contracts of which several slots changed.
- C84: `Spec/ChangeSets.lean` says from the calls alone what the entry of an account or slot in a block is; the theorems hold
  for all calls and all blocks without earlier change set.

C85, C88 (access_layer.cpp `read_block` and what it calls). `Spec/Blocks.lean` describes a stored block by membership in
ordered tables and the RLP of the specification. C88 is violated: `read_transactions` walks from the first key without looking
at the others.

C48 (access_layer.cpp `historical_account`, `historical_storage`). `Spec/History.lean` says what it means for change sets and
index to record a history of values. Violated: `historical_account` opens a cursor on the code table, and `find` is exact, so
that only a block number equal to that of a chunk leads anywhere. The partial theorems say exactly what is returned for every
recorded history.

C49 (bitmap.cpp). A bitmap is the increasing list of its elements; its serialised size is a parameter, so that nothing is
assumed about it; CRoaring is not in the repository. Assumed of it: ranges are clamped to 2^32, an empty range gives a null
pointer. Violated: the bounds of the binary search are swapped, so that its loop never runs and the chunk is everything but the
largest element, whatever its size; the removed range includes that element.

C86 (stages.cpp). Direct; keys of unwind points differ from all stage names by their prefix.

C50, C51 (etl/{util,buffer,file_provider,collector}.cpp). `Etl/Collector.lean` models the buffer, the files as byte strings
with little-endian length headers and a read position, and the merge. `std::sort` is insertion sort (entries that compare
equal are equal, so the result does not depend on the algorithm); the priority queue is any function that picks a smallest
element; the free disk space at each flush is a parameter. C50: the calls of the load function form a sorted permutation of
what was collected (`Spec/Etl.lean`), by an invariant of the files (`Etl/Loading.lean`) and of the merge
(`Etl/Lemmas.lean`). Violated by an entry with empty key and value (`c50_violated`: `flush_buffer` tests the byte size) and
by loading a collector twice (`c50_reuse_violated`: the moved-out providers stay in the vector). Assumed: writes do not fail
other than for lack of space; opening a file succeeds.

Stages (stagedsync/*.cpp), `Stages/`. A stage is a function of the database that returns its result and the database as
committed, or the exception (nothing is committed then). `find` and `seek` of a cursor find exact keys only. `put` with
`MDBX_APPEND` drops, with an error code that nobody reads, an entry whose key is not greater than the last one. Loading goes
through the model of the collector, with free disk space and the choices of the priority queue as parameters
(`Stages/Common.lean`, `Stages/Lemmas.lean`).

C55 (stage_blockhashes.cpp). Violated on every chain with a block to index: `header_data` is read once and compared again with
the next expected number. C89 (stage_tx_lookup.cpp). Violated on every database: `seek` of an 8-byte key among 40-byte keys.
Partial for bodies stored under the number alone, through the sorted permutation that the collector delivers.

C52 (stage_execution.cpp 30-102). The executor of a block is a parameter that maps a buffer to a buffer or an error. The
inductive relations `Executes` and `Rounds` (`Spec/ExecuteBlocks.lean`) say what executing blocks in order means. Violated: the
block that fills the batch is executed twice; a block that fills the batch alone is executed for ever; the stage commits nothing
(`c52_uncommitted_violated`). Proved: without the migrations of the format it refuses (`c52_migrations`).

C53 (stage_execution.cpp 104-230). The walk over the change sets is a fold; an invariant gives each account in terms of the
records that the walk reaches (`unwind_accounts`). Seven theorems name what goes wrong, each for all databases that meet a
condition or with a witness; partials name where the code has it right. Code hashes (`c53_code_kept`, `c53_code_removed`): those of
later incarnations than the restored one are removed, the others stay.

C90 (tg_api/silkworm_tg_api.cpp 29-98), C91 (cmd/execute.cpp). Proved: success means that all blocks were executed in order with
their results written; the codes of failures; nothing is written for an unknown chain. The command records the last executed
block also when the library found no further block, in which case it had not written the batch: violated.

C83, C93, C94 (access_layer.cpp, buffer.cpp). Records stated by membership in the tables; chains of blocks by `Linked`; receipts
and logs as CBOR items of `Spec/Cbor.lean`. C92 (log_cbor.cpp, receipt_cbor.cpp). The head of an item is compared with RFC 8949;
prefix-freeness by induction on items. The library cbor-cpp is not in the repository and is taken to write the shortest form.

C56, C95, C96 (stage_hashstate.cpp). Keccak is any function with results of 32 bytes, collisions are excluded where needed. All
three are violated. C56: the write position advances by 20 instead of 32 and the location is looked for in the key although it is
in the value, so each contract has a single key without any location (`c56_keys_violated`), and appending keeps one value per key
(`c56_one_value_violated`); with tables that are not empty, entries are dropped (`c56_leftovers_violated`). C95 and
C96: `to_slice(hash.bytes)` makes a `ByteView` of an array as of a `const uint8_t*`, so the key of an account ends at the first zero
byte of its hash, and memory past the hash is read if there is none (`c95_undefined_violated`, `c96_undefined_violated`). Hence
nothing is ever updated, removed or restored under the hash of an account (`c95_accounts_violated`, `c96_changed_violated`); slots
are looked for under a key of 60 bytes that the plain state never has, so none is ever written (`c95_storage_violated`). Proved:
accounts and code hashes from the beginning, code hashes from changes, what is stored and removed under which shortened key, the
erasing of slots and code hashes (`c96_code`), and that refusing leaves the database alone.

C64, C97, C98 (stage_history_index.cpp, stage_log_index.cpp, listener_log_index.hpp). How CRoaring writes and reads bitmaps, the
order of an `unordered_map` and the strings the CBOR decoder reports are parameters. All three are violated. C64: the key of a slot
is made from a `const char*` and ends at its first zero byte (`c64_key`); besides, the cursor is set to exactly a key of eight bytes
where keys have 36, so storage is never indexed (`c64_nothing_violated`). C97: nothing is indexed unless the last block processed
has a record itself (`c97_gap_violated`), and a bitmap that must be cut loses its largest block (`c97_cut_violated`). C98: keys of
logs have twelve bytes, so nothing is indexed and the progress is put back to 0 (`c98_nothing_violated`). Proved: the exact key; the
exact index of accounts where the cursor is found and bitmaps fit a chunk; the exact index of logs under keys of blocks, where data
of 32 or 20 bytes counts as a topic or an address.

C54, C99 (recovery_farm.cpp, recovery_worker.cpp, stage_senders.cpp). Hash, key recovery and what the threads do in which order
are parameters; an exception or an early return while there are workers never ends and is undefined behaviour here. Both are
violated. C54: the hashes advance with results, not with blocks, so after a block without transactions senders lie under an earlier
hash (`c54_violated`; `c54_shift` says exactly where); one key that cannot be recovered, or a batch that comes late, and nothing is
stored, with success (`c54_failed_violated`); nothing is recovered if there are canonical hashes beyond the bodies
(`c54_ahead_violated`); a batch more than there may be workers, and recovery does not end (`c54_batches_violated`); the stage never
commits (`c54_stage_violated`). Proved without empty blocks, for a single batch and for any number of batches, each block fitting into
one (`c54_batches_partial`; `c54_batches_shift` with empty blocks). C99: the cursor is set to exactly a key with the
hash zero, so nothing is erased from height 2 on, and everything below; the stage never commits.

C100, C101 (hash_builder.cpp with a collector). `Spec/TrieRecords.lean` says where records belong and what they contain in
terms of paths only. The proof extends the invariant of C34 by the masks: at each depth of the pending key a bit of the hash mask
means a branch node, one of the tree mask a record below. C101 is violated: a branch node of less than 32 bytes under a branch node
fails `assert(child_hashes[i].size() == kHashLength + 1)` (`c101_collector_total_violated`). `c101_collector_succeeds_iff` says
exactly when; values of 6 bytes, or keys of 32 bytes that differ in 27 bytes, are enough.

C102, C103, C104 (db_trie.cpp). The trie cursors are stubs in the code, so everything is computed anew. `Spec/DbTrie.lean` says
what the hashed tables hold and what the bytes of records are; slots of an account are supposed to differ in the first 27 bytes of
their hashes, as C101 asks for. C103 is violated: old records stay (`c103_leftovers_violated`), there need not be a record at
the first level (`c103_firstLevel_violated`), and records need not have an ancestor (`c103_ancestors_violated`), both of which
db_trie.hpp demands. Proved: the exact contents of both tables. C104 is violated: the stage that hashes the state writes storage under
keys of 72 bytes where the loader looks for 40, so that no storage reaches the root (`c104_storage_ignored`).

C105, C106, C107 (sha-256.c, rmd160.c, rmd160.cpp, blake2b-ref.c). The specifications compute their constants from roots of primes and
their orders of words from permutations where the standards do; they are checked with the vectors of the standards. C105 is violated:
the array `w` is declared inside the loop that relies on its contents from the previous iteration (sha-256.c:162-189), which are
indeterminate. The contents are a parameter of the model: with a cleared array the hash of "abc" is wrong (`c105_violated`), with an
array that is kept it is SHA-256 for all inputs (`c105_partial`). The 160 lines of `rmd160_compress` are data that an interpreter of the
macros executes. RIPEMD-160 is proved below 2^32 bytes; beyond, `in.size()` is cut to 32 bits and the padding has the wrong
length (`c106_length`, `c106_long`). C107 links contract 9 of `Execution/Precompiled.lean` to EIP-152.

C108, C109 (snark.cpp, precompiled.cpp). The specification is in terms of Mathlib's group of points of a Weierstrass curve, over the
integers modulo p (proved prime with Pratt certificates, `Crypto/Primality.lean`) and over its extension by a root of -1 (proved no
square). Encodings are relations between bytes and points; they are proved to determine each other, so that the specification
determines the outcome (`c108_determined`, `c109_determined`). libff is a parameter; `Correct lib pairing`
(`Crypto/SnarkLibff.lean`) says what is assumed: that its operations are those of the groups and of some bilinear map. That it is
not degenerate is not needed and not assumed. The assumptions are met by `reference`, which computes with Mathlib's points and whose
pairing is the tensor product. The examples double the generator and check that the generators of the EIPs are on the curves.

C110, C111 (evm.cpp, analysis_cache.cpp, state_pool.cpp). `Execution/Evm.lean` has one interpreter, a function of revision, message
and code. `Execution/Caches.lean` has the three ways of running code and carries the caches through every message. A simulation
(`Execution/CachesLemmas.lean`) relates the two: each step with caches gives what the step without them gives, and keeps the
invariant that an entry of the cache is the analysis of the one code with this hash under the revision of the cache. Acquiring a
state that is in use is undefined behaviour in the model, so that C110 says that it does not happen. The premises: what is stored
under a hash is empty or the code with this hash (`Consistent`), in the database and in the state at the start of each use; it is
proved to be kept by execution. Codes come from a set without collisions that contains whatever the interpreters return
(`Universe`). An example shows a wrong result if a database has another code under a hash. evmone is a parameter.

C112 to C114 (recovery_farm.cpp, recovery_worker.cpp, worker.cpp). `Stages/Workers.lean` is a transition system: the thread of
`recover` and one thread for each worker take steps in any order, and a step is one access to what the threads share. A schedule is
a list of actors, among them the user who interrupts and the main thread without memory. Uses of destroyed or lost objects are
undefined behaviour in the model. C112 is an invariant of every schedule (`Stages/WorkersLemmas.lean`): the numbers in the queue are
consecutive, each belongs to a worker that still holds these results, and what was collected are the results before them. Violated: a
worker stores `ResultsReady` before it enters its batch into the queue, and the main thread waits for the former only, so that a
batch may be missing although `recover` returns success. For C113 and C114 (`Stages/WorkersPhases.lean`): without failures and
interrupts every schedule keeps a stricter order until the main thread pulls results while it dispatches a batch. `dispatch_batch`
takes the success of `bufferize_workers_results` for a failure, so it throws, and `~Worker` waits for threads that nobody kicks: from
then on no schedule ends the call, and some reach undefined behaviour. With more batches than workers this cannot be avoided
(`c114_more_violated`). The parts that hold: with one batch nothing undefined is done; once all batches are dispatched and no kick was
lost, 20n + 5 rounds in which every thread moves are enough to end (a measure that every step but the busy waiting decreases,
`Stages/WorkersProgress.lean`). Further violations: a kick that comes before the worker's thread clears `kicked_` is lost; an
interrupt destroys idle workers without a kick; a failure of one worker lets another get a batch that it resets. The parameters
`found`, `kicked` and `seen` of `Stages/Senders.lean`, which stand for what the threads did, are explained by this model; the two are
not connected by a theorem.

C115 to C118 (util.cpp 154-246, data_dir.cpp). `Common/Text.lean` models the functions on characters as bytes; `tolower` of a
negative `char` is undefined behaviour, `strtoull` saturates, the regular expression of `parse_size` is a matcher, `std::filesystem`
paths are lists of bytes with the rules of `operator/=` and `has_filename` on POSIX. Specifications are in `Spec/Text.lean`. C115 is
proved for ASCII texts and violated for all others. C116: the accepted texts are exactly those of the grammar and the value is right
if it fits 64 bits; violated: products are taken modulo 2^64 ("16777216TB" is 0) and numbers of 2^64 and more are read as 2^64 - 1.
C117: parts have no delimiter in them unless the text is the delimiter, and the join is the text up to one delimiter at the end, which
is always lost. C118: the round trip holds for every base path that is not empty; for the empty path (the current directory)
`from_chaindata` reports an invalid base. `c118_accepts` tells which paths of at least three parts are accepted. Whether a directory
exists is a parameter.

C119 (buffer.cpp 106-137, 284-303). `Db/BufferRoot.lean`; the state is what `read_account` and `read_storage` return (`ReadsAs`), the
root that of the Yellow Paper. Violated: the database behind the buffer is not looked at (`c119_database_violated`), and a slot set to
zero is put into the storage trie (`c119_zero_violated`). Proved for buffers over an empty database in which no slot is set to zero,
by way of the root of `MemoryBuffer`.

C120, C121, C122 (initialize_with_genesis.cpp 117-256, access_layer.cpp 488-505). `Db/Genesis.lean`; the document is given as its
members, already parsed (other members, such as a beneficiary, are not part of it); `from_string` and `stoull` are parameters with
results of the right width; the specification is in `Spec/Genesis.lean`. C120 is violated: the nonce is copied in the byte order of
the machine, so that the built-in document of the main network with its nonce 0x42 gives another block (`c120_nonce_violated` for
every nonce that is not a palindrome, `c120_violated`); nonces, codes and storage of allocations are ignored
(`c120_allocations_violated`, `c120_code_violated`); extra data that is not hexadecimal is left out (`c120_extra_violated`). Proved
for the other documents. C121 is violated: `alloc` as an empty object is refused, since `at(0)` throws; extra data that is not
hexadecimal is accepted; `to_slice(as_bytes(difficulty))` makes a view of a pointer, which ends at the first zero byte and is
undefined without one. Proved for the other documents; `c121_incomplete` says which documents are refused for a missing member,
whatever else is in them. C122 is violated by every document: the canonical hash is stored under the
number and the hash instead of the number (`block_key` is computed and not used), so that neither the block nor the configuration is
found; the total difficulty, of which the bytes before the first zero are stored, is read as RLP and is right exactly from 1 to 127
(`c122_difficulty_violated`). Proved: header, body and number by the hash (`c122_header_partial`), and all accounts
(`c122_accounts`).

C123, C124, C125, C126 (cmd/check_hashstate.cpp, check_tx_lookup.cpp, check_blockhashes.cpp, check_changes.cpp). `Tools/Checks.lean`:
a command is what it complains about and whether an exception ends it; the texts, the progress messages and the order of complaints
within a block are left out; executing a block is a parameter of C126. C123 is violated: the part for storage takes the keys of
accounts for those of slots and reads beyond every address, so that any database with an account is undefined behaviour
(`c123_storage_violated`); the hashed slots are not looked at (`c123_unseen_violated`). Proved: the parts for accounts and code
hashes, and that hashing from the beginning satisfies them (`c123_after_hashing`). C124 is violated after a fork, because bodies are
counted instead of reading their numbers (`c124_fork_violated`); proved for the position in the table, and for tables in which that
is the number. C125 is proved; every database made by initialize_with_genesis makes the command complain, since the canonical hash is
stored under number and hash (`c125_genesis`). C126 is proved for everything a buffer can record, together with the loop over the
blocks; a block that touches no account would end the command with an exception (`c126_untouched`).

C127 (cmd/extract_headers.cpp). `Tools/ExtractHeaders.lean`: base64 as boost encodes it, the list file and the loop over the numbers,
with fuel because the loop need not end. Proved: the text of the file, line by line, for databases whose headers are present and not
empty (`c127_headers_partial`); that the text of bytes stands for the same number as the bytes, by a specification of base64 of its
own (`c127_texts`); that a missing header is an exception (`c127_missing`). Violated: a database without canonical hashes leaves an
empty file instead of an empty array (`c127_empty_violated`), an empty header is undefined behaviour, and a step that wraps around
visits numbers again for ever (`c127_wrap_violated`).

C128 (cmd/consensus.cpp, states). `Tools/Consensus.lean`; a test is modelled after its parsing by nlohmann::json, with its texts as
bytes. `Spec/Consensus.lean` says which state a text describes, without the decoders. Proved: the initial state is the described one
(`c128_init`), it passes its own check (`c128_init_check`), and the check is exact where no slot is zero and nothing is spelled twice
(`c128_check_partial`). Violated: a described slot with value zero counts towards the number of slots, so a wrong state passes
(`c128_zero_violated`) and a right one fails (`c128_zero_same_violated`); two spellings of an address (`c128_spelling_violated`).

C129 (run_block, blockchain_test, main). The chain is that of C86; the loop over blocks is related to a specification of tests that
knows only insertion (`c129_blocks`), and the verdict to the described end state (`c129_state`) or root (`c129_root`, without
collisions among the hashes of the final state). Skipped tests (`c129_skipped`) and the sums (`c129_counts`). Violated: a block that is
canonical already ends the whole program with an exception (`c129_repeated_violated`); 256 failures give exit status 0
(`c129_exit_violated`).

C130 (transaction_test). `c130_networks_partial`: the verdict, with recovery of senders as a parameter; `c130_unknown`: unknown networks
matter only for transactions that decode. Hypothesis: the decoder does not read out of bounds (C12). Violated: a sender spelled with
"0x" or capitals fails (`c130_spelling_violated`).

C131 (kNetworkConfig). The names are read by a specification of their grammar; `c131_rules`, `c131_transitions`, `c131_dao`,
`c131_muir_glacier`, `c131_names`, `c131_chain` for all block numbers.

C132 (memory_buffer.cpp 29-68, 154-187; buffer.cpp 39-104, 360-410). `Spec/Buffers.lean` says when the two buffers have the same
answers (`SameState`) and runs blocks on each; the proof goes call by call (`Db/Agreement.lean`). Proved: equal answers give equal
executions (`c132_execution`), equal answers after a block's calls in any order (`c132_calls_partial`) and after any number of blocks
in which incarnations are not reused (`c132_blocks_partial`, `c132_results_partial`). Violated: deleting an account without
incarnation at an address where a contract was before resets the previous incarnation in `MemoryBuffer` and not in `db::Buffer`
(`c132_previous_violated`), so that the next contract has the old storage in one and none in the other (`c132_results_violated`); a
slot that is zero before and after is erased by the one and skipped by the other (`c132_storage_violated`). Writing the buffer to the
database (C82) is not part of it.

C133 (mdbx.cpp 105-132). `Tools/DbTool.lean` models cursors with the flag that libmdbx sets when a move fails at the end. `for_each`
reads the record once, before the loop, so that the function sees the first record each time (`c133_each_partial`,
`c133_each_violated`). `for_count` joins its two conditions by "or" and lets the count wrap; it is a relation, and the number of calls
is the first from the number of records on that is the count modulo 2^64 (`c133_count_partial`), which is too many in both directions
(`c133_more_violated`, `c133_fewer_violated`). Functions that assign to the record they are given are left out.

C134 (dbtool.cpp 43-98, 248-270, 348-374). The list of free pages is walked with `for_each`: the numbers are those of its first entry,
as often as there are entries (`c134_free_partial`, `c134_free_violated`). The sizes of a scan are right, and the bar always has 50
ticks, although its counter wraps for tables of fewer than 50 entries (`c134_scan`).

C135 (dbtool.cpp 636-790, 872-896). At the end of a table the transaction is committed and not begun again, so that the next table
makes the command fail (`c135_next_partial`, `c135_copy_violated`), unless a commit happened to be due with the very last entry; a
single table is copied or merged as it should be (`c135_single_partial`, `c135_merge`, for every commit size); empty tables alone are
never committed though the command succeeds (`c135_empty_partial`, `c135_status_violated`); `--create` is not passed on, and always
fails (`c135_create_violated`). The order of the tables of the target is that of their creation in the model. A full map, whose error
is ignored by `put`, is left out.

C136 (dbtool.cpp 570-634). `fs::rename(src_path, tgt_path)` has its arguments the wrong way round: with `--replace` the command always
fails, after the original was moved to the backup or removed (`c136_replace_partial`, `c136_replace_violated`); without it is right
(`c136_compact`). The database must be in a directory and the disk have space.

C137 (dbtool.cpp 177-246). Right when every question is answered (`c137_answers`) and with `--yes` (`c137_yes`). At the end of the
input the empty word matches the pattern and counts as a yes (`c137_silence_violated`); after words that are no answer the loop does
not end (`c137_end_violated`).

C138 (history_index.cpp, log_index.cpp, tx_lookup.cpp). `Tools/StageCommands.lean` models the commands as a first transaction and a
stage. What `--full` does depends neither on the index nor on its progress (`c138_fresh`). The cursor of the stages is set to the key
of a block exactly (C64, C89, C97, C98), so that `--full` empties the indices of storage, logs and transactions on every database
and that of accounts whenever block 0 has no change, puts nothing in, and ends with status 0 (`c138_storage_violated`,
`c138_logs_violated`, `c138_lookup_violated`, `c138_accounts_violated`). With a change in block 0 the index of accounts is right
(`c138_accounts_partial`). Clearing is committed first: if the stage then fails, the index is lost (`c138_failed_violated`).

C139 (the same, blockhashes.cpp, trie.cpp, unwind_execution.cpp, unwind_hashstate.cpp, stagedsync/util.cpp 23-38). A bad hash of a block
is not among the results that are thrown: `blockhashes` ends with 0 on one (`c139_bad_hash_violated`), and with -5 on every proper
chain (`c139_chain_violated`, from C55). The other stages never report it, so their commands are right (`c139_status_partial`,
`c139_trie`), and without `--full` a failure leaves the database (`c139_failed`, `c139_point`). Opening the environment and parsing
options are left out.

C140 (hashstate.cpp). Proved for each option alone (`c140_plain`, `c140_reset`, `c140_full_partial`, `c140_failed`: one transaction, so
nothing is lost). With `--full --increment` only what changed after block 0 is hashed, since the change sets are read from block 1
(`c140_increment_violated`).

C141 (stages.cpp 21-35). The intermediate hashes are paired with `unwind_hashstate` (`c141_interhashes_violated`, `c141_list_partial`),
so that undoing all stages undoes the hashed state twice; the second time is always aborted (`c141_twice_violated`).

C142 (ethash/keccak.cpp). `Crypto/Keccak.lean` has both unrolled rounds as they are written, the loop over the input and the padding.
`Spec/Keccak.lean` is FIPS 202 with lanes as functions of x and y: offsets from the walk of section 3.2.2, constants from the shift
register of 3.2.5. Equality holds for all messages (`c142_keccak256`, `c142_keccak512`); `c142_padding` says what the padding is bit by
bit. The constants of the code are hashes (`c142_constants`), so that the hypotheses of the theorems about tries hold for this function
(`c142_state_root`). Examples compute the hash of the first block of the main network and addresses of contracts.

C143–C148 (ethash/ethash.cpp). `Crypto/Ethash.lean` is the code with the arithmetic of 32 bits written out; hashes are bytes, out of
which words are read; division by zero and access outside of an array are undefined. Keccak is the one of C142, so nothing of Ethash is
a parameter. `Spec/Ethash.lean` follows the programs of the published specification with unbounded numbers and lists of words; sizes are
stated as greatest primes.
* C143 `c143_largest_prime_partial`: right for every bound but 2, where the result is 1 (`c143_violated`). That the search ends in the
  range is proved with 3 as the last resort; that trial division is right, with the least factor.
* C144 `c144_cache_partial`, `c144_dataset_partial`: right exactly below epoch 2097024 and 65408; there the bound wraps to 0 and so
  does the number of items (`c144_violated`). 4294967311, the prime after 2^32, shows that no later epoch is right.
* C145 `c145_cache`, `c145_dataset`: equal to the specification for up to 2^31 items; the cache of an example was computed by another
  program. Without items the code writes outside of its memory (`c145_no_items`).
* C146 `c146_verify_partial`: for blocks below 979230000 (epochs whose dataset has at most 2^32 items of 64 bytes, so that their
  numbers fit) the check ends, accepts exactly right seals, names the right error, and the context kept by earlier checks changes
  nothing; `c146_headers` extends this to any sequence of headers, `c146_accepted_header` to header validation (C23), whose parameter
  `sealOk` is hereby this code. Missing: epochs 32641 to 65407, in which item numbers exceed 32 bits; the specification does not say what
  happens then. `c146_violated`: in epoch 65408 a header that passes the boundary leads to a remainder by zero;
  `c146_no_memory_violated`: without memory for the cache, a null pointer is used.
* C147 `c147_boundary_partial`: accepted exactly if result · difficulty < 2^256. The Yellow Paper allows 2^256 itself
  (`c147_violated`, for every difficulty that is a power of two). Difficulty 0 accepts everything.
* C148 `c148_epoch_partial`: every answer is right for up to 2^32 − 30000 questions, and there is one for each epoch below 30000.
  `c148_violated`: the answer for epoch 30000 depends on the question before.

C149 (cmd/check_pow.cpp; `Tools/CheckPow.lean`). `PowReport` says with the Ethash specification what may be reported for a range.
`c149_report_partial`: below block 979230000 (see C146) the command ends after one step for each block, with such a report;
`c149_complete`: the report is "complete" exactly if all seals are right. `c149_status_violated`: the exit status is 0 always;
`c149_height_violated`: the height is reduced to 32 bits, so that blocks are not looked at.

C150 (cmd/scan_txs.cpp; `Tools/ScanTxs.lean`). Execution is a parameter (C43 and others). `c150_lines`: exactly which lines are printed,
whether the range ends or the chain; `c150_sum_partial`: together they account for every transaction up to the last multiple of 50000,
and `c150_violated`: for none of those after it, so that of short ranges nothing is printed. `c150_refused`: ranges that are upside down.
`c150_invalid_violated`: blocks that are not valid leave the status at 0 without assertions and abort the program with them.

C151 (config.hpp:124-187; `Chain/Networks.lean`). `Spec/Networks.lean` has the blocks of the hard forks as published with the EIPs.
`c151_known`, `c151_wellFormed` (the hypotheses of the theorems on headers and rewards hold for the four networks), `c151_revision` (for
every block). `c151_clique_violated`: Rinkeby and Görli are known as networks with Clique, but no header of the form of EIP-225 is ever
accepted, whatever the state; `c151_reward_violated`: and every block of theirs would create at least 2 ether.

C152 (mdbx.cpp:20-95; `Db/Environment.lean`). What is at the path is one of six cases; what libmdbx does with the request is not
modelled. `c152_existing`, `c152_create`, `c152_request`, `c152_path`. `c152_violated`: options are compared only after the directory was
made; `c152_refused_partial`: that is the only change that a refusal leaves.

C153 (check_senders.cpp:70-187, 242-419, 469-567, 616-700; `Tools/SenderThreads.lean`). The steps of the workers are those of
`Stages/Workers.lean`; the steps of the main thread that differ are modelled again. `c153_order`, `c153_possible` (workers are used again, in
contrast to the stage). `c153_reset_violated`: with a single worker and nothing going wrong, a worker loses its second batch and
dereferences a null pointer; `c153_defined_partial`: nothing else is undefined, even with interrupts, failures and lack of memory.
`c153_return_violated` (a body is missing), `c153_all_violated`, `c153_failure_violated` (a key that cannot be recovered gives success),
`c153_lost_kick_violated`.

C154, C155 (check_senders.cpp:216-464, 570-755, 813-900; `Tools/CheckSenders.lean`). What the threads do is a parameter, as in C54; what it
can be is C153. `toolRecoverFrom_ok` shows that whatever the tool recovers without `--force` the stage recovers with enough workers, so
C54 carries over, with any number of batches: `c155_shift`, `c155_partial`. `c155_kept`: without `--force` senders are only appended. `c155_force`:
with it, from block 3 on, recovery begins anew at that block. Violated: `unwind` to height 1 removes block 1 too (`c154_one_violated`), so
`--force --from 2` loses it (`c155_force_violated`); `--to` below the last body never succeeds (`c155_to_violated`); a key that is not
recovered or a late batch gives status zero with nothing stored (`c155_failed_violated`); canonical hashes beyond the bodies
(`c155_ahead_violated`); blocks without transactions shift the hashes (`c155_violated`); a block larger than `--batch` overflows the
memory of its worker (`c155_overflow_violated`).

C156-C159 (wasm/silkworm_wasm_api.cpp; `Wasm/Api.lean`). All 45 functions are calls of a machine whose memory is a map from numbers to
objects; a pointer is null, a network, or a member of an object with an offset. Reads and writes by the host are calls too. Memory that
was not written has no value, and reading it is undefined, as are wrong kinds, ends of buffers, deleted objects and failed
preconditions. `malloc` fails if `Env.memory` is false; `new` does not fail. A chain refers to its state and configuration by number, as
the C++ references do. Structure members whose offsets are not known to a host (e.g. of a `BlockHeader`) are separate members.

C156. `Spec/Wasm.lean` has the rules for a host: a ledger of what it owns, `Allowed` for a call, `after` for the ledger. By `step_ok`
(`Wasm/Lemmas.lean`) an allowed call is defined if its callee is; `c156_host_rules_partial` follows for all sequences. `Wasm/Lifetime.lean`:
what each call makes and deletes; `c156_nothing_left`, `c156_use_after_delete`, `c156_null`, `c156_delete_null`, `c156_failed_constructor`,
`c156_chain_refers`, `c156_unwritten`. Violated: without memory the root is copied to null (`c156_root_without_memory_violated`); the text
`c3808080` makes the decoder read beyond the input (`c156_truncated_transaction_violated`, from C12).

C157. `World` in `Spec/Wasm.lean` is three functions, updated pointwise. `c157_history`: after any calls the state is the world after the
updates. `c157_read_account`, `c157_read_code`, `c157_read_storage`, `c157_number_of_accounts`, `c157_storage_size`, `c157_root`,
`c157_root_of_world`: all that can be asked of a state. Violated: of locations and values longer than 32 bytes the last bytes are left
out (`c157_long_location_violated`, `c157_long_value_violated`); the storage of a removed account belongs to the one made in its place,
as the host makes accounts of incarnation 0 only (`c157_removed_storage_violated`); the incarnation of a removed account is not kept
(`c157_previous_incarnation_violated`).

C158. `insert_step`: one call of `blockchain_insert_block` is `insert_block` on the objects referred to; hence C27 and C71 hold of the
state in memory (`c158_heaviest`, `c158_state_partial`); `c158_block_senders`: what changes in the host's block. Violated: an account
written as it is after a block disappears with that block, because the functions record no previous value
(`c158_written_between_violated`).

C159. One theorem for each function that gives a value, from C08-C13, C19, C21, C26, C58 and C142. `difficulty` can write to a balance.

C57 (lru_cache.hpp). `Common/Lru.lean` models list nodes with identities and the map of iterators; a stale iterator is
undefined behaviour. Refinement to an abstract recency list (`Spec/Lru.lean`) by an invariant; retention and eviction are
stated over histories.

C58 (util.cpp hex functions). `c58_hex_accepts` characterises the parser: accepted exactly if the digits form a number,
with that number as result; round trip follows.

C59 (util.cpp padding). A view is external or points into the buffer; growing the buffer beyond its capacity moves it.
`left_pad` then reads freed memory (witness); proved for external views and sufficient capacity. `right_pad` is proved in full.

C60 (db/util.cpp BlockBodyForStorage). Round trip, canonicity and safety from C07.

C61, C69 (db/util.hpp, access_layer.cpp 29-147). Storage modes and versions; the information table as list of entries.

C63 (receipt.cpp, log.cpp). Injectivity from a specification decoder / prefix-freeness.

C65 (transaction.cpp). The decoder takes the previous contents of the target as an argument; violated
(`legacy_decode` leaves `access_list` alone): witness, plus partial theorem for typed transactions and targets without access list.

C66 (account.cpp `Account::rlp`). Against the Yellow Paper list; injectivity from RLP injectivity.
