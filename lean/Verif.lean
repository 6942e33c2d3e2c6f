import Verif.Base.AMap
import Verif.Base.Bytes
import Verif.Base.BytesLemmas
import Verif.Base.Outcome
import Verif.Chain.Blockchain
import Verif.Chain.BlockchainLemmas
import Verif.Chain.BlockchainState
import Verif.Chain.BlockchainTotal
import Verif.Chain.Config
import Verif.Chain.Dao
import Verif.Chain.Difficulty
import Verif.Chain.IntrinsicGas
import Verif.Chain.Lemmas
import Verif.Chain.Networks
import Verif.Chain.Validity
import Verif.Chain.ValidityLemmas
import Verif.Common.Lru
import Verif.Common.LruLemmas
import Verif.Common.SplitLemmas
import Verif.Common.Text
import Verif.Common.TextLemmas
import Verif.Common.Util
import Verif.Common.UtilLemmas
import Verif.Crypto.Blake2b
import Verif.Crypto.Blake2bLemmas
import Verif.Crypto.Ecdsa
import Verif.Crypto.Ethash
import Verif.Crypto.EthashLemmas
import Verif.Crypto.EthashMixLemmas
import Verif.Crypto.EthashPrimeLemmas
import Verif.Crypto.Keccak
import Verif.Crypto.KeccakLemmas
import Verif.Crypto.Primality
import Verif.Crypto.Ripemd160
import Verif.Crypto.Ripemd160Lemmas
import Verif.Crypto.Sha256
import Verif.Crypto.Sha256Lemmas
import Verif.Crypto.Snark
import Verif.Crypto.SnarkLemmas
import Verif.Crypto.SnarkLibff
import Verif.Db.Access
import Verif.Db.Agreement
import Verif.Db.Bitmap
import Verif.Db.BitmapLemmas
import Verif.Db.BlockLemmas
import Verif.Db.BufferInvariant
import Verif.Db.BufferRoot
import Verif.Db.BufferRootLemmas
import Verif.Db.CborLemmas
import Verif.Db.ChangeSetLemmas
import Verif.Db.Environment
import Verif.Db.FlushLemmas
import Verif.Db.Genesis
import Verif.Db.GenesisLemmas
import Verif.Db.HistoryLemmas
import Verif.Db.StateBuffer
import Verif.Db.StateLemmas
import Verif.Db.Table
import Verif.Db.TableLemmas
import Verif.Db.Util
import Verif.Db.UtilLemmas
import Verif.Etl.Collector
import Verif.Etl.Lemmas
import Verif.Etl.Loading
import Verif.Execution.Balances
import Verif.Execution.BlockLemmas
import Verif.Execution.Caches
import Verif.Execution.CachesLemmas
import Verif.Execution.Effects
import Verif.Execution.Evm
import Verif.Execution.Fresh
import Verif.Execution.Guard
import Verif.Execution.Messages
import Verif.Execution.Precompiled
import Verif.Execution.PrecompiledLemmas
import Verif.Execution.Processor
import Verif.Execution.Refunds
import Verif.Execution.Run
import Verif.Execution.Settlement
import Verif.Execution.Total
import Verif.Execution.Totals
import Verif.Execution.TransactionLemmas
import Verif.Properties.Account
import Verif.Properties.Bitmap
import Verif.Properties.Block
import Verif.Properties.Blockchain
import Verif.Properties.BlockchainState
import Verif.Properties.BufferRoot
import Verif.Properties.Buffers
import Verif.Properties.Caches
import Verif.Properties.Cbor
import Verif.Properties.Chain
import Verif.Properties.ChangeSets
import Verif.Properties.CheckPow
import Verif.Properties.CheckSenders
import Verif.Properties.Checks
import Verif.Properties.Common
import Verif.Properties.Consensus
import Verif.Properties.Contracts
import Verif.Properties.DbBlocks
import Verif.Properties.DbKeys
import Verif.Properties.DbReads
import Verif.Properties.DbState
import Verif.Properties.DbTool
import Verif.Properties.DbTrie
import Verif.Properties.Environment
import Verif.Properties.Ethash
import Verif.Properties.Etl
import Verif.Properties.ExecuteBlocks
import Verif.Properties.Execution
import Verif.Properties.ExtractHeaders
import Verif.Properties.Gas
import Verif.Properties.Genesis
import Verif.Properties.HashState
import Verif.Properties.Hashes
import Verif.Properties.History
import Verif.Properties.HistoryIndex
import Verif.Properties.Keccak
import Verif.Properties.Messages
import Verif.Properties.Metering
import Verif.Properties.Money
import Verif.Properties.Networks
import Verif.Properties.Precompiled
import Verif.Properties.Receipt
import Verif.Properties.Rlp
import Verif.Properties.ScanTxs
import Verif.Properties.SenderThreads
import Verif.Properties.Senders
import Verif.Properties.Sha256
import Verif.Properties.Snark
import Verif.Properties.StageBlocks
import Verif.Properties.StageCommands
import Verif.Properties.State
import Verif.Properties.StateRoot
import Verif.Properties.Text
import Verif.Properties.Total
import Verif.Properties.Transaction
import Verif.Properties.Trie
import Verif.Properties.TrieRecords
import Verif.Properties.Unwind
import Verif.Properties.UnwindCode
import Verif.Properties.WasmChain
import Verif.Properties.WasmMemory
import Verif.Properties.WasmState
import Verif.Properties.WasmValues
import Verif.Properties.Workers
import Verif.Rlp.CodecLemmas
import Verif.Rlp.Lemmas
import Verif.Rlp.Model
import Verif.Spec.Account
import Verif.Spec.Blake2b
import Verif.Spec.Block
import Verif.Spec.Blockchain
import Verif.Spec.Blocks
import Verif.Spec.Buffers
import Verif.Spec.Caches
import Verif.Spec.Cbor
import Verif.Spec.Chain
import Verif.Spec.ChangeSets
import Verif.Spec.Checks
import Verif.Spec.Consensus
import Verif.Spec.Contracts
import Verif.Spec.Db
import Verif.Spec.DbTool
import Verif.Spec.DbTrie
import Verif.Spec.Ethash
import Verif.Spec.Etl
import Verif.Spec.ExecuteBlocks
import Verif.Spec.Execution
import Verif.Spec.ExtractHeaders
import Verif.Spec.Genesis
import Verif.Spec.History
import Verif.Spec.Keccak
import Verif.Spec.Lru
import Verif.Spec.Networks
import Verif.Spec.Precompiled
import Verif.Spec.Receipt
import Verif.Spec.Ripemd160
import Verif.Spec.Rlp
import Verif.Spec.RlpLemmas
import Verif.Spec.Senders
import Verif.Spec.Sha256
import Verif.Spec.Snark
import Verif.Spec.Stages
import Verif.Spec.State
import Verif.Spec.StateRoot
import Verif.Spec.Text
import Verif.Spec.Transaction
import Verif.Spec.Trie
import Verif.Spec.TrieRecords
import Verif.Spec.Unwind
import Verif.Spec.Util
import Verif.Spec.Verdict
import Verif.Spec.Wasm
import Verif.Spec.Workers
import Verif.Stages.BlockHashes
import Verif.Stages.CodeLemmas
import Verif.Stages.Common
import Verif.Stages.DbTrie
import Verif.Stages.DbTrieLemmas
import Verif.Stages.Execution
import Verif.Stages.ExecutionLemmas
import Verif.Stages.HashState
import Verif.Stages.HashStateLemmas
import Verif.Stages.HistoryIndex
import Verif.Stages.HistoryIndexLemmas
import Verif.Stages.Lemmas
import Verif.Stages.Senders
import Verif.Stages.SendersBatches
import Verif.Stages.SendersLemmas
import Verif.Stages.TxLookup
import Verif.Stages.TxLookupLemmas
import Verif.Stages.Unwind
import Verif.Stages.UnwindLemmas
import Verif.Stages.Workers
import Verif.Stages.WorkersLemmas
import Verif.Stages.WorkersPhases
import Verif.Stages.WorkersProgress
import Verif.Stages.WorkersSpec
import Verif.State.BufferLemmas
import Verif.State.Cells
import Verif.State.Commit
import Verif.State.Congruence
import Verif.State.IntraBlockState
import Verif.State.Invariant
import Verif.State.MemoryBuffer
import Verif.State.Observe
import Verif.State.Revert
import Verif.State.Semantics
import Verif.State.Shape
import Verif.State.Trace
import Verif.State.Undo
import Verif.State.Views
import Verif.Tools.CheckPow
import Verif.Tools.CheckSenders
import Verif.Tools.CheckSendersLemmas
import Verif.Tools.Checks
import Verif.Tools.ChecksLemmas
import Verif.Tools.Consensus
import Verif.Tools.ConsensusChain
import Verif.Tools.ConsensusLemmas
import Verif.Tools.DbTool
import Verif.Tools.DbToolLemmas
import Verif.Tools.ExtractHeaders
import Verif.Tools.ExtractHeadersLemmas
import Verif.Tools.ScanTxs
import Verif.Tools.SenderThreads
import Verif.Tools.SenderThreadsLemmas
import Verif.Tools.StageCommands
import Verif.Tools.StageCommandsLemmas
import Verif.Trie.BuilderLemmas
import Verif.Trie.BuilderProof
import Verif.Trie.CollectClose
import Verif.Trie.CollectLoop
import Verif.Trie.CollectProof
import Verif.Trie.CollectRoot
import Verif.Trie.HashBuilder
import Verif.Trie.NodeCodec
import Verif.Trie.NodeCodecLemmas
import Verif.Trie.NodeLemmas
import Verif.Trie.RecordLemmas
import Verif.Trie.RecordSize
import Verif.Trie.RootLemmas
import Verif.Trie.StateRoot
import Verif.Trie.StateRootLemmas
import Verif.Trie.VectorLemmas
import Verif.Types.Account
import Verif.Types.AccountLemmas
import Verif.Types.Block
import Verif.Types.BlockLemmas
import Verif.Types.Cbor
import Verif.Types.Log
import Verif.Types.LogLemmas
import Verif.Types.Transaction
import Verif.Types.TransactionDecode
import Verif.Types.TransactionLemmas
import Verif.Wasm.Api
import Verif.Wasm.Lemmas
import Verif.Wasm.Lifetime
import Verif.Wasm.States
