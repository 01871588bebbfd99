{"id": "C01", "title": "Inner join output is exactly the join", "statement": "With an inner join, for each party that receives results the output file contains every one of its own input rows whose key also occurs in the peer's input, repeated once per peer row with that key, and contains no other row.", "quantifier": "all pairs of input tables (any length, any duplicate keys, any arrival batching) and all lawful intersection index files", "why_tests_cant": "The output depends on arbitrary duplicate multiplicities and on where 8192-row batches cut runs of equal keys; tests fix a handful of tables.", "anchors": ["psi/utils/table_utils.cc: KeyInfo::Make, ApplyPeerDupCnt, InterIndexProcessor", "psi/utils/join_processor.cc: DealResultIndex, GenerateResult"]}
{"id": "C02", "title": "Both parties' inner join outputs are row aligned", "statement": "When both parties receive the result, their inner-join outputs have the same number of rows and, for every row number, the two rows carry the same key; per key the paired rows enumerate the full cross product when one side's keys are unique.", "quantifier": "all pairs of tables and all key multiplicities on both sides", "why_tests_cant": "Alignment is a relation between two independently produced files for unbounded inputs.", "anchors": ["psi/utils/join_processor.cc: GenerateResult", "psi/utils/table_utils.cc: ApplyPeerDupCnt"]}
{"id": "C03", "title": "Outer joins keep every unmatched row once and pad the other side", "statement": "For left, right and full joins the side that must keep unmatched rows outputs each unmatched row exactly once, the other side outputs exactly as many NA rows at the same row positions, and both outputs have equal length.", "quantifier": "all join types, both choices of the left side, all pairs of tables", "why_tests_cant": "Needs all combinations of join type, role, left side and table contents; the two parties' files must agree position by position.", "anchors": ["psi/utils/join_processor.cc: JoinProcessor, GenerateResult"]}
{"id": "C04", "title": "Difference join outputs exactly the unmatched rows", "statement": "For the difference join each party's output contains exactly its own unmatched rows once each plus NA rows standing for the peer's unmatched rows, and no matched row.", "quantifier": "all pairs of tables and both roles", "why_tests_cant": "Quantifies over every table and multiplicity.", "anchors": ["psi/utils/join_processor.cc: JoinProcessor, GenerateResult"]}
{"id": "C05", "title": "Reported counts are the true counts", "statement": "original_count, original_key_count, intersection_count and intersection_key_count in the PSI report equal the number of input rows, distinct input keys, own input rows that have a partner, and distinct common keys.", "quantifier": "all tables and all intersection index files that are lawful", "why_tests_cant": "A counter that is off only at a batch boundary or only for some multiplicity pattern is not seen by fixed-size tests.", "anchors": ["psi/utils/table_utils.cc: ApplyPeerDupCnt", "psi/interface.cc: Finalize"]}
{"id": "C06", "title": "A corrupt intersection index file is rejected, never silently mis-joined", "statement": "If the sorted index file handed to the join step contains an index twice, or an index that is not a key of the input, the run ends with an error; it never produces an output for a wrong set of rows.", "quantifier": "all index files (any contents) and all tables", "why_tests_cant": "The space of corrupt files (crash leftovers, replays) is unbounded.", "anchors": ["psi/utils/table_utils.cc: InterIndexProcessor::GetBatchInfo, ApplyPeerDupCnt"]}
{"id": "C07", "title": "Key grouping covers every row exactly once, independently of batching", "statement": "Grouping the key-sorted input assigns every row to exactly one group, groups hold equal keys, distinct groups have distinct keys, and the result does not depend on how rows were delivered in batches.", "quantifier": "all key sequences that are sorted and all ways to cut them into non-empty batches", "why_tests_cant": "A run of equal keys can straddle any number of batches.", "anchors": ["psi/utils/table_utils.cc: KeyInfo::Make"]}
{"id": "C08", "title": "Spilled bucket records survive the disk round trip", "statement": "An item written to the on-disk hash bucket cache is read back with the same index, duplicate count and (base64) data, and every item written is read back from exactly one bucket.", "quantifier": "all items, all bucket counts, all hash functions, all write sequences", "why_tests_cant": "Unbounded item values and sequences; text encoding with separators invites corner cases.", "anchors": ["psi/utils/hash_bucket_cache.cc: BucketItem::Serialize, Deserialize, WriteItem, LoadBucketItems", "psi/utils/multiplex_disk_cache.cc"]}
{"id": "C09", "title": "Computing the intersection bucket by bucket loses and adds nothing", "statement": "The per-bucket intersection of the two parties' stored items yields exactly the positions of own items whose value the peer also stored, each once, with the peer's duplicate count for that value.", "quantifier": "all item lists (distinct values per party), all bucket counts, all hash functions", "why_tests_cant": "Depends on both parties bucketing identically for every value.", "anchors": ["psi/utils/ec_point_store.cc: FinalizeAndComputeIndices"]}
{"id": "C10", "title": "ECDH-PSI computes the exact intersection under every schedule", "statement": "When a run of two-party ECDH-PSI completes, each party entitled to the result holds the exact intersection of the two inputs, whatever the batch sizes and whatever the interleaving of the six concurrent send/receive tasks.", "quantifier": "all inputs, batch sizes, interleavings of both parties' tasks and message deliveries", "why_tests_cant": "The number of interleavings is unbounded; unit tests see the schedule the OS happens to choose.", "anchors": ["psi/algorithm/ecdh/ecdh_psi.cc: MaskSelf, MaskPeer, RecvDualMaskedSelf, RunEcdhPsi"]}
{"id": "C11", "title": "ECDH-PSI never deadlocks and always drains its messages", "statement": "In two-party ECDH-PSI with FIFO links every maximal execution terminates, all tasks finish, and no message remains unread, for each choice of which party may see the result.", "quantifier": "all inputs, target choices (self, peer, all) and schedules", "why_tests_cant": "Absence of deadlock is a statement about all schedules.", "anchors": ["psi/algorithm/ecdh/ecdh_psi.cc"]}
{"id": "C12", "title": "Only a party entitled to the result receives doubly masked values of its own items", "statement": "If the result is targeted at one party, the other party is never sent any doubly masked copy of its own items and ends without a result store to intersect.", "quantifier": "all inputs and schedules, both target ranks", "why_tests_cant": "A leak on one path (e.g. the final empty batch or a resumed run) escapes example-based tests.", "anchors": ["psi/algorithm/ecdh/ecdh_psi.cc: SelfCanTouchResults, PeerCanTouchResults"]}
{"id": "C13", "title": "Wire batches survive serialization and misordering is detected", "statement": "A batch of items with duplicate counts sent through a channel is received as the same items and counts; receiving a batch out of turn is an error.", "quantifier": "all batches of equal-length items (including empty) and all orders of delivery", "why_tests_cant": "All item lengths and counts must round trip.", "anchors": ["psi/algorithm/ecdh/ecdh_psi.cc: BatchData, RecvBatchImpl", "psi/utils/serialize.h", "psi/utils/communication.h"]}
{"id": "C14", "title": "A resumed ECDH-PSI run yields the result of an uninterrupted one", "statement": "If a two-party ECDH-PSI task with recovery enabled crashes at any point and is restarted with the same configuration, the final intersection equals that of an uninterrupted run.", "quantifier": "all inputs (including keys with duplicates), crash points and batch sizes", "why_tests_cant": "Crash points are unbounded in number and duplicate counts must be re-aligned at each.", "anchors": ["psi/algorithm/ecdh/ecdh_psi.cc: MaskSelf, RunEcdhPsi", "psi/checkpoint/recovery.cc", "psi/utils/hash_bucket_cache.cc"]}
{"id": "C15", "title": "Restart with a different configuration or input is refused", "statement": "A recovery folder created for one configuration and input digest is never used to continue a task with a different configuration or input.", "quantifier": "all histories of runs sharing a recovery folder", "why_tests_cant": "Ranges over all histories of crashed and restarted runs.", "anchors": ["psi/checkpoint/recovery.cc: MarkInitEnd"]}
{"id": "C16", "title": "Recovery progress never goes backwards", "statement": "The stage stored in the checkpoint never decreases during the life of a recovery folder.", "quantifier": "all sequences of checkpoint operations across runs", "why_tests_cant": "All call sequences matter, including late progress updates.", "anchors": ["psi/checkpoint/recovery.cc"]}
{"id": "C17", "title": "Bucketed protocols resume without losing or duplicating results", "statement": "For bucketed protocols, whatever bucket either party crashed in, after restart the concatenation of recorded intersection indices is the full intersection with every index once.", "quantifier": "all bucket counts, crash points of both parties, numbers of restarts", "why_tests_cant": "Crash points between the result write and the progress write are not reachable from unit tests.", "anchors": ["psi/algorithm/kkrt/receiver.cc: Online", "psi/algorithm/rr22/receiver.cc: Online", "psi/checkpoint/recovery.cc: UpdateParsedBucketCount"]}
{"id": "C18", "title": "The equal-input shortcut is only taken for equal inputs", "statement": "When the hash-digest shortcut reports the two inputs equal, the set of keys of both parties is really the same (collision-free hash assumed), so the shortcut result is the intersection.", "quantifier": "all pairs of inputs", "why_tests_cant": "Needs two adversarially related inputs; random tests never hit it.", "anchors": ["psi/interface.cc: Init", "psi/utils/table_utils.cc: KeyInfo::Make", "psi/utils/csv_checker.cc"]}
{"id": "C19", "title": "Cuckoo hashing places every item exactly once, in one of its own bins", "statement": "After inserting any set of items, each item is stored exactly once, either in a bin selected by one of its hash functions (recorded with it) or in the stash, bins hold at most one item, and the stash never exceeds its size; otherwise insertion fails.", "quantifier": "all insertion sequences, hash values, bin counts and random eviction choices", "why_tests_cant": "Eviction chains are driven by hash values and randomness.", "anchors": ["psi/utils/cuckoo_index.cc: Insert, SanityCheck"]}
{"id": "C20", "title": "KKRT-PSI finds exactly the common items, each once", "statement": "The receiver's output of a KKRT round is exactly the set of its items the sender also has, each reported once with the sender's multiplicity, including when hash functions of an item collide on one bin.", "quantifier": "all item sets, all hash functions (including colliding bins), all cuckoo placements and sender permutations", "why_tests_cant": "Bin collisions of one item with itself are rare in random tests.", "anchors": ["psi/algorithm/kkrt/kkrt_psi.cc: KkrtPsiSend, KkrtPsiRecv"]}
{"id": "C21", "title": "KKRT sender encodings do not depend on message timing", "statement": "The encodings the KKRT sender finally transmits are the same for every timing at which correction blocks arrive from the receiver, every bin of every item is encoded exactly once.", "quantifier": "all arrival schedules of correction batches", "why_tests_cant": "The sender interleaves encoding with a concurrent receive task.", "anchors": ["psi/algorithm/kkrt/kkrt_psi.cc: KkrtPsiSend"]}
{"id": "C22", "title": "RR22 OPRF: both parties derive the same pseudorandom value for a common item", "statement": "For every item in both inputs the value the sender evaluates equals the value the receiver obtained, in the fast, low-communication and malicious variants.", "quantifier": "all inputs, VOLE correlations satisfying the VOLE relation, all encodings accepted by the key-value store", "why_tests_cant": "Algebraic identity over all field values.", "anchors": ["psi/algorithm/rr22/rr22_oprf.cc: SendFast, SendLowComm, Eval, RecvFast, RecvLowComm"]}
{"id": "C23", "title": "RR22 pipelined execution processes each bucket exactly once, in order, without deadlock", "statement": "The three-stage asynchronous runner prepares, evaluates and post-processes every bucket from the start bucket on exactly once and in increasing order, and always terminates.", "quantifier": "all interleavings of the three worker threads, all bucket counts and start indices", "why_tests_cant": "Condition-variable pipelines have unboundedly many schedules.", "anchors": ["psi/algorithm/rr22/rr22_psi.h: Rr22Runner::AsyncRun, Run, ParallelRun"]}
{"id": "C24", "title": "RR22 result and broadcast are exact and consistent", "statement": "Given OPRF values that agree exactly on common items, the receiver gets each common item once with the sender's duplicate count, and if results are broadcast the sender gets exactly the same items with the receiver's duplicate counts, for every thread interleaving of the lookup.", "quantifier": "all OPRF value lists, duplicate counts, thread partitions and merge orders", "why_tests_cant": "Merge order of worker threads is arbitrary.", "anchors": ["psi/algorithm/rr22/rr22_utils.cc: GetIntersectionReceiver, GetIntersectionSender"]}
{"id": "C25", "title": "RR22 truncation keeps the statistical security margin and both sides truncate identically", "statement": "The truncated OPRF length is the same for both parties, never exceeds 16 bytes, and when below 16 bytes is at least statistical-security plus log2 of the number of pairs bits.", "quantifier": "all set sizes and security parameters", "why_tests_cant": "Numeric boundary cases over all sizes.", "anchors": ["psi/algorithm/rr22/rr22_psi.cc: ComputeTruncateSize, ExchangeTruncateSize"]}
{"id": "C26", "title": "Oblivious key-value store: decoding an encoded key returns its value", "statement": "If the key-value store encoder accepts a set of key/value pairs, decoding any of the keys returns exactly its value.", "quantifier": "all key/value sets, hash seeds and matrices for which encoding succeeds", "why_tests_cant": "Correctness of triangulation plus back-substitution over all matrices.", "anchors": ["psi/algorithm/rr22/okvs/paxos.cc", "psi/algorithm/rr22/okvs/baxos.cc"]}
{"id": "C27", "title": "Both parties agree on the bucket count and buckets cover all items", "statement": "After negotiation both parties use the same number of buckets; it is zero only if some party has no items, and otherwise the average bucket load of each party is at most the configured size.", "quantifier": "all input sizes and bucket sizes of both parties", "why_tests_cant": "Arithmetic over all sizes.", "anchors": ["psi/utils/bucket.cc: NegotiateBucketNum"]}
{"id": "C28", "title": "UB-PSI: offline plus online phases give the exact intersection", "statement": "For unbalanced PSI the client obtains exactly the positions of its items contained in the server's set together with the server's multiplicities, and the server (when it gets the result) obtains exactly the rows of the common items.", "quantifier": "all inputs, secret keys, blinding factors, cache shuffles and batch sizes", "why_tests_cant": "Ranges over all group elements, permutations and multiplicities.", "anchors": ["psi/algorithm/ecdh/ub_psi/client.cc", "psi/algorithm/ecdh/ub_psi/server.cc", "psi/algorithm/ecdh/ub_psi/ecdh_oprf_psi.cc", "psi/algorithm/ecdh/ub_psi/basic_ecdh_oprf.cc"]}
{"id": "C29", "title": "UB-PSI cache survives the disk round trip and stays usable for any number of queries", "statement": "A record written to the UB-PSI cache file is read back unchanged, records are returned in order and any number of online phases over the same cache give the same answers.", "quantifier": "all records, cache sizes and histories of online phases", "why_tests_cant": "History-dependent and unbounded in cache size.", "anchors": ["psi/algorithm/ecdh/ub_psi/ub_psi_cache.cc", "psi/utils/ec_point_store.cc: UbPsiClientCacheFileStore"]}
{"id": "C30", "title": "Shuffled providers emit a permutation with correct back-references", "statement": "The shuffling batch providers deliver every input item exactly once, and the reported original index of each delivered item is the position where that item stood in the input.", "quantifier": "all inputs, buffer sizes, batch sizes and random permutations", "why_tests_cant": "Buffered shuffling must be right for every buffer/batch size ratio.", "anchors": ["psi/utils/batch_provider_impl.cc: MemoryBatchProvider, SimpleShuffledBatchProvider"]}
{"id": "C31", "title": "Batch providers deliver the input unchanged, in order, and then end", "statement": "Concatenating the batches delivered by a plain batch provider gives the input sequence; batches before the end are non-empty and after the end only empty batches follow.", "quantifier": "all inputs and batch sizes", "why_tests_cant": "All size/batch ratios.", "anchors": ["psi/utils/batch_provider_impl.cc", "psi/utils/arrow_csv_batch_provider.cc"]}
{"id": "C32", "title": "Composite keys match iff every key column matches", "statement": "Two rows are treated as having equal keys iff they agree in every key column.", "quantifier": "all row values, including values containing the column separator", "why_tests_cant": "Needs adversarial column values.", "anchors": ["psi/utils/key.cc: KeysJoin"]}
{"id": "C33", "title": "Index files read back what was written", "statement": "Reading an index file returns every written (index, peer duplicate count) pair once, in file order; the in-memory reader returns them in increasing index order.", "quantifier": "all write/commit/close sequences", "why_tests_cant": "All commit boundaries.", "anchors": ["psi/utils/index_store.cc"]}
{"id": "C34", "title": "Parties with incompatible configurations never start a run", "statement": "A run proceeds past initialisation only if both parties run the same protocol with the same parameters and complementary roles; otherwise both stop with an error.", "quantifier": "all pairs of configurations", "why_tests_cant": "All pairs of configurations, including ones differing in a single field.", "anchors": ["psi/interface.cc: CheckSelfConfig, CheckPeerConfig"]}
{"id": "C35", "title": "Lifecycle order is respected and the shortcut skips only the protocol phases", "statement": "Every run performs initialisation first and finalisation last; protocol phases run in the documented order and are skipped exactly when inputs were detected equal; unbalanced PSI modes run exactly the phases their mode names.", "quantifier": "all modes, roles and digest outcomes", "why_tests_cant": "Decision logic over all configurations.", "anchors": ["psi/interface.cc: AbstractPsiParty::Run, AbstractUbPsiParty::Run"]}
{"id": "C36", "title": "A complete ECDH-PSI join returns exactly the joined rows", "statement": "Starting from two tables, after key grouping, the ECDH protocol under any schedule, the bucketed intersection and the join, the output of each party entitled to it contains every row exactly as often as the join type prescribes, and (result for both) the two outputs fit line by line.", "quantifier": "all pairs of non-empty tables, join types, batch sizes, bucket counts, hash functions and task schedules", "why_tests_cant": "The property couples five modules (key grouping, protocol, store, intersection, join); tests run small tables under the schedules the test machine happens to produce.", "anchors": ["psi/interface.cc: Run, Finalize", "psi/algorithm/ecdh/receiver.cc", "psi/algorithm/ecdh/sender.cc", "psi/algorithm/ecdh/ecdh_psi.cc", "psi/utils/join_processor.cc"]}
{"id": "C37", "title": "The private key of a recoverable ECDH-PSI task never changes across restarts", "statement": "However often a recoverable task is stopped and restarted, the private key used by a party after a restart is the key it used before, so that data masked before and after the restart can be compared.", "quantifier": "all sequences of starts, stage calls and crashes at any point inside a call", "why_tests_cant": "A test can restart at a few chosen points, not after every prefix of file operations.", "anchors": ["psi/checkpoint/recovery.cc: RecoveryManager", "psi/algorithm/ecdh/receiver.cc: Init", "psi/algorithm/ecdh/sender.cc: Init"]}
{"id": "C38", "title": "A crash at any instant leaves a recovery folder from which the task can be restarted", "statement": "Whatever instant the process is stopped at, the next start with the same configuration is accepted and continues.", "quantifier": "all crash points, including those inside the writing of the checkpoint file", "why_tests_cant": "Crash points inside a file write cannot be hit on purpose by a unit test.", "anchors": ["psi/checkpoint/recovery.cc: SaveCheckpointFile, RecoveryManager"]}
{"id": "C39", "title": "The cached key summary is only reused for the keys it was computed from", "statement": "With declared-unique keys the number of keys and the key digest are cached in a file beside the input; a later run that uses the cache gets the number of keys and the digest of its own keys.", "quantifier": "all histories of runs on the same path with any contents and key columns", "why_tests_cant": "Depends on files left behind by earlier runs with other contents or other key columns.", "anchors": ["psi/utils/table_utils.cc: KeyInfo::Make(UniqueKeyTable)"]}
{"id": "C40", "title": "GF(2^128) multiplication is the field product on every processor", "statement": "Galois128 multiplication returns the product of the two 128-bit words in GF(2)[x] modulo x^128 + x^7 + x^2 + x + 1, and the vector-instruction path and the portable path return the same word.", "quantifier": "all pairs of 128-bit words, both code paths", "why_tests_cant": "2^256 operand pairs and two code paths selected by the processor.", "anchors": ["psi/algorithm/rr22/okvs/galois128.h", "psi/algorithm/rr22/okvs/galois128.cc"]}
{"id": "C41", "title": "GF(2^128) inverse and power are correct", "statement": "For every non-zero word the inversion chain returns the unique word whose product with it is one; zero is rejected; Pow returns the repeated product for every exponent.", "quantifier": "all 128-bit words and 64-bit exponents", "why_tests_cant": "2^128 words; correctness of the addition chain is an algebraic fact (order of the multiplicative group).", "anchors": ["psi/algorithm/rr22/okvs/galois128.cc: Inv, Pow"]}
{"id": "C42", "title": "Every key gets the same set of distinct table columns in every code path", "statement": "The columns assigned to a key are distinct, inside the table and as many as the configured weight; the code that handles 32 keys at once, with or without vector instructions, assigns exactly the columns that the one-key code assigns.", "quantifier": "all hash words, weights, table sizes and both code paths", "why_tests_cant": "2^128 hash words per table size; a mismatch between the batched and the scalar path only shows for particular words and breaks decoding silently.", "anchors": ["psi/algorithm/rr22/okvs/paxos_hash.cc: BuildRow, BuildRow32", "psi/algorithm/rr22/okvs/paxos_hash.h"]}
{"id": "C43", "title": "The search for free dense columns tries every column set exactly once", "statement": "When the encoder looks for as many dense columns as there are left-over keys, it tries every set of that size exactly once.", "quantifier": "all dense sizes and numbers of left-over keys for which the 64-bit counts do not overflow", "why_tests_cant": "Exhaustiveness of an unranking loop for all sizes.", "anchors": ["psi/algorithm/rr22/okvs/paxos_utils.cc: ithCombination, Choose", "psi/algorithm/rr22/okvs/paxos.cc: GetGapCols"]}
{"id": "C44", "title": "Binary matrix inversion is correct and complete", "statement": "Inverting a binary matrix returns its two-sided inverse; the empty result is returned only for matrices that have no inverse.", "quantifier": "all square binary matrices of any size", "why_tests_cant": "2^(n*n) matrices for every n.", "anchors": ["psi/algorithm/rr22/okvs/dense_mtx.cc: Invert"]}
{"id": "C45", "title": "The binned key-value store returns every encoded value under any threading", "statement": "If encoding a set of keys into the binned store succeeds, then decoding any list of keys from the resulting table gives every encoded key its value. The decoded value of a key depends only on the table and the key: not on the numbers of threads used to encode or decode, the order in which they run, how keys fall into bins, buffers and batches, or the other keys in the call. Decoding itself never fails.", "quantifier": "all bin counts, thread counts, interleavings of the threads, key lists and values", "why_tests_cant": "Interleavings and batch boundaries (32 keys, 512 buffered keys, uneven thread shares) multiply; a race or an off-by-one only shows for some of them.", "anchors": ["psi/algorithm/rr22/okvs/baxos.cc: ImplParSolve, ImplDecodeBin, ImplDecodeBatch, ImplParDecode", "psi/algorithm/rr22/okvs/paxos.cc: Decode1, Decode32, Decode"]}
{"id": "C46", "title": "RR22 over buckets gives the exact intersection and the exact join", "statement": "Two tables processed with RR22, in the fast, malicious or low-communication mode, split into any number of buckets and run through the pipeline with any interruption between buckets: if the values of different items do not clash, the receiver's index file is the exact intersection, the sender's too if the result is broadcast and empty otherwise, and the two joined outputs have exactly the rows the join type asks for, line by line fitting. Inside a bucket no check fails; only the OPRF encoding can.", "quantifier": "all tables, key batches, bucket counts, shuffles, thread schedules, VOLE values, coins, interruptions between buckets and join types", "why_tests_cant": "Composition of protocol, store, pipeline and join over unbounded inputs and schedules; the unit tests run few small inputs on one machine.", "anchors": ["psi/algorithm/rr22/receiver.cc", "psi/algorithm/rr22/sender.cc", "psi/algorithm/rr22/rr22_psi.cc: BucketRr22Sender, BucketRr22Receiver", "psi/algorithm/rr22/rr22_oprf.cc", "psi/algorithm/rr22/rr22_utils.cc"]}
{"id": "C47", "title": "KKRT over buckets gives the exact intersection and the exact join", "statement": "Two tables processed with KKRT over any number of buckets, with any interruption between buckets: if no encodings collide, the receiver's index file is the exact intersection, the sender's too if the result is broadcast and empty otherwise, and the joined outputs are exact and fit line by line, also when all of a bucket's items are common and when buckets are empty.", "quantifier": "all tables, key batches, bucket counts, permutations, fillers, timings, interruptions between buckets and join types", "why_tests_cant": "Composition over unbounded inputs; the shortcut for buckets that are contained in the result only shows for particular sizes.", "anchors": ["psi/algorithm/kkrt/receiver.cc", "psi/algorithm/kkrt/sender.cc", "psi/algorithm/kkrt/kkrt_psi.cc", "psi/utils/bucket.cc: PrepareBucketData, HandleBucketResultBySender, HandleBucketResultByReceiver"]}
{"id": "C48", "title": "SyncWait lets both parties leave together or neither", "statement": "Two parties that each run a function in the background and exchange a flag every few seconds until both are finished: both leave after the same number of exchanges, the first in which both have finished, each with the result of its own function; if one function throws, neither party leaves normally.", "quantifier": "all functions, durations and outcomes on both sides", "why_tests_cant": "The number of rounds depends on how long the functions take; tests use functions that end within the first rounds.", "anchors": ["psi/utils/sync.h: SyncWait"]}
{"id": "C49", "title": "The programming interface starts exactly the run its caller asked for", "statement": "PsiExecute and UbPsiExecute carry every field of the caller's request over: protocol, parameters, files, keys and join; the party whose rank is named receives, the party whose rank is named is the left side of the join, and the implementation started is the one of the protocol. Two callers' runs fit together exactly if their requests agree; otherwise both calls end with an error.", "quantifier": "all pairs of requests and ranks", "why_tests_cant": "All pairs of requests, including ranks out of range and requests that differ in one field.", "anchors": ["psi/apps/psi_launcher/launch.cc: ExecConfToV2Conf, ExecConfToBucketConf, PsiExecute, UbExecConfToUbconf", "psi/config/psi.h", "psi/config/ub_psi.h"]}
{"id": "C50", "title": "Parties started from one cluster definition agree on their ranks", "statement": "However the parties are listed in each party's copy of the Kuscia cluster definition and whichever of them a process is: all processes derive the same names at the same ranks, each party gets a rank of its own, and at that rank the others see its endpoint while it listens on its port itself.", "quantifier": "all cluster definitions with distinct names, all orders, all numbers of parties", "why_tests_cant": "All orders and numbers of parties; the test has one fixed definition.", "anchors": ["psi/apps/psi_launcher/kuscia_adapter.cc: FromKusciaConfig", "psi/utils/resource_manager.cc: LinkResource::Acquire"]}
{"id": "C51", "title": "Three-party ECDH PSI gives the master the exact intersection under every schedule", "statement": "With three parties and any master rank the parties take three different roles. However their eleven concurrent tasks are interleaved and however the link throttles: no task fails or waits forever, and at the end the master has exactly its own items that both others have, in its own order, the other two have nothing, and no message is left over.", "quantifier": "all three item lists, master ranks, batch sizes, throttle windows, shuffles and schedules", "why_tests_cant": "Eleven tasks of three parties with throttled channels have more interleavings than tests can try; a deadlock shows only for some batch counts and windows.", "anchors": ["psi/legacy/ecdh_3party_psi.cc: OnRun", "psi/algorithm/ecdh/ecdh_3pc_psi.cc: MaskMaster, PartnersPsi, PartnersPsiImpl, FinalPsi, MaskPeerForward, MaskShufflePeer, SendImpl"]}
{"id": "C52", "title": "What three-party ECDH PSI shows the master and the calculator", "statement": "What the master receives depends only on its own items and on which items the other two have in common: not on their other items, how many these are, or their order. The doubly masked answer the calculator gets does not depend on the order of its items, so it cannot tell which item an answer belongs to.", "quantifier": "all pairs of inputs that agree on the stated information, all schedules of both runs", "why_tests_cant": "A statement about pairs of runs on all inputs.", "anchors": ["psi/algorithm/ecdh/ecdh_3pc_psi.cc: MaskShufflePeer, PartnersPsiImpl, FinalPsi"]}
{"id": "C53", "title": "The tree of two-party runs gives the N-party intersection and never deadlocks", "statement": "With any number of parties of any sizes and any master: in every level each party is paired with the partner that is paired with it, all calls find their members in whatever order the pairs make progress, no party throws or waits forever, also when an intersection becomes empty half way, and at the end the master has the sorted list of exactly those of its items that all parties have, the others nothing.", "quantifier": "all numbers of parties, masters, item lists, two-party protocols that are exact, and orders of calls", "why_tests_cant": "The pairing depends on the sizes of all parties; groups and levels multiply with the number of parties, and deadlocks would show only for some sizes and orders.", "anchors": ["psi/legacy/nparty_psi.cc: OnRun, GetPsiRank, GetAllPartyItemSizeVec, Run2PartyPsi"]}
{"id": "C54", "title": "BucketPsi writes exactly the rows whose keys all parties have", "statement": "All parties run the bucket interface on their tables and all input checks pass: every run finishes, and every party that is to get the result has written exactly its rows whose key every party has, each once, in file order or sorted as asked, and reports their number; parties that are not to get the result write nothing.", "quantifier": "all tables, numbers of parties, protocols, bucket sizes, hash functions, masters, broadcast settings and orders of calls", "why_tests_cant": "End-to-end statement over unbounded tables and parties; shortcuts (equal digests, result as long as the bucket) only go wrong for particular inputs.", "anchors": ["psi/legacy/bucket_psi.cc: Run, RunBucketPsi, GetResultIndices, ProduceOutput", "psi/legacy/bucket_psi.h: GenerateResult", "psi/utils/bucket.cc: NegotiateBucketNum, HashListEqualTest"]}
{"id": "C55", "title": "The input check accepts exactly the usable tables, and a failing check stops everybody", "statement": "A table that passes has no byte order mark, no empty key token and, if asked for, no key twice; every such table passes; the digest shortcut is taken only by parties with the same keys; if one party's check fails, no party goes on to the protocol.", "quantifier": "all tables, numbers of parties and orders of calls", "why_tests_cant": "All tables; particular key splits produce equal digests or equal lines.", "anchors": ["psi/utils/csv_checker.cc: CsvChecker, CheckIfBOMExists", "psi/legacy/bucket_psi.cc: Run, CheckInput", "psi/utils/bucket.cc: HashListEqualTest"]}
{"id": "C56", "title": "Filtering a file by indices writes exactly the selected lines or reports an error", "statement": "For intersection and for difference the output is the header followed by exactly the selected lines in order, and the call returns normally exactly if the indices are strictly increasing and inside the file; both versions (indices from memory or from an index file) behave the same.", "quantifier": "all files, header sizes, index lists, both modes, both versions", "why_tests_cant": "All files and index lists, including unsorted, repeated and out-of-range indices.", "anchors": ["psi/legacy/bucket_psi.cc: FilterFileByIndices (both)"]}
{"id": "C57", "title": "In-memory PSI gives every entitled party the master's intersection", "statement": "MemoryPsi with any protocol: the parties entitled to the result end with the master's items that all parties have, in some order and with the master's multiplicities, all others with nothing; nobody throws or waits forever. Distributing a result works for every party that may have it, and is refused if several parties have results.", "quantifier": "all item lists, numbers of parties, protocols, masters, broadcast settings and orders of calls", "why_tests_cant": "All combinations of sizes, ranks and orders of collective calls.", "anchors": ["psi/legacy/memory_psi.cc: Run", "psi/legacy/base_operator.cc: Run", "psi/utils/sync.cc: AllGatherItemsSize, BroadcastResult"]}
{"id": "C58", "title": "Threshold ECDH PSI delivers one and the same limited part of the intersection to both parties", "statement": "With an intersection threshold t both parties end, whatever the schedule, with lines for the same min(t, number of common keys) common keys: the right positions and the peer's duplicate counts, nothing else; both record the true and the delivered size; the sender gets lines only if the result is broadcast.", "quantifier": "all item lists, duplicate counts, batch sizes, shuffles, thresholds, throttle windows and schedules", "why_tests_cant": "The delivered keys depend on shuffles and bucket hashing; positions must survive two shuffles and the cut, for every schedule of seven tasks.", "anchors": ["experiment/psi/threshold_ecdh_psi/threshold_ecdh_psi.cc: MaskSelf, MaskShufflePeer, RecvDualMaskedSelf, RecvPeer", "experiment/psi/threshold_ecdh_psi/receiver.cc: Online", "experiment/psi/threshold_ecdh_psi/sender.cc: Online"]}
{"id": "C59", "title": "Unbalanced PSI with a threshold gives both parties the same limited part of the intersection", "statement": "After any offline phase an online phase with threshold t gives each entitled party lines for the same min(t, number of common keys) common keys, with its own positions in its own order and the peer's duplicate counts, although the server shuffles the client's items; both record the true and the delivered size. With different thresholds the phase fails exactly if the server is entitled and the thresholds leave different numbers of keys.", "quantifier": "all item lists, duplicate counts, shuffles, batch sizes, thread counts, thresholds and result directions", "why_tests_cant": "Positions pass through a shuffle, a cut and a restoration on the other side; only particular shuffles and thresholds would show an error.", "anchors": ["experiment/psi/threshold_ub_psi/client.cc: Online, ResizeIntersection", "experiment/psi/threshold_ub_psi/server.cc: Online", "experiment/psi/threshold_ub_psi/threshold_ecdh_oprf_psi.cc: RecvAndRestoreIndexes"]}
{"id": "C60", "title": "Spiral's modular reduction and Chinese remaindering are exact", "statement": "Barrett reduction of every word and double word equals the remainder, for every usable modulus, although the quotient is only estimated with wrapped word products; CrtCompose2 returns the one number below the product of the moduli with the two given remainders.", "quantifier": "all words, double words, moduli and residue pairs", "why_tests_cant": "Errors of an estimated quotient or a lost carry show only for a vanishing part of 2^128 inputs.", "anchors": ["psi/algorithm/spiral/arith/arith.h: GetBarrettCrs, BarrettRawU64, BarrettRawU128, BarrettReductionU128Raw", "psi/algorithm/spiral/arith/arith_params.h: MultiplyModular, MultiplyAddModular, AddModular", "psi/algorithm/spiral/params.cc: CrtCompose2"]}
{"id": "C61", "title": "Spiral moves values between moduli without changing the number they stand for, and rescales by rounding to nearest", "statement": "Recenter and RecenertMod keep the representative next to zero; Rescale returns a nearest integer to value * out / in, modulo out. No signed overflow happens and no enforce fails for moduli in range.", "quantifier": "all values and all pairs of moduli in range", "why_tests_cant": "Signed and unsigned 64- and 128-bit arithmetic are mixed; truncation toward zero and odd moduli matter only at single values.", "anchors": ["psi/algorithm/spiral/arith/arith.h: Recenter, RecenertMod, Rescale"]}
{"id": "C62", "title": "Spiral's number theoretic transforms evaluate, invert and multiply polynomials exactly, in both builds", "statement": "The plain and the AVX2 forward transform compute the values of a polynomial at the odd powers of the root; the inverse gives the polynomial back whichever build did the forward part; word-wise products of transforms come back as the product modulo X^n + 1. No 32- or 64-bit operation loses a carry although words are only lazily reduced.", "quantifier": "all polynomial lengths 2^L, moduli below 2^30, roots, polynomials and both builds", "why_tests_cant": "Lazy reduction lets words grow to 4m; an overflow or a wrong compare shows only for rare words at a particular level, and the two builds are never compared with each other.", "anchors": ["psi/algorithm/spiral/arith/ntt.cc: NttForward, NttInverse", "psi/algorithm/spiral/arith/ntt_table.cc: BuildNttTables, PowersOfPrimitiveRoot, ScalePowersU32"]}
{"id": "C63", "title": "Spiral's polynomial matrices compute in the ring modulo q and X^n + 1, and its gadget decomposition can be undone", "statement": "Transforming a matrix and back only reduces its coefficients; products, sums, negation and the automorphism X -> X^t of matrices are exact modulo q and X^n + 1 in both builds; the digits of a value are below the base and add up to it, and the gadget matrix times the decomposition of a column is that column, coefficient by coefficient.", "quantifier": "all parameters with one or two moduli, all matrices, exponents and digit counts", "why_tests_cant": "Values live in two residues, lazily reduced and possibly equal to the modulus; weights may exceed q; a slip changes only some coefficients of 2048.", "anchors": ["psi/algorithm/spiral/poly_matrix_utils.cc: Multiply, Add, Invert, Automorphism, ToNtt, ToNttNoReduce, FromNtt", "psi/algorithm/spiral/poly_matrix.cc: CopyInto, SubMatrix, PadTop", "psi/algorithm/spiral/gadget.cc: BuildGadget, GadgetInvertRdim"]}
{"id": "C64", "title": "Every row of a Spiral database is read back from its plaintexts", "statement": "Packing bytes into coefficients and back keeps the bit string; converting a database (with partition of long rows, several rows per plaintext, padding) succeeds and the row taken by the client's extraction from the plaintexts of its index is the row that was put in.", "quantifier": "all coefficient widths up to 64 bits, row lengths, row counts, byte values and indices", "why_tests_cant": "Bit offsets drift through bytes, coefficients, plaintexts and partitions; tests fix one coefficient width, where bytes and coefficients coincide.", "anchors": ["psi/algorithm/spiral/util.cc: ConvertBytesToCoeffs, ConvertBytesToU8Coeffs, ConvertCoeffsToBytes", "psi/algorithm/pir_interface/pir_db.cc: Partition, Combine", "psi/algorithm/spiral/spiral_server.cc: ConvertRawDbToPtDb, ReorientRawDb, GenerateFromRawData", "psi/algorithm/spiral/spiral_client.cc: DecodeResponse"]}
{"id": "C65", "title": "The dimensions Spiral chooses for a database hold it", "statement": "Whenever UpdateByDatabaseInfo accepts a database, all plaintexts have a place, less than half of the places stay empty (beyond four plaintexts), and the query has room for every bit to expand. Every database up to the maximum is accepted.", "quantifier": "all parameters, row counts and row lengths", "why_tests_cant": "Acceptance depends on rounding of logarithms; tests use a few sizes and miss the refused ranges.", "anchors": ["psi/algorithm/spiral/params.cc: UpdateByDatabaseInfo", "psi/algorithm/spiral/params.h: ValidCheck, G, StopRound"]}
{"id": "C66", "title": "Spiral lays its database out without loss and multiplies the first dimension exactly", "statement": "Reorienting a database of any number of partitions succeeds, and the product with the expanded ciphertexts gives, for every partition, plaintext polynomial and column, the sum over the rows of ciphertext times database item modulo q and X^n + 1, the coefficients of the items read as numbers next to zero. No word of another item, polynomial or partition enters and no sum overflows.", "quantifier": "all parameters with two moduli, numbers of rows, columns, polynomials and partitions, databases and ciphertexts", "why_tests_cant": "Five nested indices are flattened, two residues share a word and products are summed unreduced; a wrong stride or overflow shows only for particular sizes and values.", "anchors": ["psi/algorithm/spiral/spiral_server.cc: ReorientDatabase, MultiplyRegByDatabase", "psi/algorithm/spiral/spiral_client.cc: ReorientRegCiphertexts", "psi/algorithm/spiral/util.cc: CalcIndex"]}
{"id": "C67", "title": "A Spiral response decodes to the message as long as the noise is below an explicit bound", "statement": "Switching the rows of a ciphertext to q2 and 4p, and decoding with the switched key, returns every coefficient of the message if the noise, the rounding errors weighted by the key and the remainder q mod p stay below the bound, and p divides floor(4 q2 / p). With p = 256 the last holds for every entry of the table of q2 but bits 14, 15, 16 and 19; for these every decoded value is off by 192.", "quantifier": "all parameters, ciphertexts, keys, messages and errors within the bound; all entries of the q2 table", "why_tests_cant": "Two different moduli are mixed by signed 64-bit divisions that truncate; tests use one q2 and random noise far from the bound.", "anchors": ["psi/algorithm/spiral/spiral_server.cc: ProcessQuery (modulus switching)", "psi/algorithm/spiral/spiral_client.cc: DecodeResponse", "psi/algorithm/spiral/poly_matrix.cc: Rescale", "psi/algorithm/spiral/common.h: kQ2Values"]}
{"id": "C68", "title": "Spiral PIR returns the row the client asked for", "statement": "For every database the parameters accept and every row index, the row that the client decodes from the answer equals that row byte for byte, however the rows are packed into plaintexts and partitions: key generation, query, expansion, first dimension, conversion, folding, packing, modulus switching and decoding compose. It holds whenever the error that accumulates, given by an explicit formula over the drawn errors and the digits the server sees, stays below the decoding threshold; always if no error is drawn; and always if a worst-case bound computed from the parameters is below the threshold.", "quantifier": "all parameters with two moduli, databases, row lengths, row indices, secret keys of bounded weight, random words and errors", "why_tests_cant": "Tests retrieve a few random rows with the default parameters; a wrong index bit, sign, or scaling at one dimension size appears only for particular indices and sizes, and how far the error is from the threshold is not observed.", "anchors": ["psi/algorithm/spiral/spiral_client.cc: GenPublicKeys, GenQueryInternal, DecodeResponse", "psi/algorithm/spiral/spiral_server.cc: ProcessQuery, ExpandQuery, CoefficientExpansion, RegevToGsw, FoldCiphertexts, PackCts"]}
{"id": "C69", "title": "The secret keys of Spiral are ternary with exactly 256 ones and 256 minus ones and as many as the seed allows", "statement": "Every polynomial of the secret keys has exactly the Hamming weight the noise analysis assumes, whatever the shuffle. The keys should be as unpredictable as the 128-bit seed drawn for them.", "quantifier": "all shuffles that permute, generators, seeds and matrix sizes", "why_tests_cant": "Tests never count distinct keys; no sample shows that there are few.", "anchors": ["psi/algorithm/spiral/poly_matrix_utils.cc: GenTernaryMatrix", "psi/algorithm/spiral/spiral_client.cc: GenSecretKeys"]}
{"id": "C70", "title": "Spiral PIR returns the row although keys, query and answer cross as messages", "statement": "Public keys, query and answer written as messages and read by the other side stand for the same ring elements, although the first row of the query is not sent but drawn again by the server from a seed of 16 bytes. So the row that the client decodes from the received answer is the row it asked for, under the same conditions on the errors as without messages.", "quantifier": "all parameters, databases, row indices, keys, seeds, generators and errors within the bound", "why_tests_cant": "Tests send through memory with one parameter set; a word left out of one key, a seed byte in the wrong order or a matrix in the wrong representation can pass for one size and fail for another.", "anchors": ["psi/algorithm/spiral/serialize.cc", "psi/algorithm/spiral/serialize.h", "psi/algorithm/spiral/spiral_client.h: SpiralQuery", "psi/algorithm/spiral/spiral_client.cc: GenQuery, SerializeRng, DeserializeRng", "psi/algorithm/spiral/spiral_server.h: Response"]}
{"id": "C71", "title": "A Spiral database that was dumped and loaded answers as the one that was built", "statement": "Building a database, writing it with Dump and reading it with Load gives a server from which every row is retrieved over the wire. Any server that counts as ready should answer, and what any ready server dumps should be loadable.", "quantifier": "all parameters with 8-bit coefficients, databases of fewer than 2^64 coefficients, row indices, keys, seeds and errors within the bound", "why_tests_cant": "Tests dump and load one small database once; they never dump a loaded server or query one that was only built.", "anchors": ["psi/algorithm/spiral/spiral_server.cc: GenerateFromRawData, GenerateFromRawDataAndReorient, SerializeToProto, DeserializeFromProto, PtDbsToReorientedDbs, Dump, Load"]}
{"id": "C72", "title": "The errors of Spiral stay within the width of the table and come as often as the table says", "statement": "A draw of an error never fails and is at most the width of the table in absolute value, so it meets the condition on errors of the scheme. Of all 64-bit words exactly as many give a value as the table grows at its entry; the words above the last entry give 0.", "quantifier": "all tables of the right length, widths, moduli, generators and matrix sizes", "why_tests_cant": "Tests check sample means; they cannot show that no word leaves the range or what happens to the words above the last entry.", "anchors": ["psi/algorithm/spiral/discrete_gaussian.cc: Sample, SampleMatrix", "psi/algorithm/spiral/poly_matrix_utils.cc: Noise"]}
{"id": "C73", "title": "The NTY multi-party protocol computes the intersection of all sets", "statement": "With any number of parties from three on, the receiver ends with exactly the items that every party has, in the multiplicity both helper and receiver have them, unless two pseudorandom values agree by accident; an item that all have is missed only if two of the receiver's own values collide. With broadcast all parties end with the same list, without it only the receiver does. A run ends whenever all tables can be made.", "quantifier": "all numbers of parties, roles, item lists, keys, tables, thread schedules and shuffles", "why_tests_cant": "Tests run a few sets of a few parties; they cannot cover all roles, thread orders, duplicates and empty sets, and cannot tell luck from correctness of the values.", "anchors": ["psi/algorithm/nty/nty_mp_psi.cc: Run, MultiPartyPsi, ThreePartyPsi, GenOkvs, DecodeOkvs, GetIntersection", "psi/algorithm/nty/server_aided_psi.cc: SendEncItems, ServerAidedPsi, ServerAssist"]}
{"id": "C74", "title": "The NTY receiver does not learn which of its items the server lacks", "statement": "The table that the receiver gets from the server should look the same for items the server has and items it lacks; the result is meant to reveal only the intersection of all parties.", "quantifier": "all keys of the pseudorandom function and all values", "why_tests_cant": "Tests look at results only, never at what a message gives away.", "anchors": ["psi/algorithm/nty/nty_mp_psi.cc: GenOkvs", "psi/algorithm/rr22/okvs/paxos.cc: Encode"]}
{"id": "C75", "title": "Rows packed into SealPIR plaintexts come back byte for byte", "statement": "For every number of bits per coefficient from 1 to 64 and for rows of any length below 2^29 bytes: BytesToCoeffs makes as few coefficients as hold the row, each below 2^logt, carrying exactly the bits of the row in order followed by zeros; CoeffsToBytes applied to the coefficients of many rows, whatever follows them, returns all the rows. A part of a long row that fills a plaintext comes back as well. (For rows whose length is a multiple of 2^29 bytes the row comes back as zeros.)", "quantifier": "all logt, all rows, all numbers of rows per plaintext, all trailing coefficients", "why_tests_cant": "Bit packing across byte and coefficient borders depends on the remainders of all lengths; tests use a few sizes.", "anchors": ["psi/algorithm/sealpir/seal_pir.cc:94-154 BytesToCoeffs, CoeffsToBytes"]}
{"id": "C76", "title": "A SealPIR query expands to a one at the position asked for and zeros elsewhere, and its shape reveals nothing", "statement": "For every odd plaintext modulus, all dimensions and every plaintext index: the server's expansion of the client's query gives, for each dimension, exactly as many ciphertexts as the dimension has positions, decrypting to the constant polynomial 1 at the digit of the index and to 0 at all others; the digits are those of the index in the mixed radix of the dimensions. The number of ciphertexts of a query depends on the dimensions only.", "quantifier": "all polynomial degrees, odd moduli, dimensions, indices and randomness; SEAL assumed to satisfy the stated laws", "why_tests_cant": "The oblivious expansion works by repeated substitutions whose result is right only if every shift, sign and Galois element is right for every round count; tests try few sizes, none with more positions than coefficients.", "anchors": ["psi/algorithm/sealpir/seal_pir.cc:1113-1212 ExpandQuery, MultiplyPowerOfX", "psi/algorithm/sealpir/seal_pir.cc:1267-1343 GenerateQuery", "psi/algorithm/sealpir/seal_pir.cc:156-172 ComputeIndices"]}
{"id": "C77", "title": "SealPIR returns the row asked for", "statement": "A client and a server made from the same options agree on all sizes, and for every database of equally long rows and every row index the answer decodes to exactly the row: for rows packed many to a plaintext or split over several partitions, and for any number of dimensions. When SEAL is built to refuse transparent ciphertexts, an exception is possible instead, but never other bytes. A server dumped and loaded again answers like the original.", "quantifier": "all databases, row lengths below 2^29, numbers of rows, dimensions, indices; noise within the budget of SEAL", "why_tests_cant": "Packing, partitioning, padding, indexing, recursion over dimensions and digit decomposition of ciphertexts interact; tests check one configuration at a time.", "anchors": ["psi/algorithm/sealpir/seal_pir.cc:266-321 SetPirParams", "psi/algorithm/sealpir/seal_pir.cc:741-836 GenerateFromRawData", "psi/algorithm/sealpir/seal_pir.cc:989-1111 GenerateResponse", "psi/algorithm/sealpir/seal_pir.cc:1345-1421 DecodeResponse", "psi/algorithm/sealpir/seal_pir.cc:853-927 SerializeToProto, DeserializeFromProto"]}
{"id": "C78", "title": "SealPIR serves every database it is asked to serve", "statement": "No database of admissible size is refused or answered wrongly because of its content or because of the number of its rows. (Violated: a plaintext of zeros makes every query fail when SEAL refuses transparent ciphertexts, its default; a number of plaintexts whose d-th root is computed one short is refused altogether; from 2^31 plaintexts on the client asks for the wrong one.)", "quantifier": "all databases and sizes", "why_tests_cant": "The failures need rows of zeros filling a plaintext, or an exact cube of plaintexts, or very large databases.", "anchors": ["psi/algorithm/sealpir/seal_pir.cc:68-92 GetDimensions", "psi/algorithm/sealpir/seal_pir.cc:748-760 GenerateFromRawData", "psi/algorithm/sealpir/seal_pir.cc:1055-1070 GenerateResponse", "psi/algorithm/sealpir/seal_pir.cc:156-172 ComputeIndices"]}
{"id": "C79", "title": "SimplePIR returns the entry asked for when the noise fits", "statement": "For a modulus q that is a power of two, every accepted parameter set, every matrix seed, secret, database of entries below p and index: if the row of the entry times the errors of the query stays, with the remainders of q modulo p and of 2^64 modulo p*floor(q/p), below half the scale floor(q/p), the client recovers exactly the entry of the index, the one GetValue gives. When p divides q the bound is the usual half of the scale. With the parameters of the test no choice of errors from the table gives a wrong entry.", "quantifier": "all dimensions, powers of two, plaintext moduli, databases, seeds, secrets, errors and indices", "why_tests_cant": "A test recovers one index of one random database; it cannot show that no secret or database gives a wrong entry, nor how much noise is allowed.", "anchors": ["experiment/pir/simplepir/client.cc: Setup, Query, Recover", "experiment/pir/simplepir/server.cc: GenerateLweMatrix, GetHint, Answer, GetValue", "experiment/pir/simplepir/util.cc: InnerProductModq"]}
{"id": "C80", "title": "SimplePIR is right for all parameters its constructors accept", "statement": "Whenever the constructors accept the parameters and the query has no error at all, the client recovers the entry. (Violated: the difference of answer and hint is a 64-bit word that is never reduced modulo q, although the comment says so; with q = 2^32 and p = 40000 an entry 30000 comes back as 30496, with a modulus that is no power of two most entries are wrong, and p > q divides by zero.)", "quantifier": "all accepted parameters, seeds, secrets and databases", "why_tests_cant": "The failure needs a borrow in the subtraction and parameters other than those of the test.", "anchors": ["experiment/pir/simplepir/client.cc:82-90 Recover", "experiment/pir/simplepir/client.cc:22-38 constructor"]}
{"id": "C81", "title": "DP-PSI reports exactly the sampled items that kept their coins", "statement": "Bob ends with exactly the original indexes of those of his sampled items that pass: an item Alice has passes if its coin of her first draw shows heads, an item she lacks if its coin of the second draw does. The list is strictly increasing, for any shuffle, any number of batches and any coins. The sizes that Alice returns add up: reported + dropped = common + added. When Alice has all sampled items, nothing is reported and her two sizes stay unwritten.", "quantifier": "all item lists, shuffles, coins and batch boundaries", "why_tests_cant": "Tests compare sizes and ratios of random runs; they cannot tie every index to its coin.", "anchors": ["psi/legacy/dp_psi/dp_psi.cc: RunDpEcdhPsiAlice, RunDpEcdhPsiBob, BernoulliSamples"]}
{"id": "C82", "title": "What Bob receives in DP-PSI is epsilon-differentially private in Alice's set", "statement": "If two sets of Alice differ in one item, no set of messages to Bob is more than e^epsilon times as probable with one as with the other. (Violated: if Alice has all items Bob sampled she reports nothing for certain, so any report proves that she lacks one of them, and no factor bounds the change; and an item that Bob holds twice costs 2 epsilon.) It holds as long as Bob has no item twice and samples an item Alice lacks, and for groups of d changed items with the factor e^(d epsilon).", "quantifier": "all item lists, all epsilon, all events on the messages", "why_tests_cant": "A probability ratio over all events and all neighbouring sets cannot be observed in runs.", "anchors": ["psi/legacy/dp_psi/dp_psi.cc:164-219 RunDpEcdhPsiAlice", "psi/legacy/dp_psi/dp_psi.h:31-38 DpPsiOptions"]}
{"id": "C83", "title": "KMPRT17: the leader gets every common item, and a foreign item only by a coincidence of 64-bit values", "statement": "In every run that ends, for any number of parties, any inputs, paddings, random shares, nonces, evictions and bin iteration orders: every item that all parties hold is in the leader's result; the result is a part of the leader's input in its order. An item that some other party lacks is in the result for at most 64 of all values that the OPRF of that party's session can take on it, everything else fixed, so with probability at most 2^-58. Each OPPRF session, for any number of bins and batches of 896, gives every programmed query its programmed value, and sender and receiver agree on all batch corrections.", "quantifier": "all numbers of parties, inputs with duplicates, bins, batches and randomness", "why_tests_cant": "Cuckoo evictions across two tables, batch borders, nonce searches and zero sharing interact; tests run a few random inputs.", "anchors": ["experiment/psi/kmprt17_mp_psi/kmprt17_opprf.cc: KmprtOpprfRecv, KmprtOpprfSend", "experiment/psi/kmprt17_mp_psi/kmprt17_hashing.cc", "experiment/psi/kmprt17_mp_psi/kmprt17_mp_psi.cc: Run, ZeroSharing, SwapShares, Reconstruct"]}
{"id": "C84", "title": "KMPRT17 ends for all numbers of parties and items", "statement": "A run ends with a result for every number of parties and items. (Violated: the vector of received shares has as many elements as there are items but is indexed by party, so with fewer items than parties every run writes behind its end; and a bin with more points than its table of 32 or 64 cells makes the search for a nonce go on for ever.)", "quantifier": "all numbers of parties and items", "why_tests_cant": "The tests use many more items than parties, and bins overflow only for unlucky or chosen items.", "anchors": ["experiment/psi/kmprt17_mp_psi/kmprt17_mp_psi.cc:96-132 SwapShares", "experiment/psi/kmprt17_mp_psi/kmprt17_mp_psi.cc:134-161 Reconstruct", "experiment/psi/kmprt17_mp_psi/kmprt17_opprf.cc:160-176 KmprtOpprfSend"]}
{"id": "C85", "title": "DK-PIR delivers exactly the rows of the queried keys", "statement": "With the count check, when the sender has every queried key: the receiver's result file holds, for each key in the order of the query, all rows of the sender with that key, in the sender's order and with all labels, and nothing else. Without the count check the same holds for the keys the sender has, as long as there is one. This is so for any order of iteration over the map of keys, any shuffle, blinding and randomness. (Limits: a query of which the sender has no key ends in an error instead of an empty result; a label that starts with a quotation mark comes back without it and a label with a comma stops the set up.)", "quantifier": "all tables, queries, shuffles, blinding scalars, iteration orders", "why_tests_cant": "Rows are merged, joined with delimiters, written and parsed three times, and shuffled in between; tests use a few tables of harmless text.", "anchors": ["psi/utils/csv_converter.cc: MergeColumnAndRow, ExtractQueryTo, ExtractResult", "psi/algorithm/dkpir/entry.cc: SenderOffline, SenderOnline, ReceiverOnline", "psi/algorithm/dkpir/sender.cc: ProcessQueries", "psi/algorithm/dkpir/common.cc:84-140 WriteIntersectionResults"]}
{"id": "C86", "title": "DK-PIR: the sender agrees to the true number of rows and to no other", "statement": "When the sender has all queried keys and the receiver sends the sum of the ciphertexts as the protocol says, the sender agrees to a declared number of rows if and only if it is the number of rows with the queried keys. (Limit: a receiver that also asks for a key the sender lacks is refused, however honest.)", "quantifier": "all tables, queries, secret keys, linear functions with 64-bit coefficients, randomness, declared numbers", "why_tests_cant": "Agreement only for the true count is a statement about all other numbers and all keys; tests run honest receivers.", "anchors": ["psi/algorithm/dkpir/sender.cc:480-493 CheckRowCount", "psi/algorithm/dkpir/sender_cnt_db.cc:47-85 EncryptCount", "psi/algorithm/dkpir/receiver.cc:214-266 ComputeRowCountCt, ComputeRowCount", "psi/algorithm/dkpir/common.cc:28-47 ComputePoly"]}
{"id": "C87", "title": "DK-PIR bills at least the rows that were retrieved", "statement": "A receiver that gets the sender's agreement is billed at least the number of rows it holds, even if it does not keep to the protocol. (Violated: only the number of ciphertexts is bound, not which; a receiver that asks for a key with few rows twice finds its place among the shuffled answers, sends copies of that ciphertext in place of all others, and is billed for the rows of that key only, times the number of keys.)", "quantifier": "all tables, queries, shuffles and randomness", "why_tests_cant": "Needs a receiver that deviates from the protocol; tests run the receiver of the library.", "anchors": ["psi/algorithm/dkpir/sender.cc:480-493 CheckRowCount", "psi/algorithm/dkpir/sender.cc:32-91 ProcessQueries"]}
{"id": "C88", "title": "PPS PIR: a punctured key stands for the set without one element", "statement": "For every key whose elements are all different, and every element of its set: the punctured key holds one value for each level of the tree, and evaluating it gives exactly the other elements. The keys that Gen returns all have sets of full size. (Limit: Punc appends to the values of the object it is given, so an object used for a second puncturing stands for a wrong set.)", "quantifier": "all generators, keys, set sizes, universe sizes and elements", "why_tests_cant": "The tree is expanded level by level in place and rebuilt from the values beside a path; tests look at one set size.", "anchors": ["experiment/pir/pps/ggm_pset.cc:27-148 GGMTree::Gen, PPS::Gen, Punc, EvalMap, Eval"]}
{"id": "C89", "title": "PPS PIR: one query gives the bit asked for", "statement": "After a set up that succeeded, a query for any index over the wire (offline and online message, hints as text) gives the bit of the database at that index, unless the coin of the client came up or no shift brings an element of the set to the index; in exactly these cases it is given up. A set up that succeeded has so many shifts that on average every place is in at least as many shifted sets as the rounded logarithm says. (Limit: the set up asks for more different shifts than there are places when the set size is below the logarithm of the universe size, and then fails for all random numbers.)", "quantifier": "all databases, indexes, keys, shifts, coins, orders of iteration", "why_tests_cant": "Shift, puncturing, parity and three serialisations must agree for every key and index; tests run one database with fresh randomness.", "anchors": ["experiment/pir/pps/client.cc:39-98 Setup, Query, Reconstruct", "experiment/pir/pps/server.cc:19-43 Hint, Answer", "experiment/pir/pps/sender.cc", "experiment/pir/pps/receiver.cc"]}
{"id": "C90", "title": "PPS PIR: any number of queries give the bits asked for", "statement": "In a run with set up and any number of queries, after each of which one set and its hint are replaced, every answer is the bit at the index of its query, or none; none exactly when the coin came up or no current set has the index; the hints stay the parities of the current sets. A set up that succeeded has so many sets that on average every place is in at least twice the rounded logarithm of them. A run ends early only because no key without collision was drawn. Sets have at least two elements, and the trees of newly drawn keys differ in the first level from those of earlier keys, because the server takes two keys with equal position and equal first value for the same. (Limit: with sets of one element the server reads the first value of an empty vector.)", "quantifier": "all databases, sequences of queries, keys, coins, orders of iteration", "why_tests_cant": "An error in the refresh of a set or hint shows only in a later query that happens to use the refreshed set.", "anchors": ["experiment/pir/pps/client.cc:100-180 Setup, Query, Reconstruct", "experiment/pir/pps/server.cc:45-69 Hint, AnswerMulti"]}
{"id": "C91", "title": "PPS PIR hides the index from the online server", "statement": "What the online server gets does not depend on the index asked for. (Violated twice. Many queries: both keys of each query go to one server; the key that replaces a set in one query, punctured at the index, and the key for the same set when a later query uses it, differ exactly in the first index, which the server thus computes. One query: the element to puncture when the coin comes up is drawn among all elements including the one at the index, so the index asked for is read with probability (s-1)^2/(s n) while the average place is read with probability (s-1)/n; whatever the distribution of keys and shifts, the places read depend on the index.)", "quantifier": "all generators, keys, shifts, distributions of the set up, sets of at least two elements", "why_tests_cant": "A bias in what the server sees is invisible to tests of the result.", "anchors": ["experiment/pir/pps/client.cc:60-88 Query", "experiment/pir/pps/client.cc:123-168 Query", "experiment/pir/pps/server.cc:60-69 AnswerMulti"]}
{"id": "C92", "title": "Piano PIR: an answer is the entry, as long as the client's sets and replacements last", "statement": "After the pass over the database, every query for an entry is answered: with the entry, or with zeros. The entry comes whenever fewer indices of its chunk were asked for before than there are replacements for a chunk, and either no set had the index at the start or more sets had it than indices were asked for before; in particular the first answer is right. What was answered right once is answered right ever after. Each message has exactly one index of each chunk. This is so for all numbers of threads and all paddings.", "quantifier": "all databases, sizes, numbers of threads, sequences of queries, pseudorandom functions and random numbers", "why_tests_cant": "The sets and their parities change with every query, so an error shows only in a later query that happens to use a changed set; tests run random queries with random keys.", "anchors": ["experiment/pir/piano/client.cc:67-314 InitializeLocalSets, PreprocessDBChunk, GenerateIndexQuery, RecoverIndexReply", "experiment/pir/piano/server.cc:26-70 AlignDBToChunkBoundary, GetDBChunk, GenerateIndexReply, DBAccess", "experiment/pir/piano/util.cc:19-70 GenChunkParams, ExpandWithLongKey, MemberTestWithLongKey"]}
{"id": "C93", "title": "Piano PIR answers the number of queries it announces", "statement": "All of the first total_query_num queries get the entry. (Violated: of distinct queries to one chunk, whose indices some set has at the start, no more get an answer other than zeros than there are replacements for a chunk, for all keys and random numbers. For 2^24 entries 377305 queries are announced, but of the 8192 entries of a chunk, asked for one after the other, at least 4508 come back as zeros, with a line in the log. An index behind the last chunk that matches some set is used to read behind the end of the groups.)", "quantifier": "all databases, keys, random numbers and sequences of queries to one chunk", "why_tests_cant": "The construction spreads the queries with a random permutation of the database, which the code lacks; tests ask for random indices.", "anchors": ["experiment/pir/piano/client.cc:248-254 GenerateIndexQuery", "experiment/pir/piano/client.cc:28-65 Initialize", "experiment/pir/piano/client.cc:265-274 RecoverIndexReply"]}
{"id": "C94", "title": "Piano PIR: the messages do not depend on the indices", "statement": "With a uniform function in place of AES and uniform replacements and masks: for distinct indices, no more of them in one chunk than there are replacements, every sequence of messages that has one index of each chunk in each message is exactly as likely as every other, so that two such sequences of queries of one length look the same to the server, although the sets are refreshed with the indices asked for and used again.", "quantifier": "all databases, parameters, sequences of distinct indices, sequences of messages", "why_tests_cant": "A statement about the joint distribution of all messages; tests see one run.", "anchors": ["experiment/pir/piano/client.cc:192-263 GenerateMaskQuery, GenerateIndexQuery", "experiment/pir/piano/client.cc:276-314 RecoverIndexReply", "experiment/pir/piano/client.cc:177-189 PreprocessDBChunk"]}
{"id": "C95", "title": "Keyword PIR with buckets: the API finds exactly the keys of the table, with their labels", "statement": "After the sender was started on a directory, in which nothing was or in which an earlier start was interrupted between two groups, every query through the API, after any other queries, returns each queried key that is in the sender's table once and no other key, and with each its own label filled up to the longest label of its bucket; whatever the number of buckets, groups and processes, the hash, the order of the maps and the random OPRF keys.", "quantifier": "all tables with distinct keys, numbers of buckets (up to 2^31), groups and processes, hash functions, query lists, earlier queries", "why_tests_cant": "The path goes over three file formats written in one process and read in others, and over two requests whose keys must agree; tests try a few tables.", "anchors": ["wrapper/apsi/utils/group_db.cc:184-567", "wrapper/apsi/utils/csv_reader.cc:235-315 GroupBucketize", "wrapper/apsi/api/sender.cc:36-260", "wrapper/apsi/api/receiver.cc:63-201"]}
{"id": "C96", "title": "Keyword PIR with buckets: the lines of the result file", "statement": "Whatever requests the dispatcher of the command line has served before, the result file of a receiver has below its first line one line for each queried key that is in the sender's table and no other, made of the key and, with labels, of that key's own label; the number reported is the number of these lines.", "quantifier": "all tables with distinct keys, settings, hash functions, queries, earlier requests", "why_tests_cant": "Buckets are loaded lazily and the file is overwritten or appended to depending on what was found before; tests see few combinations.", "anchors": ["wrapper/apsi/cli/entry.cc:170-270 RunReceiver", "wrapper/apsi/cli/sender_dispatcher.cc:82-411", "wrapper/apsi/utils/common.cc:213-259 print_intersection_results"]}
{"id": "C97", "title": "Keyword PIR with buckets: the result file has the right header", "statement": "The first line of the result file names the columns of the lines below: key, or key and value for a table with labels.", "quantifier": "all tables with distinct keys, settings, hash functions, queries", "why_tests_cant": "The header depends on how many keys of the first bucket with a match are found; tests with one match per bucket do not show it.", "anchors": ["wrapper/apsi/utils/common.cc:213-259 print_intersection_results", "wrapper/apsi/cli/entry.cc:201-259"]}
{"id": "C98", "title": "Keyword PIR with buckets: requests do not disturb each other", "statement": "The dispatcher answers a query from the bucket the query names and with the key of its OPRF request, with any requests of any receivers in between, and it answers every request for parameters.", "quantifier": "all tables, settings, sequences of requests", "why_tests_cant": "The dispatcher keeps the last bucket as its state and serves all receivers from it; tests run one receiver at a time.", "anchors": ["wrapper/apsi/cli/sender_dispatcher.cc:82-189", "wrapper/apsi/cli/sender_dispatcher.cc:240-411", "wrapper/apsi/sender.cc:56-121"]}
{"id": "C99", "title": "Keyword PIR with buckets: a start that succeeds serves the table it was given", "statement": "Whenever the sender's start succeeds, on a new directory, on one of an earlier run or on one that an interrupted or failed start left behind, every key of the table it was started with is found by queries, and a start that cannot arrive at this reports an error.", "quantifier": "all tables, settings, directories an earlier start left behind", "why_tests_cant": "Interrupted and repeated starts with changed sources and partial files are not in reach of unit tests.", "anchors": ["wrapper/apsi/utils/group_db.cc:82-192", "wrapper/apsi/utils/group_db.cc:207-404 LoadMeta, Generate", "wrapper/apsi/utils/group_db.cc:435-567", "utils/multiplex_disk_cache.cc:71-80"]}
{"id": "C100", "title": "Elligator 2: every field element is mapped to the point the RFC says", "statement": "For every input of at least one byte the map used by the hash to Curve25519 returns, without an exception, the one point that RFC 9380 (section 6.7.1) defines, a point of the curve with reduced coordinates of 32 bytes; the second implementation in the file gives the same bytes; two inputs get the same point only if they are equal or opposite modulo 2^255-19.", "quantifier": "all byte strings", "why_tests_cant": "Fifteen named intermediate values, two candidate roots and a sign that differ for one input in two or four; tests have three vectors and do not reach the exceptional inputs.", "anchors": ["cryptor/hash_to_curve_elligator2.cc:266-376 MapToCurveG2", "cryptor/hash_to_curve_elligator2.cc:379-462 MapToCurveElligator2", "cryptor/hash_to_curve_elligator2.cc:218-263 IsSquare, Curve25519Sqrt, Curve25519Sgn0", "cryptor/hash_to_curve_elligator2.cc:35-62 constants"]}
{"id": "C101", "title": "Point arithmetic of the hash is the group law of Curve25519", "statement": "PointAdd, PointAddX, PointDbl, PointDblProjective and the two PointClearCofactor functions return the sum, double and eightfold of the points whose coordinates they get, in the group of the curve, whenever that is not the point at infinity (and, for the additions, the points differ), and throw otherwise; CheckPoint accepts exactly the points of the curve.", "quantifier": "all points of the curve", "why_tests_cant": "The exceptional cases have points that random inputs never meet.", "anchors": ["cryptor/hash_to_curve_elligator2.cc:473-560 PointAdd, PointAddX", "cryptor/hash_to_curve_elligator2.cc:563-667 PointDbl, PointDblProjective, PointClearCofactorProjective, PointClearCofactor", "cryptor/hash_to_curve_elligator2.cc:669-683 CheckPoint"]}
{"id": "C102", "title": "The hash to Curve25519 is that of RFC 9380", "statement": "HashToCurveElligator2 returns the x coordinate of eight times the sum of the images of the two field elements of the message, whenever that is a finite point. (Violated when the two field elements are equal or opposite: the sum of two equal points is refused.)", "quantifier": "all messages, tags of 16 to 255 bytes, hash functions of 64 bytes", "why_tests_cant": "Equal field elements do not come up in tests.", "anchors": ["cryptor/hash_to_curve_elligator2.cc:687-705 HashToCurveElligator2"]}
{"id": "C103", "title": "The message is expanded as in RFC 9380", "statement": "ExpandMessageXmd returns the bytes of expand_message_xmd for every message, tag of 16 to 255 bytes and length up to 255 blocks and refuses everything else; the field elements are those of hash_to_field, each value modulo 2^255-19 coming from the same number of 48-byte strings up to one; a message under one tag is never encoded like another message or tag.", "quantifier": "all messages, tags, lengths, hash functions of 64 bytes", "why_tests_cant": "Tests have three messages with one tag and one length.", "anchors": ["cryptor/hash_to_curve_elligator2.cc:110-188 I2OSP, ExpandMessageXmd", "cryptor/hash_to_curve_elligator2.cc:191-216 HashToField"]}
{"id": "C104", "title": "The point that is masked is the hashed point", "statement": "X25519, with which the Elligator cryptors mask the hash of an item, is applied to the point of the curve that the hash gives. (Violated: the hash is written with the most significant byte first and X25519 reads the least significant byte first; the coordinate that is multiplied need not be on the curve at all.)", "quantifier": "all items", "why_tests_cant": "All parties make the same change, so that intersections come out right.", "anchors": ["cryptor/hash_to_curve_elligator2.cc:74-82 MPIntToBytesWithPad", "cryptor/sodium_curve25519_cryptor.cc:51-54 SodiumElligator2Cryptor::HashToCurve", "cryptor/ipp_ecc_cryptor.cc:24-97 EccMask, IppElligator2Cryptor::HashToCurve", "cryptor/ecc_cryptor.cc:38-42 EccMask"]}
{"id": "C105", "title": "The encoder takes the columns in order of the keys left, and its lists never run empty", "statement": "With three or more columns per key, the encoder of the key-value store always takes a column with the least number of unplaced keys; the linked lists in which it keeps the columns pass all their checks and are never read behind their end; it refuses keys for the load of a column exactly if 200 of them share a column; and whatever it accepts decodes to the values. (With two columns per key, which the parameters allow, the lists can run empty: undefined behaviour.)", "quantifier": "all key hashes, table sizes and numbers of columns per key", "why_tests_cant": "The lists are changed at every step; a broken link shows only for some orders of changes, and a table that no longer takes the least column fails only more often.", "anchors": ["psi/algorithm/rr22/okvs/paxos_utils.h:32-191 WeightData", "psi/algorithm/rr22/okvs/paxos.cc:499-589 Paxos::Triangulate", "psi/algorithm/rr22/okvs/paxos.cc:240-318 Paxos::SetInput", "psi/algorithm/rr22/okvs/paxos.cc:170-215 PaxosParam::Init"]}
{"id": "C106", "title": "The bins of the key-value store have room for the keys", "statement": "The size reported for the bins of the key-value store leaves room, over all bins, for all keys (with less room some bin overflows whatever the hash function does). Outside the tables the search ends with the least sufficient size, and 2^31 keys or more are refused. A greater security level does not get smaller bins. (The code violates the first part: when the keys of a thread are a power of two and the bins are not, the bins are sized as for the next power of two bins, and with 3, 5, 6, 9, 10, 11 or 17 to 20 processors and 2^k keys for each the encoder always writes behind the end of a bin. It violates the last part too: the table for 60 bits is the one for 50 bits with fewer digits, and its sizes may be smaller.)", "quantifier": "all numbers of bins and keys, security parameters, hash values, orders of threads", "why_tests_cant": "The test of the binned store uses few sizes and the default single thread; the interpolation is wrong only between powers of two, and the failure is silent memory corruption.", "anchors": ["psi/algorithm/rr22/okvs/simple_index.cc:881-965 SimpleIndex::GetBinSize", "psi/algorithm/rr22/okvs/baxos.h:50-60 Baxos::Init", "psi/algorithm/rr22/okvs/baxos.cc:185-320 Baxos::ImplParSolve", "psi/algorithm/rr22/common.cc:23-30 GenerateRr22PsiOptions"]}
{"id": "C107", "title": "The cache of the unbalanced PSI server stands for one table through all runs", "statement": "A generation makes the same cache whatever was in the directory before, and touches nothing else; an interrupted generation is never taken for a cache; once generated, any number of transfers and online phases serve the table, the key and the records of the generation, although the input may be replaced or deleted in between; and a start that is refused leaves the cache as it was. (The code violates the last part: the cache is deleted before the input is opened and before the output and the join are checked. An input kept in the cache directory is deleted as well, and a client that never received a cache goes through the online phase and reports that nothing is common.)", "quantifier": "all disks, configurations, tables, histories of runs and changes outside the cache directory, moments of interruption", "why_tests_cant": "Tests start with an empty directory, generate once and query at once.", "anchors": ["psi/utils/join_processor.cc:48-168 JoinProcessor::Make, CheckUbPsiServerConfig, constructor", "psi/utils/join_processor.cc:239-268 GetSortedInputTable, GetUniqueKeysInfo", "psi/algorithm/ecdh/ub_psi/server.cc:38-203 Init, OfflineGenCache, OfflineTransferCache, Online", "psi/algorithm/ecdh/ub_psi/ub_psi_cache.cc:34-63 UbPsiCacheProvider", "psi/algorithm/ecdh/ub_psi/ub_psi_cache.cc:123-160 UbPsiCache", "psi/utils/table_utils.cc:252-299 SortedTable::Make, KeyInfo::Make", "psi/utils/ec_point_store.cc:383-413 UbPsiClientCacheFileStore"]}
{"id": "C108", "title": "Progress reports never go back and reach 100 per cent exactly when the run has ended well", "statement": "However the reporting thread and the run take turns, every report of a BucketPsi run is the progress at one instant of the run, reports follow each other in time, percentage and number of finished parts never decrease, the phase named and the percentage agree, the last report of a run that ends well says 100 per cent and three of three parts, and a run that fails or is not finished never reports more than 80. A progress of any depth with enough weights reports at most 100 per cent, and 100 after Done if it has all its parts. (More parts than weights: undefined behaviour; Done with a phase missing stays below 100; Update after Done goes back.)", "quantifier": "all interleavings of the two threads, numbers of buckets, points of failure; all trees of progresses", "why_tests_cant": "The threads meet in the middle of a report only by chance; the test waits for a few reports of fixed sequences.", "anchors": ["psi/utils/progress.cc:25-144 Progress", "psi/legacy/bucket_psi.cc:53-107 ProgressLoop", "psi/legacy/bucket_psi.cc:266-325 BucketPsi::Run", "psi/legacy/bucket_psi.cc:441-444 RunBucketPsi"]}
{"id": "C109", "title": "A labeled PSI query finds exactly the items of the sender, with their labels", "statement": "For every data base and every query the receiver marks an item as found exactly if the sender has it, and gives the label that the sender stored for it, whatever the order in which the parts of the answer arrive; with any number of workers and any schedule of them the records are those of the sequential mode, no place of the common list is used by two steps (it has no lock), and the workers come to an end. (Proved when every item of the query hits at most one bundle and its field elements are not those of other items. Otherwise violated: field elements of different items together make a match; an item that hits two bundles makes the query of honest parties throw, and in the streaming mode two workers may write one record at once. Of equal items only the last is found. A part that cannot be loaded is dropped in silence by the sequential mode and makes a worker of the streaming mode wait for ever.)", "quantifier": "all data bases, queries, graphs of powers and orders of computing them, orders of arrival, numbers of workers, schedules", "why_tests_cant": "Tests query a few items in small data bases, where field elements do not meet and parts are never lost; a race shows only for some schedules.", "anchors": ["psi/wrapper/apsi/receiver.cc:277-362 Receiver::create_query", "psi/wrapper/apsi/receiver.cc:388-441 Receiver::request_query", "psi/wrapper/apsi/receiver.cc:443-725 process_result_part, process_result, process_result_worker", "psi/wrapper/apsi/sender.cc:174-313 Sender::RunQuery", "psi/wrapper/apsi/sender.cc:315-475 ComputePowers, ProcessBinBundleCache", "psi/algorithm/dkpir/sender.cc:278-451 DkPirSender::RunQuery"]}
{"id": "C110", "title": "Masks do not depend on the processor, and parties that pass the check use the same curve", "statement": "Whatever the processors of the parties and however their threads share the work, an item and a message are masked to the same bytes, place by place, in the group that is configured; two parties with one curve find a pair of items equal exactly if their hashes are the same point; a curve is refused only if it is invalid or is FourQ on an x86 processor without AVX2; and parties that pass the check at the start of an ECDH run hash and mask in the same way. (Violated twice: a run with CURVE_SECP256K1 computes in the group of SM2, and a party with CURVE_25519 and a party with CURVE_25519_ELLIGATOR2 pass the check and find nothing in common. The oblivious function of the unbalanced PSI does use the group that is configured.)", "quantifier": "all processors, curves, keys, lists, splits among threads", "why_tests_cant": "Tests run on one processor, with the same curve on both sides, and with numbers of items that a batch divides or that are not compared with the other library.", "anchors": ["psi/cryptor/cryptor_selector.cc:33-120 CreateEccCryptor", "psi/cryptor/ecc_cryptor.cc:24-79 EccMask, HashInputs, SerializeEcPoints, DeserializeEcPoints", "psi/cryptor/ipp_ecc_cryptor.cc:31-96 IppEccCryptor", "psi/cryptor/sm2_cryptor.h:27-61 Sm2Cryptor", "psi/algorithm/ecdh/ecdh_psi.cc:46-58 EcdhPsiContext::CheckConfig", "psi/algorithm/ecdh/ub_psi/ecdh_oprf_selector.cc:24-182 CreateEcdhOprfServer, CreateEcdhOprfClient"]}
{"id": "C111", "title": "A stored data base of the labeled PSI answers like the table it was made from", "statement": "Whatever happens to all other files and settings in between, a sender that loads a saved data base answers every query with what the table held when the data base was made; a run that reports success has saved the whole file; a file that is not complete is refused; and the two data bases of the PIR with duplicate keys are served with the key they were made with. (Violated: a file without its key, at the end, is served with a new key and nothing is ever found; a full disk that cuts off the last bytes is not noticed, so that such files come about; saving only without a file name reports success; and an offline phase that fails half way leaves two data bases with different keys, which the online phase serves with one.)", "quantifier": "all tables, settings, disks, sizes of disks and buffers, keys, queries", "why_tests_cant": "Tests save and load in one go on a disk with room; a missing key shows in no message and no exit code.", "anchors": ["psi/wrapper/apsi/utils/sender_db.cc:42-185 TryLoadSenderDB, TrySaveSenderDB, GenerateSenderDB, load_db", "psi/wrapper/apsi/utils/sender_db.cc:201-263 create_sender_db", "psi/wrapper/apsi/cli/entry.cc:363-402 DealSingleDB", "psi/apps/psi_launcher/launch.cc:202-248 RunPir", "psi/algorithm/dkpir/sender.cc:134-193 GenerateDB, LoadDB"]}
{"id": "C112", "title": "A session of the labeled PSI over a link ends for both parties, with every answer", "statement": "Whatever the order in which the two parties make their steps and whether or not they stream, a session over a link ends after one and the same number of steps: the receiver has for every bucket the answers of the data base of that bucket, the loop of the sender has ended, no message is left and each party has counted the bytes the other has sent. No bytes but the request to stop end the loop of the sender, and it does not end before the receiver has all its answers. (Violated when something goes wrong: a receiver that fails leaves without the request to stop and the sender waits for ever; a request whose treatment throws (a bucket that cannot be loaded, other parameters, refused OPRF data) is not answered and both wait for ever; a thread that throws while packages are streamed leaves the receiver waiting; with a channel name other than zmq and yacl, as in the help text, the sender never ends; and a sender of one data base that still has its key has no defined behaviour.)", "quantifier": "all tables, buckets, queries, orders of steps, orders of packages, bytes received", "why_tests_cant": "Tests run one session that goes well; failures show as a process that never returns, and only some schedules block.", "anchors": ["psi/wrapper/apsi/yacl_channel.cc:32-304 YaclChannel", "psi/wrapper/apsi/cli/sender_dispatcher.cc:43-59 SenderDispatcher", "psi/wrapper/apsi/cli/sender_dispatcher.cc:192-238 run", "psi/wrapper/apsi/cli/sender_dispatcher.cc:272-452 dispatch_parms, dispatch_oprf, dispatch_query", "psi/wrapper/apsi/cli/entry.cc:99-309 RunReceiver", "psi/wrapper/apsi/receiver.cc:127-232 RequestParams, RequestOPRF", "psi/wrapper/apsi/receiver.cc:371-441 request_query", "psi/wrapper/apsi/sender.cc:44-136 RunParams, RunOPRF"]}
{"id": "C113", "title": "The noise of the private mean meets its budget, and the budget of DP-PSI is split right", "statement": "CalibrateAnalyticGaussianMechanism(epsilon, delta, gs) ends for every epsilon > 0 and 0 < delta < 1. Normal noise with the standard deviation it answers makes a released number (epsilon, delta + tol)-differentially private: for any two values at most gs apart and any measurable set of outcomes. It adds no more noise than the budget asks for, up to the same slack. ComputeEpsilon2 answers the part of the budget left for the randomised response: the answer and the cost of sampling add up to the budget.", "quantifier": "all real budgets, sensitivities, tolerances, pairs of values, measurable sets of outcomes; all numbers of items", "why_tests_cant": "Differential privacy is a statement about all sets of outcomes of a distribution; a test can draw samples but not bound the probability of every set. That a search without a bound on its rounds ends for every budget cannot be tested either.", "anchors": ["psi/legacy/dp_psi/dp_psi_utils.cc: CalibrateAnalyticGaussianMechanism, DoublingTrick, BinarySearch, caseA, caseB, Phi, ComputeEpsilon1, ComputeEpsilon2", "psi/legacy/dp_psi/dp_psi_utils.h: ComputePSubKeep"]}
{"id": "C114", "title": "Masks of Curve25519 find the common items, whatever the keys", "statement": "With CURVE_25519 the order in which two parties mask an item does not matter, for all keys and all strings of 32 bytes. Two items count as equal exactly if eight times some point of the one hash is eight times some point of the other, on Curve25519 or on its twist; this does not depend on the keys, so keys neither lose nor invent a match. At most 32 of the 2^256 possible hashes count as equal to a given one. A mask is zero for five coordinates only, whatever the key. A key acts like at most one other key. Both parties of KeyExchange derive the same key.", "quantifier": "all keys and strings of 32 bytes, all lists of items, all hash functions", "why_tests_cant": "A test compares a few masks under a few keys. That no pair of keys ever loses or invents a match, and how many of the 2^256 hashes are taken for each other, depends on the orders of two groups of about 2^255 elements.", "anchors": ["psi/cryptor/sodium_curve25519_cryptor.h:39-73 SodiumCurve25519Cryptor", "psi/cryptor/sodium_curve25519_cryptor.cc:25-50 HashToCurve, KeyExchange", "psi/cryptor/ecc_cryptor.cc:24-58 EccMask, HashInputs", "psi/cryptor/ecc_cryptor.h:47-50 SetPrivateKey"]}
{"id": "C115", "title": "A program in C gets through the C interface what a program in C++ gets, and can give all of it back", "statement": "Strings of any bytes, arrays and results cross the C interface unchanged, whatever is on the heap. A program in C that makes one query with a labeled PSI sender and receiver has the keys, values and errors of the same calls in C++; when it has freed what it was given, the heap is as before. Handles and results can be freed without harm a second time. Results written to a file are the keys found, each once with its own label, below a line that names the columns. (Violated: freeing a string, an array, a result or a query context twice is undefined, since the variable keeps its pointer; when memory ends in an array, the strings made so far are never freed; with an allocator that has a null pointer for no bytes a query without a match throws; a query without a match on a table with labels is said to have no labels; the first line of the file has as many columns as keys were found in the first bucket, so `key` alone above lines with a value; no file at all without queries; and a queried key whose bucket has no rows makes the call throw.)", "quantifier": "all heaps, allocators, strings, arrays, results, implementations of sender and receiver; all tables, buckets, queries, files", "why_tests_cant": "Tests make one query with matches in one bucket and do not look at the heap; a leak or a second release shows in no result.", "anchors": ["psi/wrapper/apsi/api/wrapper_util.cc:26-61 MakeCString, MakeString, MakeCStringArray, MakeStringArray", "psi/wrapper/apsi/api/receiver_c_wrapper.cc:33-149 BucketReceiver*, MakeQueryResult, FreeQueryResult", "psi/wrapper/apsi/api/sender_c_wrapper.cc:30-86 BucketSender*", "psi/wrapper/apsi/api/receiver.cc:203-243 Receiver::ProcessResult"]}
{"id": "C116", "title": "Two parties of a larger group find each other on their own link", "statement": "Whatever the names and the number of the parties, any two of them that create their link for one purpose get a link of the same name with the same two parties, each finds itself at its own rank and the other at the next one; links for another purpose or another pair have another name; the party that is to get the result, given by its rank in the group, is translated by both ends to that very party; and in the PSI of n parties no two parties meet at two levels, so that no link is used for two runs.", "quantifier": "all groups with distinct names, all pairs, all purposes without a dash, all orders of parties and levels", "why_tests_cant": "Tests name the parties in the order of their ranks and use three or four; with names that sort differently a wrong translation gives the result to the wrong party or blocks both.", "anchors": ["psi/utils/communication.cc:22-45 CreateP2PLinkCtx", "psi/algorithm/ecdh/ecdh_3pc_psi.cc:350-371 CreateP2PCtx", "psi/legacy/nparty_psi.cc:157-188 Run2PartyPsi", "psi/legacy/nparty_psi.cc:215-246 GetPsiRank", "psi/algorithm/nty/nty_mp_psi.cc:59-64 NtyMPsi"]}
{"id": "C117", "title": "A table sorted through the shell is the table, sorted, and calling sort does nothing else", "statement": "MultiKeySort writes the header and exactly the rows of the input, ordered by the key columns, rows with equal keys in their old order, and changes no other file; equal keys end up next to each other, so that the key file names each once; the intersection indices come out in ascending order of the numbers. (Violated: the paths go to the shell unquoted. With a blank in the path of the input the call returns normally with no rows at all, or with the rows of another file; what follows a semicolon in the path is run as a command. A read error goes unnoticed since the status is that of sort. Quotes mean nothing to sort: a comma inside a quoted cell makes it take the wrong column, and a key spelled with and without quotes is sorted to two places; the key file then names a key twice. When no processor is reported every call fails.)", "quantifier": "all tables, headers, keys, paths without a meaning for the shell, files; for the violations all such paths, contents and commands", "why_tests_cant": "Tests sort a small table without quotes at a path made by the test; that a path with a blank loses all rows without an error, or that rows are lost when reading fails, shows in no exit code.", "anchors": ["psi/utils/key.cc:122-183 MultiKeySort", "psi/utils/key.cc:33-107 ParseCpuset, GetCpuCount", "psi/utils/table_utils.cc:229-242 Table::SortInplace, Table::Sort", "psi/interface.cc:151-160 AbstractPsiParty::Finalize", "psi/legacy/bucket_psi.h:55-95 GenerateResult"]}
{"id": "C118", "title": "The processes that build the databases of the groups leave the same files in whatever order they run", "statement": "ProcessGroupParallel gives every group to one process. In whatever order the processes get on, with files half written in between, the parent kills a process only after it has written everything it will write, the call returns after a number of steps known beforehand, and the files are then those of running the processes one after the other. (Violated: a process that dies before it raises the semaphore, by a signal or by exit in a library, keeps the parent waiting forever, and nothing else can end the wait. The number the parent waits for is a short: with between 32769 and 65535 processes it adds to the semaphore instead of waiting, and may kill all processes before a single file is written, and the directory is marked as generated.)", "quantifier": "all tables, directories, numbers of groups and processes, schedules, deaths", "why_tests_cant": "A test sees one schedule of a few processes; that no schedule of any number of processes kills one too early or waits too long is not a matter of runs, and a hang after a death is never tested.", "anchors": ["psi/wrapper/apsi/utils/group_db.cc:57-182 GroupDBGenerator, ProcessGroupParallel", "psi/wrapper/apsi/utils/group_db.cc:264-404 GroupDBItem::Generate"]}
{"id": "C119", "title": "KKRT-PSI gives a wrong result as rarely as its statistical parameter says", "statement": "Two items that differ are only told apart by encodings, truncated to a length computed from the sizes of both inputs and the statistical security parameter (40). For an encoding that behaves like a random function, the part of all its values for which the receiver does not get exactly the common items is at most 2 to the minus 40. Both parties compute the same length.", "quantifier": "all inputs without repeated items, sizes, permutations, cuckoo tables that can be filled, statistical parameters; all functions from bins and items to encodings (counted)", "why_tests_cant": "A failure of 1 in 2^40 is never observed in a test; only counting all functions shows whether the length is enough, and the length is short by one bit only for certain products of the sizes.", "anchors": ["psi/algorithm/kkrt/kkrt_psi.cc:63-72", "psi/algorithm/kkrt/kkrt_psi.cc:187-213", "psi/algorithm/kkrt/kkrt_psi.cc:309-423"]}
{"id": "C120", "title": "RR22 gives a wrong result in a bucket as rarely as its statistical parameter says", "statement": "For values of the OPRF that behave like a random function of the item, the part of all functions for which the two parties do not get exactly the common items of a bucket, with the counts of the other side, is at most 2 to the minus the statistical parameter (40), with values truncated to the length both parties compute; over several buckets at most the number of buckets times that.", "quantifier": "all buckets without repeated items, non-empty, with at most 2^48 pairs; all divisions of the lookup among threads and merge orders; all statistical parameters; all functions from items to 128-bit values (counted)", "why_tests_cant": "A failure of 1 in 2^40 is never observed in a test; values that truncate to zero, which the hash table of the receiver loses, and collisions have to be counted together over all functions.", "anchors": ["psi/algorithm/rr22/rr22_psi.cc:41-70", "psi/algorithm/rr22/rr22_utils.cc:51-150", "psi/algorithm/rr22/rr22_utils.cc:229-273"]}
{"id": "C121", "title": "ECDH-PSI gives a wrong result as rarely as the 90 bits of its comparison values promise", "statement": "Of every doubly masked item 12 bytes are compared, chosen because 90 bits would be enough. For a hash to the curve that behaves like a random function, the part of all hashes for which some schedule leads a party to something else than exactly the intersection is at most 2 to the minus 40, whatever the sizes of the inputs.", "quantifier": "all inputs without repeated items, batches, targets, windows, schedules, keys, bucket hashes and bucket counts; all functions from items to points (counted), for Curve25519 to strings of 32 bytes", "why_tests_cant": "A failure of 1 in 2^40 is never observed in a test; whether twelve bytes are enough for inputs of hundreds of millions of items, and how many of their bits vary, is a matter of counting all hashes and of the order of the curve.", "anchors": ["psi/utils/communication.h:34-43", "psi/algorithm/ecdh/ecdh_psi.h:52", "psi/algorithm/ecdh/ecdh_psi.cc:150-235", "psi/cryptor/sodium_curve25519_cryptor.cc:25-31"]}
{"id": "C122", "title": "The operators hand every entitled party exactly the common items with the counts of the peer", "statement": "Behind the interface of input and result stores, ECDH, KKRT and RR22 do the same: for every bucket, a party that may see the result is handed the position of each common item exactly once, with the number of rows that the peer has for it, and a party that may not gets no line; this holds for the receiver, for the party that learns the result by broadcast, for both kinds of point stores, for every schedule and for every number of threads.", "quantifier": "all buckets of distinct items with positive counts (empty ones included), either party as receiver, with and without broadcast, with and without recovery, all bin sizes, schedules and numbers of threads; all protocol parameters without collisions", "why_tests_cant": "The unit tests of the operators compare items, use one parallel level at both parties and never an empty bucket or a recovery with one bin; counts, broadcast and the division of buckets among threads have to be right together for all inputs.", "anchors": ["psi/algorithm/psi_operator.cc:24-134", "psi/algorithm/ecdh/ecdh_operator.cc:36-178", "psi/algorithm/kkrt/kkrt_operator.cc:32-75", "psi/algorithm/rr22/rr22_operator.cc:30-85", "psi/algorithm/rr22/rr22_psi.h:180-281"]}
{"id": "C123", "title": "The output of a join, read as a table, is the join of the input, read as a table", "statement": "A table reaches the protocol through a CSV reader, a file of keys and a second CSV reader, and its rows reach the output line by line. Read as a CSV table, the output has the columns of the input and exactly the rows the join asks for: every own row as often as the peer has its key, and for outer joins the unmatched rows and null rows, cells quoted or not. (Violated: a blank line, which the CSV reader ignores but the copying counts, shifts all rows behind it. Sorted, a blank line at the end of the file is the first, and the rows that are output are others than those of the intersection. Quotes inside a key are not doubled in the file of keys: different keys become equal and rows without a partner are output, a party that declares its keys unique takes part with other keys than one that does not and loses matches, and other keys end in an error. A column whose name has a quote in it is renamed. A table without rows is an error.)", "quantifier": "all texts of tables, key columns, kinds of join, sides, null values, peers, index files; for the violations concrete tables", "why_tests_cant": "Tests write tables without quotes and blank lines; the reading of one text by two readers agrees on all of them, and what differs shows as a plausible row in the output, not as an error.", "anchors": ["psi/utils/table_utils.cc:212-219 MakeQuotedCsvLine", "psi/utils/table_utils.cc:299-361 KeyInfo::Make", "psi/utils/table_utils.cc:497-542 ApplyPeerDupCnt", "psi/utils/join_processor.cc:283-341 GenerateResult", "psi/utils/arrow_helper.cc:76-105 GetCsvColumnsNames", "psi/utils/arrow_csv_batch_provider.cc:77-140"]}
{"id": "C124", "title": "Giving a PIR server a new database replaces the old one; a refused one leaves it as it was", "statement": "A server object of SealPIR or Spiral can be given a database by several functions, one after the other, and can be stored and loaded in between. After a call that returns, clients get the rows of the database of that call; after a call that throws, the answers are as before the call. (Violated: SealPIR stores every database behind the first, so that each later one is accepted and ignored, also by a server that is stored and loaded afterwards; a database refused by one of its functions leaves a new server that says it is ready and reads outside its data. Spiral does the same when rows are longer than a plaintext, and the file of a server built twice cannot be loaded; GenerateFromRawData changes no answer of a server that answers already, loaded or not.)", "quantifier": "all databases, shapes, sequences of calls, queries and keys, all parameters the constructors accept; the encryption of SealPIR by its laws", "why_tests_cant": "Every test makes a new server for each database; a stale answer is a well-formed row, and that no sequence of calls makes the server forget the first database is a statement about all sequences.", "anchors": ["psi/algorithm/sealpir/seal_pir.cc:612-851 GenerateFromRawData, GenerateFromSimpleHashTable", "psi/algorithm/sealpir/seal_pir_utils.cc:36-56 MemoryDbPlaintextStore", "psi/algorithm/sealpir/seal_pir.cc:853-953 SerializeToProto, DeserializeFromProto", "psi/algorithm/spiral/spiral_server.cc:233-462 DeserializeFromProto, GenerateFromRawData, GenerateFromSimpleHashTable, GenerateFromRawDataAndReorient"]}
{"id": "C125", "title": "A run of the bucket interface with the differentially private protocol is differentially private for the other party", "statement": "With DP_PSI_2PC the receiver runs the protocol of C81 and C82 once for every bucket. It reports exactly the rows whose keys the coins picked, and everything it is told about one key of the other party, over the whole run, is within the factor that epsilon promises; the other party learns nothing about the keys of the receiver. (Violated: equal digests skip the protocol, and the receiver then reports all its rows with certainty; the number of keys in each bucket is sent in clear, which tells a key from one of another bucket; with broadcast_result the other party is sent keys it does not have, and reports rows of its own that nobody else has when the numbers agree. What remains is the factor for the messages of all buckets together.)", "quantifier": "all tables, bucket sizes, hashes, orders of calls and coins; all curves in which masking commutes and no two keys collide; for the privacy, all non-negative functions of all messages", "why_tests_cant": "Differential privacy compares the distributions of two runs; a test sees single reports, in which a picked key looks like any other.", "anchors": ["psi/legacy/dp_2party_psi.cc:38-86", "psi/legacy/bucket_psi.cc:267-316 Run", "psi/legacy/bucket_psi.cc:400-471 RunBucketPsi, GetResultIndices", "psi/legacy/memory_psi.cc:52-76", "psi/legacy/base_operator.cc:30-39"]}
{"id": "C126", "title": "A run deletes its scratch places and nothing else", "statement": "A run puts sorted inputs, keys, masked points and queries into directories and files with random names. The names are valid components of a path, and different random bytes give different names, so that two runs do not meet. When the run is over, whether it succeeded or failed, nothing of that is left on the disk, and nothing that the run did not make itself has been deleted, in whatever order the resources are released. (Violated: if all ten names that a disk cache tries are taken, or if another process makes the directory between the test and the creation, the exception that follows deletes the directory that belongs to somebody else. The launcher has no handler: a run that fails leaves its scratch directory with the sorted input. A failed DkPir query leaves the query in plain text, a failed DkPir build the data. Every PSI run leaves a trace in /tmp unless a path is given. A name of 16 characters has 64 random bits, not 96. A second link of the same id is never waited for.)", "quantifier": "all disks, random bytes, lengths of names, contents, sequences of steps, orders of release, points of failure; for the violations all disks in which the names are taken", "why_tests_cant": "A test never draws ten names that are taken, never loses the race between test and creation, and looks at the result of a run, not at what is left in or missing from the directory for temporary files.", "anchors": ["psi/utils/random_str.h:22-38 GetRandomString", "psi/utils/multiplex_disk_cache.cc:31-63", "psi/utils/multiplex_disk_cache.h:35-41 ~ScopedTempDir", "psi/utils/resource_manager.cc:22-92", "psi/interface.cc:51-65 GetTaskDir", "psi/apps/psi_launcher/main.cc:85-145", "psi/algorithm/dkpir/entry.cc:25-58 SenderOffline", "psi/algorithm/dkpir/entry.cc:167-340 ReceiverOnline", "psi/utils/csv_checker.cc:77-145"]}
{"id": "C127", "title": "SimplePIR returns the entry that was asked for over a link, however many queries there are", "statement": "The seed and the vectors that client and server exchange arrive as they were sent. After SetDatabase, GenerateLweMatrix and Setup, whatever the objects held before, every query of any sequence of queries by the client gives the entry with the index that was asked for, and messages that do not fit are refused. (Violated: a message whose head announces more words than it carries, or which is shorter than a head, is read beyond its end, and so are a hint that is too short and a query before Setup. A client with two queries under way gets a wrong entry for the first. After a second SetDatabase a client with the old hint gets an entry that is in neither database.)", "quantifier": "all vectors of 64-bit words, seeds, databases, sequences of queries with any secrets and bounded errors, all earlier states of the objects; for the messages, all bytes", "why_tests_cant": "The tests make one query per client and send well-formed messages; a stale hint or a forgotten query gives a number in the range of the entries.", "anchors": ["experiment/pir/simplepir/network_util.cc:22-102", "experiment/pir/simplepir/client.cc:39-90 Setup, Query, Recover", "experiment/pir/simplepir/server.cc:35-95", "experiment/pir/simplepir/pir_test.cc:52-92"]}
{"id": "C128", "title": "The key file of DK-PIR gives the key back, and a damaged one is refused", "statement": "The secret key and the linear function that encrypt the numbers of rows are written to a file when the data base is built and read from it when it is served. What is read is what was written, so that the sender agrees to the same numbers of rows as before; a file that was cut at any place, or that holds two keys, is refused, since a sender with another key refuses every true number of rows. (Limit: a file that was cut between its two fields is read with an empty key, which only the library for big numbers can refuse.)", "quantifier": "all keys and linear functions, all places at which a file can be cut, all ciphertexts and numbers of rows, all groups of prime order", "why_tests_cant": "The round trip has to hold for numbers of all sizes, whose encodings differ in length, and the tests never load a file that is not complete.", "anchors": ["psi/algorithm/dkpir/common.cc:49-82 Save, Load", "psi/algorithm/dkpir/secret_key.proto:19-22", "psi/algorithm/dkpir/sender.cc:195-209 LoadSecretKey", "psi/algorithm/dkpir/sender.cc:480-493 CheckRowCount", "psi/algorithm/dkpir/sender_cnt_db.cc:47-85 EncryptCount"]}
{"id": "C129", "title": "Different items lead to different points of the curve", "statement": "In unbalanced PSI on SM2 and secp256k1 an item is mapped to a point of the curve: its hash is tried as first coordinate, and if no point has it, the hash of that number. Every item gives a point of the curve, the one with the even second coordinate, unless a hundred tries fail, and a try fails only if no point has the coordinate. Two different items give the same point only if two strings that were hashed collide. (Violated: an item of another length than 32 bytes whose first try fails, as happens for about half of all items, has the point of another item, the failed number written with 32 bytes. The OPRF values stored by the server do not depend on the item beyond its point, so a client with the second item is told that it has the first, for all keys. Proved for items that are not of 32 bytes.)", "quantifier": "all curves over an odd modulus of up to 256 bits, all hash functions, all items, all keys of the OPRF", "why_tests_cant": "The two items that meet are related by the hash function; a test with random or readable items does not hit such a pair.", "anchors": ["psi/cryptor/ecc_utils.h:154-206 CreateEcPointByHashToCurve", "psi/cryptor/ecc_utils.h:61-122 BigNumSt", "psi/algorithm/ecdh/ub_psi/basic_ecdh_oprf.cc:102-122 ItemMul", "psi/algorithm/ecdh/ub_psi/basic_ecdh_oprf.cc:168-180 SimpleEvaluate"]}
{"id": "C130", "title": "A point comes back from its 33 bytes, and other bytes are refused", "statement": "In the OPRF of unbalanced PSI on SM2 and secp256k1 points travel as 33 bytes. A point of the curve is read back from the bytes it was written with; two different strings are never read as the same point, so that points may be compared by their bytes; a string that is not the form of a point is refused for every key, although the code does not look at whether reading it succeeded. With invertible keys, masking an item, the multiplication by the server and taking off the mask, each through bytes, succeed and give what the server computes alone. What C28 assumes of a curve holds of every smooth curve over an odd prime of up to 256 bits.", "quantifier": "all smooth curves over an odd prime of up to 256 bits, all points, all strings of bytes, all hash functions, all items for which a point is found, all pairs of invertible keys", "why_tests_cant": "The tests use a few random keys and items, never bytes that are no point, and cannot visit both parities of the second coordinate for all points.", "anchors": ["psi/cryptor/ecc_utils.h:212-246 ToBytes, PointMul", "psi/algorithm/ecdh/ub_psi/basic_ecdh_oprf.cc:68-92 EcPointMul", "psi/algorithm/ecdh/ub_psi/basic_ecdh_oprf.cc:102-122 ItemMul", "psi/algorithm/ecdh/ub_psi/basic_ecdh_oprf.cc:124-144 EccPrivateKeyInv"]}
{"id": "C131", "title": "The server learns its items of the intersection, and no others, from the masked values of the client", "statement": "In unbalanced PSI the client can tell the server the result: it sends the masked values of the intersection, and the server looks for them in its cache. The server then has the positions of exactly those entries of the cache whose value was sent, each once, in the order of the cache, and the number of entries, whatever the batches and however many processors compare; with a mask that separates items these are the positions of the items that the client named. A batch that does not consist of whole values is refused. (Violated for texts that do not decode to whole values: the lengths of the single values are not looked at, so that two of them can count as two others that the client never named; a text that is not Base64 is left out without notice. Proved for values of the agreed length.)", "quantifier": "all decoders, all lengths of values, all batches of the client, all caches, all numbers of processors", "why_tests_cant": "The test sends one batch on one machine; how the comparison is cut among the processors depends on the size of the batch and the number of processors, and no test sends a value of another length.", "anchors": ["psi/algorithm/ecdh/ub_psi/ecdh_oprf_psi.cc:365-461 RecvIntersectionMaskedItems", "psi/algorithm/ecdh/ub_psi/ecdh_oprf_psi.cc:654-697 SendIntersectionMaskedItems"]}
{"id": "C132", "title": "A result that is handed to the other party arrives whole", "statement": "When both parties are to have the result, the party that computed it sends the keys of the intersection, and how often those appear that appear more than once, in one protobuf message. The other party then has all these keys in their order with their counts, and takes exactly those of its rows for the intersection whose keys were sent, each with the number of times its key appears with the other party. Tables of counts, sizes, and lists of indexes, which travel in messages of the same kind, come back as they were. (Violated for keys that are not UTF-8: the field has the type string, reading ends at the first such key, and the code does not look at whether reading succeeded, so that the keys behind it and all the counts are lost without an error. Proved for keys in UTF-8, ASCII and thus Base64 among them, and exactly when a result arrives.)", "quantifier": "all lists of keys, all tables of counts, all inputs of both parties, all positions of the intersection, with messages below the limit of protobuf", "why_tests_cant": "The tests use readable ASCII keys or hashes that are never broadcast; a key in another encoding, in front of others, is not among them.", "anchors": ["psi/utils/serialize.h:31-123", "psi/utils/serializable.proto:21-45", "psi/utils/sync.cc:55-81 BroadcastResult", "psi/algorithm/psi_operator.cc:24-64 BroadcastIntersection", "psi/legacy/base_operator.cc:30-39 Run"]}
{"id": "C133", "title": "The values of the sender of RR22 arrive in parts as they were sent", "statement": "In the variant of RR22 without counts the sender sends its OPRF values in several messages. The receiver has them in its buffer as they were sent, whatever the size of the messages, as long as they hold whole values, and takes no message more than that; from them it gets the pairs of positions of the common items, each once, for every split of the search. (Violated for other messages: their lengths are not looked at, so that a longer one is written behind the end of the buffer, and a value cut in two arrives as another one. The result is proved for items whose truncated value is not zero, see C24.)", "quantifier": "all lengths of values up to 16 bytes, all numbers of values, all sizes of messages, all contents of the fresh buffer, all splits of the search", "why_tests_cant": "The number of values at which a second message is sent is 100000; the tests stay below or run one size, and no test sends a message of another length.", "anchors": ["psi/algorithm/rr22/rr22_utils.cc:152-227 GetIntersectionReceiver", "psi/algorithm/rr22/rr22_utils.cc:275-306 GetIntersectionSender"]}
