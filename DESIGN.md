# Formal model of secretflow/psi in Lean 4 — design

The source under /repo was read as text. Nothing was built or run. The theorems below are about the
Lean model in `lean/Verif`; the only tie to the C++ is the line-by-line citations in the model.

## Layout

* `lean/Verif/<Area>/Model.lean` — executable model; every definition cites file and lines.
* `lean/Verif/<Area>/Spec.lean` — small independent specification (when the statement needs one).
* `lean/Verif/<Area>/Lemmas*.lean` — helper lemmas.
* `lean/Verif/<Area>/Props.lean` — the property theorems, named `Cnn_...`, each with an `example`
  showing that its hypotheses are met by a concrete non-trivial case.
* `Verif/Net` — tasks with FIFO queues and throttle windows under any schedule, used by the protocols with more
  than two parties. `Verif/Coll` — parties as programs of collective calls (gather, broadcast, two-party runs)
  under any order of calls. `Verif/Std` — byte strings in `std::string` order, `std::sort`, `std::binary_search`,
  `std::set_intersection`. `Verif/Common` — threads on shared memory.
* `properties.jsonl` — the property list. `MANIFEST.json` — property → theorem map.
* `seeded/LOG.jsonl` — mutation log.

## Plan per property

| id | what is modelled | how it is proved |
|----|------------------|------------------|
| C01–C06 | join pipeline: key grouping, index merge, duplicate expansion, result writer | functions over lists of rows; induction over the sorted table; spec is a filter/flatMap over the raw rows |
| C07 | `KeyInfo::Make` streaming run-length encoder | invariant over the fold; result equal to grouping of the concatenated batches |
| C08, C09 | bucket item text codec, bucket cache, per-bucket intersection | round-trip law; partition lemma by hash |
| C10–C12 | two parties × three tasks with FIFO channels as a labelled transition system | inductive invariant, termination measure, progress (no stuck non-final state) |
| C13 | batch codec | round-trip law over byte lists |
| C14 | resumed run with append-only stores | faithful model; where the code violates the property: negation by witness, plus the part that holds |
| C15, C16 | checkpoint state machine | invariant over operation sequences; negation by witness for C16 |
| C17 | bucket loop with write / checkpoint steps and crash points | invariant over crash histories; negation by witness for the write-before-checkpoint window |
| C18 | digest over concatenated keys | negation by witness, plus soundness for fixed-width keys |
| C19 | cuckoo insertion with arbitrary random choices | invariant by induction over insertions and evictions |
| C20, C21 | KKRT round with abstract injective OPRF | set equality; confluence of the incremental encoder |
| C22 | `rr22_oprf.cc` in all modes on GF(2^128) words: chunked table transfer, batched AES hashing, key-value store, coins | linearity of decoding in the table; the VOLE is a parameter |
| C23 | three workers, two queues, LTS | invariant + progress + measure |
| C24 | lookup with arbitrary partition and merge order | permutation invariance |
| C25 | byte-length arithmetic | `Nat.clog` characterisation |
| C26 | Paxos triangulation, back substitution, decode | invariant over peeling order; linear algebra over XOR |
| C27 | negotiation arithmetic | ceiling division |
| C28, C29 | UB-PSI: ECDH OPRF, cache generation, transfer, online phase, cache files byte by byte | round trips of the file formats; OPRF values agree by commuting scalars; exactness through `ExactIndex` |
| C30, C31 | batch providers as state machines | invariant over reads |
| C32 | key joining | negation by witness + positive theorem for separator-free values |
| C33 | index writer/reader | invariant over operations |
| C34, C35 | `AbstractPsiParty` and `AbstractUbPsiParty` of both parties as programs over a link, every local step may fail | both programs run against each other step by step (`Duo`), checks as exact decision logic |
| C48 | the loop of `SyncWait` | induction over the rounds |
| C49, C50 | conversion of requests in `launch.cc`; Kuscia adapter and link ranks | exact decision logic; sorted map invariant |
| C36 | key grouping, ECDH protocol, store, intersection and join composed | composition of C07, C10, C09, C03/C01 through the `ExactIndex` specification |
| C40, C41 | `Galois128` on 128-bit words: shifts, carry-less products, reduction, addition chain | words as polynomials over GF(2); the modulus is proved irreducible (Rabin's test), so the quotient is the field with `2 ^ 128` elements |
| C42–C44 | `PaxosHash::BuildRow`/`BuildRow32` lane by lane, `ithCombination`, `DenseMtx::Invert` | sorted insertion invariant; combinatorial number system; Gauss-Jordan invariant over GF(2) |
| C45 | `Baxos`: binning by many threads, merge at the barrier, per-bin encoding, buffered decoding; `Decode1`/`Decode32` | threads write to cells they own, any schedule; ownership invariant (`Common/Threads.lean`) |
| C46, C47 | one bucket of RR22 or KKRT from stored items to index lines; all buckets; the join | composition of C08, C17, C20, C22, C23, C24 and C03 through `ExactIndex` |
| C51, C52 | three-party ECDH PSI: eleven tasks of three parties, ten queues, throttled links (`Verif/Net`) | a timetable of all messages; each task run alone keeps to it, hence every interleaving does (`Net.planned`) |
| C53–C57 | `BucketPsi`, `MemoryPsi`, `NpartyPsiOperator`, `CsvChecker`, `FilterFileByIndices` for any number of parties (`Verif/Coll`) | one reference list of calls that every party follows; then every order of calls ends with the reference results |
| C58 | threshold ECDH PSI: seven tasks of two parties, per-batch shuffles, disk cache of pairs, cut to the threshold, index restoration (`Verif/Net`) | timetable as for C51; the lines found are an independent description of matching positions, a cut of them is exact for the keys it contains |
| C59 | unbalanced PSI with a threshold: shuffled exchange, cut, restoration of indexes | reuses the exchange lemmas of C28; cuts of found lines stay sound and complete for their keys |
| C60, C61 | word arithmetic of Spiral PIR (`Verif/Spiral`): Barrett, CRT, recentring, rescaling, signed overflow as undefined | quotient estimates on `Nat`; specification is plain remainders and distances |
| C62 | NTT tables and transforms, plain and AVX2 build, word by word (`Verif/Spiral/Ntt*`) | bounds on lazily reduced words; after `mm` levels block `i` holds partial sums at a root of `X ^ (2 ^ mm) + 1`; an inverse level undoes a forward level |
| C63 | polynomial matrices and gadgets (`Verif/Spiral/Ring*`, `MatLemmas`) | ring `A L = Z[X]/(X^n+1)`; a transformed polynomial is determined by its values at all points for all moduli, so word-wise operations are ring operations |
| C64 | bytes, coefficients, plaintexts, partitions, rows (`Verif/Spiral/Pack*`) | streams of bits as functions `Nat → Bool`; `bitsVal` is the number a window spells; loop invariants say which windows are written |
| C65 | database dimensions (`Verif/Spiral/Param*`) | `Fits` states what expansion and folding need; the accepted sizes of the default parameters are characterised exactly |
| C66 | reoriented database, reoriented ciphertexts, first dimension (`Verif/Spiral/Db*`) | flattened indices are mixed digits, hence injective; each word of the product is the value at one point for one modulus (`wordOp_spec`) |
| C67 | modulus switching and decoding (`Verif/Spiral/Switch*`) | exact outcome of the truncating divisions; distance of the switched phase from the scaled phase bounded by the weight of the key |
| C68 | keys, query, expansion, conversion, folding, packing, answer and decoding of Spiral (`Verif/Spiral/Scheme*`) | the phase (product with the secret key) of every intermediate ciphertext is message plus an explicit error in `Z[X]/(X^n+1)`; one lemma per operation; `respNoise` collects the errors, `respBound` bounds them |
| C69 | `GenTernaryMatrix` with any generator and shuffle (`Verif/Spiral/Ternary*`) | permutation of an explicit list of values; the key is a function of the low 32 bits of the seed |
| C70 | messages of Spiral: keys, query with seed, answer; `Response` (`Verif/Spiral/Wire*`) | reading what was written gives matrices with the same ring values (`SameMat`), the seed round trips, the redrawn row equals the drawn one; composed with C68 stated for any keys and query that stand for the same ring elements |
| C71 | `SpiralServer` generate, dump, load (`Verif/Spiral/Wire*`) | the loaded plaintexts are the built ones (C64 layout), so the reoriented data are those of C66; then C70; states in which a dump cannot be loaded or a built server is not ready are proved as limits |
| C72 | `DiscreteGaussian` (`Verif/Spiral/Gauss*`) | loop invariant: after the entries from the end down to `i`, the output is that of the first entry that is at least the word; then count the words of every entry; the table (floating point) is a parameter |
| C73 | `NtyMPsi`, `ServerAidedTwoPartyPsi` (`Verif/Nty/*`) | values at helper and receiver as explicit formulas over the decoded tables (C26, C45 for the tables, C22 lemmas for their transport); counts through sort, set intersection, encryption and the index map; no-accident hypothesis stated on these values |
| C74 | `GenOkvs` without randomization (`Verif/Nty/Leak.lean`) | without gap rows the solver leaves all columns that are no pivots at zero, for all values; such an item decodes to zero, an item of the server to its pseudorandom value |
| C75 | `Verif/SealPir/CodecModel.lean`: `BytesToCoeffs`, `CoeffsToBytes` | bits in order, zeros behind; all rows of a plaintext and parts of long rows come back |
| C76 | `Verif/SealPir/Model.lean`: query, `ExpandQuery`, `MultiplyPowerOfX`; SEAL by its laws (`Spec.lean`) | expansion decrypts to one-hot for every dimension; shape of the query depends on the dimensions only |
| C77 | the same, with database, `GenerateResponse`, `DecodeResponse`, storage | run of client and server returns the row; load of dump is the server |
| C78 | the same | negations: zero plaintexts, short roots, products of `2^31` |
| C79 | `experiment/pir/simplepir/{client,server,util}.cc` | run of client and server returns the entry under a bound on row times errors |
| C80 | the same | negations: wrong entries without any error, division by zero |
| C81 | `dp_psi.cc` of both parties behind the exchange of masked items (`Verif/DpPsi`) | both draws sorted together are a draw position by position; batches of indexes byte by byte |
| C82 | the same with the probabilities of `DpPsiOptions` | mean over independent coins equals randomized response, induction over the positions; negations |
| C83 | `kmprt17_hashing.cc`, `kmprt17_opprf.cc`, `kmprt17_mp_psi.cc` (`Verif/Kmprt`) | an element in hand or in a bin stays so under evictions; loop invariant over the receiver's batches; double XOR sum over parties; messages do not depend on OPRF values of elements the sender lacks |
| C84 | the same | negations: fewer items than parties, pigeonhole on a bin's table |
| C85 | `algorithm/dkpir/*`, `utils/csv_converter.cc` (`DkPir/*`) | refinement: result file = rows of the queried keys, through merging, CSV text, shuffling, blinding |
| C86 | the same | decision: agreement ⇔ declared number is the true one |
| C87 | the same | negation: a strategy of the receiver that is billed for another key, for all queries |
| C88 | `experiment/pir/pps/ggm_pset.cc` (`Pps/*`) | refinement: every node of the rebuilt tree off the path equals the node of the full tree, level by level |
| C89 | `pps/client.cc`, `server.cc`, `sender.cc`, `receiver.cc` | refinement: run over the wire = database bit, or given up in exactly the stated cases |
| C90 | the same | invariant over sequences of queries: hints are the parities of the current sets |
| C91 | the same | negations: the server computes an index; double counting of the places read |
| C92 | `experiment/pir/piano` (`Piano/*`) | invariant: each parity is the XOR of the entries of its set, before and after each query; the sets used up are at most the indices asked for |
| C93 | the same | negation: every answer other than zeros to a new index uses up a replacement of the chunk |
| C94 | the same | counting: one query takes (rows, backup rows, replacements, mask) one to one to (rows and replacements left, message); simulation of the client by this game |
| C95 | `apsi/utils/{group_db,csv_reader}.cc`, `apsi/api/{sender,receiver}.cc` | text round trips of the group files and the index; invariant of the running sender with the draws made so far, growing only; answers from it |
| C96 | `apsi/cli/{entry,sender_dispatcher}.cc`, `apsi/utils/common.cc` | the same invariant; the loop over the buckets as a function of the table |
| C97 | the same | the header counted; witness with two matches in a bucket |
| C98 | the same | invariant over any list of requests |
| C99 | `apsi/utils/group_db.cc`, `utils/multiplex_disk_cache.cc` | resumption from the invariant; witnesses for every table or for all directories of a kind |
| C100 | `cryptor/hash_to_curve_elligator2.cc` | refinement of the RFC's map as a relation on the field, which has one value |
| C101 | the same | refinement of the group of Mathlib's Weierstrass curve |
| C102 | the same | composition of C100, C101 and C103; witness for equal field elements |
| C103 | the same | refinement of the RFC's expansion; a hash function that separates any two inputs |
| C104 | the same, `cryptor/*_cryptor.cc` | witness: the RFC's test vector; what holds for reversed bytes |
| C105 | `WeightData` with its linked lists (`Verif/Okvs/Weight*.lean`) | refinement: with three columns per key the run with the lists is a run of the triangulation of C26 with least columns; refusal of loads of 200; witness: two columns per key |
| C106 | `SimpleIndex::GetBinSize` with its tables and its use in `Baxos` (`Verif/Baxos/BinSize*.lean`, `BinLevel.lean`, `BinTable.lean`) | room for all keys off the powers of two; the search ends with the least size; order of the security levels; witnesses: undefined behaviour for every hash, smaller bins for more security |
| C107 | the disk of the UB-PSI server over its runs: start, generation, transfer, online, interruption (`Verif/UbLife/*.lean`) | the disk is a function of paths; generation from any disk, invariance over histories, every intermediate state of a generation; negations for refused starts |
| C108 | progress trees and the reports of a run by a second thread (`Verif/Progress/*.lean`) | run and reporting thread as a transition system with a lock; every schedule; reports are instants of the run (linearisability), then facts about instants; trees by structural induction |
| C109 | labeled PSI: query, powers, evaluation, answer, records, workers (`Verif/ApsiCore/*.lean`) | slots of ciphertexts as functions into a field; Paterson-Stockmeyer and the graph of powers give the value of the polynomial; records of parts that do not meet commute; workers as a transition system with an invariant over every schedule; negations by witness |
| C110 | choice of the curve library, batches of eight lanes, check of the configurations (`Verif/Cryptor/*.lean`) | loops over any split into chunks equal a map over the list; kinds of cryptors by cases; double masks compared under commuting masks; negations for all inputs |
| C111 | stored data bases of the labeled PSI and of the PIR with duplicate keys, sender runs, full disks (`Verif/Stored/*.lean`) | round trip through the file, any other files and settings; cut files by cases on the length; negations for all tables |
| C112 | messages, the loop of the sender and the receiver of the labeled PSI as two processes with queues (`Verif/Session/*.lean`) | the receiver alone with its answers is what every schedule ends in (invariant and number of steps to go); the request to stop is the last; where there is no answer, the same argument ends in waiting |
| C113 | the numbers of `dp_psi_utils.cc` over the reals (`Verif/DpCalib/*.lean`) | `Phi` is the distribution function of Mathlib's normal distribution; the set of outcomes that shows most is a half line; bisection of a continuous function ends by uniform continuity |
| C114 | X25519 and the cryptor on it (`Verif/X25519/*.lean`) | the ladder of RFC 7748 on numbers, proved to multiply points of Mathlib's elliptic curves (Curve25519 and its twist); the orders of both groups from runs of the ladder, Lucas certificates and a count of points; then matches as equality up to the torsion |
| C115 | C interface of the labeled PSI (`Verif/Capi/*.lean`) | programs on a heap of numbered blocks with an allocator that may have no memory; a session in C refines the same calls in C++ with the live blocks as before at the end; results in a file on the model of C95 |
| C116 | links between two parties of a larger group | names, party lists and ranks as functions; injectivity of the names; both ends as one statement |
| C117 | sorting a table through the shell | the command line as text, a lexer and an interpreter for the part of the shell it needs, `sort` as a stable insertion sort by raw fields |
| C118 | the processes that build the databases of the groups (`Verif/Procs/*.lean`) | parent and children as a transition system with semaphore and files; an invariant for each child and a weight that goes down; the closed form of the files against `processGroups` |
| C119 | how often KKRT-PSI goes wrong (`Verif/Kkrt/{Counting,Margin,MarginProps}.lean`) | all values of the encodings are counted: the wrong runs are those where one of `n * m` pairs of values meets; upper bound by the union of the pairs, lower bound by pairs of pairs |
| C120 | how often RR22 goes wrong (`Verif/Rr22/Margin.lean`) | all functions from items to values counted; the union of `n * m` events, each of one remainder that the other values determine |
| C121 | how often ECDH-PSI goes wrong (`Verif/Ecdh/{Counting,Margin,Margin25519}.lean`) | all hashes to the curve counted; a wrong result comes from a pair of different items with the same 12 bytes; upper bound by the union of the pairs, lower bound by Cauchy-Schwarz and pairs of pairs; for Curve25519 the sizes of the fibres from C114 |
| C122 | the operators (`Verif/Operator/*.lean`) | the protocols of C10, C20 and C24 behind one interface; `ExactIndex` on the inputs of a bucket with total counts, for both kinds of point stores, the broadcast of `psi_operator.cc`, and the division of buckets among threads |
| C123 | the files of a join as text (`Verif/JoinText/*.lean`) | Arrow's reading of a table, the key file written and read back, `std::getline` copying and the quoted header around the join of C01-C04; the output read as a table is computed from the input read as a table |
| C124 | databases given to a PIR server one after the other (`Verif/PirLife/*.lean`) | the server object of SealPIR with its plaintext stores and flag, that of Spiral as in the wire model; every function that takes a database, storing and loading, over any sequence of calls |
| C125 | `DP_PSI_2PC` in the bucket interface (`Verif/Legacy/Dp*.lean`) | the operator of `dp_2party_psi.cc` inside the model of `BucketPsi` and `MemoryPsi` for two parties; coins per bucket as parameter; the distribution of all messages of a run as nested means |
| C126 | scratch places (`Verif/Scratch/`) | random names, the directory of a disk cache, the resource manager, the end of the launcher, temporary files of DkPir and of the CSV checker; a disk is a function from paths; other processes act between a test and the action that relies on it |
| C127 | SimplePIR over a link (`Verif/SimplePir/Wire*.lean`) | the bytes of `network_util.cc` and the state of client and server between calls around the arithmetic of C79; any list of queries by induction; negation by witness for two queries under way and for a replaced database |
| C128 | the key file of DK-PIR (`Verif/DkPir/KeyFile*.lean`) | protobuf's wire format for one message, written and read; every prefix of a file by cases; the check of C86 after the file was read |
| C129 | hash to the curve by trying and hashing again (`Verif/TryPoint/*.lean`) | the strings hashed in turn by induction on the tries; back from equal points to equal items; the OPRF of C28 on two items with one point; a whole run on a curve of order 13 |
| C130 | points as bytes (`Verif/TryPoint/Point*.lean`) | square roots of one parity are unique; reading and writing are inverse to each other; Mathlib's group of the curve put into the model of C28, whose assumptions are proved; the steps of the OPRF through bytes |
| C131 | masked values of the intersection (`Verif/UbPsi/Mask*.lean`) | bytes are cut back into the values they were joined from; the ranges of the tasks make up the batch; the scan of the cache is a filter; values of other lengths as counterexample |
| C132 | messages with sizes, indexes and results (`Verif/Operator/Wire*.lean`) | every field is read back from what was written, by induction over the fields; the check of UTF-8 ends the reading; exact condition; a GBK key as counterexample |
| C133 | RR22 values in parts (`Verif/Rr22/Parts.lean`) | invariant of the receiving loop: the buffer holds what came so far; the parts of the sender make up its memory; counterexamples for other lengths |
| C39 | summary file beside the input, over histories of runs | negation by witness; condition under which reuse is right |
| C37, C38 | checkpoint state machine with crash points inside calls | invariant over event sequences; negation by witness for C38 |

## Findings

Places where the code does not have the property one would expect. Those with a theorem name are proved of
the model; the others were noticed while reading and are outside the theorems.

* Join, duplicates on both sides: rows are paired cyclically per key group, not as the cross product
  (`C02_not_relational_join`).
* Join, `keys_unique` with alignment: the result is re-sorted by all columns, which misaligns the parties
  when the key is not the first column (`C02_unique_keys_misaligned`).
* ECDH resume: duplicate counts received after the restart are not shifted (`C14_wrong_count`); item
  indices in the reopened cache start again at 0 (`C14_wrong_index`).  A restarted run replaces the counts
  of the checkpoint by its own, smaller ones, so after a second restart items are saved once more and a
  line appears twice (`C14_same_line_twice`).
* ECDH checkpoint counts (not modelled): `UpdateEcdhDualMasked…Count` sets the field outside the mutex
  (`psi/checkpoint/recovery.cc:213-229`) and is called by two threads (`MaskPeer`, `RecvDualMaskedSelf`), while
  the other one may be serialising the same message under the mutex: a data race.
* Checkpoint: a restarted task writes an earlier stage (`C16_stage_goes_back`); the file is truncated and
  rewritten in place, so a crash inside the write loses it (`C38_torn_checkpoint`).
* KKRT and RR22 resume: a bucket's index lines are committed before the bucket is counted, so they can be
  written twice (`C17_written_twice`), which makes the join fail for good (C06 shows duplicates are
  rejected).
* Digest shortcut: keys are hashed without separator, so `1, 23` and `12, 3` count as equal inputs
  (`C18_different_keys_accepted`); recovery forces the check on. A restarted KKRT or RR22 task appends the
  shortcut's lines again (`C18_restart_appends`).
* `keys_unique` inputs: the `.meta` file beside the input is reused if the file size is unchanged, also after
  an edit or with other key columns (`C39_stale_summary`); the recovery check then compares the stale digest.
* `CuckooIndex`: 0 hash functions pass the constructor's check by wrap-around.
* `bucket.cc: NegotiateBucketNum` adds items and bucket size in 64 bits: a very large configured bucket size
  gives no buckets and a silently empty result (`C27_wraps`). Different sizes would give different bucket counts
  (`C27_sizes_differ`; the configuration check excludes that).
* `rr22_oprf.cc: RecvChunked`: a table longer than expected is not noticed when a chunk ends exactly at the
  expected size.
* `rr22_psi.cc: ComputeTruncateSize` evaluates `log2(0)` for a bucket that is empty on one side and converts
  minus infinity to an unsigned integer (`C25_empty_bucket_undefined`; undefined behaviour, the value is not
  used afterwards). The product of the sizes is taken modulo `2 ^ 64` (`C25_wraps`, from `2 ^ 64` pairs on).
* RR22 receiver: its table marks empty slots by the key 0, so a common item whose truncated OPRF value is 0
  is lost (`C24_zero_value_lost`, probability about `2 ^ -72` per item); the sender's in-place compaction
  uses `memcpy` on overlapping ranges.
* `Galois128::Pow` returns 0 for base 0 and exponent 0 (`C41_zero_pow_zero`). The header comment of
  `galois128.h` names another polynomial than the code uses.
* `paxos.cc: MatrixGf128Inv` allocates `n` instead of `n * n` elements for its result: every encoding with two
  or more gap rows in GF(2^128) mode writes behind the end of the buffer (`C26_gf_two_gaps_undefined`,
  `C26_gf_two_gaps_reached`). Its pivot search only accepts a 1, so it also rejects some invertible matrices
  (`C26_gf_pivot_missed`).
* Binary key-value store: only one set of dense columns is searched for and the other dense columns stay 0, so
  a solvable system can still be rejected; `C26_binary_failures` lists exactly when.
* `baxos.cc`: in the 32-key main loop of the binning the per-thread bin buffer is written without checking its
  capacity (only the tail loop checks first, `C45_overflow_undefined`); an exception in a worker thread ends the
  process.
* `baxos.cc` picks the index type by `Log2Ceil(sparse_size + 1)`, but `Paxos::Init` asks for `sparse_size < max`:
  exactly 255, 65535 or 2^32 - 1 sparse columns are refused (`C45_index_type`).
* `Paxos::SetInput` reads `num_items_` keys also when it is given fewer.
* `paxos.cc: Decode` in GF(2^128) mode with dense size 0 reads one element past the end of the table.
* `dense_mtx.h`: the copy of a `DenseMtx` keeps a view on the data of the original, so `Invert() const`
  destroys its operand (no caller uses the operand again).
* `Paxos` with a random generator (not used by RR22): the buffer for the random `EE` is filled with 16 times
  its size, and the randomised dense part is not subtracted in GF(2^128) mode.
* `Rr22Runner::ParallelRun` ignores the start index, so it repeats finished buckets after a restart.
* `KeysJoin` joins key columns with a comma and no escaping, so `("a,b", "c")` and `("a", "b,c")` count as
  the same key (`C32_separator_in_column`).
* `MemoryBatchProvider` in shuffled mode throws on empty input (`C30_memory_empty_throws`), leaves the
  duplicate counts of its shuffled batches empty, and keeps references to its constructor arguments; labels
  are read without looking at how many there are (`C31_memory_labels_too_short`).
* `index_store.cc`: the reader treats the `int64` column Arrow infers as an unsigned one, so values of 2^63 or
  more are misread (`C33_big_value_misread`); an empty record batch would end the reading early
  (`C33_empty_batch_stops`); a crash between creation and header leaves a file that a resumed task appends to
  and can never read (`C33_header_lost`).
* `KeyInfo::Make` on an empty stream records one group with the empty key and no rows.
* `HashListEqualTest`/`BroadcastResult`: the rank check does not notice a conflict when one of the ranks is 0.
* Joins without broadcast: the receiver of an outer join gets no rows for the peer's exclusive keys, because the
  peer's row count is taken as 0; `peer_except` is a 32-bit difference that wraps when the peer count is wrong.
* UB-PSI client: `OfflineTransferCache` removes the whole directory of `cache_path` first, with everything else
  in it. UB-PSI server: the offline modes remove the cache before the input is looked at. An interrupted
  transfer leaves a client cache whose summary matches what was received, so a later online phase accepts it
  (`C29_interrupted_transfer_accepted`).
* UB-PSI server (C107): `CheckUbPsiServerConfig` deletes `cache_path` with everything below it before the input is
  opened (its existence is only checked if there is no cache) and before the output type and the left side are
  checked. A refused start has deleted the cache (`C107_refused_start_loses_cache`); an input kept below
  `cache_path` is deleted (`C107_input_in_cache_deleted`). The key columns named in the online phase are not compared
  with those of the cache; they have no effect. A UB-PSI client without any cache makes an empty one and reports an
  empty intersection (`C107_client_without_cache`). The message about an unsupported output type names the type of
  the input.
* Progress (C108): `Progress::Get` indexes the weights by the parts, so that a part more than was announced reads
  behind the end (`C108_more_parts_than_weights`); `Done` with a phase that was never begun leaves the report below
  100 (`C108_done_without_all_parts`); `Update` after `Done` takes the report back (`C108_update_after_done`). The
  one caller in the repository, `BucketPsi::Run`, does none of this. A run that fails still gives a last report.
* UB-PSI server: the key of the online phase is read from a file and not compared with the key of the cache; with
  another key the result is silently wrong (`C28_other_key_unnoticed`).
* `UbPsiClientCacheFileStore` throws when its `.meta` file is left without data file; its provider throws when
  read again after the end.
* Basic ECDH OPRF ignores a failing `EC_POINT_oct2point`.  An invalid point from the peer is refused nevertheless, since
  the new point stays the one at infinity, whose form is shorter than 33 bytes (`C130_invalid_refused`).
* `MultiKeySort` (`psi/utils/key.cc:174-181`) puts both paths into a shell command without quotes. With a blank in the path of
  the input, a valid file, the call returns normally and the sorted file has no rows (`C117_space_loses_rows`), or those of
  another file and a line of `tail` (`C117_space_other_file`); text after a semicolon is run (`C117_semicolon_runs`).
  `legacy/bucket_psi.h:60` says that temporary files are used against shell injection, but they lie in the directory of the
  output path, which may itself have such characters.
* The status of the command line is that of `sort` (or `uniq`): a read error of `tail` goes unnoticed and rows are lost
  (`C117_read_error_unnoticed`).
* GNU `sort` knows no quotes. A comma in a quoted cell shifts the key column (`C117_quoted_comma`), quoted and unquoted
  spellings of a key sort apart (`C117_quoted_spelling`); in both cases the key file names a key twice.
* If `hardware_concurrency()` is 0, `sort --parallel=0` refuses to run and every sort throws (`C117_no_cpus`).
* `ec_point_store.cc: ComputeIndicesWithDupCnt` divides by `hardware_concurrency()`, which may be 0.

* `CheckPeerConfig` compares serialised configurations, so a parameter message that is spelled out with default
  values and one that is not set count as different (`C34_default_spelled_out`). `left_side` is not checked against
  the roles (`C34_left_side_unchecked`). `intersection_threshold` has no effect for KKRT and RR22.
* UB-PSI compares no configurations. If the server was told that the client gets no result and the client was told
  it does, the client silently reports wrong rows (`C34_unbalanced_flags_unchecked`); a `left_side_rank` that is no
  rank makes the parties take each other for the left side (`C49_unbalanced_left_out_of_range`).
* `Finalize` writes the output before the parties agree that the run has ended well, so a failed run may leave an
  output file (`C35_output_of_failed_run`).
* `FromKusciaConfig`: parties with the same name become one (`C50_same_name`).
* Three-party ECDH PSI ignores its option `batch_size`; the constant `kEcdhPsiBatchSize` is used.
* `GetResultIndices` (`bucket_psi.cc:448-470`) takes a result as long as the bucket for the whole bucket. If the
  receiver has duplicate keys and broadcasts, another party writes rows the receiver does not have
  (`C54_duplicates_wrong`). The input check excludes this only if `precheck` is set.
* `CsvChecker` hashes the keys one after the other without separator. Parties with different keys whose
  concatenations agree skip the protocol and report all their rows (`C55_glued_wrong`). Keys that contain a newline
  can be refused as duplicates (`C55_newline_refused`).
* If one party's input check fails, the others wait at `SyncWait` (`C55_failed_check_blocks`); the link timeout ends
  them.
* `BroadcastResult` uses rank 0 as "no rank yet", so its check for several results misses rank 0
  (`C57_rank_zero_missed`).
* Threshold ECDH PSI: the sender stores the duplicate count of original position `i` beside shuffled position `i`
  (`threshold_ecdh_psi.cc:103-107`), so its lines can carry counts of other keys (`C58_sender_counts_limit`). If the
  digests of the keys agree, the threshold is ignored and everything is written (`C58_digest_limit`).
* Threshold ECDH PSI resumed from a checkpoint (by reading): the disk cache is truncated when opened, and the
  positions stored in it and in the stores restart at 0, so restored indexes belong to other items; duplicate counts
  of items already done are written past the end of the shortened batch.
* `ntt.cc`: the last reduction of the AVX2 `NttForward` uses a strict comparison, so a transformed polynomial may
  contain the modulus where the plain build has 0 (`ntt_avx_not_reduced`); harmless for products, not for comparing
  or serialising words.
* `GadgetInvertRdim` (`gadget.cc:66-68`) reads `in.Poly(i, j)` with `i` running over columns and `j` over rows. For one
  column this is the right polynomial; all callers pass one column. With more columns the decomposition is wrong
  (`gadget_invert_exchanged`).
* `Params::UpdateByDatabaseInfo` (`params.cc:122-143`): with the default parameters (`t_gsw = 6`) a database that needs
  5 to 16 or 33 to 64 plaintexts (of 8192 bytes) is refused by `ValidCheck`, because `v2 * t_gsw` exceeds half of the
  expanded ciphertexts (`update_refused`; exact set in `update_default`). For at most 4 plaintexts `t_gsw` is lowered to
  4 and stays so, so the same object accepts 5 plaintexts after it has seen 4 (`update_history`).
* `ConvertBytesToCoeffs` (`util.cc:149-178`) with size 0 writes to `coeff_array[0]` of an empty array
  (`packing_nothing`). `ConvertCoeffsToBytes` leaves bits of the coefficient in an incomplete last byte that were
  written before (`unpacking_incomplete`); no caller reads that byte.
* Spiral decoding (`spiral_client.cc:427-457`): rounding adds `denominator / p` before it divides, which is no multiple of
  `p` for `q2_bits` 14, 15, 16 and 19 (with `p = 256`). Every decoded coefficient is then off by 192 although
  `Params::ValidCheck` accepts these widths (`decode_shifted`). The default of 21 bits is not affected.
* `GenTernaryMatrix` (`poly_matrix_utils.cc:176-179`) draws a 128-bit seed and passes it to `std::mt19937`, whose seed is 32
  bits wide: each Spiral secret key is one of at most `2^32` (`ternary_few`), which can be searched.
* `CoefficientExpansion` (`spiral_server.cc`) reads `v_w_right[i]` for odd positions of round `i`; with `t_gsw * v2 = 1`
  there is only one right key and the read is out of bounds. The dimensions of `UpdateByDatabaseInfo` avoid it (`default_scheme`
  proves `2 <= t_gsw * v2`).
* `GenQueryInternal` shifts `1ULL` by `bits_per * k` with `k < t_gsw`; for parameters like `t_gsw = 28` the shift reaches 64,
  which is undefined. `SchemeOk.bits` excludes it; `ValidCheck` does not.
* The worst-case error of Spiral with the default parameters is above the threshold of decoding (about `2^65` against `2^46`):
  correctness there is a matter of probability. `default_retrieves` states the threshold exactly.
* `SpiralServer` built by `GenerateFromRawData` is marked as having a database but holds no reoriented data until it has been
  dumped and loaded.
* `SpiralQuery::DeserializeRng` copies 16 bytes of the seed without checking how many were received (`short_seed`), and the
  number of words of a received matrix is compared with a product that wraps at `2^64`, so a short message passes as a
  huge matrix (`size_wraps`). Both are reachable by the peer. The results of `ParseFromArray` are ignored.
* `SpiralServer::GenerateFromRawData` marks the server as ready although it holds no reoriented data; any well-formed query
  then reads out of bounds (`built_not_ready`). Only dump followed by load makes the data.
* A server that was loaded, or built with `GenerateFromRawDataAndReorient`, can be dumped, but the file cannot be loaded
  again: the plaintexts are gone (`dump_of_loaded`, `dump_of_reoriented`). `DeserializeFromProto` always takes the default
  parameters. `PublicKeys::operator==` does not compare the conversion key.
* `NtyMPsi` (C73): if the aided server, or with more than three parties any party without a role, has no items, `Baxos::Init` converts `log2(0)` to an integer; no run ends with the empty result (`nty_empty`). An empty helper or receiver is fine.
* `server_aided_psi.cc:57-67, 89-97` and the broadcast (`nty_mp_psi.cc:136-138`): a message whose length is no multiple of 16 is only logged; the following `memcpy` writes behind the end of the vector (`nty_short_message`).
* `NtyMPsi::GenOkvs` (C74) passes no generator to `Baxos::Solve`, so free columns of the table are zero instead of random. The receiver sees for a part of its items that the server lacks them, although only the intersection of all parties should be revealed (`nty_free_zero`, `nty_zero_absent`, `Ex.nty_leak`).
* SealPIR (C78): `multiply_plain` by a plaintext of zeros gives a transparent ciphertext, which SEAL refuses by default
  (`SEAL_THROW_ON_TRANSPARENT_CIPHERTEXT`). A database with rows of zeros that fill one plaintext (for instance the last 976
  of 2000 rows of 10 bytes, with N = 4096 and 20 bits) cannot answer any query, whatever row is asked for
  (`zero_rows_refused`). Unused coefficients are filled with ones, which hides this for most row lengths.
* `GetDimensions` (`seal_pir.cc:68-92`) takes `floor(pow(n, 1.0 / d))`. For 64 plaintexts and `d = 3` this is 3; the dimensions
  become 4, 4, 4, and `GenerateFromRawData` demands a product strictly greater than 64 and throws (`short_root_refused`).
* `ComputeIndices` (`seal_pir.cc:161`) accumulates into an `int`; from `2^31` on the client asks for plaintext 0 whatever the
  index (`indices_wrapped`).
* `CoeffsToBytes` computes the number of bits of a row in 32 bits; rows of `2^29` bytes come back as zeros (`huge_row_lost`).
* `MultiplyPowerOfX` (`seal_pir.cc:1182-1212`) leaves words equal to their modulus when it negates a word 0. They are
  repaired by the following addition, which the proof of `expandQuery_ok` makes use of (`Loose`).
* SimplePIR (C80): `Recover` subtracts 64-bit words and never reduces the difference modulo `q`, although its comment
  says `mod q`. When the subtraction borrows, the phase is off by `2^64` instead of `q`. With `q = 2^32`, `p = 40000` and
  no error an entry 30000 comes back as 30496; with `q = 1000003`, `p = 10` an entry 5 comes back as 1. With the
  parameters of the tests the result is always right (C79). `p > q` is accepted and divides by zero.
* DP-PSI (C82): if all of Bob's sampled items are Alice's, `RunDpEcdhPsiAlice` reports nothing and skips both draws. Then
  a non-empty report proves that Alice lacks an item: with a single item of Bob, Alice's set with it never leads to a
  report and without it does with probability `1/(1+e^ε)`. No finite factor bounds this, so the mechanism is not
  differentially private for any `ε`. `*sub_sample_size` and `*up_sample_size` are not written in that case. Bob's
  duplicates are sampled separately, which multiplies the privacy loss.
* KMPRT17 (C84): `SwapShares` and `Reconstruct` make `recv_shares` with `count` (the largest number of items) elements and
  index it by party. With fewer items than parties, e.g. two parties with one item each, they write behind its end.
* KMPRT17 (C84): a bin that holds more points than `TABLE_SIZE` can never be separated; the `do … while` loop over nonces
  has no bound and no check, so the session hangs.
* DK-PIR (C87): `CheckRowCount` binds the number of ciphertexts but not which ones are summed up. Nothing rejects a repeated
  key in the OPRF request, so the receiver recognises that key among the shuffled answers and sends `n` copies of its
  ciphertext with `n` times its rows. It is agreed to, and the seed of the shuffle is sent.
* DK-PIR (C86): `query_count` counts all queried keys, so one key the sender lacks makes the check fail (the README says so);
  when none is there, a default-constructed ciphertext is sent.
* DK-PIR (C85): the temporary files are written without quoting. A joined label that starts with `"` loses its quotes, a comma
  makes the load throw. Without count check a query without a match throws in the constructor of `ApsiCsvConverter`.
* DK-PIR (read, not modelled): the constructor of the sender swallows the exception of `LoadSecretKey`; data is served and
  `CheckRowCount` then uses a null curve.
* PPS PIR (C91): `AnswerMulti` gives both punctured keys of a query to one server, where the construction needs two. The key
  that replaces a set is punctured at the index asked for; when the same set is used again, the old key punctured at the new
  index comes along, and the difference of both sets is the first index.
* PPS PIR (C91): when the coin comes up, `Query` draws the element to puncture from all of `Eval(sk)`, not from
  `Eval(sk) \ {i - δ}`. The index asked for is read with probability `(s-1)²/(sn)` instead of `(s-1)/n`.
* PPS PIR (C89): `Setup` wants `⌈n/s⌉·⌈ln n⌉` different shifts below `n`; for `s < ln n` there are not so many, and the set up
  always fails. (C88): `Punc` does not clear `sk_punc.k_`. (C90): with `set_size` 1 `AnswerMulti` reads `k_[0]` of an empty vector.
* PPS PIR (read, not modelled): `Bernoulli` seeds `std::mt19937` with 32 bits; a tree node that happens to be zero is taken for
  unknown.
* Piano PIR (C93): backup sets and replacements are kept for each chunk (about 3684 of each), on the assumption that queries are
  spread evenly over the chunks. The construction ensures this with a random permutation of the database, which the code does not
  have. Queries for neighbouring entries (a scan of one chunk) use up the replacements, and all further entries of the chunk come
  back as zeros, with no more than a line in the log (`client.cc:248-254`, `client.cc:268-274`), although far fewer than `GetTotalQueryNumber` queries
  were made. Zeros also come back for an index in the miss table when the replacements of its chunk are used up and a refreshed set
  happens to have it, because the miss table is asked only if no set matches.
* Piano PIR (C93): `GenerateIndexQuery` does not check the index; one behind the last chunk that matches a set is used to read
  behind the end of `local_replacement_groups_` (`client.cc:249`).
* Keyword PIR through the API (`apsi/api/sender.cc:122-124`, `apsi/api/receiver.cc:177`): the answer for a bucket without
  rows is the empty string, whose header the receiver cannot load.  One queried key that falls in such a bucket and the whole
  query throws (`api_empty_bucket`).  The command line answers the same query.
* The result file of keyword PIR (`apsi/utils/common.cc:235`): `,value` is added to the header for every key found, so a first
  bucket with two matches gives `key,value,value` over rows of two columns (`header_too_long`).  The API's version of the file
  (`apsi/api/receiver.cc:239`, not modelled) always appends and takes the header from the first bucket, so that a first bucket
  without a match gives `key` over rows of two columns.
* The dispatcher (`sender_dispatcher.cc:95-102`) keeps the last bucket asked for.  After a bucket without rows its database is
  null, and requests for parameters are not answered any more; the receiver waits (`params_lost`).
* `GroupDB` takes a finished directory for what it is given: neither the source file nor `compress` is compared
  (`group_db.cc:453-499`); another table with the same settings is never read (`stale_source`).
* A child process that fails is not noticed (`group_db.cc:117-134`): a table with a repeated key (or a bucket whose labels are all
  empty) is reported as generated, and every lookup in the group of that key throws (`repeated_key`).  A child that dies
  before it raises the semaphore is waited for for ever (`C118_crash_hangs`); `process_num` 0 divides by zero.  The number of
  children waited for is cut to a `short`: with 32769 to 65535 of them the parent adds to the semaphore and kills the children at
  once (`C118_too_many`).
* The files of a group are not written atomically (`group_db.cc:346-404`).  With a complete index and databases that did not
  reach the disk, the next start succeeds and the keys of the group are reported as not found (`lost_databases`); with an index that
  was created and not written, positions are read that were never set (`empty_index`).
* If yacl's `FileOutputStream` keeps what a file held when it is opened without truncation, a start after one that failed while dividing
  leaves a second first line in every group file; it reports success and no lookup works (`second_attempt`).
* Quotes in keys and labels are not doubled (`csv_reader.cc:299-304`): the key `a"b` is stored as `ab"` (`quoted_key`).
* Of equal items in one API query only the last is marked as found (`apsi/receiver.cc:289-294`); the result has the key once.
* The hash to Curve25519 (`hash_to_curve_elligator2.cc:74-82`) writes the `x` coordinate big-endian, as the RFC prints it, and the
  cryptors hand these bytes to X25519, which reads little-endian (`sodium_curve25519_cryptor.cc:51-54`, `ipp_ecc_cryptor.cc:93-96`).
  What is masked is another coordinate, for about half of the items one of the twist (`masked_elsewhere`, the RFC's first test
  vector).  The intersection is right all the same; that the hash ends in the prime-order subgroup is lost, and the top bit of
  the last byte is ignored.
* `PointAddX` refuses two equal points (`hash_to_curve_elligator2.cc:529-530`), so that a message with equal or opposite field elements
  cannot be hashed although the RFC has a result (`equal_elements_refused`); no such message is known.
* `MapToCurveElligator2` (not called) compares a residue with the negative number -1 (`hash_to_curve_elligator2.cc:405`), which is
  never equal; the case it is meant for does not occur (`one_add_ne`).
* `WeightData::PopNode` (C105) calls `weight_sets.back()` on an empty vector when the last column leaves the lists. With three columns per key (the constant of RR22) it cannot happen; with two, which `PaxosParam::Init` allows, it does, e.g. for one key (`paxos_utils.h:102-104`).
* `SimpleIndex::GetBinSize` (C106) mixes up the two coordinates of its interpolation: the fraction of the logarithm of the bins weighs the two numbers of balls, the fraction for the balls weighs the two numbers of bins, and both weigh the lower point where the upper one is meant (`simple_index.cc:919-926`). With `2^k` balls and a number of bins that is not a power of two the result is the size for the next power of two of bins, which may be less than the average load. `Baxos::Solve` asks for the sizes with the keys of one thread; with 3, 5, 6, 9, 10, 11 or 17-20 threads (RR22 takes the number of processors) and `2^k` keys per thread (`14 ≤ k ≤ 30`) every run writes behind the end of a bin, in the part of the loop that does not check (`baxos.cc:253-320`). The check against the exact size is compiled only with `ENABLE_BOOST` and names variables that do not exist (`simple_index.cc:930-933`).
* The tables of `SimpleIndex::GetBinSize` (C106): `logbin_sizes_60bit` is `logbin_sizes_50bit` with six digits instead of ten (`simple_index.cc:300-714`); `C106_sixty_is_fifty` shows that the sizes agree up to one part in ten thousand. By the formula of `GetBinOverflowProb` (computed outside Lean for some entries) it is the table for 50 bits that holds the sizes for 60, so levels 41 to 50 get larger bins than necessary, and levels 51 to 60 lose what the rounding takes away: for 8 bins and `2^30` keys a bin has over 3000 places less than at 50 bits (`C106_more_security_smaller`), almost half a standard deviation of its load.
* `WeightData::init` (C105) refuses every set of keys in which 200 have a column in common, with a message about duplicates (`paxos_utils.h:171-172`).
* Labeled PSI compares field elements, not items (C109): an item of the query whose elements all occur at its place, in different items of one
  bundle, is reported as found (`C109_false_positive`). If they occur in two bundles the receiver throws (`receiver.cc:645`), and the sender
  makes such bundles by itself: an item whose elements are taken goes to another bundle (`C109_member_throws`). In the streaming mode
  the check and the write are not protected, and two workers may pass the check together (`C109_double_hit_race`).
* A part of the answer that cannot be loaded is skipped in the sequential mode (`receiver.cc:434-437, 632-635`), and its items are reported as
  not found (`C109_lost_parts_not_found`). In the streaming mode the worker that claimed it waits for one more part than the sender sends
  (`receiver.cc:698`, `C109_lost_part_waits_forever`).
* `DkPirSender::RunQuery` in the streaming mode hands over `send_rp_fun` without the mutex with which `Sender::RunQuery` guards it
  (`sender.cc:261-267`): threads may send at the same time.
* `ResourceManager::AddResource` keeps the first of two resources with one name; the second is never released.
* Sessions of the labeled PSI over a link (C112).  A receiver that fails returns without the request to stop
  (`entry.cc:217-232, 274-288`): the sender waits until the link times out.  A request whose treatment throws is only logged
  (`sender_dispatcher.cc:282-286, 342-345, 448-451`), so that the receiver, which waits for an answer
  (`receiver.cc:219-228, 386-395`), waits too; parties with different parameter files get there.  With streaming the number of
  packages is sent first (`sender.cc:205-215`); if a thread throws afterwards the receiver waits for the missing packages.
* The programs take the link for every channel name but `zmq`, and send the request to stop only for `yacl` (`entry.cc:107-145, 303`).
  The help of both programs offers `zmp` (`cli/receiver.cc:38`, `cli/sender.cc:51`): the sender then never ends (C112).
* `SenderDispatcher` for one data base compares the key with that of a pointer it has moved away (`sender_dispatcher.cc:46, 53`):
  undefined for a data base that was not stripped (C112).  Data bases made by the programs are stripped.
* Numbers of the DP-PSI (C113).  `CalibrateAnalyticGaussianMechanism` answers with the noise of the threshold whenever
  `delta` is within `0.00001` of it (`dp_psi_utils.cc:124-127`): for a `delta` just below the threshold the noise does not
  meet the budget.  For `delta` of one or more, or zero or less, its doubling never ends.  `ComputeEpsilon2` searches
  between the fixed ends `2.5` and `kEpsilonPsi` whatever budget is asked for (`dp_psi_utils.cc:32-33`): for a budget
  below `2.5` or above `6` the loop never ends, and with at most ten items, where the cost of sampling is no number, it
  answers `3.25` for every budget.
* Masks of Curve25519 (C114).  `SodiumCurve25519Cryptor::HashToCurve` takes the bytes of SHA-256 as a coordinate without
  clearing the cofactor, and X25519 ignores their top bit.  Strings whose coordinates are inverse to each other, or whose
  points differ by one of order 8, therefore get the same mask under every key, and items with such hashes count as
  equal (`C114_reciprocal`, `C114_top_bit`).  For a hash without structure this does not matter: at most 32 of 2^256 hashes are taken for
  a given one (`C114_few`), and no choice of keys makes it worse (`C114_meet`).
* C interface of the labeled PSI (C115).  `FreeCString` and `FreeCStringArray` leave `data` as it is, `FreeQueryResult` and
  `BucketReceiverFreeQueryCtx` take the pointer by value: a second release is undefined (`C115_double_free`, `C115_handles`), while
  receivers and senders may be freed twice.  `MakeCStringArray` does not free the strings made so far when memory ends
  (`C115_out_of_memory`) and takes the null pointer that `malloc(0)` may return for a lack of memory, so that a query without a match
  throws there (`C115_no_bytes`).  `MakeQueryResult` takes a table to have labels exactly if the answer has some: a query without a match on
  a table with labels is reported as unlabeled (`C115_flag_partial`).  `ProcessResult` into a file writes the first line from the
  answer of the first bucket, one `,value` for every match there: none or several (`C115_file_partial`, `C115_header_short`); without
  queries no file is written and an old one stays (`C115_file_no_queries`).
* `KkrtEncodeSize` (`kkrt_psi.cc:67-72`) rounds the sum of parameter and logarithm down after adding 7, so up to one bit is
  lost: with `n * m` between `256 ^ k` and `2 * 256 ^ k` (`k` from 1 to 4) more than one in `2 ^ 40` runs gives a wrong result
  (`C119_margin_missed`); RR22 rounds the logarithm up and keeps its margin (C25).
* ECDH-PSI compares 12 bytes of the masks whatever the sizes of the inputs (`psi/utils/communication.h:34-43`,
  `psi/algorithm/ecdh/ecdh_psi.h:52`).  KKRT and RR22 compute a length that keeps the chance of a wrong result near one in `2 ^ 40`;
  with ECDH-PSI over Curve25519 it is above that from `2 ^ 28` items on each side (`C121_25519_missed`), and at most that up to
  `2 ^ 51` pairs (`C121_25519_partial`).  The comment speaks of the least significant bits and of 96 of them: a serialized point is
  little-endian and its *last* bytes are kept, so they are the most significant ones, and the top bit is always clear (`Psi.Ecdh.top`):
  95 bits.
* `KkrtOperator` hands the receiver a count of zero for every common item that the sender has once (`C122_kkrt_count_zero`):
  `KkrtPsiSend` only sends counts above one (`kkrt_psi.cc:279`), and `KkrtPsiRecvIndices` takes the value `operator[]` inserts for
  the others (`kkrt_psi.cc:409`); the default of `PsiResultIndex` is one, and the party that learns the result by broadcast gets
  one.  `KkrtPsiRecv` (C20) hides this, because it only looks at counts above one.  A bucket that is empty at one party makes the
  whole run of `KkrtOperator` fail (`C122_kkrt_empty_bucket`, `kkrt_psi.cc:122-125, 325-328`), unlike with RR22.
* `EcdhOperator` with a recovery manager and a bin size of at most one always ends in an exception in `OnEnd`
  (`C122_ecdh_recovery_one_bin`): `OnInit` makes stores with buckets, `OnEnd` casts them to stores in memory.
* `Rr22Runner::ParallelRun` starts at bucket 0 whatever the checkpoint says if there are more buckets than threads
  (`C122_parallel_ignores_start`; with a result store that appends, lines come twice), runs nothing at all at level 0 without an
  error (`C122_parallel_zero`), and pairs bucket `P` of one party with bucket `Q` of the other if their levels are `P` and `Q`
  (`C122_levels_differ`); the levels are not compared.  `KkrtOperator` and `Rr22Operator` never call `Finish` of a receiver, and
  `Rr22Operator` never updates the number of parsed buckets.
* Rows are found by Arrow and copied by `std::getline` (`psi/utils/table_utils.cc:497-542`). Arrow ignores blank lines, `getline` counts them.
  `sort` moves a blank line at the end of the input to the front, so every row index is off by one: a party whose key 2 is in the
  intersection gets the row of key 1, without an error (`C123_blank_line`).
* `KeyInfo::Make` (`psi/utils/table_utils.cc:311`) and `MakeQuotedCsvLine` (`psi/utils/table_utils.cc:212-219`) put quotes around a text without
  doubling the quotes in it. Keys `x"y` and `xy""` come back equal (`C123_quotes_match`); a party with unique keys, which does not go through
  the key file, has another key than its peer with the same table (`C123_quotes_lost`); columns are renamed (`C123_column_renamed`).
* A SealPIR server stores each database behind the one before it and answers from the front: every database after the
  first is accepted and ignored, also once the server is stored and loaded, and also by `GenerateFromSimpleHashTable` if
  the table needs no more plaintexts.  `GenerateFromRawData` for views of rows marks the server as ready before it looks at
  the rows, so that after a refusal a new server answers queries by reading outside its data (C124).
* A Spiral server does the same for rows longer than a plaintext, and the file of a server that is built twice cannot be
  loaded again.  `GenerateFromRawData` on a server that answers already, loaded or not, returns normally and changes no
  answer (C124).
* `BucketPsi` compares a digest of all keys before the protocol runs, also for `DP_PSI_2PC`.  If the parties have the same keys, the
  receiver reports all of them with certainty, which no `ε` allows.  `MemoryPsi` then sends the number of keys of each bucket in clear.
  With `broadcast_result` the keys that were picked, common or not, are sent to the other party, and if their number is that of its own
  keys it reports all its own rows (C125).
* `ScopedTempDir` remembers the name before it tests it: after ten names that are taken, or when another process makes
  the directory between the test and the creation, the exception deletes a directory of somebody else. The launcher
  releases nothing when a run throws: the sorted input stays in the directory for temporary files. DkPir removes its
  query and its data only at the end of a run that succeeds (C126).
* The vectors of SimplePIR are read from a message without looking at its length: a head that announces more words than
  follow makes the receiver read behind the end. A client remembers its last query only, so that an answer to an earlier
  one gives a wrong entry, and a server that is given a new database leaves its clients with the old hint and wrong
  entries; nothing is reported in either case (C127).
* `Load` of the key file of DK-PIR asks for two numbers but not for a key: a file that ends between the two is read, and
  only the library for big numbers can refuse its empty key (C128).
* Unbalanced PSI on SM2 and secp256k1: an item whose hash is no first coordinate of a point (about every second item)
  has the same point as the 32 bytes of that hash modulo the prime, taken as an item.  The values compared do not
  include the item, so a run takes the two for the same (C129).
* `EcdhOprfPsiClient::SendIntersectionMaskedItems` joins what `absl::Base64Unescape` gives without looking at its result or at
  the lengths: a text that is not Base64 is left out, and texts of other lengths are read by the server as values that the
  client never named (`C131_lengths_not_checked`), or the whole batch is refused (`C131_ragged_refused`).
* `DeserializeStrItems` (`serialize.h:84-101`) ignores what `ParseFromArray` returns, and the keys are in a field of type `string`
  (`serializable.proto:35`), which protobuf requires to be UTF-8.  A key in another encoding ends the message: the party that is told the
  result loses the keys behind it and all the counts, without an error (`C132_lost`, `C132_rows_lost`).  This concerns `MemoryPsi` and
  operators over a `MemoryDataStore`; runs from files send Base64.
* `DeserializePublicKeys` (`serialize.cc:254-293`) accepts a message without the key for the conversion, and the Spiral server then reads
  the first element of an empty vector (`spiral_server.cc:828`; `keys_without_conversion`).
* The receiver of RR22 without counts (`rr22_utils.cc:179-186`) copies every message to its buffer without looking at the length
  (`C133_long_message`, `C133_cut_value`).
* The sender of RR22 writes the counts of the receiver to the positions that the receiver names, without a check (`rr22_utils.cc:268-271`;
  `C24_count_outside`).
* `TryLoadSenderDB` (`sender_db.cc:48-62, 98-117`) sets its result before it loads the key, and only logs when that fails.  A file that
  ends after the data base is served with the key that the constructor of `OPRFKey` drew: no query finds anything, and nothing says so
  (C111).  The same function loads the data bases of buckets (`group_db.cc:252`).
* `TrySaveSenderDB` returns before its stream is flushed; the destructor drops the error.  On a full disk it reports success for a file
  whose last bytes, which are the key, are missing (C111).
* `save_db_only` without `sdb_out_file` reports success and saves nothing, though the file is documented as required.  A CSV file as
  `db_file` is refused, though documented.  The default log level is `all` and not `info`, the default number of groups 512 and not 1024
  (C111).
* `DkPirSender::LoadDB` loads the key twice and keeps the one of the counts.  When a second offline phase fails between the two files, or
  skips the counts, the files have different keys: the online phase starts, finds no row and still serves the old counts (C111).
* `Sm2Cryptor` makes the group `"sm2"` whatever curve it is given (`sm2_cryptor.h:29-33`): an ECDH run configured with `CURVE_SECP256K1`
  computes in the group of SM2 and reports secp256k1 (C110).  The unbalanced PSI with the same setting uses secp256k1.
* Both Elligator cryptors inherit `GetCurveType` and call themselves `CURVE_25519`.  Where only `CheckConfig` compares the settings
  (the legacy interface, the three-party protocol), a party with `CURVE_25519` and a party with `CURVE_25519_ELLIGATOR2` pass
  the check and find no common item (C110).  DP-PSI compares no settings at all.
* The lanes that `IppEccCryptor::EccMask` does not need write to one buffer on the stack that all threads share
  (`ipp_ecc_cryptor.cc:37, 52`): a data race, though nobody reads the buffer.

## Trusted base

### Checker and axioms

* The kernel of Lean 4.33.0, and Mathlib as far as the theorems use it (checked by the same kernel).
* No axioms of our own, no `sorry`, no `native_decide`, no `bv_decide`. Concrete witnesses use `decide` and
  `decide +kernel`, both checked by the kernel.
* Axioms of each theorem of the manifest, as printed by `#print axioms`:

  * `propext`, `Classical.choice`, `Quot.sound`: all theorems of the manifest that are not named below (533).
  * `propext`, `Quot.sound` only (99): `Psi.Join.` `C07_batching_irrelevant`; `Psi.Bucket.` `C08_data_recoverable`; `Psi.Ecdh.` `C13_batch_round_trip`; `Psi.Recovery.` `C15_mismatch_refused`, `C15_same_accepted`, `C16_stage_partial`, `C38_crash_between_calls_partial`; `Psi.Bucketed.` `C17_nothing_lost_partial`; `Psi.Digest.` `C18_shortcut_taken`, `C18_restart_truncates`, `C39_summary_partial`; `Psi.Kkrt.` `C21_timing_irrelevant`, `C119_same_length`; `Psi.Pipeline.` `C23_in_order`, `C23_terminates`, `C23_same_as_sequential`; `Psi.Rr22.` `C24_zero_value_lost`, `C24_count_outside`, `C133_any_parts`, `C133_long_message`; `Psi.Baxos.` `C45_overflow_undefined`; `Psi.Provider.` `C31_empty_means_end`; `Psi.IndexStore.` `C33_memory_reader`; `Psi.UbPsi.` `C28_other_key_unnoticed`, `C29_record_round_trip`, `C29_interrupted_transfer_accepted`; `Psi.Run.` `C34_unbalanced_flags_unchecked`, `C35_unbalanced_modes`, `C35_unbalanced_refused`, `C35_unbalanced_ends`; `Psi.Launch.` `C49_request_carried_over`, `C49_fit_exactly`, `C49_dispatch`, `C49_unbalanced_left`, `C49_unbalanced_left_out_of_range`; `Psi.Ecdh3.` `C51_roles`; `Psi.Legacy.` `C55_failed_check_blocks`, `C125_bucket_sizes`; `Psi.Threshold.` `C58_digest_limit`; `Psi.Spiral.` `barrett_word_exact`, `modular_ops_exact`, `recenertMod_exact`, `packing_nothing`, `refuses_unchecked`, `size_wraps`, `loaded_stale`; `Psi.Nty.` `pivots_le`; `Psi.SealPir.` `huge_row_lost`, `setParams_ok`, `dims_suffice`, `load_dump`, `short_root_refused`, `indices_wrapped`; `Psi.Pps.` `reused_key_wrong`; `Psi.Apsi.` `group_of_bucket`; `Psi.Elligator.` `tag_separates`, `tag_refused`; `Psi.UbLife.` `C107_later_runs`, `C107_any_history`, `C107_outside_kept`, `C107_cache_kept_partial`, `C107_client_without_cache`, `C107_killed_transfer_refused`; `Psi.Progress.` `C108_any_progress`, `C108_more_parts_than_weights`, `C108_update_after_done`; `Psi.Cryptor.` `C110_oprf_group`; `Psi.Stored.` `C111_second_run`, `C111_defined`, `C111_incomplete_refused_partial`, `C111_key_missing_served`, `C111_full_disk`, `C111_dk_round_trip`, `C111_dk_mixed`; `Psi.X25519.` `C114_top_bit`, `C114_raw_key`; `Psi.Capi.` `C115_handles`; `Psi.P2p.` `C116_rank_by_name`; `Psi.Operator.` `C122_ecdh_recovery_one_bin`, `C122_parallel_few`, `C122_parallel_zero`; `Psi.PirLife.` `unfit_views_refused`; `Psi.Scratch.` `C126_cache_race`, `C126_remove_one`, `C126_second_link`, `C126_task_dir_stable`; `Psi.SimplePir.` `C127_vector_passes`, `C127_seed_passes`, `C127_head_not_checked`, `C127_wrong_length`, `C127_before_setup`; `Psi.TryPoint.` `C129_lift_iff`, `C129_on_curve`, `C129_twin`, `C129_wrong_match`, `C129_run_reports_other_item`, `C130_one_form`, `C130_invalid_refused`; `Psi.UbMask.` `C131_ragged_refused`.
  * `propext` only (44): `Psi.Ecdh.` `C13_out_of_turn_rejected`; `Psi.Recovery.` `C16_stage_goes_back`, `C38_torn_checkpoint`; `Psi.Digest.` `C39_stale_summary`; `Psi.Rr22.` `C25_empty_bucket_undefined`; `Psi.Gf128.` `C41_zero_rejected`; `Psi.Okvs.` `C26_gf_two_gaps_reached`, `C105_weight_two_undefined`; `Psi.Baxos.` `C45_index_type`; `Psi.Whole.` `C27_wraps`, `C27_sizes_differ`; `Psi.Provider.` `C30_memory_empty_throws`, `C32_single_column`; `Psi.IndexStore.` `C33_memory_lengths`, `C33_empty_batch_stops`; `Psi.UbPsi.` `C28_oprf`; `Psi.Spiral.` `modular_wraps`, `unpacking_incomplete`, `q2_table`, `ternary_seed`, `short_seed`, `keys_without_conversion`, `refilled_serves_partial`, `rebuilt_stale`; `Psi.SimplePir.` `C80_wrong_entry_power_of_two`, `C80_wrong_entry_other_modulus`, `C80_division_by_zero`, `C127_two_under_way`, `C127_stale_hint`; `Psi.Kmprt.` `C84_two_parties_one_item`; `Psi.Cryptor.` `C110_refused`, `C110_instructions`, `C110_group_partial`, `C110_secp_is_sm2`, `C110_check_partial`; `Psi.Stored.` `C111_save_complete_partial`, `C111_save_only_nowhere`, `C111_table_as_db_file`; `Psi.Session.` `C112_any_bytes`, `C112_unstripped`; `Psi.Capi.` `C115_no_bytes`, `C115_null_string`; `Psi.Operator.` `C122_kkrt_empty_bucket`; `Psi.Wire.` `utf8_ascii`.
  * no axioms only (11): `Psi.Ecdh.` `C14_wrong_count`; `Psi.Bucketed.` `C17_written_twice`, `C17_written_twice_by_other`; `Psi.Rr22.` `C25_same_on_both_sides`, `C133_cut_value`; `Psi.Provider.` `C31_memory_labels_too_short`; `Psi.Spiral.` `barrett_one_wrong`, `ntt_avx_not_reduced`, `gadget_invert_exchanged`, `update_history`; `Psi.SimplePir.` `C127_short_message`.

### From the code to the model

* The model was written by hand from the text of the source. That it says what the cited lines do is not
  checked by any tool; the seeded faults in `seeded/LOG.jsonl` only show that the theorems depend on the model.
* Machine arithmetic is modelled where it decides something (wrap-around, narrowing, signedness, shifts); where a
  model uses natural numbers or integers instead, the theorem has a bound as hypothesis or the model says so.
* Floating point (`log2`, `pow`, `ceil`, `sqrt`, `exp`, `erf` on doubles) is replaced by the exact real or integer function, or is a
  parameter. The sampling of noise in `dp_psi` and of Gaussian errors in Spiral is a parameter.
* Exceptions (`YACL_ENFORCE`, `YACL_THROW`, `throw`) are results of the model; undefined behaviour is a result of
  its own where it can occur.
* Threads: a parallel loop is modelled as a map where iterations write to separate places; where they share state,
  any interleaving of the atomic steps is allowed (`Verif/Common`, `Verif/Net`, `Verif/Coll`).
* The compiler, the standard library, the operating system and the hardware are assumed to do what C++ and POSIX
  say.

### External operations

Not modelled; they appear as parameters or as ideal objects, with the assumptions named in the theorems.

| what | how it appears |
|------|----------------|
| hash functions (SHA-256, BLAKE3, SM3, `std::hash`, AES-based) | arbitrary functions; where a result depends on it, "no collision among these items" is a hypothesis |
| elliptic curves (OpenSSL, libsodium, ippcp, FourQ, FPGA) | commuting masking maps, injective where needed; for the Elligator hash and for X25519 the curve, its twist, the group laws and the orders of the groups are concrete and proved (C102, C114) |
| random generators | arbitrary streams; for privacy statements, uniform distributions on the sets the code draws from |
| base OT, OT extension, VOLE, silent VOLE (yacl) | their correlation, as a hypothesis |
| SEAL (BFV) in SealPIR and the keyword PIR | ciphertexts that carry their plaintext and a noise-free result; noise budgets are not modelled |
| APSI core (oprf, cuckoo table of items, interpolation, labels) | lookup of an item in the data base of its bucket |
| Spiral's ring arithmetic | concrete: NTT, CRT, gadgets, encryption with noise terms, bounds as hypotheses |
| link layer (yacl link, Brpc) | reliable channels in order, one per pair and tag |
| files | a file is the list of bytes or records written; a crash may lose what has not been flushed, where a theorem is about crashes |
| Arrow CSV reader and writer, GNU `sort`, RapidCSV | reading returns the rows written; sort is stable by key, except in C117, which models the command line |
| protobuf | records with optional fields; serializing and parsing is assumed to give the record back |
| time, progress, tracing, logging | left out |

### What is modelled

Lines cited by definitions of the model, per file of `/repo` (the first number is how many of the lines with code
are in these ranges). What a model leaves out inside its ranges is said at the definition. Log output, tracing,
timing and `YACL_ENFORCE` messages are left out everywhere.

| file | code lines | lines modelled | in `Verif/` |
|------|-----------|----------------|-------------|
| `experiment/pir/piano/client.cc` | 207 of 221 | 22, 37-39, 46-64, 67-314 | Piano |
| `experiment/pir/piano/client.h` | 90 of 153 | 34-115, 185-204 | Piano |
| `experiment/pir/piano/serialize.h` | 34 of 50 | 31-37, 39-43, 48-54, 59-65, 67-81 | Operator |
| `experiment/pir/piano/server.cc` | 41 of 49 | 26-70 | Piano |
| `experiment/pir/piano/util.cc` | 24 of 60 | 19-28, 51-70 | Piano |
| `experiment/pir/piano/util.h` | 39 of 86 | 29-81 | Piano |
| `experiment/pir/pps/client.cc` | 123 of 136 | 23-30, 39-58, 62-88, 90-98, 100-121, 123-168, 170-180 | Pps |
| `experiment/pir/pps/client.h` | 15 of 50 | 41-48, 67-74 | Pps |
| `experiment/pir/pps/ggm_pset.cc` | 107 of 115 | 27-91, 93-121, 123-148 | Pps |
| `experiment/pir/pps/ggm_pset.h` | 25 of 75 | 31-35, 40-46, 62-69, 99-101, 107-114 | Pps |
| `experiment/pir/pps/receiver.cc` | 60 of 85 | 24-80, 89-94 | Pps, Session |
| `experiment/pir/pps/sender.cc` | 81 of 82 | 24-114 | Pps, Session |
| `experiment/pir/pps/server.cc` | 46 of 49 | 19-57, 59-69 | Pps |
| `experiment/pir/simplepir/client.cc` | 45 of 87 | 26-34, 39-90 | SimplePir |
| `experiment/pir/simplepir/client.h` | 10 of 24 | 60-69 | SimplePir |
| `experiment/pir/simplepir/network_util.cc` | 56 of 58 | 22-102 | SimplePir |
| `experiment/pir/simplepir/server.cc` | 57 of 64 | 27-32, 35-64, 68-106 | SimplePir |
| `experiment/pir/simplepir/server.h` | 6 of 19 | 58-64 | SimplePir |
| `experiment/pir/simplepir/util.cc` | 28 of 30 | 22-59 | SimplePir |
| `experiment/psi/kmprt17_mp_psi/kmprt17_hashing.cc` | 41 of 43 | 25-67 | Kmprt |
| `experiment/psi/kmprt17_mp_psi/kmprt17_hashing.h` | 6 of 32 | 26-30, 41 | Kmprt |
| `experiment/psi/kmprt17_mp_psi/kmprt17_mp_psi.cc` | 108 of 123 | 46-161 | Kmprt |
| `experiment/psi/kmprt17_mp_psi/kmprt17_opprf.cc` | 122 of 131 | 40, 45, 52-186 | Kmprt |
| `experiment/psi/threshold_ecdh_psi/receiver.cc` | 53 of 123 | 76-147 | Session, Threshold |
| `experiment/psi/threshold_ecdh_psi/sender.cc` | 113 of 130 | 44-196 | Session, Threshold |
| `experiment/psi/threshold_ecdh_psi/threshold_ecdh_psi.cc` | 216 of 241 | 52-336 | Threshold |
| `experiment/psi/threshold_ecdh_psi/threshold_ecdh_psi_cache.cc` | 54 of 82 | 38-76, 93-119 | Threshold |
| `experiment/psi/threshold_ecdh_psi/threshold_ecdh_psi_cache.h` | 5 of 47 | 30-34 | Threshold |
| `experiment/psi/threshold_ub_psi/client.cc` | 76 of 81 | 24-124, 126-132 | ThresholdUb |
| `experiment/psi/threshold_ub_psi/server.cc` | 64 of 71 | 29-115 | ThresholdUb |
| `experiment/psi/threshold_ub_psi/threshold_ecdh_oprf_psi.cc` | 18 of 55 | 24-46 | ThresholdUb |
| `psi/algorithm/dkpir/common.cc` | 95 of 138 | 28-140 | DkPir |
| `psi/algorithm/dkpir/encryptor.h` | 7 of 19 | 34-40 | DkPir |
| `psi/algorithm/dkpir/entry.cc` | 228 of 230 | 25-340 | DkPir, Scratch, Session |
| `psi/algorithm/dkpir/oprf_receiver.cc` | 45 of 59 | 40-111 | DkPir |
| `psi/algorithm/dkpir/receiver.cc` | 108 of 207 | 28-52, 127-147, 203-299 | DkPir, Session |
| `psi/algorithm/dkpir/secret_key.proto` | 4 of 6 | 19-22 | DkPir |
| `psi/algorithm/dkpir/sender.cc` | 325 of 349 | 32-451, 480-500 | ApsiCore, DkPir, Session, Stored |
| `psi/algorithm/dkpir/sender_cnt_db.cc` | 63 of 102 | 29-85, 126-158 | DkPir, Stored |
| `psi/algorithm/ecdh/ecdh_3pc_psi.cc` | 225 of 284 | 38-44, 58-72, 76-106, 127-142, 148-174, 191-237, 246-319, 323-371 | Ecdh3, P2p |
| `psi/algorithm/ecdh/ecdh_3pc_psi.h` | 7 of 57 | 142-150 | Ecdh3 |
| `psi/algorithm/ecdh/ecdh_operator.cc` | 100 of 136 | 44-56, 80-178 | Operator |
| `psi/algorithm/ecdh/ecdh_psi.cc` | 348 of 455 | 42-43, 46-58, 63-143, 150-235, 238-281, 285-312, 333-387, 451-495, 504-535, 559-570 | Cryptor, DpPsi, Ecdh, Ecdh3, Net, Threshold, X25519 |
| `psi/algorithm/ecdh/ecdh_psi.h` | 10 of 79 | 52, 60-65, 107-115 | Ecdh |
| `psi/algorithm/ecdh/receiver.cc` | 22 of 84 | 36, 69-81, 127-140 | Digest, Ecdh, Session, Threshold |
| `psi/algorithm/ecdh/sender.cc` | 74 of 84 | 44-136, 138-140 | Ecdh, Session, Threshold |
| `psi/algorithm/ecdh/ub_psi/basic_ecdh_oprf.cc` | 282 of 304 | 34-144, 148-246, 255-301, 305-354, 366-416 | Cryptor, TryPoint, UbPsi |
| `psi/algorithm/ecdh/ub_psi/basic_ecdh_oprf.h` | 8 of 95 | 55-64 | Cryptor |
| `psi/algorithm/ecdh/ub_psi/client.cc` | 69 of 78 | 35-52, 58-79, 81-142 | Run, UbPsi |
| `psi/algorithm/ecdh/ub_psi/ecdh_oprf_psi.cc` | 479 of 512 | 50-346, 365-497, 512-697 | UbPsi |
| `psi/algorithm/ecdh/ub_psi/ecdh_oprf_psi.h` | 5 of 141 | 138-142 | UbPsi |
| `psi/algorithm/ecdh/ub_psi/ecdh_oprf_selector.cc` | 129 of 131 | 24-182 | Cryptor |
| `psi/algorithm/ecdh/ub_psi/server.cc` | 131 of 136 | 38-203 | Run, UbLife, UbPsi |
| `psi/algorithm/ecdh/ub_psi/ub_psi_cache.cc` | 92 of 107 | 34-40, 44-72, 79-113, 123-160 | UbLife, UbPsi |
| `psi/algorithm/ecdh/ub_psi/ub_psi_cache.h` | 7 of 69 | 34-41 | UbLife, UbPsi |
| `psi/algorithm/kkrt/kkrt_operator.cc` | 27 of 46 | 32-34, 45-75 | Operator |
| `psi/algorithm/kkrt/kkrt_psi.cc` | 186 of 283 | 45-61, 63-72, 122-125, 187-213, 220-255, 261-296, 309-423 | Kkrt, Operator |
| `psi/algorithm/kkrt/kkrt_psi.h` | 18 of 66 | 78-98 | Kkrt |
| `psi/algorithm/kkrt/receiver.cc` | 57 of 112 | 84-153 | Bucketed, Session, Whole |
| `psi/algorithm/kkrt/sender.cc` | 97 of 105 | 44-169 | Bucketed, Kkrt, Session, Whole |
| `psi/algorithm/nty/nty_mp_psi.cc` | 302 of 312 | 44-388 | Nty, P2p |
| `psi/algorithm/nty/server_aided_psi.cc` | 85 of 87 | 24-117 | Nty |
| `psi/algorithm/pir_interface/pir_db.cc` | 60 of 83 | 51-127 | Spiral |
| `psi/algorithm/pir_interface/pir_db.h` | 4 of 61 | 86-89 | PirLife |
| `psi/algorithm/psi_io.h` | 8 of 37 | 27-35 | Operator |
| `psi/algorithm/psi_operator.cc` | 73 of 97 | 24-66, 88-134 | Operator |
| `psi/algorithm/rr22/common.cc` | 2 of 8 | 23-24 | Baxos |
| `psi/algorithm/rr22/davis_meyer_hash.cc` | 40 of 45 | 30-83 | Rr22 |
| `psi/algorithm/rr22/okvs/aes_crhash.cc` | 51 of 56 | 30-94 | Rr22 |
| `psi/algorithm/rr22/okvs/baxos.cc` | 422 of 496 | 29-32, 119-679 | Baxos |
| `psi/algorithm/rr22/okvs/baxos.h` | 19 of 86 | 50-60, 138-147 | Baxos, Nty |
| `psi/algorithm/rr22/okvs/dense_mtx.cc` | 29 of 88 | 97-129 | Okvs |
| `psi/algorithm/rr22/okvs/galois128.cc` | 98 of 125 | 41-105, 134-204 | Gf128 |
| `psi/algorithm/rr22/okvs/paxos.cc` | 1242 of 1589 | 29-99, 120-168, 220-231, 238-320, 353-496, 499-589, 790, 983-1595, 1697-2035, 2038-2284 | Baxos, Okvs, Rr22 |
| `psi/algorithm/rr22/okvs/paxos_hash.cc` | 221 of 251 | 32-295 | Okvs |
| `psi/algorithm/rr22/okvs/paxos_utils.h` | 115 of 257 | 30-192 | Okvs |
| `psi/algorithm/rr22/okvs/simple_index.cc` | 878 of 902 | 31-38, 67-877, 881-965 | Baxos |
| `psi/algorithm/rr22/receiver.cc` | 51 of 100 | 86-147 | Bucketed, Session, Whole |
| `psi/algorithm/rr22/rr22_operator.cc` | 29 of 58 | 36-66 | Operator |
| `psi/algorithm/rr22/rr22_oprf.cc` | 370 of 430 | 125-592 | Rr22 |
| `psi/algorithm/rr22/rr22_psi.cc` | 111 of 115 | 41-52, 56-167 | Bucketed, Operator, Rr22, Whole |
| `psi/algorithm/rr22/rr22_psi.h` | 98 of 228 | 75, 180-281 | Baxos, Operator, Pipeline |
| `psi/algorithm/rr22/rr22_utils.cc` | 250 of 261 | 51-306 | Rr22 |
| `psi/algorithm/rr22/rr22_utils.h` | 28 of 48 | 27-28, 54-85 | Rr22 |
| `psi/algorithm/rr22/sender.cc` | 89 of 99 | 44-154 | Bucketed, Session, Whole |
| `psi/algorithm/sealpir/seal_pir.cc` | 799 of 1155 | 35-44, 54-239, 248-253, 266-321, 612-927, 954-972, 989-1212, 1267-1421, 1457-1470 | PirLife, SealPir |
| `psi/algorithm/sealpir/seal_pir.h` | 70 of 231 | 36-47, 53-66, 221-288 | PirLife, SealPir |
| `psi/algorithm/sealpir/seal_pir_utils.cc` | 14 of 33 | 36-38, 45-56 | PirLife |
| `psi/algorithm/sealpir/seal_pir_utils.h` | 13 of 48 | 74-91 | PirLife |
| `psi/algorithm/sealpir/serializable.proto` | 3 of 26 | 34-37 | Operator |
| `psi/algorithm/spiral/arith/arith.h` | 99 of 151 | 39-48, 94-208, 221-233 | Spiral |
| `psi/algorithm/spiral/arith/arith_params.h` | 18 of 35 | 29-33, 40-54 | Spiral |
| `psi/algorithm/spiral/arith/ntt.cc` | 238 of 240 | 38-368 | Spiral |
| `psi/algorithm/spiral/arith/ntt_table.cc` | 98 of 100 | 28-159 | Spiral |
| `psi/algorithm/spiral/common.h` | 37 of 91 | 101-137 | Spiral |
| `psi/algorithm/spiral/discrete_gaussian.cc` | 31 of 57 | 52-86 | Spiral |
| `psi/algorithm/spiral/gadget.cc` | 52 of 54 | 26-84 | Spiral |
| `psi/algorithm/spiral/gadget.h` | 4 of 10 | 32-35 | Spiral |
| `psi/algorithm/spiral/params.cc` | 67 of 116 | 48-66, 88-173 | Spiral |
| `psi/algorithm/spiral/params.h` | 41 of 238 | 167-186, 223-246, 258-260, 318-320, 343-347 | Spiral |
| `psi/algorithm/spiral/poly_matrix.cc` | 141 of 247 | 36-139, 171-195, 220-224, 232-261, 283-288 | Spiral |
| `psi/algorithm/spiral/poly_matrix.h` | 9 of 265 | 34-39, 97-99, 150-152 | Spiral |
| `psi/algorithm/spiral/poly_matrix_utils.cc` | 320 of 365 | 38-192, 213-256, 265-369, 378-387, 396-457 | Spiral |
| `psi/algorithm/spiral/serializable.proto` | 2 of 30 | 34-37 | Operator |
| `psi/algorithm/spiral/serialize.cc` | 68 of 187 | 160-187, 240-293 | Spiral |
| `psi/algorithm/spiral/serialize.h` | 15 of 22 | 31-37, 39-43, 48-54, 59-65 | Operator |
| `psi/algorithm/spiral/spiral_client.cc` | 348 of 417 | 31-104, 121-460, 540-577 | Spiral |
| `psi/algorithm/spiral/spiral_client.h` | 14 of 121 | 88-94, 118-122, 129-135 | Spiral |
| `psi/algorithm/spiral/spiral_server.cc` | 724 of 767 | 38-205, 208-971, 1020-1065 | PirLife, Spiral |
| `psi/algorithm/spiral/spiral_server.h` | 28 of 119 | 88-112, 180-205 | Spiral |
| `psi/algorithm/spiral/util.cc` | 128 of 159 | 55-75, 85-211 | Spiral |
| `psi/apps/psi_launcher/factory.cc` | 46 of 67 | 36-81 | Run |
| `psi/apps/psi_launcher/kuscia_adapter.cc` | 22 of 52 | 48-49, 70-96 | Launch |
| `psi/apps/psi_launcher/launch.cc` | 216 of 441 | 97-128, 202-248, 325-335, 366-478, 493-540 | Launch, Run, Scratch, Stored |
| `psi/apps/psi_launcher/main.cc` | 58 of 103 | 85-145 | Scratch |
| `psi/checkpoint/checkpoint.proto` | 14 of 24 | 10-44 | Recovery |
| `psi/checkpoint/recovery.cc` | 145 of 174 | 50-238 | Ecdh, Recovery |
| `psi/config/curve.h` | 8 of 10 | 22-46 | Cryptor |
| `psi/config/protocol.h` | 31 of 32 | 24-104 | Launch |
| `psi/config/psi.h` | 27 of 41 | 52-118 | Launch |
| `psi/config/ub_psi.h` | 24 of 29 | 23-33, 41-79 | Launch |
| `psi/cryptor/cryptor_selector.cc` | 61 of 72 | 35-43, 50-58, 65-120 | Cryptor |
| `psi/cryptor/ecc_cryptor.cc` | 45 of 53 | 24-42, 49-68, 70-79 | Cryptor, Ecdh, Elligator, X25519 |
| `psi/cryptor/ecc_cryptor.h` | 4 of 45 | 47-50 | Recovery, X25519 |
| `psi/cryptor/ecc_utils.h` | 129 of 166 | 31, 61-206, 212-246 | TryPoint |
| `psi/cryptor/fourq_cryptor.cc` | 5 of 7 | 19-23 | Cryptor |
| `psi/cryptor/fourq_cryptor.h` | 3 of 13 | 26-27, 32 | Cryptor |
| `psi/cryptor/hash_to_curve_elligator2.cc` | 452 of 477 | 31-38, 47-62, 74-84, 90-462, 473-683, 687-705 | Elligator |
| `psi/cryptor/hash_to_curve_elligator2.h` | 2 of 6 | 37-38 | Elligator |
| `psi/cryptor/ipp_ecc_cryptor.cc` | 42 of 60 | 31-75, 93-96 | Cryptor, Elligator |
| `psi/cryptor/ipp_ecc_cryptor.h` | 1 of 21 | 33 | Cryptor |
| `psi/cryptor/sm2_cryptor.cc` | 6 of 8 | 21-26 | Cryptor |
| `psi/cryptor/sm2_cryptor.h` | 17 of 35 | 29-33, 46, 51-61 | Cryptor |
| `psi/cryptor/sodium_curve25519_cryptor.cc` | 22 of 27 | 25-31, 35-48, 51-54 | Cryptor, Ecdh, X25519 |
| `psi/cryptor/sodium_curve25519_cryptor.h` | 6 of 22 | 49-54, 59 | Cryptor, Elligator, X25519 |
| `psi/interface.cc` | 199 of 228 | 51-228, 231-243, 251-312 | Digest, Join, JoinText, Run, Scratch, ShellSort, Threshold, UbLife, Whole |
| `psi/interface.h` | 10 of 85 | 46-61 | Run, Threshold |
| `psi/legacy/base_operator.cc` | 8 of 12 | 30-39 | Legacy |
| `psi/legacy/bucket_psi.cc` | 264 of 332 | 53-107, 125-232, 257-351, 355-358, 396-446, 450-471 | Legacy, Progress |
| `psi/legacy/bucket_psi.h` | 37 of 75 | 55-97 | Legacy |
| `psi/legacy/dp_2party_psi.cc` | 38 of 49 | 39-61, 65-86 | Legacy |
| `psi/legacy/dp_psi/dp_psi.cc` | 140 of 198 | 41-90, 140-225, 232-240, 270-312 | DpPsi, Legacy |
| `psi/legacy/dp_psi/dp_psi.h` | 6 of 47 | 32-37 | DpCalib, DpPsi |
| `psi/legacy/dp_psi/dp_psi_utils.cc` | 116 of 122 | 26-76, 78-80, 82-85, 87-90, 92-100, 102-173 | DpCalib |
| `psi/legacy/dp_psi/dp_psi_utils.h` | 6 of 12 | 23-24, 30-33 | DpCalib |
| `psi/legacy/ecdh_3party_psi.cc` | 14 of 50 | 61-80 | Ecdh3 |
| `psi/legacy/memory_psi.cc` | 23 of 46 | 52-76 | Legacy |
| `psi/legacy/nparty_psi.cc` | 142 of 179 | 60-188, 194-246 | Legacy, P2p |
| `psi/proto/pir.proto` | 18 of 71 | 27-92 | Stored |
| `psi/proto/psi.proto` | 22 of 66 | 28-71, 193-250 | Launch |
| `psi/proto/psi_v2.proto` | 103 of 112 | 23-128, 147-485 | Launch, Run, UbLife |
| `psi/utils/arrow_csv_batch_provider.cc` | 81 of 117 | 54-60, 81-174 | JoinText, Provider |
| `psi/utils/arrow_helper.cc` | 64 of 65 | 28-105 | JoinText |
| `psi/utils/batch_provider.h` | 10 of 38 | 53-56, 73-78 | Ecdh3, Provider, UbPsi |
| `psi/utils/batch_provider_impl.cc` | 147 of 185 | 45-106, 137-154, 165-252 | Provider |
| `psi/utils/batch_provider_impl.h` | 53 of 68 | 33-69, 82-116 | Provider |
| `psi/utils/bucket.cc` | 112 of 121 | 35-168 | Bucketed, Digest, Legacy, Run, Whole |
| `psi/utils/bucket.h` | 1 of 20 | 27 | Run |
| `psi/utils/communication.cc` | 19 of 20 | 22-45 | P2p |
| `psi/utils/communication.h` | 37 of 49 | 35-43, 50-103 | Ecdh |
| `psi/utils/csv_checker.cc` | 90 of 94 | 45-57, 60-151 | Legacy, Scratch |
| `psi/utils/csv_converter.cc` | 147 of 185 | 34-55, 95-99, 108-281 | DkPir |
| `psi/utils/csv_converter.h` | 2 of 25 | 26-27 | DkPir |
| `psi/utils/cuckoo_index.cc` | 97 of 99 | 22-148 | Cuckoo, Kkrt |
| `psi/utils/cuckoo_index.h` | 26 of 69 | 52, 56-57, 70-72, 85-94, 100-125 | Cuckoo, Kkrt |
| `psi/utils/ec_point_store.cc` | 224 of 351 | 41-48, 58-61, 71-72, 98-222, 316-358, 376-415, 423-439, 445-460 | Bucket, Operator, UbLife, UbPsi |
| `psi/utils/ec_point_store.h` | 33 of 126 | 50-61, 114-118, 156-178 | UbPsi |
| `psi/utils/hash_bucket_cache.cc` | 37 of 76 | 25-42, 49-61, 70-81 | Bucket, Ecdh |
| `psi/utils/hash_bucket_cache.h` | 32 of 60 | 37-46, 52-70, 92-101 | Bucket, Ecdh |
| `psi/utils/index_store.cc` | 132 of 161 | 33-127, 131-172, 185-210 | Bucketed, Digest, IndexStore |
| `psi/utils/index_store.h` | 3 of 100 | 35-36, 50 | IndexStore |
| `psi/utils/join_processor.cc` | 229 of 262 | 48-168, 178-208, 212-223, 239-341 | Join, JoinText, Run, UbLife |
| `psi/utils/key.cc` | 107 of 111 | 33-107, 122-187 | Join, JoinText, Legacy, Provider, ShellSort |
| `psi/utils/multiplex_disk_cache.cc` | 37 of 47 | 31-63, 71-80 | Apsi, Bucket, Ecdh, Scratch |
| `psi/utils/multiplex_disk_cache.h` | 6 of 33 | 35-41 | Scratch |
| `psi/utils/progress.cc` | 98 of 100 | 25-144 | Progress |
| `psi/utils/progress.h` | 19 of 38 | 28-40, 68-79 | Progress |
| `psi/utils/random_str.h` | 17 of 19 | 22-38 | Scratch |
| `psi/utils/resource_manager.cc` | 59 of 65 | 22-52, 59-92 | Launch, Scratch |
| `psi/utils/serializable.proto` | 22 of 23 | 19-46 | Operator, Spiral |
| `psi/utils/serialize.h` | 85 of 93 | 31-123 | Operator, Rr22 |
| `psi/utils/sync.cc` | 35 of 52 | 35-47, 55-84 | Legacy, Operator |
| `psi/utils/sync.h` | 44 of 57 | 39-95 | Legacy, Run |
| `psi/utils/table_utils.cc` | 363 of 494 | 60, 70-122, 175-188, 200-219, 238-242, 252-269, 280-373, 377-421, 436-447, 452-482, 497-598 | Digest, Ecdh, IndexStore, Join, JoinText, Provider, UbLife |
| `psi/utils/table_utils.h` | 47 of 203 | 129-151, 155-159, 232-247, 260-262, 309-317, 327-331 | Join, JoinText |
| `psi/wrapper/apsi/api/receiver.cc` | 108 of 174 | 63-88, 127-147, 164-246 | Apsi, Capi, Session |
| `psi/wrapper/apsi/api/receiver_c_wrapper.cc` | 88 of 104 | 33-44, 49-53, 67-149 | Capi |
| `psi/wrapper/apsi/api/receiver_c_wrapper.h` | 6 of 30 | 30-35 | Capi |
| `psi/wrapper/apsi/api/sender.cc` | 149 of 152 | 36-263 | Apsi, Session |
| `psi/wrapper/apsi/api/sender_c_wrapper.cc` | 40 of 51 | 30-61, 75-86 | Capi |
| `psi/wrapper/apsi/api/wrapper_common.h` | 19 of 21 | 25-46 | Capi |
| `psi/wrapper/apsi/api/wrapper_util.cc` | 33 of 35 | 26-60 | Capi |
| `psi/wrapper/apsi/cli/entry.cc` | 248 of 326 | 99-309, 363-442, 447-471 | Apsi, Session, Stored |
| `psi/wrapper/apsi/cli/entry.h` | 29 of 53 | 57-97 | Stored |
| `psi/wrapper/apsi/cli/sender.cc` | 49 of 68 | 44-79, 81-102 | Session |
| `psi/wrapper/apsi/cli/sender_dispatcher.cc` | 261 of 309 | 43-59, 82-113, 152-189, 192-452 | Apsi, Session |
| `psi/wrapper/apsi/receiver.cc` | 370 of 469 | 127-147, 203-725 | Apsi, ApsiCore, Session |
| `psi/wrapper/apsi/sender.cc` | 287 of 319 | 44-351, 408-475 | ApsiCore, Session |
| `psi/wrapper/apsi/utils/common.cc` | 102 of 187 | 139-259 | Apsi, Stored |
| `psi/wrapper/apsi/utils/csv_reader.cc` | 143 of 210 | 51-76, 92-165, 235-315 | Apsi, DkPir, Stored |
| `psi/wrapper/apsi/utils/group_db.cc` | 377 of 438 | 57-192, 200-201, 207-404, 435-499, 510-526, 530-547, 554-567 | Apsi, Procs |
| `psi/wrapper/apsi/utils/group_db.h` | 10 of 70 | 35-39, 72, 79-82 | Apsi |
| `psi/wrapper/apsi/utils/group_db_status.proto` | 15 of 17 | 20-35 | Apsi |
| `psi/wrapper/apsi/utils/sender_db.cc` | 163 of 181 | 42-185, 201-263 | Stored |
| `psi/wrapper/apsi/yacl_channel.cc` | 202 of 210 | 32-141, 148-304 | Session |

### What is not modelled

Files without a cited line, with the number of code lines:

* Copy of `group_db.cc` that no build target compiles: `psi/wrapper/apsi/utils/group_bucket_db.cc` (438), `psi/wrapper/apsi/utils/group_bucket_db.h` (70).
* Message definitions; the fields appear as records where they are used: `experiment/pir/piano/piano.proto` (12), `psi/algorithm/ecdh/ub_psi/ub_psi_cache.proto` (9), `psi/algorithm/pir_interface/pir_type.proto` (10), `psi/proto/entry.proto` (19), `psi/proto/kuscia.proto` (31), `psi/utils/table_utils.proto` (9).
* Configuration header of a third party library: `psi/algorithm/rr22/sparseconfig.h` (19).
* Declarations of functions that are modelled from their definitions: `psi/algorithm/rr22/okvs/simple_index.h` (7).
* C interface: forwards to `api/*.cc`: `psi/wrapper/apsi/api/sender_c_wrapper.h` (15), `psi/wrapper/apsi/api/wrapper_util.h` (6).
* Threshold, DP and legacy entry points that only forward their arguments: `psi/legacy/dp_2party_psi.h` (14), `psi/legacy/kkrt_2party_psi.cc` (40), `psi/legacy/kkrt_2party_psi.h` (17).
* Network: ZeroMQ and link channels, assumed reliable: `experiment/pir/simplepir/network_util.h` (12), `psi/wrapper/apsi/yacl_channel.h` (56).
* Command line, logging, progress, resources of the process, tracing: `psi/config/logging.h` (6), `psi/trace_categories.cc` (1), `psi/trace_categories.h` (6), `psi/utils/ec.cc` (18), `psi/utils/ec.h` (3), `psi/utils/pb_helper.cc` (37), `psi/utils/pb_helper.h` (9), `psi/utils/resource.cc` (28), `psi/utils/resource.h` (7), `psi/wrapper/apsi/cli/common_utils.cc` (79), `psi/wrapper/apsi/cli/common_utils.h` (22), `psi/wrapper/apsi/cli/receiver.cc` (53).
* Curves and ciphers as such (masking is a parameter, see above): `psi/algorithm/ecdh/ub_psi/ecdh_oprf.cc` (56), `psi/algorithm/ecdh/ub_psi/ecdh_oprf.h` (108), `psi/algorithm/ecdh/ub_psi/ecdh_oprf_selector.h` (12), `psi/algorithm/rr22/davis_meyer_hash.h` (6), `psi/algorithm/rr22/okvs/aes_crhash.h` (16), `psi/cryptor/cryptor_selector.h` (3), `psi/cryptor/fpga_ecc_cryptor.h` (7).
* Operators: forward to the protocol and the pipeline that are modelled: `psi/algorithm/psi_operator.h` (39).
* File streams and Arrow helpers (assumed, see above): `psi/utils/arrow_helper.h` (14), `psi/utils/io.cc` (81), `psi/utils/io.h` (50).
* Headers that declare what the modelled `.cc` files define (inline functions in them are not modelled): `experiment/pir/piano/server.h` (30), `experiment/pir/pps/receiver.h` (18), `experiment/pir/pps/sender.h` (16), `experiment/pir/pps/server.h` (18), `experiment/pir/simplepir/util.h` (32), `experiment/psi/kmprt17_mp_psi/kmprt17_mp_psi.h` (26), `experiment/psi/kmprt17_mp_psi/kmprt17_opprf.h` (8), `experiment/psi/threshold_ecdh_psi/receiver.h` (21), `experiment/psi/threshold_ecdh_psi/sender.h` (19), `experiment/psi/threshold_ecdh_psi/threshold_ecdh_psi.h` (19), `experiment/psi/threshold_ub_psi/client.h` (12), `experiment/psi/threshold_ub_psi/server.h` (9), `experiment/psi/threshold_ub_psi/threshold_ecdh_oprf_psi.h` (52), `psi/algorithm/dkpir/common.h` (21), `psi/algorithm/dkpir/entry.h` (7), `psi/algorithm/dkpir/oprf_receiver.h` (68), `psi/algorithm/dkpir/query.h` (17), `psi/algorithm/dkpir/receiver.h` (51), `psi/algorithm/dkpir/sender.h` (70), `psi/algorithm/dkpir/sender_cnt_db.h` (13), `psi/algorithm/ecdh/common.h` (3), `psi/algorithm/ecdh/ecdh_logger.h` (12), `psi/algorithm/ecdh/ecdh_operator.h` (24), `psi/algorithm/ecdh/receiver.h` (16), `psi/algorithm/ecdh/sender.h` (16), `psi/algorithm/ecdh/ub_psi/client.h` (18), `psi/algorithm/ecdh/ub_psi/server.h` (27), `psi/algorithm/kkrt/common.h` (3), `psi/algorithm/kkrt/kkrt_operator.h` (27), `psi/algorithm/kkrt/receiver.h` (16), `psi/algorithm/kkrt/sender.h` (16), `psi/algorithm/nty/nty_mp_psi.h` (49), `psi/algorithm/nty/server_aided_psi.h` (13), `psi/algorithm/pir_interface/index_pir.h` (15), `psi/algorithm/rr22/common.h` (5), `psi/algorithm/rr22/okvs/dense_mtx.h` (144), `psi/algorithm/rr22/okvs/galois128.h` (52), `psi/algorithm/rr22/okvs/paxos.h` (155), `psi/algorithm/rr22/okvs/paxos_hash.h` (135), `psi/algorithm/rr22/receiver.h` (15), `psi/algorithm/rr22/rr22_operator.h` (27), `psi/algorithm/rr22/rr22_oprf.h` (121), `psi/algorithm/rr22/sender.h` (15), `psi/algorithm/spiral/arith/ntt.h` (4), `psi/algorithm/spiral/arith/ntt_table.h` (13), `psi/algorithm/spiral/arith/number_theory.h` (55), `psi/algorithm/spiral/discrete_gaussian.h` (13), `psi/algorithm/spiral/poly_matrix_utils.h` (54), `psi/algorithm/spiral/public_keys.h` (22), `psi/algorithm/spiral/util.h` (19), `psi/algorithm/types.h` (5), `psi/apps/psi_launcher/factory.h` (6), `psi/apps/psi_launcher/kuscia_adapter.h` (7), `psi/apps/psi_launcher/launch.h` (34), `psi/apps/psi_launcher/report.h` (8), `psi/checkpoint/recovery.h` (53), `psi/legacy/base_operator.h` (13), `psi/legacy/ecdh_3party_psi.h` (37), `psi/legacy/factory.h` (43), `psi/legacy/memory_psi.h` (14), `psi/legacy/nparty_psi.h` (32), `psi/prelude.h` (16), `psi/utils/arrow_csv_batch_provider.h` (38), `psi/utils/csv_checker.h` (22), `psi/utils/join_processor.h` (43), `psi/utils/key.h` (7), `psi/utils/resource_manager.h` (50), `psi/version.h` (0), `psi/wrapper/apsi/api/receiver.h` (39), `psi/wrapper/apsi/api/sender.h` (36), `psi/wrapper/apsi/cli/sender_dispatcher.h` (64), `psi/wrapper/apsi/receiver.h` (197), `psi/wrapper/apsi/sender.h` (123), `psi/wrapper/apsi/utils/bucket.h` (18), `psi/wrapper/apsi/utils/common.h` (29), `psi/wrapper/apsi/utils/csv_reader.h` (20), `psi/wrapper/apsi/utils/sender_db.h` (27).
* Other: `psi/algorithm/kkrt/common.cc` (1), `psi/algorithm/rr22/okvs/paxos_utils.cc` (1), `psi/wrapper/apsi/utils/bucket.cc` (30).
* Tests, benchmarks, examples, Python bindings and build files.
