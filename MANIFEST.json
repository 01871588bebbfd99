{
 "claims": [
  {
   "property": "C01",
   "status": "proved",
   "theorems": [
    "Psi.Join.C01_inner_join_exact",
    "Psi.Join.C01_unique_keys_exact"
   ],
   "note": "Sorted-table path and declared-unique-keys path; the index file is any lawful index (what the protocol theorems deliver)."
  },
  {
   "property": "C02",
   "status": "partial",
   "theorems": [
    "Psi.Join.C02_rows_aligned",
    "Psi.Join.C02_relational_join_when_unique",
    "Psi.Join.C02_not_relational_join",
    "Psi.Join.C02_unique_keys_aligned_partial",
    "Psi.Join.C02_unique_keys_misaligned"
   ],
   "note": "Alignment holds for all sorted-path inputs. Relational join holds when one side has unique keys; refuted by witness when both have duplicates. With keys_unique alignment is refuted by witness when the key is not the first column."
  },
  {
   "property": "C03",
   "status": "proved",
   "theorems": [
    "Psi.Join.C03_joins_exact_and_aligned",
    "Psi.Join.C03_single_party_rows"
   ],
   "note": "All join types, both parties receive the result."
  },
  {
   "property": "C04",
   "status": "proved",
   "theorems": [
    "Psi.Join.C04_difference_exact"
   ],
   "note": ""
  },
  {
   "property": "C05",
   "status": "proved",
   "theorems": [
    "Psi.Join.C05_report_counts",
    "Psi.Join.C05_key_counts"
   ],
   "note": ""
  },
  {
   "property": "C06",
   "status": "proved",
   "theorems": [
    "Psi.Join.C06_corrupt_index_rejected"
   ],
   "note": "Covers positions; wrong peer counts in an index line cannot be detected by the code and are not claimed."
  },
  {
   "property": "C07",
   "status": "proved",
   "theorems": [
    "Psi.Join.C07_key_grouping",
    "Psi.Join.C07_batching_irrelevant"
   ],
   "note": ""
  },
  {
   "property": "C08",
   "status": "proved",
   "theorems": [
    "Psi.Bucket.C08_record_round_trip",
    "Psi.Bucket.C08_data_recoverable",
    "Psi.Bucket.C08_store_round_trip"
   ],
   "note": "Index below 2^64, duplicate count below 2^32 (the machine types)."
  },
  {
   "property": "C09",
   "status": "proved",
   "theorems": [
    "Psi.Bucket.C09_bucket_intersection_exact"
   ],
   "note": "Item lists need not be distinct; with repeated peer values the first one counts. uint32 counters are unbounded in the model."
  },
  {
   "property": "C10",
   "status": "proved",
   "theorems": [
    "Psi.Ecdh.C10_exact_intersection",
    "Psi.Ecdh.C10_in_memory_result",
    "Psi.Ecdh.C10_schedule_irrelevant"
   ],
   "note": "Assumes commuting masks, fixed-length point serialization that round-trips, and no collision of comparison bytes among the input items."
  },
  {
   "property": "C11",
   "status": "proved",
   "theorems": [
    "Psi.Ecdh.C11_no_failure",
    "Psi.Ecdh.C11_terminates",
    "Psi.Ecdh.C11_never_stuck",
    "Psi.Ecdh.C11_drained"
   ],
   "note": "Includes a throttled main channel with any positive window."
  },
  {
   "property": "C12",
   "status": "proved",
   "theorems": [
    "Psi.Ecdh.C12_no_result_for_others"
   ],
   "note": ""
  },
  {
   "property": "C13",
   "status": "proved",
   "theorems": [
    "Psi.Ecdh.C13_batch_round_trip",
    "Psi.Ecdh.C13_counts_survive",
    "Psi.Ecdh.C13_out_of_turn_rejected"
   ],
   "note": "Protobuf field encoding taken as lossless; the batch index is 32 bit, so out-of-turn detection is for fewer than 2^32 batches."
  },
  {
   "property": "C36",
   "status": "proved",
   "theorems": [
    "Psi.EndToEnd.C36_ecdh_join_end_to_end",
    "Psi.EndToEnd.C36_ecdh_one_receiver"
   ],
   "note": "Composition of C07, C10, C09 and C03/C01; tables of at most 2^32 rows; crypto assumptions of C10."
  },
  {
   "property": "C14",
   "status": "partial",
   "theorems": [
    "Psi.Ecdh.C14_wrong_count",
    "Psi.Ecdh.C14_wrong_index",
    "Psi.Ecdh.C14_resumed_lines_partial",
    "Psi.Ecdh.C14_exact_iff_partial",
    "Psi.Ecdh.C14_any_restarts_partial",
    "Psi.Ecdh.C14_any_exact_iff",
    "Psi.Ecdh.C14_same_line_twice"
   ],
   "note": "Refuted in general by three witnesses (duplicate counts and item indices of a resumed run start again at the wrong place; a task stopped twice reports a line twice). Proved for any number of interruptions in any states, inputs in batches of equal size: nothing is lost, the duplicate counts are right, the index is counted from the item the run began with; and exactly when this equals the uninterrupted result."
  },
  {
   "property": "C15",
   "status": "proved",
   "theorems": [
    "Psi.Recovery.C15_mismatch_refused",
    "Psi.Recovery.C15_same_accepted"
   ],
   "note": "The input hash is a parameter; two inputs with equal hash count as the same input."
  },
  {
   "property": "C16",
   "status": "partial",
   "theorems": [
    "Psi.Recovery.C16_stage_goes_back",
    "Psi.Recovery.C16_stage_partial"
   ],
   "note": "Refuted in general: a restarted task marks an earlier stage in the checkpoint. Proved within one process."
  },
  {
   "property": "C17",
   "status": "partial",
   "theorems": [
    "Psi.Bucketed.C17_written_twice",
    "Psi.Bucketed.C17_written_twice_by_other",
    "Psi.Bucketed.C17_nothing_lost_partial",
    "Psi.Bucketed.C17_exact_partial"
   ],
   "note": "Refuted in general: the lines of a bucket are committed before it is counted, so an interruption can make them appear twice. Proved for any history of crashes: nothing lost, nothing wrong; exact if crashes are between buckets on both sides."
  },
  {
   "property": "C37",
   "status": "proved",
   "theorems": [
    "Psi.Recovery.C37_key_never_changes"
   ],
   "note": "Covers the checkpoint file; crashes between the operations of a call."
  },
  {
   "property": "C38",
   "status": "partial",
   "theorems": [
    "Psi.Recovery.C38_torn_checkpoint",
    "Psi.Recovery.C38_crash_between_calls_partial"
   ],
   "note": "Refuted for a crash inside the truncate-and-write of the checkpoint file; proved for crashes between calls."
  },
  {
   "property": "C18",
   "status": "partial",
   "theorems": [
    "Psi.Digest.C18_different_keys_accepted",
    "Psi.Digest.C18_shortcut_sound_partial",
    "Psi.Digest.C18_shortcut_taken",
    "Psi.Digest.C18_restart_truncates",
    "Psi.Digest.C18_restart_appends"
   ],
   "note": "Refuted: keys are hashed without separator, so different key lists can have the same digest; and for KKRT/RR22 a restart appends the lines a second time. Proved for non-empty prefix-free keys (fixed-length keys, for instance)."
  },
  {
   "property": "C39",
   "status": "partial",
   "theorems": [
    "Psi.Digest.C39_stale_summary",
    "Psi.Digest.C39_summary_partial"
   ],
   "note": "Refuted: the cached summary is reused whenever the file size is the same. Proved under the condition that earlier runs of the same size had the same keys."
  },
  {
   "property": "C19",
   "status": "proved",
   "theorems": [
    "Psi.Cuckoo.C19_placed",
    "Psi.Cuckoo.C19_no_stash",
    "Psi.Cuckoo.C19_sanity_check",
    "Psi.Cuckoo.C19_min_colliding"
   ],
   "note": "At most 2^56 items; 0 < number of hash functions < 2^63 (0 slips through the check of the constructor by wrap-around)."
  },
  {
   "property": "C20",
   "status": "proved",
   "theorems": [
    "Psi.Kkrt.C20_kkrt_round"
   ],
   "note": "OPRF as a function of bin and item, no collisions among encodings of the items at hand; at most 2^56 receiver items; the table can be built (otherwise the receiver throws)."
  },
  {
   "property": "C21",
   "status": "proved",
   "theorems": [
    "Psi.Kkrt.C21_timing_irrelevant"
   ],
   "note": "Any sequence of correction counts seen by the spinning loop."
  },
  {
   "property": "C23",
   "status": "proved",
   "theorems": [
    "Psi.Pipeline.C23_in_order",
    "Psi.Pipeline.C23_never_stuck",
    "Psi.Pipeline.C23_terminates",
    "Psi.Pipeline.C23_same_as_sequential"
   ],
   "note": "AsyncRun of both parties with the collective operations of each stage as synchronisation points; every schedule. The loop counters of the code are int, so fewer than 2^31 buckets. ParallelRun (unused with recovery) is not modelled."
  },
  {
   "property": "C24",
   "status": "partial",
   "theorems": [
    "Psi.Rr22.C24_intersection_exact_partial",
    "Psi.Rr22.C24_zero_value_lost",
    "Psi.Rr22.C24_sender_counts",
    "Psi.Rr22.C24_count_outside"
   ],
   "note": "Byte-level: compaction, transfer, lookup, broadcast; all partitions and merge orders. Missing: a common item whose truncated value is 0 is lost (witness). The loop that writes the counts at the sender is modelled apart (C24_sender_counts); counts of a dishonest receiver can be written outside (C24_count_outside)."
  },
  {
   "property": "C25",
   "status": "partial",
   "theorems": [
    "Psi.Rr22.C25_same_on_both_sides",
    "Psi.Rr22.C25_margin_partial",
    "Psi.Rr22.C25_empty_bucket_undefined",
    "Psi.Rr22.C25_wraps"
   ],
   "note": "Exact characterisation for non-empty sets with at most 2^48 pairs; witnesses for the empty bucket (undefined behaviour) and the 64-bit wrap."
  },
  {
   "property": "C40",
   "status": "proved",
   "theorems": [
    "Psi.Gf128.C40_mul_is_field_product",
    "Psi.Gf128.C40_paths_agree"
   ],
   "note": "Carry-less multiplication instruction taken as polynomial product of 64-bit words."
  },
  {
   "property": "C41",
   "status": "partial",
   "theorems": [
    "Psi.Gf128.C41_inverse",
    "Psi.Gf128.C41_zero_rejected",
    "Psi.Gf128.C41_pow_partial",
    "Psi.Gf128.C41_zero_pow_zero"
   ],
   "note": "Inverse proved for all words. Pow proved except for base 0 with exponent 0, where the code returns 0 (witness)."
  },
  {
   "property": "C26",
   "status": "partial",
   "theorems": [
    "Psi.Okvs.C26_binary_round_trip",
    "Psi.Okvs.C26_binary_accepts_only_independent",
    "Psi.Okvs.C26_binary_failures",
    "Psi.Okvs.C26_gf_round_trip_partial",
    "Psi.Okvs.C26_gf_intended_round_trip",
    "Psi.Okvs.C26_gf_two_gaps_undefined",
    "Psi.Okvs.C26_gf_two_gaps_reached",
    "Psi.Okvs.C26_gf_pivot_missed"
   ],
   "note": "Binary dense part: proved in full for the single-table encoder. GF(2^128) dense part: proved whenever the encoder has defined behaviour; with two or more left-over keys the code writes outside its buffer (witness), and the intended matrix inverse gives a correct encoder."
  },
  {
   "property": "C42",
   "status": "proved",
   "theorems": [
    "Psi.Okvs.C42_columns_distinct",
    "Psi.Okvs.C42_batch_same_rows"
   ],
   "note": "Table sizes below 2^62 for the batched code (signed vector comparisons)."
  },
  {
   "property": "C43",
   "status": "proved",
   "theorems": [
    "Psi.Okvs.C43_all_column_sets"
   ],
   "note": "Under the condition that the binomial products fit in 64 bits."
  },
  {
   "property": "C44",
   "status": "proved",
   "theorems": [
    "Psi.Okvs.C44_invert",
    "Psi.Okvs.C44_singular"
   ],
   "note": "Bits as elements of ZMod 2."
  },
  {
   "property": "C45",
   "status": "partial",
   "theorems": [
    "Psi.Baxos.C45_gf_round_trip_partial",
    "Psi.Baxos.C45_binary_round_trip",
    "Psi.Baxos.C45_gf_decode_total",
    "Psi.Baxos.C45_gf_decode_same",
    "Psi.Baxos.C45_gf_solve_ends",
    "Psi.Baxos.C45_overflow_undefined",
    "Psi.Baxos.C45_index_type"
   ],
   "note": "Threads take steps (an item or a bin) in any order; reads and writes of a step are atomic. Proved whenever encoding succeeds. Violated: the batched part of the first phase stores keys without a capacity check (undefined behaviour, witness), and a sparse part of exactly 255, 65535 or 2^32-1 columns is refused."
  },
  {
   "property": "C22",
   "status": "proved",
   "theorems": [
    "Psi.Rr22.Oprf.C22_fast_same_value",
    "Psi.Rr22.Oprf.C22_fast_runs",
    "Psi.Rr22.Oprf.C22_fast_offset",
    "Psi.Rr22.Oprf.C22_eval_forms",
    "Psi.Rr22.Oprf.C22_coins_bound",
    "Psi.Rr22.Oprf.C22_low_same_value",
    "Psi.Rr22.Oprf.C22_eval_forms_low"
   ],
   "note": "The VOLE is a parameter with its correlation; AES, SHA-256 and the key hash are arbitrary functions. Both forms of Eval, chunked transfer and the coin exchange of the malicious variant are modelled."
  },
  {
   "property": "C27",
   "status": "partial",
   "theorems": [
    "Psi.Whole.C27_bucket_number_partial",
    "Psi.Whole.C27_wraps",
    "Psi.Whole.C27_sizes_differ",
    "Psi.Whole.C27_no_buckets_exact"
   ],
   "note": "Holds for one bucket size (the configuration check enforces that) as long as items plus bucket size fit in 64 bits; above that the count wraps to 0 and the result is silently empty (witness)."
  },
  {
   "property": "C46",
   "status": "proved",
   "theorems": [
    "Psi.Whole.C46_rr22_bucket",
    "Psi.Whole.C46_rr22_exact",
    "Psi.Whole.C46_rr22_pipeline",
    "Psi.Whole.C46_rr22_join_end_to_end"
   ],
   "note": "Interruptions are those between buckets at the same point of both parties (C17 shows what goes wrong otherwise). No clash: different items have different truncated values and no common item has the value 0. The conversion of log2(0) in a bucket empty on one side is undefined behaviour unless the environment says it gives some value."
  },
  {
   "property": "C47",
   "status": "proved",
   "theorems": [
    "Psi.Whole.C47_kkrt_exact",
    "Psi.Whole.C47_kkrt_join_end_to_end"
   ],
   "note": "Interruptions as in C46; no collision of OPRF encodings or of Blake3 digests among the items of a bucket."
  },
  {
   "property": "C30",
   "status": "partial",
   "theorems": [
    "Psi.Provider.C30_memory_shuffled_partial",
    "Psi.Provider.C30_memory_empty_throws",
    "Psi.Provider.C30_simple_shuffled",
    "Psi.Provider.C30_raw_from_provider"
   ],
   "note": "The buffered shuffling provider is proved in full (raw batches non-empty, which C31 gives). The memory provider in shuffled mode throws on empty input (witness) and is proved otherwise."
  },
  {
   "property": "C31",
   "status": "proved",
   "theorems": [
    "Psi.Provider.C31_memory",
    "Psi.Provider.C31_memory_any_sizes",
    "Psi.Provider.C31_memory_labelled",
    "Psi.Provider.C31_csv",
    "Psi.Provider.C31_key_info",
    "Psi.Provider.C31_unique_info",
    "Psi.Provider.C31_empty_means_end",
    "Psi.Provider.C31_memory_labels_too_short"
   ],
   "note": "Reads started ahead of time are run when taken."
  },
  {
   "property": "C32",
   "status": "partial",
   "theorems": [
    "Psi.Provider.C32_composite_keys_partial",
    "Psi.Provider.C32_single_column",
    "Psi.Provider.C32_separator_in_column"
   ],
   "note": "Holds when no key column of one of the two rows contains the separator, or for one key column; fails otherwise (witness: columns with a comma)."
  },
  {
   "property": "C33",
   "status": "partial",
   "theorems": [
    "Psi.IndexStore.C33_file_round_trip_partial",
    "Psi.IndexStore.C33_new_result",
    "Psi.IndexStore.C33_closed_writer",
    "Psi.IndexStore.C33_memory_reader",
    "Psi.IndexStore.C33_memory_lengths",
    "Psi.IndexStore.C33_big_value_misread",
    "Psi.IndexStore.C33_empty_batch_stops",
    "Psi.IndexStore.C33_header_lost"
   ],
   "note": "Proved for all histories of opens, writes, commits, closes, destructors and crashes between calls, for values below 2^63. Values of 2^63 or more are misread, and a crash inside the constructor can leave a file without header (witnesses). CSV reader of Arrow taken from its documentation, blocks non-empty."
  },
  {
   "property": "C28",
   "status": "proved",
   "theorems": [
    "Psi.UbPsi.C28_oprf",
    "Psi.UbPsi.C28_exact_intersection",
    "Psi.UbPsi.C28_join_end_to_end",
    "Psi.UbPsi.C28_other_key_unnoticed"
   ],
   "note": "From the server input through cache generation, transfer and the online phase (both result directions) to the joined outputs. Curve and hash function are parameters; different keys have different OPRF values; fewer than 2^32 rows on each side. Limit: the key of the online phase is not compared with the key of the cache (witness)."
  },
  {
   "property": "C29",
   "status": "proved",
   "theorems": [
    "Psi.UbPsi.C29_any_history",
    "Psi.UbPsi.C29_record_round_trip",
    "Psi.UbPsi.C29_cache_in_order",
    "Psi.UbPsi.C29_client_file",
    "Psi.UbPsi.C29_interrupted_transfer_accepted"
   ],
   "note": "Byte-level files of both caches. Limit: a transfer that breaks off leaves a cache that later online phases accept (witness)."
  },
  {
   "property": "C34",
   "status": "proved",
   "theorems": [
    "Psi.Run.C34_misfits_stop",
    "Psi.Run.C34_fits_exactly",
    "Psi.Run.C34_same_parameters",
    "Psi.Run.C34_default_spelled_out",
    "Psi.Run.C34_left_side_unchecked",
    "Psi.Run.C34_unbalanced_flags_unchecked"
   ],
   "note": "For the two-party protocols (AbstractPsiParty). Protobuf serialisation is a parameter that reads back what it wrote. Limits with witnesses: a default written down by one party only is rejected; left_side may name a role neither party has; unbalanced PSI compares no configurations at all, and with different flags the client silently gets wrong lines."
  },
  {
   "property": "C35",
   "status": "proved",
   "theorems": [
    "Psi.Run.C35_phases_in_order",
    "Psi.Run.C35_both_or_neither",
    "Psi.Run.C35_online_after_preparation",
    "Psi.Run.C35_output",
    "Psi.Run.C35_unbalanced_modes",
    "Psi.Run.C35_unbalanced_refused",
    "Psi.Run.C35_unbalanced_ends",
    "Psi.Run.C35_output_of_failed_run"
   ],
   "note": "Both parties as programs over a link, every local step may fail. Limit: the output file of a failed run may be there (witness)."
  },
  {
   "property": "C48",
   "status": "proved",
   "theorems": [
    "Psi.Run.C48_sync_wait",
    "Psi.Run.C48_rounds_as_one"
   ],
   "note": "A party whose function threw sends nothing more; the peer waits in vain."
  },
  {
   "property": "C49",
   "status": "proved",
   "theorems": [
    "Psi.Launch.C49_request_carried_over",
    "Psi.Launch.C49_fit_exactly",
    "Psi.Launch.C49_both_parties",
    "Psi.Launch.C49_dispatch",
    "Psi.Launch.C49_unbalanced_left",
    "Psi.Launch.C49_unbalanced_left_out_of_range"
   ],
   "note": "Limit: in unbalanced PSI a left rank out of range makes the parties disagree unnoticed (witness)."
  },
  {
   "property": "C50",
   "status": "proved",
   "theorems": [
    "Psi.Launch.C50_ranks_agree",
    "Psi.Launch.C50_same_name"
   ],
   "note": "JSON parsing not modelled. Limit: parties with the same name become one (witness)."
  },
  {
   "property": "C51",
   "status": "proved",
   "theorems": [
    "Psi.Ecdh3.C51_roles",
    "Psi.Ecdh3.C51_exact",
    "Psi.Ecdh3.C51_completes"
   ],
   "note": "Tasks and queues of all three parties as in Verif/Net. Masking is a commuting map, masked items are compared by their last bytes and different items must not clash. CheckConfig is left out."
  },
  {
   "property": "C52",
   "status": "proved",
   "theorems": [
    "Psi.Ecdh3.C52_master_view",
    "Psi.Ecdh3.C52_answer_unlinkable"
   ],
   "note": "Information-flow statements about the messages themselves (with fixed keys); what masked values reveal cryptographically is outside."
  },
  {
   "property": "C53",
   "status": "proved",
   "theorems": [
    "Psi.Legacy.C53_nparty_exact"
   ],
   "note": "Parties as programs of collective calls (Verif/Coll); a two-party run is one call of its two members whose result is exact up to order."
  },
  {
   "property": "C54",
   "status": "partial",
   "theorems": [
    "Psi.Legacy.C54_bucket_exact_partial",
    "Psi.Legacy.C54_fixed_width",
    "Psi.Legacy.C54_duplicates_wrong"
   ],
   "note": "Proved when the receiver has no duplicate keys or the result is not broadcast, and when equal digests mean equal keys (fixed-width keys, no collisions). Violated otherwise: with duplicates and broadcast a party writes a row the receiver does not have (witness); equal digests of different keys see C55. DP-PSI is left out; all parties are configured alike."
  },
  {
   "property": "C55",
   "status": "partial",
   "theorems": [
    "Psi.Legacy.C55_passed",
    "Psi.Legacy.C55_accepts_partial",
    "Psi.Legacy.C55_newline_refused",
    "Psi.Legacy.C55_same_digest",
    "Psi.Legacy.C55_glued_wrong",
    "Psi.Legacy.C55_failed_check_blocks"
   ],
   "note": "Accepted tables and blocking are proved. Violated: a table with a newline in a key may be refused though its keys are distinct; parties with different keys whose concatenations agree skip the protocol and report everything (witnesses)."
  },
  {
   "property": "C56",
   "status": "proved",
   "theorems": [
    "Psi.Legacy.C56_filter_exact",
    "Psi.Legacy.C56_versions_agree"
   ],
   "note": "Fewer than 2^64 lines and indices. A file shorter than its header is not considered."
  },
  {
   "property": "C57",
   "status": "partial",
   "theorems": [
    "Psi.Legacy.C57_memory_exact",
    "Psi.Legacy.C57_broadcast_one_partial",
    "Psi.Legacy.C57_rank_zero_missed"
   ],
   "note": "MemoryPsi is proved in full. BroadcastResult works when only one party has a result; the check for several results misses rank 0 (witness)."
  },
  {
   "property": "C58",
   "status": "partial",
   "theorems": [
    "Psi.Threshold.C58_limited_exact_partial",
    "Psi.Threshold.C58_completes",
    "Psi.Threshold.C58_sender_exact_partial",
    "Psi.Threshold.C58_sender_counts_limit",
    "Psi.Threshold.C58_digest_limit"
   ],
   "note": "Proved: positions at both parties, counts at the receiver, sizes, the same keys at both. Violated: the counts at the sender when a shuffle moves an item to the place of one with another count (witness; exact otherwise). With equal digests the threshold is ignored (witness). Runs that resume from a checkpoint are not modelled."
  },
  {
   "property": "C59",
   "status": "proved",
   "theorems": [
    "Psi.ThresholdUb.C59_limited_exact",
    "Psi.ThresholdUb.C59_different_thresholds"
   ],
   "note": "Same assumptions as C28; the generator gives the same permutation for the same seed, counter and number of items."
  },
  {
   "property": "C60",
   "status": "proved",
   "theorems": [
    "Psi.Spiral.barrett_word_exact",
    "Psi.Spiral.barrett_double_exact",
    "Psi.Spiral.modular_ops_exact",
    "Psi.Spiral.barrett_one_wrong",
    "Psi.Spiral.modular_wraps",
    "Psi.Spiral.crt_compose_exact",
    "Psi.Spiral.crt_round_trip"
   ],
   "note": "SEAL word products, 192-bit division and modular inverses are taken to be exact. Moduli from 2 (to 2^63 for double words); modulus 1 and sums beyond a word are shown to go wrong."
  },
  {
   "property": "C61",
   "status": "proved",
   "theorems": [
    "Psi.Spiral.recenter_exact",
    "Psi.Spiral.recenertMod_exact",
    "Psi.Spiral.rescale_nearest"
   ],
   "note": "Moduli below 2^61 for Recenter, 2^63 otherwise."
  },
  {
   "property": "C62",
   "status": "proved",
   "theorems": [
    "Psi.Spiral.ntt_forward_values",
    "Psi.Spiral.ntt_forward_reduced",
    "Psi.Spiral.ntt_forward_bound",
    "Psi.Spiral.ntt_avx_not_reduced",
    "Psi.Spiral.ntt_round_trip",
    "Psi.Spiral.ntt_multiplies",
    "Psi.Spiral.ntt_all_moduli"
   ],
   "note": "The root and its inverse come from SEAL and are assumed to satisfy root^n = -1 and root * inverse = 1; bit reversal, halving and modular products of SEAL are taken to be exact. AVX2 intrinsics are modelled per 64-bit lane. The AVX2 build can leave the modulus instead of 0 (shown); the round trip needs at least 4 coefficients."
  },
  {
   "property": "C63",
   "status": "partial",
   "theorems": [
    "Psi.Spiral.transform_round_trip",
    "Psi.Spiral.matrix_product_exact",
    "Psi.Spiral.matrix_sum_exact",
    "Psi.Spiral.invert_exact",
    "Psi.Spiral.automorphism_exact",
    "Psi.Spiral.gadget_digits_exact_partial",
    "Psi.Spiral.gadget_inverse_exact_partial",
    "Psi.Spiral.gadget_invert_exchanged"
   ],
   "note": "Negation and the automorphism need words up to q and may return q for 0. The decomposition is proved for matrices with one column, as all callers use it; with more columns the code exchanges row and column (witness). Digits must fit four times the moduli because they are transformed without reduction. Odd exponents up to n + 1."
  },
  {
   "property": "C64",
   "status": "proved",
   "theorems": [
    "Psi.Spiral.packing_exact",
    "Psi.Spiral.unpacking_exact",
    "Psi.Spiral.bytes_round_trip",
    "Psi.Spiral.widths_agree",
    "Psi.Spiral.row_round_trip",
    "Psi.Spiral.stored_exact",
    "Psi.Spiral.packing_nothing",
    "Psi.Spiral.unpacking_incomplete"
   ],
   "note": "Rows and row length at least 1. Packing no bytes is out of bounds, an incomplete last byte is not aligned (shown). Decryption is C67."
  },
  {
   "property": "C65",
   "status": "partial",
   "theorems": [
    "Psi.Spiral.update_fits_partial",
    "Psi.Spiral.update_default",
    "Psi.Spiral.update_rows",
    "Psi.Spiral.update_refused",
    "Psi.Spiral.update_history"
   ],
   "note": "Accepted databases fit (proved for all parameters). Violated: with the default parameters databases of 5 to 16 and 33 to 64 plaintexts are refused, and the outcome depends on earlier databases (witnesses). The products with 0.6 and 0.4 are exact integer divisions in the model."
  },
  {
   "property": "C66",
   "status": "proved",
   "theorems": [
    "Psi.Spiral.first_dimension_exact",
    "Psi.Spiral.first_dimension_ring",
    "Psi.Spiral.reorientDatabase_ok"
   ],
   "note": "Two moduli, as the packing of two residues in a word requires; with one modulus the code reads beyond the residues. Fewer than 2^60 rows."
  },
  {
   "property": "C67",
   "status": "proved",
   "theorems": [
    "Psi.Spiral.decode_switched",
    "Psi.Spiral.decode_exact",
    "Psi.Spiral.q2_table",
    "Psi.Spiral.decode_shifted"
   ],
   "note": "q2 below 2^36; the plain modulus is below q. The secret key is given by its small representative S with weight W = sum of |S|."
  },
  {
   "property": "C68",
   "status": "proved",
   "theorems": [
    "Psi.Spiral.spiral_retrieves",
    "Psi.Spiral.spiral_bounded",
    "Psi.Spiral.default_retrieves",
    "Psi.Spiral.default_noiseless",
    "Psi.Spiral.default_client",
    "Psi.Spiral.default_setup",
    "Psi.Spiral.respNoise_small",
    "Psi.Spiral.refuses_unchecked"
   ],
   "note": "Random words, errors and the generator are parameters; transmission is added by C70. The inverse powers of two come from SEAL and are assumed to be inverses (given explicitly for the default modulus). The accumulated error is an explicit formula (respNoise); that it stays below the threshold with overwhelming probability for Gaussian errors and degree 2048 is not proved. The worst-case bound is far above the threshold there, so spiral_bounded applies to smaller degrees (example with degree 8 and the default moduli) or to fewer digits. 2 <= t_gsw * v2, which the chosen dimensions satisfy."
  },
  {
   "property": "C69",
   "status": "partial",
   "theorems": [
    "Psi.Spiral.ternary_exact",
    "Psi.Spiral.secret_keys_ok_partial",
    "Psi.Spiral.ternary_seed",
    "Psi.Spiral.ternary_few"
   ],
   "note": "The weight is proved for any permuting shuffle. Violated: the seed is cut to the 32 bits that std::mt19937 takes, so a key is one of at most 2^32 (proved for every generator and shuffle)."
  },
  {
   "property": "C70",
   "status": "proved",
   "theorems": [
    "Psi.Spiral.wire_retrieves",
    "Psi.Spiral.wire_bounded",
    "Psi.Spiral.default_wire",
    "Psi.Spiral.wire_exact",
    "Psi.Spiral.served_retrieves",
    "Psi.Spiral.short_seed",
    "Psi.Spiral.size_wraps"
   ],
   "note": "Protobuf messages are records (encoding and parsing are taken to be inverse). The generator that expands the seed is a parameter; both sides use the same one on the same seed. Limits shown: a short seed is read out of bounds and the size check wraps, both only for messages no honest peer sends."
  },
  {
   "property": "C71",
   "status": "partial",
   "theorems": [
    "Psi.Spiral.restart_retrieves_partial",
    "Psi.Spiral.restart_bounded",
    "Psi.Spiral.default_restart",
    "Psi.Spiral.load_serves_partial",
    "Psi.Spiral.built_not_ready",
    "Psi.Spiral.keys_without_conversion",
    "Psi.Spiral.dump_of_loaded",
    "Psi.Spiral.dump_of_reoriented"
   ],
   "note": "Proved: build, dump, load, query over the wire. Violated: a server after GenerateFromRawData counts as ready but reads out of bounds on every query; the dump of a loaded or of a directly reoriented server cannot be loaded."
  },
  {
   "property": "C72",
   "status": "proved",
   "theorems": [
    "Psi.Spiral.gauss_sample",
    "Psi.Spiral.gauss_noise",
    "Psi.Spiral.gauss_sample_ok",
    "Psi.Spiral.gauss_count"
   ],
   "note": "The table is computed in floating point and is a parameter; the count also needs it to be increasing with entries below 2^64."
  },
  {
   "property": "C73",
   "status": "proved",
   "theorems": [
    "Psi.Nty.nty_exact",
    "Psi.Nty.nty_set",
    "Psi.Nty.nty_count",
    "Psi.Nty.nty_complete",
    "Psi.Nty.nty_sound",
    "Psi.Nty.nty_agree",
    "Psi.Nty.nty_broadcast",
    "Psi.Nty.nty_runs",
    "Psi.Nty.nty_empty",
    "Psi.Nty.nty_short_message"
   ],
   "note": "AES, hashes, sizes of the tables, shuffles and thread orders are parameters. Accidental agreement of values is an explicit hypothesis on the values of the run; its probability is not computed. Limits shown: no run ends with a result when a party that encodes has no items; messages of wrong length are copied out of bounds."
  },
  {
   "property": "C74",
   "status": "partial",
   "theorems": [
    "Psi.Nty.nty_free_zero",
    "Psi.Nty.nty_zero_absent",
    "Psi.Nty.pivots_le",
    "Psi.Nty.Ex.nty_leak"
   ],
   "note": "Violated: the table is made without randomization, so its columns that are no pivots are zero; an item that only meets such columns decodes to zero for all keys, which for an item of the server happens for one key in 2^128 only. Proved for one bin without gap rows, with a witness; at most as many columns are pivots as there are items."
  },
  {
   "property": "C75",
   "status": "proved",
   "theorems": [
    "Psi.SealPir.coeffs_exact",
    "Psi.SealPir.packRows_ok",
    "Psi.SealPir.elements_round_trip",
    "Psi.SealPir.coefficients_as_bytes",
    "Psi.SealPir.part_round_trip",
    "Psi.SealPir.huge_row_lost"
   ],
   "note": "Limit shown: rows of 2^29 bytes."
  },
  {
   "property": "C76",
   "status": "proved",
   "theorems": [
    "Psi.SealPir.expansion_one_hot",
    "Psi.SealPir.query_shape"
   ],
   "note": "Microsoft SEAL is a parameter with stated laws (Laws), satisfied by a toy instance. Product of the dimensions below 2^31."
  },
  {
   "property": "C77",
   "status": "proved",
   "theorems": [
    "Psi.SealPir.row_or_refusal",
    "Psi.SealPir.setParams_ok",
    "Psi.SealPir.dims_suffice",
    "Psi.SealPir.load_dump"
   ],
   "note": "Hypotheses: the noise fits the budget, the floating-point root is not short, fewer than 2^31 plaintexts. Which products are transparent after the first dimension depends on the ciphertexts, so the exception is not characterised further than in C78."
  },
  {
   "property": "C78",
   "status": "partial",
   "theorems": [
    "Psi.SealPir.zero_plaintext_refused",
    "Psi.SealPir.zero_rows_refused",
    "Psi.SealPir.short_root_refused",
    "Psi.SealPir.indices_wrapped",
    "Psi.SealPir.huge_row_lost",
    "Psi.SealPir.row_returned_partial"
   ],
   "note": "Violated, in the four ways shown. Kept: without the refusal of transparent products and within the bounds of C77 every row is returned."
  },
  {
   "property": "C79",
   "status": "proved",
   "theorems": [
    "Psi.SimplePir.entry_recovered",
    "Psi.SimplePir.every_entry_recovered",
    "Psi.SimplePir.entry_recovered_dvd",
    "Psi.SimplePir.test_parameters_recover"
   ],
   "note": "Square roots and the floating-point quotient q/p are taken to be exact. The errors are parameters; the bound 28 of the test parameters is the largest value SampleGaussian can return for radius 4 and sigma 6.8."
  },
  {
   "property": "C80",
   "status": "partial",
   "theorems": [
    "Psi.SimplePir.C80_wrong_entry_power_of_two",
    "Psi.SimplePir.C80_wrong_entry_other_modulus",
    "Psi.SimplePir.C80_division_by_zero",
    "Psi.SimplePir.C80_no_error_partial"
   ],
   "note": "Violated, in the three ways shown. Kept: a modulus 2^k that p divides properly; with errors, C79."
  },
  {
   "property": "C81",
   "status": "proved",
   "theorems": [
    "Psi.DpPsi.result_exact",
    "Psi.DpPsi.all_common_reports_nothing",
    "Psi.DpPsi.bob_left_out"
   ],
   "note": "The exchange of masked items is taken from C10/C51 (values arrive in order). Curve operations by their laws; no two different items collide in the compared bytes (hypothesis NoClash). Coins and shuffle are parameters."
  },
  {
   "property": "C82",
   "status": "partial",
   "theorems": [
    "Psi.DpPsi.private_group_partial",
    "Psi.DpPsi.private_one_item_partial",
    "Psi.DpPsi.C82_not_private",
    "Psi.DpPsi.C82_single_item",
    "Psi.DpPsi.C82_duplicates"
   ],
   "note": "Ideal independent coins with exact probabilities; the code draws them from std::mt19937 with a 32-bit seed and floating-point probabilities. Only the messages with the reported indexes are considered, not the masked points. Violated when Alice has all sampled items and for duplicates of Bob, both shown."
  },
  {
   "property": "C83",
   "status": "proved",
   "theorems": [
    "Psi.Kmprt.common_reported",
    "Psi.Kmprt.result_sublist",
    "Psi.Kmprt.foreign_item_values",
    "Psi.Kmprt.opprf_programmed",
    "Psi.Kmprt.opprfRecv_ok"
   ],
   "note": "KKRT of yacl is a parameter: what the receiver encodes for an element is what the sender evaluates. Hypotheses: no item hashes to zero, no OPRF value equals the value programmed for the same item (both coincidences of 64 or 128 bits), BLAKE3 does not map another item of the leader to the same hash. The numbers of bins are parameters."
  },
  {
   "property": "C84",
   "status": "partial",
   "theorems": [
    "Psi.Kmprt.few_items_fail",
    "Psi.Kmprt.C84_two_parties_one_item",
    "Psi.Kmprt.crowded_bin_fails",
    "Psi.Kmprt.crowded_session_fails",
    "Psi.Kmprt.C84_ends_partial"
   ],
   "note": "Violated, in the two ways shown. Kept: with at least as many items as parties, a leader with the largest set, a nonce for each bin and insertions that end, the leader gets a result; what holds of it is C83."
  },
  {
   "property": "C85",
   "status": "proved",
   "theorems": [
    "Psi.DkPir.checked_run_exact",
    "Psi.DkPir.unchecked_run_exact",
    "Psi.DkPir.no_match_throws",
    "Psi.DkPir.quotes_lost",
    "Psi.DkPir.comma_throws"
   ],
   "note": "APSI retrieval is a parameter: it returns the label stored under the queried OPRF value. Hypotheses: the labels are free of delimiters, commas and line ends, no row of empty labels only, no two keys collide in the OPRF. Limits shown."
  },
  {
   "property": "C86",
   "status": "proved",
   "theorems": [
    "Psi.DkPir.only_true_count",
    "Psi.DkPir.absent_key_refused"
   ],
   "note": "The order of the generator is at least 2^130 (that of SM2 is near 2^256); the slope of the linear function is not zero. Limit shown."
  },
  {
   "property": "C87",
   "status": "partial",
   "theorems": [
    "Psi.DkPir.billed_for_another_key",
    "Psi.DkPir.C87_true_sum_partial"
   ],
   "note": "Violated for every query, as shown. Kept: receivers that send the sum of the protocol for keys the sender has; see also C86."
  },
  {
   "property": "C88",
   "status": "proved",
   "theorems": [
    "Psi.Pps.set_of_leaves",
    "Psi.Pps.punctured_set",
    "Psi.Pps.gen_full",
    "Psi.Pps.reused_key_wrong"
   ],
   "note": "The generator is a parameter. No inner node of the tree is zero (the code takes zero for unknown; a coincidence of 128 bits). Limit shown."
  },
  {
   "property": "C89",
   "status": "proved",
   "theorems": [
    "Psi.Pps.single_right",
    "Psi.Pps.setup_enough",
    "Psi.Pps.setup_small"
   ],
   "note": "Universe size at most 2^63 and at most the size of the database; the rounded logarithm and all random numbers are parameters. Limit shown."
  },
  {
   "property": "C90",
   "status": "proved",
   "theorems": [
    "Psi.Pps.turn_right",
    "Psi.Pps.many_right",
    "Psi.Pps.setupMulti_enough",
    "Psi.Pps.one_element_undefined"
   ],
   "note": "Hypotheses as in C88 and C89, and keys whose trees differ in the first level (a coincidence of 128 bits otherwise). Limit shown."
  },
  {
   "property": "C91",
   "status": "partial",
   "theorems": [
    "Psi.Pps.server_learns_index",
    "Psi.Pps.own_index_read",
    "Psi.Pps.single_not_private"
   ],
   "note": "Violated, in the two ways shown."
  },
  {
   "property": "C92",
   "status": "proved",
   "theorems": [
    "Psi.Piano.entry_or_zeros",
    "Psi.Piano.right_unless_used_up",
    "Psi.Piano.first_right",
    "Psi.Piano.again_right"
   ],
   "note": "The numbers that the code computes in floating point are parameters, and so are AES and the random numbers. The index is below the number of entries."
  },
  {
   "property": "C93",
   "status": "partial",
   "theorems": [
    "Psi.Piano.chunk_limit",
    "Psi.Piano.beyond_undefined",
    "Psi.Piano.C93_within_partial"
   ],
   "note": "Violated, as shown. Kept: queries within the replacements of each chunk, for indices that no set or enough sets have; see also C92."
  },
  {
   "property": "C94",
   "status": "proved",
   "theorems": [
    "Psi.Piano.messages_uniform",
    "Psi.Piano.queries_hidden"
   ],
   "note": "AES with a secret key is replaced by a uniform function, the random numbers are uniform and independent; tags fit into 32 bits. Queries that are repeated, and more queries to a chunk than there are replacements, are not covered. Timing is not modelled."
  },
  {
   "property": "C95",
   "status": "partial",
   "theorems": [
    "Psi.Apsi.start_fresh",
    "Psi.Apsi.api_answers_partial",
    "Psi.Apsi.api_empty_bucket",
    "Psi.Apsi.group_ranges",
    "Psi.Apsi.group_of_bucket"
   ],
   "note": "Proved for queries whose keys all fall in buckets with rows. Violated otherwise: one queried key in a bucket without rows and the whole query throws. The APSI library, std::hash and the padding of labels are parameters; keys and labels are without quotes and line ends, and no bucket has empty labels only."
  },
  {
   "property": "C96",
   "status": "proved",
   "theorems": [
    "Psi.Apsi.listens_fresh",
    "Psi.Apsi.cli_lines"
   ],
   "note": "Under the assumptions of C95 on the table and the library."
  },
  {
   "property": "C97",
   "status": "partial",
   "theorems": [
    "Psi.Apsi.cli_header",
    "Psi.Apsi.cli_header_partial",
    "Psi.Apsi.header_too_long"
   ],
   "note": "Violated: the header has a value column for every key found in the first bucket with a match. Right without labels, and with labels if no two keys found share a bucket."
  },
  {
   "property": "C98",
   "status": "partial",
   "theorems": [
    "Psi.Apsi.requests_independent",
    "Psi.Apsi.params_answered_partial",
    "Psi.Apsi.params_lost"
   ],
   "note": "Queries are independent. Violated for parameters: after a request for a bucket without rows parameter requests are not answered."
  },
  {
   "property": "C99",
   "status": "partial",
   "theorems": [
    "Psi.Apsi.resumed_partial",
    "Psi.Apsi.restart",
    "Psi.Apsi.reopen",
    "Psi.Apsi.reopen_refuses",
    "Psi.Apsi.empty_group_refused",
    "Psi.Apsi.stale_source",
    "Psi.Apsi.repeated_key",
    "Psi.Apsi.lost_databases",
    "Psi.Apsi.empty_index",
    "Psi.Apsi.second_attempt",
    "Psi.Apsi.quoted_key"
   ],
   "note": "Holds for a new directory (C95) and for a start stopped between groups. Violated by a changed source, a repeated key, files that are not complete, a second attempt if the stream keeps the old content (a parameter), and quotes in keys."
  },
  {
   "property": "C100",
   "status": "proved",
   "theorems": [
    "Psi.Elligator.map_ok",
    "Psi.Elligator.map_variants",
    "Psi.Elligator.map_collides"
   ],
   "note": "MPInt operations give residues in [0, p); p is proved prime."
  },
  {
   "property": "C101",
   "status": "proved",
   "theorems": [
    "Psi.Elligator.add_spec",
    "Psi.Elligator.dbl_spec",
    "Psi.Elligator.clear_x_spec",
    "Psi.Elligator.clear_spec",
    "Psi.Elligator.check_spec"
   ],
   "note": "The group is that of Mathlib (WeierstrassCurve.Affine.Point). InvertMod throws for zero."
  },
  {
   "property": "C102",
   "status": "partial",
   "theorems": [
    "Psi.Elligator.image_unique",
    "Psi.Elligator.hash_point_partial",
    "Psi.Elligator.images_meet",
    "Psi.Elligator.equal_elements_refused",
    "Psi.X25519.hash_order"
   ],
   "note": "Proved for field elements that are not equal or opposite; otherwise violated, as shown. SHA-512 is a parameter. That the result is in the subgroup of prime order is proved too (hash_order)."
  },
  {
   "property": "C103",
   "status": "proved",
   "theorems": [
    "Psi.Elligator.expand_spec",
    "Psi.Elligator.field_spec",
    "Psi.Elligator.field_balanced",
    "Psi.Elligator.tag_separates",
    "Psi.Elligator.tag_refused"
   ],
   "note": "SHA-512 is a parameter with values of 64 bytes."
  },
  {
   "property": "C104",
   "status": "partial",
   "theorems": [
    "Psi.Elligator.masked_point_partial",
    "Psi.Elligator.masked_elsewhere"
   ],
   "note": "Violated, as shown on the first test vector of the RFC. Holds for the reversed bytes. That libsodium and ippcp read little-endian coordinates (RFC 7748) is taken from their documentation; neither is in the repository."
  },
  {
   "property": "C105",
   "status": "partial",
   "theorems": [
    "Psi.Okvs.C105_takes_least_column",
    "Psi.Okvs.C105_binary_round_trip",
    "Psi.Okvs.C105_binary_failures",
    "Psi.Okvs.C105_refused_iff_heavy",
    "Psi.Okvs.C105_gf_round_trip_partial",
    "Psi.Okvs.C105_weight_two_undefined",
    "Psi.Okvs.C105_weight_two_partial"
   ],
   "note": "Refinement: the model with the doubly linked lists computes what the model of C26 computes for a choice of least columns, so the theorems of C26 carry over. For weight 2 there is a witness of undefined behaviour and a condition that excludes it. The partial theorem for GF(2^128) is partial for the reason of C26."
  },
  {
   "property": "C106",
   "status": "partial",
   "theorems": [
    "Psi.Baxos.C106_room_partial",
    "Psi.Baxos.C106_search_least",
    "Psi.Baxos.C106_too_many_refused",
    "Psi.Baxos.C106_next_power",
    "Psi.Baxos.C106_overflow_undefined",
    "Psi.Baxos.C106_more_security_partial",
    "Psi.Baxos.C106_levels_differ",
    "Psi.Baxos.C106_sixty_is_fifty",
    "Psi.Baxos.C106_more_security_smaller",
    "Psi.Baxos.C106_number_of_bins"
   ],
   "note": "Proved for all sizes except powers of two of keys with other numbers of bins, where the property is violated (witnesses for all four tables and all hash values); the order of the levels is proved except from the table for 50 bits to the one for 60, where it is violated. Real numbers stand for doubles. The estimate of the overflow probability is a parameter: that the sizes reach a given security level is not shown."
  },
  {
   "property": "C107",
   "status": "partial",
   "theorems": [
    "Psi.UbLife.C107_generation",
    "Psi.UbLife.C107_later_runs",
    "Psi.UbLife.C107_any_history",
    "Psi.UbLife.C107_interrupted",
    "Psi.UbLife.C107_after_interruption",
    "Psi.UbLife.C107_outside_kept",
    "Psi.UbLife.C107_cache_kept_partial",
    "Psi.UbLife.C107_refused_start_loses_cache",
    "Psi.UbLife.C107_input_in_cache_deleted",
    "Psi.UbLife.C107_client_without_cache",
    "Psi.UbLife.C107_killed_transfer_refused"
   ],
   "note": "Proved except for refused starts, for which the negation is proved in general. Sorting, key summary and masking are parameters (C07, C28). A crash leaves files complete up to the one being written; loss of written data by the operating system is not modelled."
  },
  {
   "property": "C108",
   "status": "proved",
   "theorems": [
    "Psi.Progress.C108_reports_are_instants",
    "Psi.Progress.C108_in_order",
    "Psi.Progress.C108_what_is_said",
    "Psi.Progress.C108_complete_run_ends_at_100",
    "Psi.Progress.C108_100_only_at_the_end",
    "Psi.Progress.C108_any_progress",
    "Psi.Progress.C108_done_reports_100",
    "Psi.Progress.C108_jobs",
    "Psi.Progress.C108_more_parts_than_weights",
    "Psi.Progress.C108_done_without_all_parts",
    "Psi.Progress.C108_update_after_done"
   ],
   "note": "The threads take turns between atomic operations (sequential consistency, which std::atomic and std::shared_mutex give). Times between reports are not modelled; the callback does not throw."
  },
  {
   "property": "C109",
   "status": "partial",
   "theorems": [
    "Psi.ApsiCore.C109_found_iff_partial",
    "Psi.ApsiCore.C109_exact_partial",
    "Psi.ApsiCore.C109_label",
    "Psi.ApsiCore.C109_no_label",
    "Psi.ApsiCore.C109_any_order",
    "Psi.ApsiCore.C109_double_hit_throws",
    "Psi.ApsiCore.C109_false_positive",
    "Psi.ApsiCore.C109_member_throws",
    "Psi.ApsiCore.C109_repeated_item_not_found",
    "Psi.ApsiCore.C109_lost_parts_not_found",
    "Psi.ApsiCore.C109_workers_agree",
    "Psi.ApsiCore.C109_workers_finish",
    "Psi.ApsiCore.C109_no_race",
    "Psi.ApsiCore.C109_double_hit_race",
    "Psi.ApsiCore.C109_lost_part_waits_forever"
   ],
   "note": "The full property is violated as shown; proved for queries in which every item hits at most one bundle (C109_double_hit_throws: the others all throw). Ciphertexts are vectors of slots: noise is not modelled. The polynomials of a bundle, the cuckoo table, the graph of powers and the opening of a label are those of APSI, kuku and SEAL, with laws as hypotheses. A Paterson-Stockmeyer degree of 1 is covered only if the graph has all powers. Reading and decreasing the counter of packages is one step, as is receiving a package."
  },
  {
   "property": "C110",
   "status": "partial",
   "theorems": [
    "Psi.Cryptor.C110_items_partial",
    "Psi.Cryptor.C110_wire_partial",
    "Psi.Cryptor.C110_any_processor",
    "Psi.Cryptor.C110_refused",
    "Psi.Cryptor.C110_instructions",
    "Psi.Cryptor.C110_group_partial",
    "Psi.Cryptor.C110_secp_is_sm2",
    "Psi.Cryptor.C110_check_partial",
    "Psi.Cryptor.C110_meet",
    "Psi.Cryptor.C110_check_misses_elligator",
    "Psi.Cryptor.C110_oprf_group"
   ],
   "note": "Proved except for the group of CURVE_SECP256K1 and for the check of CURVE_25519 against CURVE_25519_ELLIGATOR2, where the property is violated as shown. The libraries are parameters; that a lane of ippcp computes what libsodium computes is a hypothesis (Laws), and that masks of one group commute another (Good). Unused lanes write to a buffer that all threads share and nobody reads; this race is not modelled."
  },
  {
   "property": "C111",
   "status": "partial",
   "theorems": [
    "Psi.Stored.C111_second_run",
    "Psi.Stored.C111_defined",
    "Psi.Stored.C111_incomplete_refused_partial",
    "Psi.Stored.C111_key_missing_served",
    "Psi.Stored.C111_full_disk",
    "Psi.Stored.C111_save_complete_partial",
    "Psi.Stored.C111_save_only_nowhere",
    "Psi.Stored.C111_table_as_db_file",
    "Psi.Stored.C111_settings",
    "Psi.Stored.C111_dk_round_trip",
    "Psi.Stored.C111_dk_mixed"
   ],
   "note": "The first part is proved; the others are violated as shown, with the partial theorems saying what holds. The format of the library is a parameter with laws: what is saved loads, a data base cut short is refused, a key has 32 bytes. Hashes under different keys differ (OPRF without collisions) where queries find nothing. How labels are padded is in C95."
  },
  {
   "property": "C112",
   "status": "partial",
   "theorems": [
    "Psi.Session.C112_session_partial",
    "Psi.Session.C112_stops_only_after",
    "Psi.Session.C112_any_bytes",
    "Psi.Session.C112_messages",
    "Psi.Session.C112_failed_receiver",
    "Psi.Session.C112_channel_name",
    "Psi.Session.C112_no_answer",
    "Psi.Session.C112_fewer_packages",
    "Psi.Session.C112_unstripped"
   ],
   "note": "Sessions in which every query can be answered are proved to end well; where a request is not answered or a party fails the property is violated as shown. The serialization of the library is a parameter with the law that what is saved is loaded; the data base behind a bucket does not change during a session (C98). A link is a queue in each direction without a timeout: with one, waiting for ever is an exception after the timeout. The threads that collect packages are in C109; here packages are taken one after the other."
  },
  {
   "property": "C113",
   "status": "partial",
   "theorems": [
    "Psi.DpCalib.C113_ends",
    "Psi.DpCalib.C113_private_partial",
    "Psi.DpCalib.C113_private_tight",
    "Psi.DpCalib.C113_not_wasteful",
    "Psi.DpCalib.C113_shortcut_overspends",
    "Psi.DpCalib.C113_delta_one_hangs",
    "Psi.DpCalib.C113_delta_zero_hangs",
    "Psi.DpCalib.C113_split_adds_up",
    "Psi.DpCalib.C113_split_default",
    "Psi.DpCalib.C113_small_budget_hangs",
    "Psi.DpCalib.C113_large_budget_hangs",
    "Psi.DpCalib.C113_few_items"
   ],
   "note": "The calibration is proved, with an excess of 0.00001 instead of tol where the code takes its shortcut (and a witness that the budget is then overspent); for epsilon of at least 1 and delta of at most 0.2 the excess is tol. The split is proved for the default budget and at least 2048 items; it is violated for budgets below 2.5 or above 6 (the loop never ends) and for at most ten items (the answer is 3.25 whatever the budget). Real numbers stand for doubles: rounding is not modelled. That ComputeEpsilon1 is a right bound for the cost of sampling is not shown."
  },
  {
   "property": "C114",
   "status": "proved",
   "theorems": [
    "Psi.X25519.C114_orders",
    "Psi.X25519.C114_multiple",
    "Psi.X25519.C114_on_a_curve",
    "Psi.X25519.C114_commute",
    "Psi.X25519.C114_meet",
    "Psi.X25519.C114_meet_both",
    "Psi.X25519.C114_found",
    "Psi.X25519.C114_exact",
    "Psi.X25519.C114_few",
    "Psi.X25519.C114_vanish",
    "Psi.X25519.C114_reciprocal",
    "Psi.X25519.C114_top_bit",
    "Psi.X25519.C114_keys",
    "Psi.X25519.C114_raw_key",
    "Psi.X25519.C114_exchange"
   ],
   "note": "The multiplication of libsodium and ippcp is taken to be X25519 as RFC 7748 writes it, and is modelled in full; the first test vector of the RFC is checked. The orders of the curve and of its twist are proved, without the theorem of Hasse. SHA-256 and Blake3 are parameters. libsodium reports failure where the model gives zero; the strings for which this happens are listed by C114_vanish. Masks are compared in full; that the code compares shortened masks is not part of this claim."
  },
  {
   "property": "C115",
   "status": "partial",
   "theorems": [
    "Psi.Capi.C115_string",
    "Psi.Capi.C115_array",
    "Psi.Capi.C115_out_of_memory",
    "Psi.Capi.C115_no_bytes",
    "Psi.Capi.C115_double_free",
    "Psi.Capi.C115_handles",
    "Psi.Capi.C115_null_string",
    "Psi.Capi.C115_result",
    "Psi.Capi.C115_session",
    "Psi.Capi.C115_flag_partial",
    "Psi.Capi.C115_file_partial",
    "Psi.Capi.C115_file_empty_bucket",
    "Psi.Capi.C115_header_short",
    "Psi.Capi.C115_file_no_queries"
   ],
   "note": "Round trips, the session and the release of memory are proved; the rest is violated as shown. What the C++ classes do is a parameter in C115_session (with any errors) and is that of C95 in the theorems on tables. Heap blocks are numbered and never reused, so that a second release is always seen; memory is asked for with an oracle. Only malloc, free, new and delete of the interface are on the heap, not what the C++ classes allocate. Exceptions are modelled as leaving the call: in a program in C nothing can catch them. size_t does not overflow."
  },
  {
   "property": "C116",
   "status": "proved",
   "theorems": [
    "Psi.P2p.C116_both_ends",
    "Psi.P2p.C116_names",
    "Psi.P2p.C116_target",
    "Psi.P2p.C116_rank_by_name",
    "Psi.P2p.C116_meet_once"
   ],
   "note": "Names, party lists and ranks of links; SubWorld and NextRank are functions of yacl, modelled from their documented behaviour. That links of equal name connect and others do not is assumed of yacl."
  },
  {
   "property": "C117",
   "status": "partial",
   "theorems": [
    "Psi.ShellSort.C117_sorted_partial",
    "Psi.ShellSort.C117_keys_grouped_partial",
    "Psi.ShellSort.C117_index_file",
    "Psi.ShellSort.C117_space_loses_rows",
    "Psi.ShellSort.C117_space_other_file",
    "Psi.ShellSort.C117_semicolon_runs",
    "Psi.ShellSort.C117_read_error_unnoticed",
    "Psi.ShellSort.C117_no_cpus",
    "Psi.ShellSort.C117_quoted_comma",
    "Psi.ShellSort.C117_quoted_spelling",
    "Psi.ShellSort.C117_cpuset"
   ],
   "note": "Proved for paths the shell takes as one word and, where keys are grouped, for tables without quotes; violated otherwise, as shown. The shell, tail, sort and uniq are modelled from POSIX and the GNU manual, as far as the command line needs them: words, pipes, semicolons, appending redirections; other characters with a meaning for the shell are left open. Characters stand for bytes. The option unique, which nothing in the repository sets, has no theorem."
  },
  {
   "property": "C118",
   "status": "partial",
   "theorems": [
    "Psi.Procs.C118_same_partial",
    "Psi.Procs.C118_progress_partial",
    "Psi.Procs.C118_bounded",
    "Psi.Procs.C118_ends_partial",
    "Psi.Procs.C118_crash_hangs",
    "Psi.Procs.C118_too_many"
   ],
   "note": "Proved for at most 32767 processes of which none dies by itself; violated otherwise, as shown. fork, semget, semctl and kill do not fail in the model; the steps in which the files of a group are written are those of the code (created, filled, index created, filled), each atomic. Groups whose text has no defined reading are left out (the run one after the other must be defined)."
  },
  {
   "property": "C119",
   "status": "partial",
   "theorems": [
    "Psi.Kkrt.C119_wrong_runs",
    "Psi.Kkrt.C119_margin_partial",
    "Psi.Kkrt.C119_margin_missed",
    "Psi.Kkrt.C119_same_length"
   ],
   "note": "Proved with one bit less: fewer than one in 2^39 runs is wrong (and, once the length is cut to 16 bytes, at most n*m in 2^128). Violated as stated: whenever n*m lies between 256^k and 2*256^k and no item is common, more than one in 2^40 runs is wrong, because the logarithm is rounded down. The oblivious PRF and the filler bytes are independent uniform values in this count; that the real OPRF behaves so is outside the model. The long double logarithm is a parameter."
  },
  {
   "property": "C120",
   "status": "proved",
   "theorems": [
    "Psi.Rr22.C120_wrong_values",
    "Psi.Rr22.C120_margin",
    "Psi.Rr22.C120_buckets"
   ],
   "note": "The items lost because their truncated value is zero (C24) are within the margin. Where the length is cut to 16 bytes the bound is n*m in 2^128. Empty buckets and more than 2^48 pairs: see C25. That the OPRF behaves like a random function is outside the model; the logarithm in floating point is exact up to 2^48."
  },
  {
   "property": "C121",
   "status": "partial",
   "theorems": [
    "Psi.Ecdh.C121_wrong_runs",
    "Psi.Ecdh.C121_margin_partial",
    "Psi.Ecdh.C121_margin_missed",
    "Psi.Ecdh.C121_25519_partial",
    "Psi.Ecdh.C121_25519_missed"
   ],
   "note": "For Curve25519 proved up to 2^51 pairs of items (25 million items on each side): at most one in 2^40 hashes leads to a wrong result. Violated as stated: from 2^56 pairs on (2^28 items on each side, none common) more than one in 2^40 does, under every schedule, since the number of bytes does not grow with the inputs, unlike that of KKRT and RR22. Between 2^51 and 2^56 open: up to 32 strings have the same mask (C114), which the upper bound counts in full. That the hash behaves like a random function is outside the model. C121_margin_* are the same for any curve."
  },
  {
   "property": "C122",
   "status": "partial",
   "theorems": [
    "Psi.Operator.C122_ecdh",
    "Psi.Operator.C122_ecdh_others",
    "Psi.Operator.C122_ecdh_recovery_one_bin",
    "Psi.Operator.C122_broadcast",
    "Psi.Operator.C122_kkrt_partial",
    "Psi.Operator.C122_kkrt_count_zero",
    "Psi.Operator.C122_kkrt_empty_bucket",
    "Psi.Operator.C122_rr22",
    "Psi.Operator.C122_parallel_once",
    "Psi.Operator.C122_parallel_ignores_start",
    "Psi.Operator.C122_parallel_few",
    "Psi.Operator.C122_parallel_zero",
    "Psi.Operator.C122_levels_differ"
   ],
   "note": "Proved for ECDH, RR22 and the broadcast. Violated for KKRT: counts of one arrive as zero at the receiver, and an empty bucket ends the run; for ECDH with recovery and a bin size of at most one, which always ends in an exception; and by RR22 in parallel mode, which ignores the checkpoint, runs nothing at level zero and compares different buckets if the levels of the parties differ. Both parties have the same number of buckets. Recovery is only modelled in the kind of store and the first bucket."
  },
  {
   "property": "C123",
   "status": "partial",
   "theorems": [
    "Psi.JoinText.C123_output_table_partial",
    "Psi.JoinText.C123_key_file_partial",
    "Psi.JoinText.C123_no_rows",
    "Psi.JoinText.C123_blank_line",
    "Psi.JoinText.C123_quotes_match",
    "Psi.JoinText.C123_quotes_lost",
    "Psi.JoinText.C123_column_renamed"
   ],
   "note": "Proved for tables of which every line is one row, with keys and column names without quotes, all kinds of join, lines ending with or without a carriage return. Violated otherwise, as shown. Arrow is not part of the repository and modelled from its documented default options; a field that runs over the end of a line, a byte order mark and text that is not UTF-8 are left out. The index file is what a correct protocol writes for the keys it was given (C10, C20, C24). Sorting is C117; the second sorting of aligned outputs for unique keys is left out."
  },
  {
   "property": "C124",
   "status": "partial",
   "theorems": [
    "Psi.PirLife.first_database_served_partial",
    "Psi.PirLife.later_databases_ignored",
    "Psi.PirLife.second_database_stale",
    "Psi.PirLife.first_table_served_partial",
    "Psi.PirLife.later_table_ignored",
    "Psi.PirLife.refused_views_ready",
    "Psi.PirLife.refused_views_ask",
    "Psi.PirLife.unfit_views_refused",
    "Psi.Spiral.second_database_served_partial",
    "Psi.Spiral.refilled_serves_partial",
    "Psi.Spiral.table_served_partial",
    "Psi.Spiral.second_database_hidden",
    "Psi.Spiral.rebuilt_hidden",
    "Psi.Spiral.loaded_hidden",
    "Psi.Spiral.rebuilt_file_refused",
    "Psi.Spiral.long_rows_stale",
    "Psi.Spiral.rebuilt_stale",
    "Psi.Spiral.loaded_stale",
    "Psi.Spiral.rebuilt_dump_refused"
   ],
   "note": "Proved for the first database of a SealPIR server, for reoriented databases of a Spiral server whose rows fit into a plaintext, and for the first hash table of either (for Spiral after storing and loading). Violated otherwise, as shown. What is left of a Spiral server when a call throws is not modelled. The store of plaintexts is the one in memory; the laws of SEAL are those of C85."
  },
  {
   "property": "C125",
   "status": "partial",
   "theorems": [
    "Psi.Legacy.C125_report_partial",
    "Psi.Legacy.C125_all_buckets_partial",
    "Psi.Legacy.C125_replace_partial",
    "Psi.Legacy.C125_not_private",
    "Psi.Legacy.C125_bucket_sizes",
    "Psi.Legacy.C125_broadcast_reveals",
    "Psi.Legacy.C125_broadcast_wrong"
   ],
   "note": "Proved: what the receiver alone reports when the digests differ, and the factor for the messages of all buckets, for a key replaced by one of the same bucket (twice epsilon: one key leaves, one comes), as long as every bucket has a sampled key that the other party lacks (see C82). Violated otherwise, as shown. The digest itself, which is sent first, is a parameter. The coins of different buckets are independent."
  },
  {
   "property": "C126",
   "status": "partial",
   "theorems": [
    "Psi.Scratch.C126_name",
    "Psi.Scratch.C126_name_safe",
    "Psi.Scratch.C126_name_injective",
    "Psi.Scratch.C126_name_odd",
    "Psi.Scratch.C126_name_count",
    "Psi.Scratch.C126_two_runs",
    "Psi.Scratch.C126_cache_restores_partial",
    "Psi.Scratch.C126_cache_foreign",
    "Psi.Scratch.C126_cache_race",
    "Psi.Scratch.C126_cache_keeps_fails",
    "Psi.Scratch.C126_run_restores_partial",
    "Psi.Scratch.C126_existing_lost",
    "Psi.Scratch.C126_any_order",
    "Psi.Scratch.C126_remove_one",
    "Psi.Scratch.C126_second_link",
    "Psi.Scratch.C126_task_dir_stable",
    "Psi.Scratch.C126_recovery_kept",
    "Psi.Scratch.C126_failed_run",
    "Psi.Scratch.C126_trace_left",
    "Psi.Scratch.C126_dk_receiver_partial",
    "Psi.Scratch.C126_dk_receiver_leaves",
    "Psi.Scratch.C126_dk_sender",
    "Psi.Scratch.C126_checker_clean"
   ],
   "note": "Proved: the names; that a run which comes to its end restores the disk, if its directories were not there before and it writes into them only; that a disk cache does, if one of ten names is free and nobody else makes it meanwhile; that a recovery folder is kept; that the CSV checker cleans up however it ends. Violated otherwise, as shown. Links, access rights and full disks are left out; that an uncaught exception skips the destructors of static objects is the C++ standard (std::terminate)."
  },
  {
   "property": "C127",
   "status": "partial",
   "theorems": [
    "Psi.SimplePir.C127_vector_passes",
    "Psi.SimplePir.C127_seed_passes",
    "Psi.SimplePir.C127_head_not_checked",
    "Psi.SimplePir.C127_short_message",
    "Psi.SimplePir.C127_wrong_length",
    "Psi.SimplePir.C127_queries_in_turn_partial",
    "Psi.SimplePir.C127_two_under_way",
    "Psi.SimplePir.C127_stale_hint",
    "Psi.SimplePir.C127_before_setup"
   ],
   "note": "Proved for queries one after the other, under the bounds of C79 on modulus and errors. Violated otherwise, as shown. The link delivers what was sent in order; the words that belong to a seed are a parameter, equal on both sides."
  },
  {
   "property": "C128",
   "status": "partial",
   "theorems": [
    "Psi.DkPir.C128_round_trip",
    "Psi.DkPir.C128_cut_partial",
    "Psi.DkPir.C128_two_files",
    "Psi.DkPir.C128_same_checks",
    "Psi.DkPir.C128_other_key_refuses"
   ],
   "note": "Proved for every place but one: cut between its two fields, a file is passed on with an empty key, and what MPInt::Deserialize of yacl does with that is left open. The wire format of protobuf is modelled from its documentation, without groups; the bytes of a big number are a parameter."
  },
  {
   "property": "C129",
   "status": "partial",
   "theorems": [
    "Psi.TryPoint.C129_lift_iff",
    "Psi.TryPoint.C129_on_curve",
    "Psi.TryPoint.C129_gives_up_iff",
    "Psi.TryPoint.C129_twin",
    "Psi.TryPoint.C129_distinct_partial",
    "Psi.TryPoint.C129_wrong_match",
    "Psi.TryPoint.C129_run_reports_other_item"
   ],
   "note": "Proved for items that are not of 32 bytes, if the strings hashed for them do not collide modulo the prime. Violated for others: C129_twin for every item whose first try fails, C129_wrong_match for the OPRF values with all keys, C129_run_reports_other_item for a whole run on a small curve. That about half of the tries fail is not proved; SHA-256 is a parameter. Keys of tables are text, so a 32-byte key of this kind is rare in honest data."
  },
  {
   "property": "C130",
   "status": "proved",
   "theorems": [
    "Psi.TryPoint.C130_round_trip",
    "Psi.TryPoint.C130_one_form",
    "Psi.TryPoint.C130_invalid_refused",
    "Psi.TryPoint.C130_lawful",
    "Psi.TryPoint.C130_refines",
    "Psi.TryPoint.C130_oprf",
    "Psi.TryPoint.C130_real_round_trip",
    "Psi.TryPoint.C130_real_lawful"
   ],
   "note": "The group is that of Mathlib for the Weierstrass curve. Hypotheses: the modulus is an odd prime, the curve is smooth, n times every point is the point at infinity. For SM2 and secp256k1 the moduli are proved prime and the curves smooth (C130_real_*); n is then the number of points, whose value in the standards is not proved here. What OpenSSL does is modelled from its documentation and source: a failing EC_POINT_oct2point on 33 bytes leaves a new point at infinity."
  },
  {
   "property": "C131",
   "status": "partial",
   "theorems": [
    "Psi.UbMask.C131_exact",
    "Psi.UbMask.C131_intersection",
    "Psi.UbMask.C131_ragged_refused",
    "Psi.UbMask.C131_lengths_not_checked"
   ],
   "note": "Proved for values that have the agreed length, with texts that are not Base64 left out. Violated otherwise (C131_lengths_not_checked). Base64 decoding, the mask and the cache are parameters; the link delivers in order; in the repository only a test calls these functions."
  },
  {
   "property": "C132",
   "status": "partial",
   "theorems": [
    "Psi.Wire.C132_round_trip",
    "Psi.Wire.C132_rows",
    "Psi.Wire.C132_peer_counts",
    "Psi.Wire.C132_arrives_iff",
    "Psi.Wire.C132_lost",
    "Psi.Wire.C132_rows_lost",
    "Psi.Wire.utf8_ascii",
    "Psi.Wire.C132_counts",
    "Psi.Wire.C132_size",
    "Psi.Wire.C132_indexes"
   ],
   "note": "Proved for keys in UTF-8. Violated for others (C132_lost, C132_rows_lost); C132_arrives_iff says exactly which results arrive. That parsing ends at a string that is not UTF-8, keeping what was read, is protobuf behaviour taken as given. Runs from files send Base64 (bucket.cc), so they are not affected; MemoryPsi and the operators over a MemoryDataStore send the keys as they are. Messages near or above 2 GiB are not covered."
  },
  {
   "property": "C133",
   "status": "partial",
   "theorems": [
    "Psi.Rr22.C133_any_parts",
    "Psi.Rr22.C133_sent_parts",
    "Psi.Rr22.C133_intersection_partial",
    "Psi.Rr22.C133_long_message",
    "Psi.Rr22.C133_cut_value"
   ],
   "note": "Proved for messages of whole values and, for the result, values that are not zero after truncation. Violated for other messages (C133_long_message, C133_cut_value). The OPRF values are assumed to separate items (Good, as in C24); in the repository a benchmark calls this variant."
  }
 ]
}