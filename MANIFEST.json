{
 "claims": [
  {
   "property": "C01",
   "status": "proved",
   "theorems": [
    "Z5.Props.c01_chunk_numbering_bijection",
    "Z5.Props.c01_number_of_chunks",
    "Z5.Props.c01_check_block_coordinate"
   ],
   "note": "For every shape and chunk shape with s+b <= 2^64 per axis."
  },
  {
   "property": "C02",
   "status": "proved",
   "theorems": [
    "Z5.Props.c02_chunks_tile",
    "Z5.Props.c02_chunk_extent",
    "Z5.Props.c02_bounded_shape_outside_grid_counterexample"
   ],
   "note": "In-grid coordinates; a counterexample documents wrap-around outside the grid."
  },
  {
   "property": "C03",
   "status": "proved",
   "theorems": [
    "Z5.Props.c03_overlapping_chunks",
    "Z5.Props.c03_empty_region_counterexample",
    "Z5.Props.c03_rank_counterexample"
   ],
   "note": "Non-empty regions; a counterexample documents regions of extent zero."
  },
  {
   "property": "C04",
   "status": "proved",
   "theorems": [
    "Z5.Props.c04_intersection",
    "Z5.Props.c04_int_truncation_counterexample"
   ],
   "note": "Axis differences below 2^31 (the code uses int); a counterexample beyond."
  },
  {
   "property": "C05",
   "status": "proved",
   "theorems": [
    "Z5.Props.c05_accepted_iff",
    "Z5.Props.c05_wrong_dimension",
    "Z5.Props.c05_wrap_counterexample"
   ],
   "note": "Requests with offset+extent below 2^64; the wrap-around case is a counterexample."
  },
  {
   "property": "C06",
   "status": "proved",
   "theorems": [
    "Z5.Props.c06_strided_copy",
    "Z5.Props.c06_subview_ok"
   ],
   "note": "Arbitrary strided views that fit their buffers; destination addresses distinct."
  },
  {
   "property": "C07",
   "status": "proved",
   "theorems": [
    "Z5.Props.c07_fill"
   ],
   "note": ""
  },
  {
   "property": "C08",
   "status": "proved",
   "theorems": [
    "Z5.Props.c08_read_after_write_zarr",
    "Z5.Props.c08_read_after_write_zarr_exact",
    "Z5.Props.c08_progress",
    "Z5.Props.c08_write_succeeds"
   ],
   "note": "Every history of writeSubarray/writeScalar/writeChunk/removeChunk calls; elements equal (==) to the fill value may come back as the fill value, exact for types whose == is equality."
  },
  {
   "property": "C09",
   "status": "proved",
   "theorems": [
    "Z5.Props.c09_read_after_write_n5",
    "Z5.Props.c09_read_after_write_n5_exact"
   ],
   "note": "As C08."
  },
  {
   "property": "C10",
   "status": "proved",
   "theorems": [
    "Z5.Props.c10_read_after_write_sharded",
    "Z5.Props.c10_read_after_write_sharded_exact",
    "Z5.Props.c10_write_defined",
    "Z5.Props.c10_write_succeeds"
   ],
   "note": "Every history of successful region writes, chunk writes and chunk removals on a sharded dataset, every schedule; no task is undefined. Writes may throw (compressor failure, shard of 2^63 bytes or more)."
  },
  {
   "property": "C11",
   "status": "proved",
   "theorems": [
    "Z5.Props.c11_write_frame",
    "Z5.Props.c11_scalar_frame",
    "Z5.Props.c11_sharded_frame"
   ],
   "note": "Plain and sharded datasets, also when some of the tasks fail."
  },
  {
   "property": "C12",
   "status": "proved",
   "theorems": [
    "Z5.Props.c12_unwritten_is_fill",
    "Z5.Props.c12_stored_iff",
    "Z5.Props.c12_stored_iff_region",
    "Z5.Props.c12_nan_counterexample",
    "Z5.Props.c12_sharded_unwritten_is_fill",
    "Z5.Props.c12_sharded_stored_iff"
   ],
   "note": "Plain and sharded datasets. Fill value == itself (not NaN) for the storage part; NaN counterexample."
  },
  {
   "property": "C13",
   "status": "proved",
   "theorems": [
    "Z5.Props.c13_read_deterministic",
    "Z5.Props.c13_concurrent_reads",
    "Z5.Props.c13_same_output",
    "Z5.Props.c13_sharded_deterministic",
    "Z5.Props.c13_sharded_same_output"
   ],
   "note": "Plain and sharded datasets; any store for the outcomes, reachable stores for the delivered array."
  },
  {
   "property": "C14",
   "status": "proved",
   "theorems": [
    "Z5.Props.c14_write_deterministic",
    "Z5.Props.c14_sharded_write_deterministic"
   ],
   "note": "Plain and sharded datasets."
  },
  {
   "property": "C15",
   "status": "proved",
   "theorems": [
    "Z5.Props.c15_disjoint_calls_commute",
    "Z5.Props.c15_lost_update_counterexample",
    "Z5.Props.c15_sharded_disjoint_calls_commute",
    "Z5.Props.c15_sharded_lost_update_counterexample"
   ],
   "note": "Plain (per chunk) and sharded (per shard) datasets; lost-update counterexamples inside one chunk / one shard."
  },
  {
   "property": "C16",
   "status": "proved",
   "theorems": [
    "Z5.Props.c16_linearizable",
    "Z5.Props.c16_no_deadlock",
    "Z5.Props.c16_history",
    "Z5.Props.c16_nothing_lost",
    "Z5.Props.c16_mixed_lost_update_counterexample",
    "Z5.Props.c16_reader_counterexample"
   ],
   "note": "Linearisability, deadlock freedom, nothing lost for chunk calls; counterexamples for mixing with writeSubarray and for concurrent readers."
  },
  {
   "property": "C17",
   "status": "proved",
   "theorems": [
    "Z5.Props.c17_build_succeeds",
    "Z5.Props.c17_shard_roundtrip"
   ],
   "note": ""
  },
  {
   "property": "C18",
   "status": "proved",
   "theorems": [
    "Z5.Props.c18_parse_safe",
    "Z5.Props.c18_parse_exact",
    "Z5.Props.c18_too_short",
    "Z5.Props.c18_half_empty_counterexample"
   ],
   "note": ""
  },
  {
   "property": "C19",
   "status": "proved",
   "theorems": [
    "Z5.Props.c19_burst_detected",
    "Z5.Props.c19_odd_detected",
    "Z5.Props.c19_checksum_altered",
    "Z5.Props.c19_accept_needs_checksum"
   ],
   "note": "Bursts up to 32 bits, odd-weight errors, checksum-only changes."
  },
  {
   "property": "C20",
   "status": "proved",
   "theorems": [
    "Z5.Props.c20_crc_is_crc32c",
    "Z5.Props.c20_crc_incremental"
   ],
   "note": ""
  },
  {
   "property": "C21",
   "status": "proved",
   "theorems": [
    "Z5.Props.c21_slot_bijection",
    "Z5.Props.c21_shard_contains_chunk",
    "Z5.Props.c21_non_multiple_counterexample"
   ],
   "note": "Shard extents multiples of chunk extents; counterexample otherwise."
  },
  {
   "property": "C22",
   "status": "proved",
   "theorems": [
    "Z5.Props.c22_layout",
    "Z5.Props.c22_round_trip",
    "Z5.Props.c22_varlen_reader",
    "Z5.Props.c22_shape_reader",
    "Z5.Props.c22_truncation_counterexample"
   ],
   "note": "Round trip, byte layout, both header readers; extents above the field widths are truncated (counterexample)."
  },
  {
   "property": "C23",
   "status": "proved",
   "theorems": [
    "Z5.Props.c23_read_memory_safe",
    "Z5.Props.c23_readChunk_overflow_counterexample",
    "Z5.Props.c23_partial_write_overflow_counterexample",
    "Z5.Props.c23_header_safe",
    "Z5.Props.c23_mode_disagreement_counterexample"
   ],
   "note": "readSubarray on arbitrary files; readChunk and partial writes are counterexamples."
  },
  {
   "property": "C24",
   "status": "proved",
   "theorems": [
    "Z5.Props.c24_swap",
    "Z5.Props.c24_involution"
   ],
   "note": "Byte swap reverses each element and is an involution."
  },
  {
   "property": "C25",
   "status": "proved",
   "theorems": [
    "Z5.Props.c25_keys_distinct",
    "Z5.Props.c25_key_not_metadata",
    "Z5.Props.c25_key_not_directory",
    "Z5.Props.c25_key_layout",
    "Z5.Props.c25_digit_delimiter_counterexample"
   ],
   "note": "Delimiter with at least one non-digit character; counterexample otherwise."
  },
  {
   "property": "C26",
   "status": "proved",
   "theorems": [
    "Z5.c26_roundtrip",
    "Z5.c26_document",
    "Z5.c26_accepts",
    "Z5.c26_key_config"
   ],
   "note": "JSON values, not texts. Effective compression options = settings of the compressor without blosc nthreads, which the format does not hold."
  },
  {
   "property": "C27",
   "status": "proved",
   "theorems": [
    "Z5.c27_roundtrip",
    "Z5.c27_document",
    "Z5.c27_complex",
    "Z5.c27_fill_counterexample",
    "Z5.c27_zlib_counterexample"
   ],
   "note": "c27_fill_counterexample: a non-zero fill value is lost. c27_zlib_counterexample: zlib encoding of the zlib compressor is lost (becomes gzip)."
  },
  {
   "property": "C28",
   "status": "proved",
   "theorems": [
    "Z5.c28_roundtrip",
    "Z5.c28_key_config",
    "Z5.c28_same_keys",
    "Z5.c28_document",
    "Z5.c28_accepts",
    "Z5.c28_zlib_counterexample",
    "Z5.c28_fill_counterexample"
   ],
   "note": "c28_zlib_counterexample: zlib encoding is lost (read back as gzip). c28_fill_counterexample: a fill value outside 64 bits is undefined behaviour at serialisation."
  },
  {
   "property": "C29",
   "status": "proved",
   "theorems": [
    "Z5.c29_change",
    "Z5.c29_history",
    "Z5.c29_metadata",
    "Z5.c29_created_file",
    "Z5.c29_created_group",
    "Z5.c29_created_dataset"
   ],
   "note": "All histories of attribute writes and removals through group, file and dataset handles, for zarr v2, zarr v3 and N5; JSON text layer and failing file operations not modelled."
  },
  {
   "property": "C30",
   "status": "proved",
   "theorems": [
    "Z5.c30_refused",
    "Z5.c30_hidden",
    "Z5.c30_version",
    "Z5.c30_group_handle_counterexample"
   ],
   "note": "All histories through dataset handles; that group handles on the same path are not protected is proved as a counterexample."
  },
  {
   "property": "C31",
   "status": "proved",
   "theorems": [
    "Z5.Props.c31_readonly_dataset",
    "Z5.Props.c31_readonly_sharded",
    "Z5.c31_container",
    "Z5.c31_container_history"
   ],
   "note": "Chunk, region and scalar operations on regular and sharded datasets, and attributes, creation, removal and opening over the file-system model, for single operations and sequences."
  },
  {
   "property": "C32",
   "status": "proved",
   "theorems": [
    "Z5.Props.c32_outside_grid",
    "Z5.Props.c32_short_index_counterexample",
    "Z5.Props.c32_sharded_read_counterexample",
    "Z5.Props.c32_sharded_write"
   ],
   "note": "Index vectors at least as long as the shape; counterexamples for shorter ones and for sharded readChunk."
  },
  {
   "property": "C33",
   "status": "proved",
   "theorems": [
    "Z5.Props.c33_missing_chunk_throws",
    "Z5.Props.c33_never_written_throws",
    "Z5.Props.c33_sharded_counterexample"
   ],
   "note": "Plain datasets; sharded counterexample."
  },
  {
   "property": "C34",
   "status": "proved",
   "theorems": [
    "Z5.Props.c34_chunk_region_agree",
    "Z5.Props.c34_chunkExists_iff",
    "Z5.Props.c34_sharded_chunk_vs_region"
   ],
   "note": "Plain and sharded datasets."
  },
  {
   "property": "C35",
   "status": "proved",
   "theorems": [
    "Z5.Props.c35_removes_exactly",
    "Z5.Props.c35_read_only",
    "Z5.Props.c35_fill_keeps_reads",
    "Z5.Props.c35_fill_nothing_to_remove",
    "Z5.Props.c35_no_value_changes_reads_counterexample",
    "Z5.Props.c35_nan_counterexample",
    "Z5.Props.c35_sharded_one_thread",
    "Z5.Props.c35_sharded_read_only",
    "Z5.Props.c35_sharded_race_counterexample"
   ],
   "note": "Datasets without shards: every thread count and schedule. Sharded: one thread (c35_sharded_one_thread); c35_sharded_race_counterexample shows the failure with two. c35_no_value_changes_reads_counterexample: without a value reads change. c35_nan_counterexample: NaN elements are undefined behaviour of std::set."
  },
  {
   "property": "C36",
   "status": "proved",
   "theorems": [
    "Z5.Props.c36_sharded_unique",
    "Z5.Props.c36_sharded_unique_exact",
    "Z5.Props.c36_sharded_unique_with_counts",
    "Z5.Props.c36_unique",
    "Z5.Props.c36_unique_exact",
    "Z5.Props.c36_unique_with_counts",
    "Z5.Props.c36_counts_schedule_independent",
    "Z5.Props.c36_counts_are_array_counts",
    "Z5.Props.c36_padding_counterexample",
    "Z5.Props.c36_zeros_counterexample"
   ],
   "note": "Plain and sharded datasets, any thread count and schedule, any type whose < is a strict weak order on the elements. c36_padding_counterexample: zarr edge chunks count their padding; c36_counts_are_array_counts: without padding the counts are those of the array. c36_zeros_counterexample: for -0.0 and 0.0 the representative depends on the schedule."
  },
  {
   "property": "C37",
   "status": "proved",
   "theorems": [
    "Z5.Props.c37_batch_size",
    "Z5.Props.c37_batch_size_counterexample",
    "Z5.Props.c37_exactly_once",
    "Z5.Props.c37_at_most_once",
    "Z5.Props.c37_rethrows_first",
    "Z5.Props.c37_no_failure",
    "Z5.Props.c37_skips_rest_counterexample",
    "Z5.Props.c37_every_moment",
    "Z5.Props.c37_no_deadlock",
    "Z5.Props.c37_terminates",
    "Z5.Props.c37_thread_count_irrelevant",
    "Z5.Props.c37_region_write",
    "Z5.Props.c37_region_read"
   ],
   "note": "Workers, mutex sections, condition variables, notifications and spurious wakeups modelled; every schedule. Exactly once if no call throws; the exception of the smallest failing index is rethrown after all begun calls ended; an exception skips the rest of its batch (counterexample). Batch size: any number >= 1 (its floating point computation is not modelled)."
  },
  {
   "property": "C38",
   "status": "proved",
   "theorems": [
    "Z5.Props.c38_fifo",
    "Z5.Props.c38_at_most_once",
    "Z5.Props.c38_progress",
    "Z5.Props.c38_enough_workers",
    "Z5.Props.c38_no_deadlock",
    "Z5.Props.c38_waitFinished"
   ],
   "note": "Every schedule, number of workers and command sequence of the owner: FIFO, at most once, progress, no deadlock, waitFinished."
  },
  {
   "property": "C39",
   "status": "proved",
   "theorems": [
    "Z5.Props.c39_crash_files",
    "Z5.Props.c39_crash_readable",
    "Z5.Props.c39_rewrite_repairs",
    "Z5.Props.c39_sharded_crash_files",
    "Z5.Props.c39_sharded_crash_readable",
    "Z5.Props.c39_sharded_no_repair_counterexample"
   ],
   "note": "Plain and sharded datasets, every crash point at byte granularity of file writes. Repair by rewriting chunks holds for plain datasets and is disproved for shards."
  },
  {
   "property": "C40",
   "status": "proved",
   "theorems": [
    "Z5.Props.c40_torn_n5_header",
    "Z5.Props.c40_torn_shard",
    "Z5.Props.c40_short_shard",
    "Z5.Props.c40_torn_raw_zarr_counterexample"
   ],
   "note": ""
  },
  {
   "property": "C41",
   "status": "proved",
   "theorems": [
    "Z5.Props.c41_roundtrip",
    "Z5.Props.c41_write_succeeds",
    "Z5.Props.c41_zero_removes",
    "Z5.Props.c41_zarr_rejects",
    "Z5.Props.c41_sharded_rejects",
    "Z5.Props.c41_region_read_throws",
    "Z5.Props.c41_partial_write_throws",
    "Z5.Props.c41_partial_write_overflow_counterexample",
    "Z5.Props.c41_s3_not_reported_counterexample"
   ],
   "note": "c41_partial_write_overflow_counterexample: a partial region write to a varlen chunk that is longer than a regular chunk overflows the buffer. On S3 chunks are not reported as varlen (counterexample)."
  },
  {
   "property": "C42",
   "status": "proved",
   "theorems": [
    "Z5.c42_flags",
    "Z5.c42_conflict",
    "Z5.c42_missing",
    "Z5.c42_exists",
    "Z5.c42_use",
    "Z5.c42_create",
    "Z5.c42_truncate",
    "Z5.c42_reopen",
    "Z5.c42_group_modes",
    "Z5.c42_named",
    "Z5.c42_version_counterexample",
    "Z5.c42_no_version_counterexample",
    "Z5.c42_format_counterexample"
   ],
   "note": "Decision table of File.__init__ over the file-system model; negations for N5 version 10 and for N5 attributes without version; deviation r+ recorded."
  },
  {
   "property": "C43",
   "status": "proved",
   "theorems": [
    "Z5.c43_rejects",
    "Z5.c43_getitem",
    "Z5.c43_getitem_sharded",
    "Z5.c43_set_scalar",
    "Z5.c43_set_scalar_sharded",
    "Z5.c43_set_array",
    "Z5.c43_set_array_sharded",
    "Z5.c43_first_counterexample",
    "Z5.c43_start_counterexample"
   ],
   "note": "Indices of integers, unit-step slices and ellipses, for reads and both kinds of assignment, on plain and sharded datasets. The two places where the code differs from numpy (an integer equal to minus the axis length; a slice starting before that) are excluded by TameIndex and proved as counterexamples for every axis length."
  },
  {
   "property": "C44",
   "status": "proved",
   "theorems": [
    "Z5.c44_shapes",
    "Z5.c44_values",
    "Z5.c44_values_sharded",
    "Z5.c44_shapes_counterexample",
    "Z5.c44_accepts",
    "Z5.c44_accepts_counterexample"
   ],
   "note": "The shape check accepts incompatible shapes when every window starts with a singleton: negation proved for every matrix of at least 2 x 2 into a row. Under the stated guard (trimmed array has no more axes than the selection has non-singleton ones) acceptance implies equal shapes up to singletons, and the values written are those of the array at the same position."
  },
  {
   "property": "C45",
   "status": "proved",
   "theorems": [
    "Z5.c45_existing",
    "Z5.c45_created",
    "Z5.c45_reopen",
    "Z5.c45_all_fill",
    "Z5.c45_all_fill_sharded",
    "Z5.c45_succeeds",
    "Z5.c45_leftover_counterexample",
    "Z5.c45_format_counterexample"
   ],
   "note": "Every container, key and argument list; the array is all fill for every dataset object on the directory. Left-over directories and zarr formats other than 2 and 3 are proved as counterexamples."
  },
  {
   "property": "C46",
   "status": "proved",
   "theorems": [
    "Z5.Props.c46_split",
    "Z5.Props.c46_split_join",
    "Z5.Props.c46_empty_delimiter_counterexample"
   ],
   "note": "Split/join for every non-empty delimiter; empty delimiter counterexample."
  },
  {
   "property": "C47",
   "status": "proved",
   "theorems": [
    "Z5.Props.c47_each_chunk",
    "Z5.Props.c47_each_chunk_in_roi",
    "Z5.Props.c47_each_block",
    "Z5.Props.c47_each_block_in_roi",
    "Z5.Props.c47_empty_roi_counterexample"
   ],
   "note": "Every element is visited exactly once with its own index and region, for parallel_for_each_chunk, parallel_for_each_chunk_in_roi, parallel_for_each_block and its roi variant, any number of threads, provided the number of chunks or blocks fits 64 bits and the roi is not empty; c47_empty_roi_counterexample: an empty roi (begin = end) visits a chunk."
  },
  {
   "property": "C48",
   "status": "proved",
   "theorems": [
    "Z5.c48_requested",
    "Z5.c48_requested_small",
    "Z5.c48_rounded",
    "Z5.c48_reopened",
    "Z5.c48_reopened_n5",
    "Z5.c48_large_counterexample",
    "Z5.Props.c48_double",
    "Z5.Props.c48_float",
    "Z5.Props.c48_float_rounded",
    "Z5.Props.c48_float_overflow_counterexample"
   ],
   "note": "c48_large_counterexample: uint64 2^53+1 becomes 2^53, 2^64-1 is undefined behaviour. N5 keeps only zero (see C27)."
  },
  {
   "property": "C49",
   "status": "proved",
   "theorems": [
    "Z5.c49_group",
    "Z5.c49_dataset",
    "Z5.c49_others",
    "Z5.c49_named_attributes_counterexample",
    "Z5.c49_both_compressions_counterexample",
    "Z5.c49_implicit_parent_counterexample",
    "Z5.c49_reserved_name_counterexample"
   ],
   "note": "Creation, any history of attribute changes and creation of other nodes. Reserved attribute names in N5, documents with both compression entries, implicit parents and reserved node names are proved as counterexamples."
  },
  {
   "property": "C50",
   "status": "proved",
   "theorems": [
    "Z5.c50_listing",
    "Z5.c50_listing_exact",
    "Z5.c50_removed",
    "Z5.c50_others_kept",
    "Z5.c50_remove_exact",
    "Z5.c50_failures_reported",
    "Z5.c50_failed_object_counterexample",
    "Z5.c50_remove_ends",
    "Z5.c50_keys",
    "Z5.c50_keys_error_counterexample",
    "Z5.c50_exists",
    "Z5.c50_in",
    "Z5.c50_in_error_counterexample",
    "Z5.c50_others_changes"
   ],
   "note": "Listing, removal, existence and children over an object store with arbitrary paging, errors and concurrent changes; three negations: per-object failures of a batch are ignored, a failed listing of children is silent, a failed HEAD request is taken for absence."
  },
  {
   "property": "C51",
   "status": "proved",
   "theorems": [
    "Z5.Props.c51_remove_dataset"
   ],
   "note": "Files of the chunks; the removal of the emptied directory is not modelled. Read-only: c35_read_only."
  },
  {
   "property": "C52",
   "status": "proved",
   "theorems": [
    "Z5.c52_confined",
    "Z5.c52_absolute_counterexample"
   ],
   "note": "All modifying operations of the C++ handles and factories and of the Python file/group layer; negation for absolute names in Python."
  },
  {
   "property": "C53",
   "status": "proved",
   "theorems": [
    "Z5.c53_queries"
   ],
   "note": "All queries of the file-system handles and the Python group layer."
  },
  {
   "property": "C54",
   "status": "proved",
   "theorems": [
    "Z5.Props.c54_crash_objects",
    "Z5.Props.c54_sharded_crash_objects",
    "Z5.Props.c54_crash_readable",
    "Z5.Props.c54_sharded_crash_readable",
    "Z5.Props.c54_chunk_calls",
    "Z5.Props.c54_sharded_chunk_calls",
    "Z5.Props.c54_files_counterexample"
   ],
   "note": "Plain and sharded datasets; region writes and chunk calls."
  },
  {
   "property": "C55",
   "status": "proved",
   "theorems": [
    "Z5.Props.c55_requests",
    "Z5.Props.c55_read",
    "Z5.Props.c55_sharded_read",
    "Z5.Props.c55_write",
    "Z5.Props.c55_sharded_write",
    "Z5.Props.c55_write_readable",
    "Z5.Props.c55_sharded_write_readable",
    "Z5.Props.c55_head_read_counterexample",
    "Z5.Props.c55_head_write_counterexample"
   ],
   "note": "Faults of GET, PUT and DELETE; the behaviour on failing HEAD requests is a pair of counterexamples. That a request error means what the code takes it for (not-found versus other) is assumed."
  },
  {
   "property": "C56",
   "status": "proved",
   "theorems": [
    "Z5.c56_change",
    "Z5.c56_readonly",
    "Z5.c56_read",
    "Z5.c56_history",
    "Z5.c56_metadata",
    "Z5.c56_head_counterexample",
    "Z5.c56_race_counterexample"
   ],
   "note": "Events of other clients and failing HEAD requests are excluded from the positive theorems and are the counterexamples."
  },
  {
   "property": "C57",
   "status": "proved",
   "theorems": [
    "Z5.c57_refused",
    "Z5.c57_created",
    "Z5.c57_atomic",
    "Z5.c57_succeeds",
    "Z5.c57_reopen",
    "Z5.c57_all_fill",
    "Z5.c57_created_attributes",
    "Z5.c57_group",
    "Z5.c57_file",
    "Z5.c57_n5_group_counterexample",
    "Z5.c57_throws_counterexample",
    "Z5.c57_head_counterexample",
    "Z5.c57_race_counterexample"
   ],
   "note": "Events of other clients and failing HEAD requests are excluded from the positive theorems and are the counterexamples."
  },
  {
   "property": "C58",
   "status": "proved",
   "theorems": [
    "Z5.c58_s3",
    "Z5.c58_s3_listing_counterexample",
    "Z5.c58_s3_empty_name_counterexample",
    "Z5.c58_visititems",
    "Z5.c58_implicit_parent_counterexample",
    "Z5.c58_relative_path"
   ],
   "note": "That every member can be opened is a hypothesis; that the callback does not change the container is a simplification."
  },
  {
   "property": "C59",
   "status": "proved",
   "theorems": [
    "Z5.c59_v2_read",
    "Z5.c59_v2_keys",
    "Z5.c59_n5_read",
    "Z5.c59_n5_read_old",
    "Z5.c59_v3_read",
    "Z5.c59_v3_keys",
    "Z5.c59_v2_write",
    "Z5.c59_n5_write",
    "Z5.c59_v3_write",
    "Z5.c59_zarr_accepts",
    "Z5.c59_n5_accepts",
    "Z5.c59_endian_counterexample",
    "Z5.c59_index_counterexample",
    "Z5.c59_codecs_counterexample",
    "Z5.c59_transpose_counterexample"
   ],
   "note": "The formats are specified in Spec/Formats.lean after their published specifications, not after the code. c59_endian/index/codecs/transpose_counterexample: unsupported zarr v3 documents that are accepted."
  },
  {
   "property": "C60",
   "status": "proved",
   "theorems": [
    "Z5.c60_created",
    "Z5.c60_succeeds",
    "Z5.c60_refuses",
    "Z5.c60_gzip_counterexample",
    "Z5.c60_clevel_counterexample",
    "Z5.c60_shards_counterexample",
    "Z5.c60_empty_counterexample"
   ],
   "note": "c60_created, c60_succeeds and c60_refuses cover what is stored, what is accepted and what is refused; four counterexamples name where the code departs from the property"
  },
  {
   "property": "C61",
   "status": "proved",
   "theorems": [
    "Z5.c61_existing",
    "Z5.c61_group",
    "Z5.c61_new",
    "Z5.c61_again",
    "Z5.c61_again_counterexample",
    "Z5.c61_parents_counterexample"
   ],
   "note": "the four cases of the state, repetition, and two counterexamples"
  },
  {
   "property": "C62",
   "status": "proved",
   "theorems": [
    "Z5.c62_group",
    "Z5.c62_dataset",
    "Z5.c62_n5_counterexample",
    "Z5.c62_s3_group",
    "Z5.c62_s3_dataset",
    "Z5.c62_s3_n5_counterexample"
   ],
   "note": "groups, roots and zarr datasets, on files and on S3; c62_n5_counterexample, c62_s3_n5_counterexample: writing the metadata of an N5 dataset deletes its attributes"
  },
  {
   "property": "C63",
   "status": "proved",
   "theorems": [
    "Z5.Props.c63_write_succeeds",
    "Z5.Props.c63_write_frame",
    "Z5.Props.c63_call_frame",
    "Z5.Props.c63_read_after_write",
    "Z5.Props.c63_concurrent_calls",
    "Z5.Props.c63_progress",
    "Z5.Props.c63_odd_delimiter_counterexample"
   ],
   "note": "the delimiter is without '/' or is '/' (c63_odd_delimiter_counterexample otherwise)"
  },
  {
   "property": "C64",
   "status": "proved",
   "theorems": [
    "Z5.Props.c64_read",
    "Z5.Props.c64_reopen",
    "Z5.Props.c64_write_succeeds",
    "Z5.Props.c64_write_frame",
    "Z5.Props.c64_intermediate_group_counterexample"
   ],
   "note": "Assumes that the metadata can describe the dataset: values have the types of the C++ parameters, zarr version 2 or 3, and for N5 the fill value zero (N5 does not store it, see C45). A zarr dataset is opened from a directory that is marked as a zarr group; c64_intermediate_group_counterexample shows that a directory made on the way by createDataset is not and that opening from there reads other chunk files. The theorem says that the data type of the reopened dataset is the one it was created with; the choice of the C++ element type from it is ElemTypes of Model/Opened.lean."
  },
  {
   "property": "C65",
   "status": "proved",
   "theorems": [
    "Z5.Props.c65_group_handle",
    "Z5.Props.c65_dataset_handle",
    "Z5.Props.c65_remove_dataset",
    "Z5.Props.c65_remove_dataset_one_thread",
    "Z5.Props.c65_remove_dataset_read_only",
    "Z5.Props.c65_del_refused",
    "Z5.Props.c65_del_group",
    "Z5.Props.c65_del_dataset",
    "Z5.Props.c65_afterwards",
    "Z5.Props.c65_sharded_race_counterexample",
    "Z5.Props.c65_torn_shard_counterexample",
    "Z5.Props.c65_slash_counterexample"
   ],
   "note": "For datasets with shards the theorem is for one thread, which is what Python uses; c65_sharded_race_counterexample shows that with two threads removeDataset can throw and leave the dataset. A shard that had to be written again without one of its chunks and would exceed 2^63 bytes is reported as std::length_error; the theorem keeps this case. The number of chunks is below 2^64."
  },
  {
   "property": "C66",
   "status": "proved",
   "theorems": [
    "Z5.Props.c66_contains",
    "Z5.Props.c66_getitem",
    "Z5.Props.c66_keys",
    "Z5.Props.c66_visititems",
    "Z5.Props.c66_create_group",
    "Z5.Props.c66_require_group",
    "Z5.Props.c66_create_array",
    "Z5.Props.c66_require_array",
    "Z5.Props.c66_delete",
    "Z5.Props.c66_read",
    "Z5.Props.c66_open",
    "Z5.Props.c66_write",
    "Z5.Props.c66_group_attributes",
    "Z5.Props.c66_array_attributes",
    "Z5.Props.c66_reopen",
    "Z5.Props.c66_through_array_counterexample",
    "Z5.Props.c66_reserved_name_counterexample"
   ],
   "note": "Names: not those of the metadata files (c66_reserved_name_counterexample), and not leading through an array (c66_through_array_counterexample); create_group, require_group and require_dataset are covered for names whose parent exists (missing parents: c49_implicit_parent), create_dataset also creates its parents. Arguments of create_dataset are within the limits listed in PyCreateArgs.Asks; create_dataset with data= is create_dataset followed by a write. Failed calls are not steps of a history: refusals change nothing, and a failed write or delete of an array with shards (length_error) ends it."
  },
  {
   "property": "C67",
   "status": "proved",
   "theorems": [
    "Z5.Props.c67_step",
    "Z5.Props.c67_history",
    "Z5.Props.c67_enough",
    "Z5.Props.c67_del_missing_counterexample",
    "Z5.Props.c67_clear_n5_file"
   ],
   "note": "c67_step relates each of the 13 operations to a specification of a dict with locked keys (Spec/PyAttrs.lean, which does not mention files); c67_history lifts it to histories; clear() is a loop, proved to terminate. Deviations: del of a missing key does not raise (c67_del_missing_counterexample); clear() on an N5 file always raises (c67_clear_n5_file). The JSON text that passes between Python and C++ is not modelled."
  },
  {
   "property": "C68",
   "status": "proved",
   "theorems": [
    "Z5.Props.c68_roundtrip",
    "Z5.Props.c68_compress_defined",
    "Z5.Props.c68_lawful",
    "Z5.Props.c68_all_lawful",
    "Z5.Props.c68_safe",
    "Z5.Props.c68_total",
    "Z5.Props.c68_too_large",
    "Z5.Props.c68_zlib_4GiB_counterexample",
    "Z5.Props.c68_bzip2_4GiB_counterexample",
    "Z5.Props.c68_blosc_short_input_counterexample",
    "Z5.Props.c68_short_data_counterexample",
    "Z5.Props.c68_bzip2_buffer_counterexample"
   ],
   "note": "The libraries are parameters with contracts from their documentation (Spec/Compressors.lean); everything z5 does around the calls (buffer sizes, conversions to 32 bits, loops, return codes) is modelled. c68_all_lawful discharges the assumption on compressors in the other properties. Counterexamples: a chunk of 4 GiB is silently lost with stock zlib and bzip2; the bzip2 buffer is smaller than documented; blosc reads beyond short inputs."
  },
  {
   "property": "C69",
   "status": "proved",
   "theorems": [
    "Z5.Props.c69_reads_only",
    "Z5.Props.c69_file",
    "Z5.Props.c69_file_exists",
    "Z5.Props.c69_member",
    "Z5.Props.c69_methods",
    "Z5.Props.c69_no_parent_counterexample",
    "Z5.Props.c69_absolute_counterexample"
   ],
   "note": "For containers as in C66 (any history of Python calls). Names that are created have no leading slash; the parents of create_group and require_group exist. Names with doubled slashes are shortened. Counterexamples: create_group of a name whose parents are missing (zarr) or with a leading slash. S3File is not modelled."
  },
  {
   "property": "C70",
   "status": "proved",
   "theorems": [
    "Z5.Props.c70_stored",
    "Z5.Props.c70_integer_exact",
    "Z5.Props.c70_float_exact",
    "Z5.Props.c70_assign",
    "Z5.Props.c70_assign_sharded",
    "Z5.Props.c70_complex",
    "Z5.Props.c70_complex_dataset_counterexample",
    "Z5.Props.c70_too_large_counterexample",
    "Z5.Props.c70_float_counterexample",
    "Z5.Props.c70_rounded_counterexample"
   ],
   "note": "What nanobind converts (nb::cast) is a contract (NbCast.Ok). Counterexamples: integers outside the 64-bit type of the sign of the data type (-1 for every unsigned type), NaN, infinities and too large floats for integer types are undefined behaviour; datasets of complex numbers cannot be assigned to at all. An integer assigned to float32 that is not a float is rounded twice and not in the statement; doubles beyond the largest float are undefined behaviour in C++."
  },
  {
   "property": "C71",
   "status": "proved",
   "theorems": [
    "Z5.Props.c71_read",
    "Z5.Props.c71_read_region",
    "Z5.Props.c71_write_region",
    "Z5.Props.c71_write_iff",
    "Z5.Props.c71_varlen_zarr",
    "Z5.Props.c71_failed",
    "Z5.Props.c71_outside",
    "Z5.Props.c71_sharded_read",
    "Z5.Props.c71_sharded_write",
    "Z5.Props.c71_sharded_failed",
    "Z5.Props.c71_shape_ignored_counterexample",
    "Z5.Props.c71_s3_varlen_counterexample",
    "Z5.Props.c71_full_chunk_counterexample",
    "Z5.Props.c71_race_counterexample"
   ],
   "note": "Counterexamples: the shape of the array is ignored by write_chunk; varlen chunks on S3, N5 chunks at the end of the array that others have stored in full size, and a varlen chunk that is written during read_chunk make read_chunk write past the end of its result."
  },
  {
   "property": "C72",
   "status": "proved",
   "theorems": [
    "Z5.Props.c72_read",
    "Z5.Props.c72_read_sharded",
    "Z5.Props.c72_read_iff",
    "Z5.Props.c72_read_rejects_sharded",
    "Z5.Props.c72_write_iff",
    "Z5.Props.c72_write",
    "Z5.Props.c72_write_sharded",
    "Z5.Props.c72_roundtrip",
    "Z5.Props.c72_roundtrip_sharded",
    "Z5.Props.c72_read_direct",
    "Z5.Props.c72_write_direct",
    "Z5.Props.c72_short_start_counterexample",
    "Z5.Props.c72_long_start_counterexample",
    "Z5.Props.c72_wrap_counterexample",
    "Z5.Props.c72_step_ignored_counterexample",
    "Z5.Props.c72_open_slice_counterexample"
   ],
   "note": "Contracts of numpy for indexing and assignment with slices are hypotheses (NpPicks, NpAssigns). Counterexamples: a start with too few coordinates is undefined behaviour in write_subarray, additional coordinates are ignored, coordinates near 2^64 wrap around the check, steps are ignored and open slices raise in read_direct and write_direct."
  },
  {
   "property": "C73",
   "status": "proved",
   "theorems": [
    "Z5.Props.c73_opened",
    "Z5.Props.c73_created",
    "Z5.Props.c73_reopened",
    "Z5.Props.c73_name",
    "Z5.Props.c73_passed_on",
    "Z5.Props.c73_not_passed_on",
    "Z5.Props.c73_raw_counterexample",
    "Z5.Props.c73_bzip2_counterexample",
    "Z5.Props.c73_gzip_counterexample"
   ],
   "note": "The documentation of compression_opts says that it can be passed to create_dataset; c73_not_passed_on shows that this never works for blosc (the default of zarr), bzip2 in zarr v2 and gzip in zarr v3. Sizes and chunk numbers are right if they fit 64 bits, ndim if it fits 32 bits."
  },
  {
   "property": "C74",
   "status": "proved",
   "theorems": [
    "Z5.Props.c74_getitem",
    "Z5.Props.c74_set_array",
    "Z5.Props.c74_set_number",
    "Z5.Props.c74_read_only",
    "Z5.Props.c74_create_with_data",
    "Z5.Props.c74_read_all"
   ],
   "note": "Composes C43/C44 (indices) with C66 (containers). Elements that compare equal to the fill value may come back as the fill value (SameOrFill), which for integers is equality. A ValueError for an array of the same number of elements, but with other axes of length one, is not excluded (C44 says which are accepted). The library differs from numpy for indices that are minus the length of the axis (C43)."
  },
  {
   "property": "C75",
   "status": "proved",
   "theorems": [
    "Z5.Props.c75_attributes_complete",
    "Z5.Props.c75_attributes",
    "Z5.Props.c75_dataset_v2",
    "Z5.Props.c75_dataset",
    "Z5.Props.c75_create_dataset_complete",
    "Z5.Props.c75_create_group_complete",
    "Z5.Props.c75_create_file_complete",
    "Z5.Props.c75_create_dataset",
    "Z5.Props.c75_create_group",
    "Z5.Props.c75_create_file",
    "Z5.Props.c75_remove_dataset_complete",
    "Z5.Props.c75_remove_group_complete",
    "Z5.Props.c75_remove_dataset",
    "Z5.Props.c75_remove_group",
    "Z5.Props.c75_attributes_lost_counterexample",
    "Z5.Props.c75_dataset_lost_counterexample",
    "Z5.Props.c75_create_stuck_counterexample",
    "Z5.Props.c75_create_group_counterexample",
    "Z5.Props.c75_create_file_counterexample",
    "Z5.Props.c75_remove_counterexample"
   ],
   "note": "Steps of the operations are modelled one by one and shown to have, without a crash, the effect of the functions used elsewhere. What a crash leaves of a document is any of a family of byte strings, which the JSON parser is assumed to reject (the empty file and every proper prefix of an object are rejected by a JSON parser). The damage itself is shown by six counterexamples."
  },
  {
   "property": "C76",
   "status": "proved",
   "theorems": [
    "Z5.Props.c76_alone",
    "Z5.Props.c76_apart",
    "Z5.Props.c76_finishes",
    "Z5.Props.c76_different_nodes",
    "Z5.Props.c76_attributes",
    "Z5.Props.c76_chunks",
    "Z5.Props.c76_no_chunks",
    "Z5.Props.c76_region_write",
    "Z5.Props.c76_lost_update_counterexample",
    "Z5.Props.c76_torn_read_counterexample",
    "Z5.Props.c76_create_twice_counterexample"
   ],
   "note": "Steps are accesses to one file or directory, as in C75; a document is written in several steps. The files a call may touch are counted without regard to the layout (all five document names of its node and of the group it goes through); creation is covered in existing groups only. Undefined behaviour in one process is not taken to harm others, and there is one common file system without caches (no NFS)."
  },
  {
   "property": "C77",
   "status": "proved",
   "theorems": [
    "Z5.c77_open",
    "Z5.c77_created",
    "Z5.c77_refused",
    "Z5.c77_truncated",
    "Z5.c77_truncate_ends",
    "Z5.c77_outside",
    "Z5.c77_truncate_interrupted",
    "Z5.c77_pickle",
    "Z5.c77_n5_counterexample",
    "Z5.c77_truncate_counterexample",
    "Z5.c77_race_counterexample"
   ],
   "note": "The service is the model of C50. For the results by mode, and for truncation, nobody else changes the bucket and failed requests are reported as such (a HEAD request fails only if there is no object; C57); that other objects are left alone holds without this. Credentials, endpoints and the missing-SDK error are not modelled."
  },
  {
   "property": "C78",
   "status": "proved",
   "theorems": [
    "Z5.Props.c78_read",
    "Z5.Props.c78_reopen",
    "Z5.Props.c78_write_succeeds",
    "Z5.Props.c78_write_frame",
    "Z5.Props.c78_intermediate_group_counterexample"
   ],
   "note": "The S3 counterpart of C64. Requests of openDataset, createDataset and of attribute calls may fail (visibly, C57), those of reads and writes of chunks succeed; within one call two requests on the same object take effect one after the other, as S3 guarantees (strong consistency)."
  },
  {
   "property": "C79",
   "status": "proved",
   "theorems": [
    "Z5.Props.c79_contains",
    "Z5.Props.c79_getitem",
    "Z5.Props.c79_keys",
    "Z5.Props.c79_visititems",
    "Z5.Props.c79_create_group",
    "Z5.Props.c79_require_group",
    "Z5.Props.c79_require_array",
    "Z5.Props.c79_create_array",
    "Z5.Props.c79_delete",
    "Z5.Props.c79_read",
    "Z5.Props.c79_open",
    "Z5.Props.c79_write",
    "Z5.Props.c79_group_attributes",
    "Z5.Props.c79_array_attributes",
    "Z5.Props.c79_reopen",
    "Z5.Props.c79_slash_counterexample"
   ],
   "note": "The S3 counterpart of C66. `create_dataset` is covered for the types that can be opened on S3 (complex types throw, C57). A deletion of an array with shards may stop with a length_error (C49); objects outside of the array are unchanged then."
  },
  {
   "property": "C80",
   "status": "proved",
   "theorems": [
    "Z5.Props.c80_nearest",
    "Z5.Props.c80_overflow",
    "Z5.Props.c80_document",
    "Z5.Props.c80_injective",
    "Z5.Props.c80_attribute",
    "Z5.Props.c80_lossy",
    "Z5.Props.c80_nan_refused",
    "Z5.Props.c80_torn",
    "Z5.Props.c80_torn_line",
    "Z5.Props.c80_disk",
    "Z5.Props.c80_integer_counterexample",
    "Z5.Props.c80_nan_counterexample",
    "Z5.Props.c80_number_counterexample"
   ],
   "note": "The libraries (nlohmann::json, Python's json) are not part of /repo; what is modelled is their documented behaviour for the calls the code makes. The digits that they choose for a double are a parameter with a contract (a JSON number with a fraction or an exponent to which the double is nearest); that there are such digits is shown (`exactDigits_lawful`). Custom encoders and decoders are not modelled."
  },
  {
   "property": "C81",
   "status": "proved",
   "theorems": [
    "Z5.Props.c81_read_zarr",
    "Z5.Props.c81_update_zarr",
    "Z5.Props.c81_written_zarr",
    "Z5.Props.c81_read_n5",
    "Z5.Props.c81_update_n5",
    "Z5.Props.c81_written_n5",
    "Z5.Props.c81_write_succeeds",
    "Z5.Props.c81_read_sharded",
    "Z5.Props.c81_update_sharded",
    "Z5.Props.c81_written_sharded",
    "Z5.Props.c81_write_succeeds_sharded"
   ],
   "note": "The specification (`Spec/Exchange`) is written after the documents of zarr and N5, independently of the model. The byte streams of the compressors belong to their libraries: a chunk conforms if decompressing it gives its bytes (C68 says which compressors are meant by which names). The metadata documents are C59."
  },
  {
   "property": "C82",
   "status": "proved",
   "theorems": [
    "Z5.Props.c82_parse",
    "Z5.Props.c82_read",
    "Z5.Props.c82_file",
    "Z5.Props.c82_loads",
    "Z5.Props.c82_unique",
    "Z5.Props.c82_members",
    "Z5.Props.c82_rewrite",
    "Z5.Props.c82_written"
   ],
   "note": "The parsers belong to nlohmann::json and Python and are modelled after their documentation (see C80); the grammar (`Spec/JsonGrammar`) is written after RFC 8259 and knows nothing of them. That everything else is refused is shown for nlohmann::json only (Python also accepts NaN and Infinity, and lone surrogates, which the model leaves out)."
  },
  {
   "property": "C83",
   "status": "proved",
   "theorems": [
    "Z5.Props.c83_open",
    "Z5.Props.c83_getitem",
    "Z5.Props.c83_update",
    "Z5.Props.c83_write_succeeds",
    "Z5.Props.c83_created",
    "Z5.Props.c83_bytes",
    "Z5.Props.c83_text",
    "Z5.Props.c83_null_fill_counterexample",
    "Z5.Props.c83_sessions",
    "Z5.Props.c83_attributes"
   ],
   "note": "Within the limits of the implementation (`ArrayDesc.Supported`: shapes below 2^31, chunks below 4 GiB). Compressed streams are those that the compression library decompresses. Undefined behaviour for integer arrays without a fill value (`c83_null_fill_counterexample`); an N5 document with the present and the former entry for the compression is not found by name from Python (hypothesis `NoGroup`, `c49_both_compressions_counterexample`)."
  },
  {
   "property": "C84",
   "status": "proved",
   "theorems": [
    "Z5.Props.c84_open",
    "Z5.Props.c84_complex",
    "Z5.Props.c84_getitem",
    "Z5.Props.c84_update",
    "Z5.Props.c84_write_succeeds",
    "Z5.Props.c84_created",
    "Z5.Props.c84_bytes",
    "Z5.Props.c84_text",
    "Z5.Props.c84_sessions",
    "Z5.Props.c84_attributes",
    "Z5.Props.c84_root_counterexample"
   ],
   "note": "The name is not empty: an array that is the bucket itself opens and reads as the fill value (`c84_root_counterexample`). Within the limits of the implementation (`ArrayDesc.Supported`). The service answers reliably (requests succeed or report that an object does not exist, and reads see the last write)."
  },
  {
   "property": "C85",
   "status": "proved",
   "theorems": [
    "Z5.Props.c85_open",
    "Z5.Props.c85_look",
    "Z5.Props.c85_read",
    "Z5.Props.c85_attributes",
    "Z5.Props.c85_bytes",
    "Z5.Props.c85_continue"
   ],
   "note": "Elements that compare equal to the fill value may be stored as the fill value (`Tree.StoredAs`), as by C46. Names of documents (.zgroup, ...) are not names of nodes; every array has a fill value that its data type represents, is within the limits of the implementation (`ArrayDesc.Supported`), and in N5 has not both of the attributes compression and compressionType; the version of N5 in the root has a first digit of at most 4."
  },
  {
   "property": "C86",
   "status": "proved",
   "theorems": [
    "Z5.Props.c86_open",
    "Z5.Props.c86_look",
    "Z5.Props.c86_read",
    "Z5.Props.c86_attributes",
    "Z5.Props.c86_bytes",
    "Z5.Props.c86_continue"
   ],
   "note": "As C85, for zarr on S3. Arrays of complex numbers are not opened on S3 (c84_complex), and an array that is the bucket itself is not read (c84_root_counterexample); a container has a group at its root, so the latter does not occur here. Elements that compare equal to the fill value may be stored as the fill value (`Tree.StoredAs`)."
  },
  {
   "property": "C87",
   "status": "proved",
   "theorems": [
    "Z5.Props.c87_getitem",
    "Z5.Props.c87_set_array",
    "Z5.Props.c87_set_number",
    "Z5.Props.c87_read_all",
    "Z5.Props.c87_create_with_data",
    "Z5.Props.c87_read_only"
   ],
   "note": "As C74, for containers on S3. Chunk requests are answered (C55 says what happens when they fail). ds[-n] and ds[-m:] with m > n differ from numpy (c43_first_counterexample, c43_start_counterexample) and are excluded (`TameIndex`). An element that compares equal to the fill value may come back as the fill value (a difference for -0.0 only)."
  },
  {
   "property": "C88",
   "status": "proved",
   "theorems": [
    "Z5.Props.c88_deterministic",
    "Z5.Props.c88_together",
    "Z5.Props.c88_succeeds"
   ],
   "note": "Calls on different arrays share directories, and so do calls on one array with nested chunks: whichever task comes first makes them. Calls with a chunk in common may lose elements (C15); calls that create or remove nodes at the same time are not covered."
  },
  {
   "property": "C89",
   "status": "proved",
   "theorems": [
    "Z5.Props.c89_deterministic",
    "Z5.Props.c89_together",
    "Z5.Props.c89_succeeds"
   ],
   "note": "As C88, with requests in place of file operations. The requests on chunks succeed, as in C78."
  },
  {
   "property": "C90",
   "status": "proved",
   "theorems": [
    "Z5.Props.c90_read",
    "Z5.Props.c90_while_writing",
    "Z5.Props.c90_s3_read",
    "Z5.Props.c90_s3_while_writing"
   ],
   "note": "Files are written byte by byte, objects as a whole. Reading a file while it is being written is not among the cases (the calls must not share a file with the region)."
  },
  {
   "property": "C91",
   "status": "proved",
   "theorems": [
    "Z5.Props.c91_objects",
    "Z5.Props.c91_crash"
   ],
   "note": "putObject and deleteObject replace an object as a whole (a property of S3); on files this is false (`c54_files_counterexample`). The calls are those that would succeed without the interruption. An element may have become the fill value if it compares equal to it, as in C86."
  },
  {
   "property": "C92",
   "status": "proved",
   "theorems": [
    "Z5.Props.c92_files",
    "Z5.Props.c92_cleaned",
    "Z5.Props.c92_crash"
   ],
   "note": "Without the removal it is false: `c54_files_counterexample` (a file that was cut off is neither old nor new). The calls are those that would succeed without the interruption. An element may have become the fill value if it compares equal to it, as in C85."
  },
  {
   "property": "C93",
   "status": "proved",
   "theorems": [
    "Z5.Props.c93_s3",
    "Z5.Props.c93_clear",
    "Z5.Props.c93_salvaged",
    "Z5.Props.c93_files"
   ],
   "note": "The theorems state one attempt from any state that interrupted attempts can leave, and that a further interruption leaves such a state again, so any number of attempts follows by iteration. For calls on files that write only a part of a chunk, the old elements of a chunk whose file was cut off are lost (`c54_files_counterexample`), so the restriction is needed. An element may have become the fill value if it compares equal to it, as in C85 and C86."
  },
  {
   "property": "C94",
   "status": "proved",
   "theorems": [
    "Z5.Props.c94_chunks",
    "Z5.Props.c94_kept",
    "Z5.Props.c94_others",
    "Z5.Props.c94_again",
    "Z5.Props.c94_group_again",
    "Z5.Props.c94_left",
    "Z5.Props.c94_stuck_counterexample"
   ],
   "note": "For arrays with shards the theorems about completing the deletion are not stated, as `del` itself may fail with a `length_error` (C79). The requests that delete single chunks of an array do not fail in the model (as in C79). `c94_stuck_counterexample`: when the document of a group is deleted and something in it is left, `name in group` is true, but the group cannot be opened and `del` raises an error for good; only the handle can remove it."
  },
  {
   "property": "C95",
   "status": "proved",
   "theorems": [
    "Z5.Props.c95_chunks",
    "Z5.Props.c95_remove_group",
    "Z5.Props.c95_remove_dataset",
    "Z5.Props.c95_create_group",
    "Z5.Props.c95_create_dataset",
    "Z5.Props.c95_group_attributes",
    "Z5.Props.c95_array_attributes"
   ],
   "note": "Arrays with shards are not in the theorem about removing a dataset, as in C66 (`del` may fail with a `length_error`). `remove_all` is taken to remove everything there is, in any order with what is in a directory before the directory (`Disk.Removes`). `c95_chunks` is about the moments between the deletions of two chunks (one removal of a file each, for arrays without shards). That `del` may be unable to remove what is left is C75 (`c75_remove_counterexample`, `c75_create_stuck_counterexample`)."
  },
  {
   "property": "C96",
   "status": "proved",
   "theorems": [
    "Z5.Props.c96_group",
    "Z5.Props.c96_dataset",
    "Z5.Props.c96_different_counterexample",
    "Z5.Props.c96_torn_counterexample"
   ],
   "note": "The calls are those of the C++ library; that create_group of Python first looks whether the name is there is not part of the theorem. The processes write the same document, so that the order of their pieces makes no difference to the complete document; that pieces of different lengths of one document overlap is not modelled: a document that is being written is a file with any contents."
  },
  {
   "property": "C97",
   "status": "proved",
   "theorems": [
    "Z5.Props.c97_attributes",
    "Z5.Props.c97_group_attributes",
    "Z5.Props.c97_array_attributes",
    "Z5.Props.c97_open",
    "Z5.Props.c97_open_counterexample",
    "Z5.Props.c97_torn_counterexample"
   ],
   "note": "One process writes, the others only read; several writers are the subject of C76 and C96. A document that is being written is a file with any contents that is no document. The elements of the array are not read here."
  },
  {
   "property": "C98",
   "status": "proved",
   "theorems": [
    "Z5.Props.c98_attributes",
    "Z5.Props.c98_group",
    "Z5.Props.c98_array",
    "Z5.Props.c98_open",
    "Z5.Props.c98_created",
    "Z5.Props.c98_open_counterexample"
   ],
   "note": "HEAD requests are answered in these runs (an error of HEAD is taken for absence, C56); the changes of others are arbitrary functions on the bucket, each state being constrained as said. All parts are about zarr containers, which are the containers that S3 histories (C79) describe."
  },
  {
   "property": "C99",
   "status": "proved",
   "theorems": [
    "Z5.Props.c99_change",
    "Z5.Props.c99_group",
    "Z5.Props.c99_array",
    "Z5.Props.c99_create_group",
    "Z5.Props.c99_create_dataset",
    "Z5.Props.c99_create_counterexample"
   ],
   "note": "All parts are about zarr containers. Clients that change the document of the same node are outside the claim: one of the changes can be lost (`c56_race_counterexample`, `c99_create_counterexample`). HEAD requests are answered (C56, `c56_head_counterexample`)."
  },
  {
   "property": "C100",
   "status": "proved",
   "theorems": [
    "Z5.Props.c100_change",
    "Z5.Props.c100_create",
    "Z5.Props.c100_create_n5",
    "Z5.Props.c100_create_group",
    "Z5.Props.c100_create_file",
    "Z5.Props.c100_require_group",
    "Z5.Props.c100_create_group_python",
    "Z5.Props.c100_require_group_v3",
    "Z5.Props.c100_create_counterexample",
    "Z5.Props.c100_require_counterexample"
   ],
   "note": "That a change can be lost is `c56_race_counterexample`. In a zarr v3 node the metadata and the attributes are in one document, so that metadata that others change meanwhile could be lost too; here they do not change them. HEAD requests are answered. That both of two clients that create the same dataset can get an object is `c99_create_counterexample`. That a group takes over the name of a dataset that another client creates meanwhile is `c100_create_counterexample`. That `require_group` can be refused for this reason is `c100_require_counterexample`."
  }
 ]
}
