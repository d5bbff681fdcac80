{
 "claims": [
  {
   "property": "C01",
   "status": "proved",
   "theorems": [
    "Riptide.Work.chunk_work_each_row_once",
    "Riptide.Work.counted_work_each_item_once",
    "Riptide.Work.no_item_started_twice",
    "Riptide.Work.other_block_size_overruns"
   ],
   "note": "all lengths, worker counts and schedules of the pool protocol; block size is the fixed chunk used by every generic caller (other_block_size_overruns shows why it matters)"
  },
  {
   "property": "C02",
   "status": "proved",
   "theorems": [
    "Riptide.Work.no_worker_touches_item_outside_operation",
    "Riptide.Work.no_late_callback"
   ],
   "note": "protocol model with one submitting thread, any number of workers, interrupts at any time"
  },
  {
   "property": "C03",
   "status": "proved",
   "theorems": [
    "Riptide.Work.segmentBins_tile"
   ],
   "note": "needs at least one worker to wake; with zero the code yields no bands (example)"
  },
  {
   "property": "C04",
   "status": "proved",
   "theorems": [
    "Riptide.Mask.count_true_exact",
    "Riptide.Mask.parallel_count_true_exact"
   ],
   "note": "Any length, stride, byte values and schedule."
  },
  {
   "property": "C05",
   "status": "partial",
   "theorems": [
    "Riptide.Mask.boolean_index_exact_partial",
    "Riptide.Mask.boolean_index_strided_odd_item_writes_out_of_bounds"
   ],
   "note": "Proved for every case except contiguous mask + strided values + item size not in {1,2,4,8}, where the code writes out of bounds (witness proved)."
  },
  {
   "property": "C06",
   "status": "partial",
   "theorems": [
    "Riptide.Mask.boolean_to_fancy_exact_partial",
    "Riptide.Mask.fancy_index_ignores_stride"
   ],
   "note": "Proved for contiguous masks; the code ignores the stride of a strided mask (witness proved)."
  },
  {
   "property": "C07",
   "status": "partial",
   "theorems": [
    "Riptide.Take.fancy_get_exact_partial",
    "Riptide.Take.unsigned_index_top_bit_gives_default",
    "Riptide.Take.unsigned_index_variable_item_never_terminates",
    "Riptide.Take.unsigned_index_variable_item_leaves_garbage",
    "Riptide.Take.unsigned_index_variable_item_reads_out_of_bounds",
    "Riptide.Take.strided_values_parallel_writes_out_of_bounds"
   ],
   "note": "Proved for signed index dtypes (all item sizes) and unsigned dtypes with fixed item sizes and arrays up to half the index range, contiguous values in parallel runs; the code is wrong outside these guards (witnesses proved)."
  },
  {
   "property": "C08",
   "status": "proved",
   "theorems": [
    "Riptide.Take.reverse_shuffle_inverse",
    "Riptide.Take.reverse_shuffle_in_bounds"
   ],
   "note": ""
  },
  {
   "property": "C09",
   "status": "proved",
   "theorems": [
    "Riptide.Hash.ismember_first_match",
    "Riptide.Hash.ismember_small_first_match",
    "Riptide.Hash.index_fits",
    "Riptide.Hash.full_table_fails",
    "Riptide.Hash.small_keys_prime_mode_out_of_bounds"
   ],
   "note": "Full for all hash functions and tables with a free slot, and for 1/2-byte keys in tables with a slot per key; the categorical path with 1/2-byte keys in prime mode is out of bounds (witness)."
  },
  {
   "property": "C10",
   "status": "partial",
   "theorems": [
    "Riptide.Hash.ismember_float_partial",
    "Riptide.Hash.nan_never_member",
    "Riptide.Hash.signed_zeros_not_found"
   ],
   "note": "Holds when not both zeros occur; +0.0/-0.0 can be missed (witness)."
  },
  {
   "property": "C11",
   "status": "partial",
   "theorems": [
    "Riptide.Hash.prime_size_partial",
    "Riptide.Hash.prime_size_too_large",
    "Riptide.Hash.mask_size",
    "Riptide.Hash.mask_is_remainder",
    "Riptide.Hash.sized_table_never_full",
    "Riptide.Hash.small_hint_fails"
   ],
   "note": "Mask mode up to 2^59 keys; prime mode below the last prime of the table; beyond it the size is 0 (witness)."
  },
  {
   "property": "C12",
   "status": "partial",
   "theorems": [
    "Riptide.Hash.ismember_str_same_width",
    "Riptide.Hash.ismember_str_partial",
    "Riptide.Hash.inner_nul_matches_prefix",
    "Riptide.Hash.ismember_str_categorical_partial"
   ],
   "note": "Holds for strings without inner NUL characters; with them a prefix matches (witness)."
  },
  {
   "property": "C13",
   "status": "partial",
   "theorems": [
    "Riptide.Hash.groupby_first_appearance",
    "Riptide.Hash.groupby_small_first_appearance",
    "Riptide.Hash.groupby_multikey_first_appearance",
    "Riptide.Hash.groupby_sized",
    "Riptide.Hash.numbering_unique",
    "Riptide.Hash.small_keys_prime_mode_merges",
    "Riptide.Hash.groupby_float_bits",
    "Riptide.Hash.groupby_small_hint_fails"
   ],
   "note": "Full for all keys and hash functions compared by bytes; 1/2-byte keys in prime mode merge groups and float zeros are separate groups (witnesses)."
  },
  {
   "property": "C14",
   "status": "proved",
   "theorems": [
    "Riptide.Hash.multikey_links",
    "Riptide.Hash.multikey_buckets"
   ],
   "note": ""
  },
  {
   "property": "C15",
   "status": "partial",
   "theorems": [
    "Riptide.Asof.asof_backward",
    "Riptide.Asof.ordered_int",
    "Riptide.Asof.ordered_float",
    "Riptide.Asof.categorical_wrong_key",
    "Riptide.Asof.categorical_outside",
    "Riptide.Asof.categorical_partial"
   ],
   "note": "Complete for the hash path, for every hash function; false for the known-categories path (stored under the wrong key), where it is proved when all right keys agree."
  },
  {
   "property": "C16",
   "status": "proved",
   "theorems": [
    "Riptide.Asof.asof_forward",
    "Riptide.Asof.ordered_int",
    "Riptide.Asof.ordered_float"
   ],
   "note": "For every hash function with values below the size, any keys, integer and float times."
  },
  {
   "property": "C17",
   "status": "proved",
   "theorems": [
    "Riptide.Sort.argsort_stable",
    "Riptide.Sort.argsort_positions",
    "Riptide.Sort.parSort_exact",
    "Riptide.Sort.single_sort_exact",
    "Riptide.Sort.intLt_weak",
    "Riptide.Sort.floatLt_weak",
    "Riptide.Sort.floatLt_iff",
    "Riptide.Sort.strLt_weak",
    "Riptide.Sort.Column.weak"
   ],
   "note": "Workspace allocation is assumed to succeed."
  },
  {
   "property": "C18",
   "status": "proved",
   "theorems": [
    "Riptide.Sort.parallel_sort_exact",
    "Riptide.Sort.parallel_sort_eq_single",
    "Riptide.Sort.parallel_sort_in_bounds",
    "Riptide.Sort.parallel_sort_no_overlap",
    "Riptide.Sort.parallel_merge_halves_sorted",
    "Riptide.Sort.parallel_merge_once",
    "Riptide.Sort.parallel_sort_finishes"
   ],
   "note": "Any interleaving of the eight jobs; block sorts and merges are single steps, justified by parallel_sort_no_overlap."
  },
  {
   "property": "C19",
   "status": "proved",
   "theorems": [
    "Riptide.Sort.lexsort_exact",
    "Riptide.Sort.lexsort_stable",
    "Riptide.Sort.stable_lex"
   ],
   "note": "Start index 0..n or any in-range index."
  },
  {
   "property": "C20",
   "status": "partial",
   "theorems": [
    "Riptide.Pack.groupFromBinCount_slices",
    "Riptide.Pack.binCountPack_slices",
    "Riptide.Pack.groupByPack_slices_partial",
    "Riptide.Pack.groupByPackNext_slices_partial",
    "Riptide.Pack.tiled_of_slices",
    "Riptide.Pack.groupByPack_out_of_bounds",
    "Riptide.Pack.groupByPackNext_order",
    "Riptide.Pack.groupByPack_empty",
    "Riptide.Pack.groupFromBinCount_wrong_counts"
   ],
   "note": "Exact for BinCount(pack=True) and for GroupFromBinCount with the counts of the same keys, any schedule and interleaving; GroupByPack32 under the guards the code does not check."
  },
  {
   "property": "C21",
   "status": "proved",
   "theorems": [
    "Riptide.Pack.binCount_exact",
    "Riptide.Pack.binCount_fits",
    "Riptide.Pack.binCount_error"
   ],
   "note": ""
  },
  {
   "property": "C22",
   "status": "partial",
   "theorems": [
    "Riptide.Pack.makeNextKey_next_partial",
    "Riptide.Pack.makeNextKey_prev_partial",
    "Riptide.Pack.makeNextKey_int8_wraps",
    "Riptide.Pack.makeNextKey_unwritten",
    "Riptide.Pack.nextCorrect_false"
   ],
   "note": "False as stated: row numbers are truncated to the key type and rows of out-of-range groups are not written."
  },
  {
   "property": "C23",
   "status": "proved",
   "theorems": [
    "Riptide.GroupBy.group_sum_exact",
    "Riptide.GroupBy.group_nansum_exact",
    "Riptide.GroupBy.group_sum_schedule_independent",
    "Riptide.GroupBy.group_sum_outside_range",
    "Riptide.GroupBy.group_sum_range_oob",
    "Riptide.GroupBy.group_sum_double",
    "Riptide.GroupBy.group_nansum_double"
   ],
   "note": "Bins of the requested range; integer columns exactly, double columns with the exactness bound."
  },
  {
   "property": "C24",
   "status": "partial",
   "theorems": [
    "Riptide.GroupBy.group_sum_float32",
    "Riptide.GroupBy.group_mean_float32",
    "Riptide.GroupBy.group_nansum_float32_partial",
    "Riptide.GroupBy.group_nanmean_float32_partial",
    "Riptide.GroupBy.group_nansum_float32_uninitialised",
    "Riptide.GroupBy.group_nan_float32_scattered_uninitialised"
   ],
   "note": "False in general: the nan versions clear the wrong bins; proved under the exact guard with witnesses."
  },
  {
   "property": "C25",
   "status": "proved",
   "theorems": [
    "Riptide.GroupBy.group_min_max_int",
    "Riptide.GroupBy.group_min_max_flt",
    "Riptide.GroupBy.group_nanmin_nanmax_int",
    "Riptide.GroupBy.group_nanmin_nanmax_flt",
    "Riptide.GroupBy.group_min_max_schedule_independent"
   ],
   "note": "Integer and floating-point columns, both paths, every assignment of blocks to cores."
  },
  {
   "property": "C26",
   "status": "partial",
   "theorems": [
    "Riptide.GroupBy.group_mean_partial",
    "Riptide.GroupBy.group_nanmean_partial",
    "Riptide.GroupBy.group_mean_float32",
    "Riptide.GroupBy.group_nanmean_float32_partial",
    "Riptide.GroupBy.group_mean_schedule_dependent"
   ],
   "note": "Exact totals below 2^53 (2^24 for float32 gathered in parallel); beyond that the result depends on the schedule."
  },
  {
   "property": "C27",
   "status": "proved",
   "theorems": [
    "Riptide.Rolling.accumNth_value",
    "Riptide.Rolling.accumFirst_value",
    "Riptide.Rolling.accumLast_value"
   ],
   "note": "For any correctly packed grouping (C20) and any range of bins; string columns are the same kernels over byte strings."
  },
  {
   "property": "C28",
   "status": "partial",
   "theorems": [
    "Riptide.Rolling.accumRollingSum_int_partial",
    "Riptide.Rolling.accumRollingNanSum_int_partial",
    "Riptide.Rolling.accumRollingSum_val",
    "Riptide.Rolling.accumRollingSum_val_partial",
    "Riptide.Rolling.accumRollingNanSum_val_partial",
    "Riptide.Rolling.accumRollingSum_sticky",
    "Riptide.Rolling.accumRolling_negative",
    "Riptide.Rolling.accumRolling_huge"
   ],
   "note": "Holds for windows 0 <= w with rows + w below the index type; false for floating-point sums after a NaN, for negative and for huge windows (witnesses). Floating-point columns hold integers with totals below 2^53."
  },
  {
   "property": "C29",
   "status": "partial",
   "theorems": [
    "Riptide.Rolling.accumCount_value",
    "Riptide.Rolling.accumShift_value_partial",
    "Riptide.Rolling.accumDiff_value_partial",
    "Riptide.Rolling.accumShift_huge"
   ],
   "note": "Count for all windows. Shift and diff for all windows, negative ones included, with rows + |w| below the index type; outside that the code reads out of bounds (witness)."
  },
  {
   "property": "C30",
   "status": "proved",
   "theorems": [
    "Riptide.Heap.heap_history",
    "Riptide.Heap.heap_push",
    "Riptide.Heap.heap_erase",
    "Riptide.Heap.heap_popTop",
    "Riptide.Heap.heap_popBack",
    "Riptide.Heap.heap_change"
   ],
   "note": "For every history of operations in which no stored element is pushed again, the heap order, the recorded positions and the contents are kept, no access is out of bounds, and the top is an extreme element."
  },
  {
   "property": "C31",
   "status": "partial",
   "theorems": [
    "Riptide.Heap.accumQuantile_exact_partial",
    "Riptide.Heap.accumQuantile_run",
    "Riptide.Heap.update_run",
    "Riptide.Heap.quantile_tolerance",
    "Riptide.Heap.splitSum_partial",
    "Riptide.Heap.splitSum_narrow",
    "Riptide.Heap.splitSum_overflow",
    "Riptide.Heap.accumQuantile_nonpositive"
   ],
   "note": "Proved for every history, window and quantile, up to the tolerance of the code; exact when no position falls within the tolerance. Missing: long double rounding; the midpoint of integers whose sum overflows (shown wrong); windows of 0 or less (rows left unwritten)."
  },
  {
   "property": "C32",
   "status": "partial",
   "theorems": [
    "Riptide.Bins.searchsorted_partial",
    "Riptide.Bins.points_range",
    "Riptide.Bins.outType_fits",
    "Riptide.Bins.agree_same",
    "Riptide.Bins.agree_ints",
    "Riptide.Bins.searchRight_truncates",
    "Riptide.Bins.searchLeft_truncates",
    "Riptide.Bins.searchLeft_wraps",
    "Riptide.Bins.searchRight_nan_bin",
    "Riptide.Bins.search_nan_spins",
    "Riptide.Bins.search_no_bins",
    "Riptide.Bins.search_overflow",
    "Riptide.Bins.strings_ignore_mode",
    "Riptide.Bins.unicode_unwritten"
   ],
   "note": "The full statement is false of the code for mixed types, NaN bins, no bins, 2^30 to 2e9 bins and strings; proved under the guard that excludes exactly these."
  },
  {
   "property": "C33",
   "status": "partial",
   "theorems": [
    "Riptide.Bins.cut_partial",
    "Riptide.Bins.isBin_unique",
    "Riptide.Bins.cut_strings_partial",
    "Riptide.Bins.strings_exact",
    "Riptide.Bins.cut_below_first",
    "Riptide.Bins.cut_above_last",
    "Riptide.Bins.cut_wraps",
    "Riptide.Bins.cut_infinite",
    "Riptide.Bins.cut_equal_edges",
    "Riptide.Bins.cut_strings_threads_wrong"
   ],
   "note": "The full statement is false of the code when an edge changes by the cast to the data type and for strings split over threads; proved under guards excluding these."
  },
  {
   "property": "C34",
   "status": "proved",
   "theorems": [
    "Riptide.Crc.crc64_eq_reference",
    "Riptide.Crc.crc64_incremental",
    "Riptide.Crc.array_crc_eq_reference"
   ],
   "note": ""
  },
  {
   "property": "C35",
   "status": "partial",
   "theorems": [
    "Riptide.Recycle.workspace_single_owner_partial",
    "Riptide.Recycle.workspace_shared",
    "Riptide.Recycle.workspace_replaced_in_use",
    "Riptide.Recycle.workspace_collected_in_use",
    "Riptide.Recycle.workspace_mode_switch",
    "Riptide.Recycle.shared_not_single"
   ],
   "note": "Holds for histories that do not touch the recycled block while it is held; the witnesses show each guard is needed."
  },
  {
   "property": "C36",
   "status": "partial",
   "theorems": [
    "Riptide.Recycle.recycler_history_partial",
    "Riptide.Recycle.find_inv",
    "Riptide.Recycle.step_inv",
    "Riptide.Recycle.find_negative_type",
    "Riptide.Recycle.find_byte_order",
    "Riptide.Recycle.change_while_held"
   ],
   "note": "Missing: negative type numbers (read outside the table), byte order (not compared by the code), 32-bit overflow of Head and Tail."
  },
  {
   "property": "C37",
   "status": "partial",
   "theorems": [
    "Riptide.LogQueue.log_fifo",
    "Riptide.LogQueue.log_lossless",
    "Riptide.LogQueue.log_bounded",
    "Riptide.LogQueue.push_wakes",
    "Riptide.LogQueue.cancel_wakes_partial",
    "Riptide.LogQueue.notify_wakes",
    "Riptide.LogQueue.cancelled_returns",
    "Riptide.LogQueue.cancel_lost",
    "Riptide.LogQueue.blocked_stays",
    "Riptide.LogQueue.cancel_again"
   ],
   "note": "FIFO, bound and push wake-ups hold in full; a cancellation can be lost (cancel_lost), and only in the window named by cancel_wakes_partial."
  },
  {
   "property": "C38",
   "status": "proved",
   "theorems": [
    "Riptide.Reduce.reduce_int_extreme",
    "Riptide.Reduce.reduce_flt_extreme",
    "Riptide.Reduce.reduce_int_nan_extreme",
    "Riptide.Reduce.reduce_flt_nan_extreme",
    "Riptide.Reduce.min_max_operation",
    "Riptide.Reduce.passthru_int",
    "Riptide.Reduce.passthru_flt"
   ],
   "note": "every integer width and signedness, float and double, every distribution of blocks over cores"
  },
  {
   "property": "C39",
   "status": "proved",
   "theorems": [
    "Riptide.Convert.cast_nan_aware_ok",
    "Riptide.Convert.convert_safe_ints",
    "Riptide.Convert.convert_bool",
    "Riptide.Convert.convert_to_bool"
   ],
   "note": ""
  },
  {
   "property": "C40",
   "status": "partial",
   "theorems": [
    "Riptide.Window.time_window_partial",
    "Riptide.Window.time_window_sum_partial",
    "Riptide.Window.time_window_prod_partial",
    "Riptide.Window.negative_delta_includes_row",
    "Riptide.Window.unsorted_times_stop_early"
   ],
   "note": "False for negative deltas (witness); proved for 0 <= delta and time differences that fit int64."
  },
  {
   "property": "C41",
   "status": "partial",
   "theorems": [
    "Riptide.Bits.count_eq_ones",
    "Riptide.Bits.count_bool",
    "Riptide.Bits.bit_count_partial",
    "Riptide.Bits.strided_array_miscounted"
   ],
   "note": "Every element value and width is counted correctly, but strides are ignored (witness); array statement for contiguous input."
  },
  {
   "property": "C42",
   "status": "partial",
   "theorems": [
    "Riptide.Record.record_columns_partial",
    "Riptide.Record.no_columns_never_ends",
    "Riptide.Record.huge_records_read_backwards"
   ],
   "note": "All layouts, row counts and schedules for records below 2^31/7 bytes with at least one column; witnesses for the excluded cases."
  },
  {
   "property": "C43",
   "status": "partial",
   "theorems": [
    "Riptide.Str.sort_compare_total",
    "Riptide.Str.bin_compare_partial",
    "Riptide.Str.inner_nul_compares_equal",
    "Riptide.Str.inner_nul_not_transitive"
   ],
   "note": "Sort comparison proved for all strings; the cross-width comparisons are wrong with inner NULs (witnesses), proved without."
  },
  {
   "property": "C44",
   "status": "proved",
   "theorems": [
    "Riptide.Work.operation_never_stuck",
    "Riptide.Work.thread_steps_terminate",
    "Riptide.Work.operation_returns"
   ],
   "note": "termination is relative to finitely many external wake-ups"
  },
  {
   "property": "C45",
   "status": "proved",
   "theorems": [
    "Riptide.Take.reindex_groups_exact"
   ],
   "note": "Unique keys are assumed to fit the key type (the code truncates otherwise)."
  },
  {
   "property": "C46",
   "status": "proved",
   "theorems": [
    "Riptide.Crc.crc_detects_burst"
   ],
   "note": ""
  },
  {
   "property": "C47",
   "status": "proved",
   "theorems": [
    "Riptide.Convert.convert_int_to_float",
    "Riptide.Convert.convert_float_to_int",
    "Riptide.Convert.convert_round_trip",
    "Riptide.Convert.round_trip_needs_bound",
    "Riptide.Convert.float_out_of_range_undefined"
   ],
   "note": ""
  },
  {
   "property": "C48",
   "status": "proved",
   "theorems": [
    "Riptide.Reduce.argBest_int",
    "Riptide.Reduce.argBest_flt",
    "Riptide.Reduce.nanArgBest_int",
    "Riptide.Reduce.nanArgBest_flt"
   ],
   "note": ""
  },
  {
   "property": "C49",
   "status": "partial",
   "theorems": [
    "Riptide.Reduce.sum_int_partial",
    "Riptide.Reduce.sum_small_ints",
    "Riptide.Reduce.nansum_int_partial",
    "Riptide.Reduce.sum_flt_partial",
    "Riptide.Reduce.sum_int64_inexact",
    "Riptide.Reduce.sum_flt_large_nan"
   ],
   "note": "false in general: integers are summed in doubles; exact while the sum of absolute values is below 2^53"
  },
  {
   "property": "C50",
   "status": "partial",
   "theorems": [
    "Riptide.Reduce.mean_int_partial",
    "Riptide.Reduce.nanmean_int_partial",
    "Riptide.Reduce.nanmean_of_nothing_is_zero"
   ],
   "note": "false for nanmean of no valid values (returns 0); otherwise proved under the guard of C49"
  },
  {
   "property": "C51",
   "status": "partial",
   "theorems": [
    "Riptide.Str.void_compare_total",
    "Riptide.Str.void_descending_partial",
    "Riptide.Str.void_descending_not_reversed"
   ],
   "note": "Strict total order proved for both directions; descending is the reverse of ascending only for widths without a trailing single byte (witness)."
  },
  {
   "property": "C52",
   "status": "proved",
   "theorems": [
    "Riptide.Hash.unique_first_and_counts"
   ],
   "note": ""
  },
  {
   "property": "C53",
   "status": "proved",
   "theorems": [
    "Riptide.Hash.groupsuper_lists"
   ],
   "note": ""
  },
  {
   "property": "C54",
   "status": "proved",
   "theorems": [
    "Riptide.Hash.rolling_counts_over_history"
   ],
   "note": ""
  },
  {
   "property": "C55",
   "status": "proved",
   "theorems": [
    "Riptide.Hash.memcmp_iff",
    "Riptide.Hash.bit_field_is_flag_array"
   ],
   "note": ""
  },
  {
   "property": "C56",
   "status": "proved",
   "theorems": [
    "Riptide.Hash.partitioned_groupby"
   ],
   "note": "Cutoffs nondecreasing and ending at the number of rows (the latter is checked by the caller)."
  },
  {
   "property": "C57",
   "status": "partial",
   "theorems": [
    "Riptide.Sort.lexsort_partitions_partial",
    "Riptide.Sort.lexsort_cutoffs_overflow",
    "Riptide.Sort.lexsort_cutoffs_empty"
   ],
   "note": "Full statement fails: cutoffs are not validated, so non-ascending or empty cutoffs go out of bounds. Proved for ascending cutoffs."
  },
  {
   "property": "C58",
   "status": "proved",
   "theorems": [
    "Riptide.Sort.isSorted_exact",
    "Riptide.Sort.isSorted_iff_argsort_identity"
   ],
   "note": ""
  },
  {
   "property": "C59",
   "status": "partial",
   "theorems": [
    "Riptide.Rolling.accumRollingMean_partial",
    "Riptide.Rolling.accumRollingNanMean_partial",
    "Riptide.Rolling.accumRollingMean_sticky"
   ],
   "note": "Nanmean as stated under the window guard; the plain mean keeps NaN after it left the window (witness)."
  },
  {
   "property": "C60",
   "status": "partial",
   "theorems": [
    "Riptide.LexGroup.group_runs",
    "Riptide.LexGroup.runs_iff_equal",
    "Riptide.LexGroup.contiguous_of_sorted",
    "Riptide.LexGroup.differ_exact",
    "Riptide.LexGroup.differ_seven",
    "Riptide.LexGroup.group_from_lexsort_partial",
    "Riptide.LexGroup.group_parts_partial",
    "Riptide.LexGroup.width_seven_merged",
    "Riptide.LexGroup.base_zero_uninitialised",
    "Riptide.LexGroup.base_zero_strings_shifted",
    "Riptide.LexGroup.no_rows_uninitialised",
    "Riptide.LexGroup.strings_with_cutoffs_wrong",
    "Riptide.LexGroup.zeros_split"
   ],
   "note": "Proved for base 1, all widths but 7, at least one row; with cutoffs for values compared as numbers under all interleavings. The code violates the rest: width 7 merges values, base 0 leaves a count uninitialised, strings with cutoffs give wrong counts that depend on timing, and zeros of different sign split groups (witnesses proved)."
  },
  {
   "property": "C61",
   "status": "proved",
   "theorems": [
    "Riptide.Combine.combine_filter_exact",
    "Riptide.Combine.combine_filter_sizes"
   ],
   "note": "For booleans stored as 0 and 1 (numpy's representation)."
  },
  {
   "property": "C62",
   "status": "partial",
   "theorems": [
    "Riptide.Combine.combine2_exact_partial",
    "Riptide.Combine.combine2_filter_inside",
    "Riptide.Combine.combine2_pairs",
    "Riptide.Combine.combine2_collides",
    "Riptide.Combine.combine2_filter_collides",
    "Riptide.Combine.combine2_negative_maxima",
    "Riptide.Combine.combine2_overflow"
   ],
   "note": "Proved for numbers within the maxima and a pair count below 2^63; the code does not check the numbers themselves, witnesses proved."
  },
  {
   "property": "C63",
   "status": "proved",
   "theorems": [
    "Riptide.Combine.combine1_first_appearance",
    "Riptide.Combine.combine1_first_truncated"
   ],
   "note": "Up to 2^31 rows, as the property says; beyond that first rows are truncated (witness)."
  },
  {
   "property": "C64",
   "status": "proved",
   "theorems": [
    "Riptide.Combine.make_ifirst_exact"
   ],
   "note": ""
  },
  {
   "property": "C65",
   "status": "partial",
   "theorems": [
    "Riptide.Arrays.upcast_holds_partial",
    "Riptide.Arrays.upcast_holds_small",
    "Riptide.Arrays.upcast_perm",
    "Riptide.Arrays.upcast_loses_unsigned",
    "Riptide.Arrays.upcast_bool_unsigned"
   ],
   "note": "order independence holds in full; the claim on values is false of the code for 64-bit integers, the theorem lists all exceptions"
  },
  {
   "property": "C66",
   "status": "partial",
   "theorems": [
    "Riptide.Arrays.trim_all",
    "Riptide.Arrays.trimmed_unique",
    "Riptide.Arrays.trim_idempotent",
    "Riptide.Arrays.trim_ignores_stride"
   ],
   "note": "proved for contiguous arrays; false of the code for strided views"
  },
  {
   "property": "C67",
   "status": "partial",
   "theorems": [
    "Riptide.Arrays.hstack_rows",
    "Riptide.Arrays.hstack_ints_partial",
    "Riptide.Arrays.carry_invalid_iff",
    "Riptide.Arrays.hstack_strings",
    "Riptide.Arrays.hstack_unsigned_wraps"
   ],
   "note": "concatenation holds for all types; values are kept when the common type holds them, which C65 does not always grant; floats are stacked row by row without a claim on rounding"
  },
  {
   "property": "C68",
   "status": "partial",
   "theorems": [
    "Riptide.Arrays.shift_rows",
    "Riptide.Arrays.shift_columns",
    "Riptide.Arrays.shift_unique",
    "Riptide.Arrays.shift_zero",
    "Riptide.Arrays.shift_depends_on_layout",
    "Riptide.Arrays.shift_view_unchanged",
    "Riptide.Arrays.shift_view_wrong"
   ],
   "note": "proved for contiguous vectors and Fortran matrices; false of the code for C matrices and strided views"
  },
  {
   "property": "C69",
   "status": "partial",
   "theorems": [
    "Riptide.Arrays.set_item_contiguous_partial",
    "Riptide.Arrays.set_item_ignores_stride",
    "Riptide.Arrays.set_item_ignores_mask_stride"
   ],
   "note": "proved for contiguous arrays that do not overlap, all schedules; false of the code for strided ones"
  },
  {
   "property": "C70",
   "status": "partial",
   "theorems": [
    "Riptide.Arrays.put_mask_contiguous_partial",
    "Riptide.Arrays.put_mask_ints_partial",
    "Riptide.Arrays.put_mask_false_becomes_invalid",
    "Riptide.Arrays.put_mask_ignores_stride"
   ],
   "note": "proved for contiguous arrays, all schedules; false of the code for booleans into integers and for strided masks and values"
  },
  {
   "property": "C71",
   "status": "partial",
   "theorems": [
    "Riptide.Arrays.homogenize_ints_partial",
    "Riptide.Arrays.homogenize_numeric_safe",
    "Riptide.Arrays.homogenize_false_becomes_invalid",
    "Riptide.Arrays.homogenize_false",
    "Riptide.Arrays.homogenize_mixed_undefined"
   ],
   "note": "proved for integer arrays; false of the code with booleans, strings and objects"
  },
  {
   "property": "C72",
   "status": "partial",
   "theorems": [
    "Riptide.Ema.rollSum_spec_partial",
    "Riptide.Ema.rollNanSum_spec_partial",
    "Riptide.Ema.rollSumFloat_partial",
    "Riptide.Ema.rollMean_partial",
    "Riptide.Ema.rollNanSumFloat_partial",
    "Riptide.Ema.rollNanMean_partial"
   ],
   "note": "Holds for positive windows, floating-point sums until the first NaN; false otherwise: rollSum_negative_window, rollSumFloat_sticky, rollNanMeanInt_counts_invalid, rollSum_uint64."
  },
  {
   "property": "C73",
   "status": "partial",
   "theorems": [
    "Riptide.Ema.cumulate_spec",
    "Riptide.Ema.cumSum_spec",
    "Riptide.Ema.cumProd_spec",
    "Riptide.Ema.cumSum_exact"
   ],
   "note": "Holds for columns of the length of the keys and keys up to unique_rows, invalid values counting as numbers; false otherwise: cumSum_short_column, cumSum_key_above, cumSum_adds_invalid."
  },
  {
   "property": "C74",
   "status": "partial",
   "theorems": [
    "Riptide.Ema.cumNanExtreme_partial",
    "Riptide.Ema.cumExtreme_partial"
   ],
   "note": "Holds for rows inside groups and keys that are not negative; rows outside are wrong: cumNanExtreme_no_group_false, cumExtreme_no_group_false, cumExtreme_unwritten, cumNanExtreme_negative_key."
  },
  {
   "property": "C75",
   "status": "proved",
   "theorems": [
    "Riptide.Ema.findNth_spec"
   ],
   "note": "Fewer than 2^31 rows."
  },
  {
   "property": "C76",
   "status": "partial",
   "theorems": [
    "Riptide.Ema.emaDecay_partial"
   ],
   "note": "Holds with at most one mask and times whose differences fit their type; with both masks false: emaDecay_both_masks_false. Real arithmetic."
  },
  {
   "property": "C77",
   "status": "partial",
   "theorems": [
    "Riptide.Ema.emaNormal_partial",
    "Riptide.Ema.emaNormal_filter_partial",
    "Riptide.Ema.emaWeighted_partial"
   ],
   "note": "Holds without masks, and with a filter when the first row of every group passes it (excluded rows repeat the last value); false with resets or leading excluded rows: emaNormal_reset_false, emaNormal_filter_false, emaNormal_both_leaks, emaNormal_negative_key. Real arithmetic."
  },
  {
   "property": "C78",
   "status": "partial",
   "theorems": [
    "Riptide.Ema.interp_partial",
    "Riptide.Ema.polygon_unique"
   ],
   "note": "Holds unless a point lies above the last knot of the last table row, where the code reads past the table: interp_reads_past; strides ignored: interp_ignores_stride. Exact arithmetic."
  },
  {
   "property": "C79",
   "status": "partial",
   "theorems": [
    "Riptide.Ema.rollVar_partial",
    "Riptide.Ema.rollNanVar_partial"
   ],
   "note": "RollingVar: divisor n-1 while filling, n afterwards (rollVar_false). RollingNanVar: holds without NaN, false with (rollNanVar_false, rollNanVar_wrong_count). Exact arithmetic."
  },
  {
   "property": "C80",
   "status": "partial",
   "theorems": [
    "Riptide.Quick.quicksort_sorts",
    "Riptide.Quick.heapsort_sorts",
    "Riptide.Quick.mergesort_sorts",
    "Riptide.Quick.sortInPlace_ints",
    "Riptide.Quick.sortInPlace_floats",
    "Riptide.Quick.sortInPlace_merge_partial",
    "Riptide.Quick.sortInPlace_merge_float",
    "Riptide.Quick.sortInPlace_merge_keeps",
    "Riptide.Quick.sortInPlace_merge_double_false",
    "Riptide.Quick.sortInPlace_chars_partial",
    "Riptide.Quick.sortInPlace_strings_false",
    "Riptide.Quick.sortView_contiguous",
    "Riptide.Quick.sortView_strided"
   ],
   "note": "The three sorting programs are proved for all orders and arrays, with all accesses in range and the stack bound. Missing: mergesort of doubles that a conversion to float does not keep apart, byte strings longer than one character, strided views; false there."
  },
  {
   "property": "C81",
   "status": "partial",
   "theorems": [
    "Riptide.Quick.sortIndirect_partial",
    "Riptide.Quick.sortIndirect_unchecked"
   ],
   "note": "Proved for a permutation and keys among its values; other input is not checked by the code."
  },
  {
   "property": "C82",
   "status": "partial",
   "theorems": [
    "Riptide.Median.medianOf_median",
    "Riptide.Median.median_groups_float",
    "Riptide.Median.median_groups_int_partial",
    "Riptide.Median.median_counts_invalid",
    "Riptide.Median.median_overflow",
    "Riptide.Median.median_range_ignored"
   ],
   "note": "Holds for floats. For integers invalid values are counted and the midpoint may overflow; the banded path ignores the range of bins."
  },
  {
   "property": "C83",
   "status": "partial",
   "theorems": [
    "Riptide.Median.modeLoop_spec",
    "Riptide.Median.modeOf_mode",
    "Riptide.Median.mode_groups",
    "Riptide.Median.mode_counts_invalid"
   ],
   "note": "Holds with NaN as the invalid value; invalid integers are counted as numbers."
  },
  {
   "property": "C84",
   "status": "partial",
   "theorems": [
    "Riptide.Median.quantIdx_range",
    "Riptide.Median.quantIdx_exact",
    "Riptide.Median.quantileOf_ranks",
    "Riptide.Median.quantile_groups",
    "Riptide.Median.quantile_int_partial",
    "Riptide.Median.quantIdx_rounded",
    "Riptide.Median.quantile_rounded",
    "Riptide.Median.quantile_overflow"
   ],
   "note": "The rank is exact for quantiles which are dyadic fractions; otherwise rounding may move it. Integer midpoints may overflow."
  },
  {
   "property": "C85",
   "status": "partial",
   "theorems": [
    "Riptide.Median.stripNans_spec",
    "Riptide.Median.trimOf_trimmed",
    "Riptide.Median.trim_groups_partial",
    "Riptide.Median.trim_truncates"
   ],
   "note": "The mean before the conversion to the type of the column; for integer columns it is truncated. ntrimbad is a parameter."
  },
  {
   "property": "C86",
   "status": "proved",
   "theorems": [
    "Riptide.GroupBy.accumVar_value",
    "Riptide.GroupBy.accumNanVar_value",
    "Riptide.GroupBy.groupVar_nonneg"
   ],
   "note": "Rounding is left out."
  },
  {
   "property": "C87",
   "status": "partial",
   "theorems": [
    "Riptide.Date.epochNano_lt",
    "Riptide.Date.epochNano_dateOf",
    "Riptide.Date.dateOf_all",
    "Riptide.Date.epochNano_past_month",
    "Riptide.Date.epochNano_outside",
    "Riptide.Date.epochNano_range"
   ],
   "note": "Days past the end of a month are accepted as days of the next one."
  },
  {
   "property": "C88",
   "status": "partial",
   "theorems": [
    "Riptide.Date.parseDate_text",
    "Riptide.Date.parseTime_text",
    "Riptide.Date.parseDateTime_text",
    "Riptide.Date.parseTime_range",
    "Riptide.Date.parseDate_range",
    "Riptide.Date.parseDateTime_range",
    "Riptide.Date.parse_defined",
    "Riptide.Date.parseDate_accepts",
    "Riptide.Date.parseDate_invalid_silent",
    "Riptide.Date.parseTime_hour_only",
    "Riptide.Date.parseDateTime_bad_hour",
    "Riptide.Date.parseTime_pad_warns",
    "Riptide.Date.parseDateTime_pad_warns",
    "Riptide.Date.parseTime_fraction_minutes",
    "Riptide.Date.parse_nonascii_undefined",
    "Riptide.Date.parseAll_items"
   ],
   "note": "Proper texts are read correctly; that everything else gives 0 or a warning is false, see the witnesses."
  },
  {
   "property": "C89",
   "status": "partial",
   "theorems": [
    "Riptide.Date.parseStrptime_text",
    "Riptide.Date.parseStrptime_literal",
    "Riptide.Date.parseStrptime_short",
    "Riptide.Date.strptime_limits",
    "Riptide.Date.strptime_range_leaks",
    "Riptide.Date.strptime_zone_ignored",
    "Riptide.Date.strptime_yday_ignored",
    "Riptide.Date.strptime_pm_order",
    "Riptide.Date.strptime_abbrev_month",
    "Riptide.Date.strptime_G_reads_past",
    "Riptide.Date.strptime_cuts_characters",
    "Riptide.Date.strptime_trailing"
   ],
   "note": "Proved for formats of %Y %m %B %d %H %M %S %F %T %R and literal characters; for others the witnesses show where it fails."
  },
  {
   "property": "C90",
   "status": "partial",
   "theorems": [
    "Riptide.Binary.compare_int_partial",
    "Riptide.Binary.compare_same_type",
    "Riptide.Binary.compare_float",
    "Riptide.Binary.compare_other_types",
    "Riptide.Binary.compare_equal_wrong",
    "Riptide.Binary.compare_scalar_first_wrong",
    "Riptide.Binary.compare_guard_exact"
   ],
   "note": "False for uint64 against int64 in some cases; the guard is exact."
  },
  {
   "property": "C91",
   "status": "partial",
   "theorems": [
    "Riptide.Binary.math_int_partial",
    "Riptide.Binary.math_bits",
    "Riptide.Binary.math_andnot_partial",
    "Riptide.Binary.math_bool",
    "Riptide.Binary.math_float",
    "Riptide.Binary.fits_small",
    "Riptide.Binary.math_overflow",
    "Riptide.Binary.math_misaligned",
    "Riptide.Binary.andnot_scalar_wrong",
    "Riptide.Binary.mod_bool_wrong"
   ],
   "note": "Where C++ is undefined (overflow, misaligned) and for and-not with a scalar it is false."
  },
  {
   "property": "C92",
   "status": "partial",
   "theorems": [
    "Riptide.Binary.floordiv_partial",
    "Riptide.Binary.floordiv_undefined",
    "Riptide.Binary.mod_partial",
    "Riptide.Binary.mod_python",
    "Riptide.Binary.mod_wrong",
    "Riptide.Binary.floordiv_overflow",
    "Riptide.Binary.subdates_partial",
    "Riptide.Binary.subdates_limits",
    "Riptide.Binary.float_extreme"
   ],
   "note": "The remainder belongs to rounding towards zero, and overflow is undefined."
  },
  {
   "property": "C93",
   "status": "partial",
   "theorems": [
    "Riptide.Binary.layout_partial",
    "Riptide.Binary.layout_given_partial",
    "Riptide.Binary.layout_strided_wrong",
    "Riptide.Binary.layout_mixed_wrong",
    "Riptide.Binary.layout_shapes_wrong"
   ],
   "note": "Only the first stride is checked; true for one dimension or inputs contiguous in the same order."
  },
  {
   "property": "C94",
   "status": "partial",
   "theorems": [
    "Riptide.Binary.alias_partial",
    "Riptide.Binary.memRun_exact",
    "Riptide.Binary.overlap_sound",
    "Riptide.Binary.overlap_complete",
    "Riptide.Binary.apart_of_overlap",
    "Riptide.Binary.alias_wrong"
   ],
   "note": "False if the items of an input are larger than those of the output."
  },
  {
   "property": "C95",
   "status": "partial",
   "theorems": [
    "Riptide.Binary.where_partial",
    "Riptide.Binary.where_text_undefined",
    "Riptide.Binary.where_delta_undefined",
    "Riptide.Binary.where_mask_wrong",
    "Riptide.Binary.where_item_wrong"
   ],
   "note": "Item sizes, the strides of the condition and the distance of the arrays are not checked by the code."
  },
  {
   "property": "C96",
   "status": "partial",
   "theorems": [
    "Riptide.Binary.concat_partial",
    "Riptide.Binary.concatRow_text",
    "Riptide.Binary.concatRow_length",
    "Riptide.Binary.concat_zero_wrong",
    "Riptide.Binary.concat_mixed_wrong"
   ],
   "note": "Texts without zeros inside."
  },
  {
   "property": "C97",
   "status": "partial",
   "theorems": [
    "Riptide.Binary.arrays_numpy_iff",
    "Riptide.Binary.arrays_compare",
    "Riptide.Binary.arrays_narrow_wrong",
    "Riptide.Binary.single_numpy_iff",
    "Riptide.Binary.upcast_comm",
    "Riptide.Binary.scalar_type_iff",
    "Riptide.Binary.scalar_value_partial",
    "Riptide.Binary.scalar_mixed_wrong",
    "Riptide.Binary.scalar_float32_wrong",
    "Riptide.Binary.scalar_overflow_wrong",
    "Riptide.Binary.scalar_overflow_uint64",
    "Riptide.Binary.scalar_inplace_wrong",
    "Riptide.Binary.single_value_partial",
    "Riptide.Binary.single_float_wrong"
   ],
   "note": "The pairs and numbers for which it fails are given exactly."
  },
  {
   "property": "C98",
   "status": "partial",
   "theorems": [
    "Riptide.Unary.abs_int_partial",
    "Riptide.Unary.neg_int_partial",
    "Riptide.Unary.neg_int_undefined",
    "Riptide.Unary.abs_int_undefined",
    "Riptide.Unary.abs_float",
    "Riptide.Unary.neg_float",
    "Riptide.Unary.abs_float_bits_partial",
    "Riptide.Unary.neg_float_bits_partial",
    "Riptide.Unary.abs_float_bits_iff",
    "Riptide.Unary.neg_float_bits_iff",
    "Riptide.Unary.float_bits_wrong",
    "Riptide.Unary.sign_int",
    "Riptide.Unary.sign_float",
    "Riptide.Unary.sign_invalid_wrong",
    "Riptide.Unary.invert_bits",
    "Riptide.Unary.invert_bool_partial",
    "Riptide.Unary.invert_bool_wrong"
   ],
   "note": "Undefined for the smallest 32- and 64-bit integers outside of registers; bits of NaN and zeros differ."
  },
  {
   "property": "C99",
   "status": "partial",
   "theorems": [
    "Riptide.Unary.round_value",
    "Riptide.Unary.round_special",
    "Riptide.Unary.round_rows",
    "Riptide.Unary.round_differ_iff",
    "Riptide.Unary.round_rows_partial",
    "Riptide.Unary.round_rows_wrong"
   ],
   "note": "round: false for halves next to an even number."
  },
  {
   "property": "C100",
   "status": "partial",
   "theorems": [
    "Riptide.Unary.test_scalar",
    "Riptide.Unary.test_vector",
    "Riptide.Unary.test_rows",
    "Riptide.Unary.test_int_partial",
    "Riptide.Unary.test_int_wrong",
    "Riptide.Unary.test_bool_partial",
    "Riptide.Unary.test_bool_wrong",
    "Riptide.Unary.text_iff",
    "Riptide.Unary.text_partial",
    "Riptide.Unary.text_wrong"
   ],
   "note": "Complete for floats and doubles; texts only by their first byte."
  },
  {
   "property": "C101",
   "status": "partial",
   "theorems": [
    "Riptide.Unary.new_contiguous_partial",
    "Riptide.Unary.given_contiguous_partial",
    "Riptide.Unary.row_major_partial",
    "Riptide.Unary.two_dim_iff",
    "Riptide.Unary.new_wrong",
    "Riptide.Unary.given_wrong",
    "Riptide.Unary.windows_wrong"
   ],
   "note": "Exact for up to two dimensions; from three on for contiguous and row-major arrays."
  },
  {
   "property": "C102",
   "status": "partial",
   "theorems": [
    "Riptide.Unary.unary_alias_partial",
    "Riptide.Unary.unary_alias_wrong"
   ],
   "note": "No overlap test in the code; true in place and for outputs apart from the input."
  },
  {
   "property": "C103",
   "status": "partial",
   "theorems": [
    "Riptide.Unary.math_partial",
    "Riptide.Unary.math_exact",
    "Riptide.Unary.math_wrong",
    "Riptide.Unary.math_invalid_wrong"
   ],
   "note": "False from 2^63 on and for the invalid."
  },
  {
   "property": "C104",
   "status": "partial",
   "theorems": [
    "Riptide.Reduce.var_int_partial",
    "Riptide.Reduce.var_flt_partial",
    "Riptide.Reduce.nanvar_int_partial",
    "Riptide.Reduce.nanvar_flt_partial",
    "Riptide.Reduce.var_core_lost",
    "Riptide.Reduce.var_large_nan",
    "Riptide.Reduce.stages_table"
   ],
   "note": "Exact arithmetic; false in parallel when the squares of a core reach 2^63."
  },
  {
   "property": "C105",
   "status": "partial",
   "theorems": [
    "Riptide.Reduce.reduce_fortran_partial",
    "Riptide.Reduce.reduce_one_dim",
    "Riptide.Reduce.reduce_two_dim",
    "Riptide.Reduce.reduce_row_wrong",
    "Riptide.Reduce.reduce_column_major_wrong",
    "Riptide.Reduce.reduce_scalar_undefined"
   ],
   "note": "False for strided slices with a leading dimension of 1 or a leading stride of one item; exact in one and two dimensions."
  },
  {
   "property": "C106",
   "status": "partial",
   "theorems": [
    "Riptide.Cat.fixup_partial",
    "Riptide.Cat.fixup_duplicate_wrong",
    "Riptide.Cat.fixup_rows2_undefined",
    "Riptide.Cat.fixup_rows1_undefined",
    "Riptide.Cat.fixup_offset_undefined",
    "Riptide.Cat.fixup_category_error"
   ],
   "note": "Needs rows within the categories and different matched categories."
  },
  {
   "property": "C107",
   "status": "partial",
   "theorems": [
    "Riptide.AsArray.as_array_iff_partial",
    "Riptide.AsArray.as_array_numpy_iff",
    "Riptide.AsArray.as_array_bits_iff",
    "Riptide.AsArray.as_array_length",
    "Riptide.AsArray.as_array_empty",
    "Riptide.AsArray.as_array_text_wrong",
    "Riptide.AsArray.as_array_overflow_wrong",
    "Riptide.AsArray.as_array_empty_bytes_wrong",
    "Riptide.AsArray.finish_scalar"
   ],
   "note": "False for short texts behind which memory is not zero, ints outside of int64 and several empty byte strings; the exact condition is proved."
  },
  {
   "property": "C108",
   "status": "partial",
   "theorems": [
    "Riptide.Sds.read_written_partial",
    "Riptide.Sds.read_written_wrong",
    "Riptide.Sds.read_chance",
    "Riptide.Sds.read_length",
    "Riptide.Sds.write_fits",
    "Riptide.Sds.bands_inside",
    "Riptide.Sds.dims_kept",
    "Riptide.Sds.dims_lost_wrong",
    "Riptide.Sds.rows_written",
    "Riptide.Sds.masked_iff",
    "Riptide.Sds.masked_rows",
    "Riptide.Sds.masked_filled_iff",
    "Riptide.Sds.masked_multi",
    "Riptide.Sds.masked_none_undefined",
    "Riptide.Sds.masked_long_wrong",
    "Riptide.Sds.masked_fortran_wrong",
    "Riptide.Sds.temp_enough",
    "Riptide.Sds.temp_chance_wrong"
   ],
   "note": "Needs a stored size other than that of the array when it is banded, at most five dimensions, and for masks of single files a selected row; the exact conditions are proved. zstd is any lawful codec."
  },
  {
   "property": "C109",
   "status": "partial",
   "theorems": [
    "Riptide.Sds.file_read_partial",
    "Riptide.Sds.file_read_wrong",
    "Riptide.Sds.stored_read",
    "Riptide.Sds.writes_stored",
    "Riptide.Sds.stored_keep",
    "Riptide.Sds.writes_inside",
    "Riptide.Sds.array_place",
    "Riptide.Sds.arrays_apart",
    "Riptide.Sds.offset_aligned",
    "Riptide.Sds.write_iff"
   ],
   "note": "Excludes the banded arrays of C108 whose stored size is by chance their own, and numbers which do not have room in the members of the header. zstd is any lawful codec."
  },
  {
   "property": "C110",
   "status": "partial",
   "theorems": [
    "Riptide.Sds.sections_read_partial",
    "Riptide.Sds.section_added",
    "Riptide.Sds.history_good",
    "Riptide.Sds.names_back",
    "Riptide.Sds.names_zero_wrong",
    "Riptide.Sds.names_room_iff",
    "Riptide.Sds.names_long_wrong",
    "Riptide.Sds.dir_back",
    "Riptide.Sds.dir_room",
    "Riptide.Sds.dir_long_wrong"
   ],
   "note": "Needs names without zero bytes; that names have room in the memory for them is proved for short names and refuted for long ones. Otherwise as C109."
  },
  {
   "property": "C111",
   "status": "partial",
   "theorems": [
    "Riptide.Sds.concat_read_partial",
    "Riptide.Sds.concat_names_wrong",
    "Riptide.Sds.concat_good",
    "Riptide.Sds.append_good",
    "Riptide.Sds.section_move",
    "Riptide.Sds.copy_has"
   ],
   "note": "As C109 and C110; the names of sections are lost."
  },
  {
   "property": "C112",
   "status": "partial",
   "theorems": [
    "Riptide.Compress.round_trip_partial",
    "Riptide.Compress.round_trip_empty_fails",
    "Riptide.Compress.compress_refused",
    "Riptide.Compress.compress_dims_refused",
    "Riptide.Compress.compress_none_ub",
    "Riptide.Compress.decompress_parts",
    "Riptide.Compress.decompress_each",
    "Riptide.Compress.no_memory_wrong",
    "Riptide.Compress.string_round_trip_partial",
    "Riptide.Compress.string_never_empty",
    "Riptide.Compress.string_empty_unwritten"
   ],
   "note": "Proved for arrays with rows and byte strings which are not empty; the empty ones fail (witnesses). Wrong inputs of the decompression are outcomes of the model."
  },
  {
   "property": "C113",
   "status": "partial",
   "theorems": [
    "Riptide.Stack.numbers_fit_partial",
    "Riptide.Stack.numbers_lost",
    "Riptide.Stack.numbers_convertible",
    "Riptide.Stack.order_free_partial",
    "Riptide.Stack.order_matters",
    "Riptide.Stack.strings_fit",
    "Riptide.Stack.families_refused",
    "Riptide.Stack.family_iff",
    "Riptide.Stack.long_types",
    "Riptide.Stack.complex_not_converted",
    "Riptide.Stack.orders_agree_partial",
    "Riptide.Stack.orders_mixed"
   ],
   "note": "Full for strings and for what is refused. For numbers proved but for 64-bit integers which meet floating point or the other sign, and for the order of the files but for those and uint16 with float; both are refuted by witnesses. Arrays of both orders are mixed after a first array with one row."
  },
  {
   "property": "C114",
   "status": "partial",
   "theorems": [
    "Riptide.Stack.rows_converted_partial",
    "Riptide.Stack.item_value_partial",
    "Riptide.Stack.invalid_kept",
    "Riptide.Stack.not_converted",
    "Riptide.Stack.false_becomes_invalid",
    "Riptide.Stack.wrong_numbers"
   ],
   "note": "Proved for all pairs of types where the column holds all numbers of the file, but for bool; bool and the other pairs are refuted by witnesses. long double is not modelled."
  },
  {
   "property": "C115",
   "status": "partial",
   "theorems": [
    "Riptide.Stack.strings_widened_partial",
    "Riptide.Stack.stringFixup_rows",
    "Riptide.Stack.cells_wrong",
    "Riptide.Stack.string_chars",
    "Riptide.Stack.string_rows_wrong"
   ],
   "note": "Proved for columns of one dimension and for byte strings which fill the width of the column; refuted by witnesses otherwise."
  },
  {
   "property": "C116",
   "status": "partial",
   "theorems": [
    "Riptide.Stack.numbers_stacked_partial",
    "Riptide.Stack.strings_stacked_partial",
    "Riptide.Stack.overrun",
    "Riptide.Stack.overrun_void",
    "Riptide.Stack.rows_never_written",
    "Riptide.Stack.empty_strings_not_written",
    "Riptide.Stack.gap_too_long",
    "Riptide.Stack.gap_not_invalid"
   ],
   "note": "Proved for numbers and strings in C order, for every order of the packets: values are kept, gaps are invalid, nothing outside is written. False where types change values (C113, C114), for other types than numbers and strings (memory is overrun), for columns without rows in files with rows, for gaps of 2^31 items; long double and Fortran order are not covered here."
  },
  {
   "property": "C117",
   "status": "partial",
   "theorems": [
    "Riptide.Stack.order_all",
    "Riptide.Stack.tables_stacked_partial",
    "Riptide.Stack.gap_null",
    "Riptide.Stack.columns_not_converted",
    "Riptide.Stack.columns_overread",
    "Riptide.Stack.columns_not_stretched",
    "Riptide.Stack.only_two_dimensions",
    "Riptide.Stack.strings_are_gaps"
   ],
   "note": "Proved for tables of items of one type, with gaps for numbers other than long; different types, different widths and more than two dimensions are false of the code, with witnesses"
  },
  {
   "property": "C118",
   "status": "partial",
   "theorems": [
    "Riptide.Stack.counts_total",
    "Riptide.Stack.allocated",
    "Riptide.Stack.later_counts",
    "Riptide.Stack.filtered_numbers_partial",
    "Riptide.Stack.filtered_strings_partial",
    "Riptide.Stack.mask_checked",
    "Riptide.Stack.mask_unchecked",
    "Riptide.Stack.reserve_overrun",
    "Riptide.Stack.columns_overrun",
    "Riptide.Stack.lengths_overrun",
    "Riptide.Stack.position_matters",
    "Riptide.Stack.position_irrelevant",
    "Riptide.Stack.incompatible_undescribed"
   ],
   "note": "Proved for numbers and strings in C order when no rows are reserved or the last file has the column; false for reserved rows with a gap at the end, Fortran order and columns of different lengths (witnesses)."
  },
  {
   "property": "C119",
   "status": "partial",
   "theorems": [
    "Riptide.Member.numbers_member_partial",
    "Riptide.Member.few_numbers_partial",
    "Riptide.Member.few_strings_partial",
    "Riptide.Member.found_is_equal",
    "Riptide.Member.table_items",
    "Riptide.Member.whole_pieces",
    "Riptide.Member.many_characters",
    "Riptide.Member.missing_table",
    "Riptide.Member.even_numbers",
    "Riptide.Member.order_decides",
    "Riptide.Member.empty_haystack",
    "Riptide.Member.strings_lost",
    "Riptide.Member.ninetieth_string",
    "Riptide.Member.strings_overread",
    "Riptide.Member.wide_strings",
    "Riptide.Member.strings_of_six",
    "Riptide.Member.hash_unreduced"
   ],
   "note": "False in general: null pointers for whole pieces or missing tables, lost strings, places that depend on the order. Proved for pieces with a number for each table, and for one range with the first place."
  },
  {
   "property": "C120",
   "status": "partial",
   "theorems": [
    "Riptide.Bins.floats_counted",
    "Riptide.Bins.ints_counted",
    "Riptide.Bins.cuts_labelled",
    "Riptide.Bins.float_cuts",
    "Riptide.Bins.quantile_cuts_partial",
    "Riptide.Bins.above_last_edge",
    "Riptide.Bins.one_edge",
    "Riptide.Bins.no_edges",
    "Riptide.Bins.index_not_checked",
    "Riptide.Bins.rounded_into_bin",
    "Riptide.Bins.edges_out_of_order"
   ],
   "note": "Holds when nothing finite is above the last edge and there are at least two edges; otherwise memory behind the edges is read (above_last_edge, no_edges). For integers only the counts and cuts_labelled are proved, since the comparison rounds (rounded_into_bin). Negative counts and items of the index are left out."
  },
  {
   "property": "C121",
   "status": "partial",
   "theorems": [
    "Riptide.Hash.members_by_bytes",
    "Riptide.Hash.members_by_columns_partial",
    "Riptide.Hash.unhinted_members_partial",
    "Riptide.Hash.split_differently",
    "Riptide.Hash.compared_by_bits",
    "Riptide.Hash.third_not_bool",
    "Riptide.Hash.no_rows",
    "Riptide.Hash.no_arrays",
    "Riptide.Hash.widths_differ",
    "Riptide.Hash.lengths_differ",
    "Riptide.Hash.small_hint",
    "Riptide.Hash.exactly_full"
   ],
   "note": "Rows are found where all arrays agree bytewise, for arrays of the same widths one by one, rows on both sides, no third key in a tuple that is not boolean, and a hint that leaves a slot; counterexamples for each guard."
  },
  {
   "property": "C122",
   "status": "partial",
   "theorems": [
    "Riptide.ReIndex.reIndex_takes_partial",
    "Riptide.ReIndex.structures_overflow",
    "Riptide.ReIndex.index_not_checked",
    "Riptide.ReIndex.unsigned_index_wraps",
    "Riptide.ReIndex.odd_address_faults",
    "Riptide.ReIndex.objects_give_None",
    "Riptide.ReIndex.needs_as_many_rows",
    "Riptide.ReIndex.every_array_is_checked",
    "Riptide.ReIndex.other_index_is_refused",
    "Riptide.ReIndex.none_crashes",
    "Riptide.ReIndex.nothing_crashes"
   ],
   "note": "Exact for numbers and strings with an index in range; fails for structures, unsigned indexes with the top bit, odd addresses."
  },
  {
   "property": "C123",
   "status": "partial",
   "theorems": [
    "Riptide.Alloc.resized_has_room_partial",
    "Riptide.Alloc.resized_structures_have_one_byte",
    "Riptide.Alloc.boolean_index_of_structures_overflows",
    "Riptide.Alloc.fancy_index_of_structures_overflows",
    "Riptide.Alloc.like_numbers_sound",
    "Riptide.Alloc.like_flexible_sound_iff",
    "Riptide.Alloc.like_other_flexible"
   ],
   "note": "Holds for numbers and for strings; fails for structures, and for strings with strides."
  },
  {
   "property": "C124",
   "status": "partial",
   "theorems": [
    "Riptide.Hash.integer_categories_partial",
    "Riptide.Hash.float_categories_partial",
    "Riptide.Hash.text_categories_partial",
    "Riptide.Hash.dates_compare_as_bytes",
    "Riptide.Hash.categories_of_other_types_refused",
    "Riptide.Hash.wide_numbers_are_not_looked_up",
    "Riptide.Hash.strides_are_ignored",
    "Riptide.Hash.broadcast_categories_out_of_bounds",
    "Riptide.Hash.small_types_leave_the_table_in_prime_mode",
    "Riptide.Hash.signed_zeros_are_no_categories"
   ],
   "note": "False for complex numbers and long double (never looked up), strided arrays (read as packed), small types in prime mode (outside the table) and signed zeros; proved exactly for packed arrays otherwise."
  },
  {
   "property": "C125",
   "status": "partial",
   "theorems": [
    "Riptide.Sds.shared_table_read_back_partial",
    "Riptide.Sds.c_order_packed",
    "Riptide.Sds.f_order_packed",
    "Riptide.Sds.scalars_come_back_empty",
    "Riptide.Sds.sixth_dimension_is_lost",
    "Riptide.Sds.every_second_item_is_wrong",
    "Riptide.Sds.reversed_array_is_wrong",
    "Riptide.Sds.strings_without_width_clear_the_next_array",
    "Riptide.Sds.last_strings_without_width_write_outside",
    "Riptide.Sds.half_written_share_is_read"
   ],
   "note": "Proved for arrays of one to five dimensions without gaps and strings with a width; each other case is shown to go wrong."
  },
  {
   "property": "C126",
   "status": "partial",
   "theorems": [
    "Riptide.Sds.first_read_through_a_share_partial",
    "Riptide.Sds.copy_holds",
    "Riptide.Sds.later_reads_return_the_first_table",
    "Riptide.Sds.share_names_collide",
    "Riptide.Sds.long_names_leave_the_buffer",
    "Riptide.Sds.mask_spoils_the_share",
    "Riptide.Sds.failed_copy_leaves_an_empty_table"
   ],
   "note": "Proved for the first read of a name without a mask; false once a share of the name exists, with a mask, for long names and after failed copies (witnesses and universally quantified counterexamples)."
  },
  {
   "property": "C127",
   "status": "partial",
   "theorems": [
    "Riptide.Hook.operator_of_two_arrays",
    "Riptide.Hook.operator_with_a_scalar",
    "Riptide.Hook.operator_with_a_scalar_on_the_left",
    "Riptide.Hook.operators_leave_their_operands",
    "Riptide.Hook.small_powers",
    "Riptide.Hook.power_one_is_the_array_itself",
    "Riptide.Hook.powers_crash_without_memory",
    "Riptide.Hook.other_powers",
    "Riptide.Hook.in_place_of_two_arrays_partial",
    "Riptide.Hook.in_place_with_a_scalar_partial",
    "Riptide.Hook.in_place_of_another_type_makes_another_array",
    "Riptide.Hook.in_place_division_of_integers_makes_another_array",
    "Riptide.Hook.in_place_crashes_without_memory",
    "Riptide.Hook.in_place_keeps_the_other_type_without_memory",
    "Riptide.Hook.in_place_loses_the_class",
    "Riptide.Hook.overlap_leaks_a_reference",
    "Riptide.Hook.in_place_power_changes_the_type",
    "Riptide.Hook.in_place_power_with_a_modulus_is_done_twice",
    "Riptide.Hook.adding_floats_to_integers_in_place",
    "Riptide.Hook.dividing_integers_in_place",
    "Riptide.Hook.in_place_may_grow_the_array",
    "Riptide.Hook.long_and_long_long_are_not_added_in_place",
    "Riptide.Hook.views_see_what_is_done_in_place",
    "Riptide.Hook.power_in_place_with_a_modulus_starts_with_the_powers",
    "Riptide.Hook.each_method_knows_its_row",
    "Riptide.Hook.no_slot_twice",
    "Riptide.Hook.each_operator_runs_its_calculation",
    "Riptide.Hook.each_operator_in_place_runs_its_calculation",
    "Riptide.Hook.each_comparison_has_its_number",
    "Riptide.Hook.hook_again_changes_nothing",
    "Riptide.Hook.the_fallback_is_never_our_method",
    "Riptide.Hook.elements_of_an_array"
   ],
   "note": "False for operators in place of another type, overlapping operands, derived classes and an exhausted memory: the theorems give the exact cases; strings are left out."
  },
  {
   "property": "C128",
   "status": "partial",
   "theorems": [
    "Riptide.GroupBy.Entry.column_functions",
    "Riptide.GroupBy.Entry.column_function_types",
    "Riptide.GroupBy.Entry.column_result_type",
    "Riptide.GroupBy.Entry.column_function_buffers",
    "Riptide.GroupBy.Entry.gather_matches",
    "Riptide.GroupBy.Entry.group_functions",
    "Riptide.GroupBy.Entry.group_function_types",
    "Riptide.GroupBy.Entry.column_call_exact",
    "Riptide.GroupBy.Entry.column_call_inside",
    "Riptide.GroupBy.Entry.columns_are_calculated",
    "Riptide.GroupBy.Entry.groups_are_calculated_partial",
    "Riptide.GroupBy.Entry.median_of_text_in_bands",
    "Riptide.GroupBy.Entry.first_of_void",
    "Riptide.GroupBy.Entry.none_for_a_column",
    "Riptide.GroupBy.Entry.missing_function_loses_arrays",
    "Riptide.GroupBy.Entry.distant_keys_are_not_read",
    "Riptide.GroupBy.Entry.unchecked_arguments",
    "Riptide.GroupBy.Entry.negative_range_of_float32",
    "Riptide.GroupBy.Entry.function_numbers_are_cut",
    "Riptide.GroupBy.Entry.unfitting_requests_are_refused",
    "Riptide.GroupBy.Entry.unfitting_groups_are_refused",
    "Riptide.GroupBy.Entry.column_function_names",
    "Riptide.GroupBy.Entry.gather_function_names",
    "Riptide.GroupBy.Entry.group_function_names"
   ],
   "note": "The choice of functions, types and buffers and the plain calls are proved; the full statement fails for medians of text calculated by threads, void columns, None and unchecked arguments, for which counterexamples are proved and which the guards exclude."
  },
  {
   "property": "C129",
   "status": "partial",
   "theorems": [
    "Riptide.Asof.align_matches_partial",
    "Riptide.Asof.align_unfit",
    "Riptide.Asof.align_types",
    "Riptide.Asof.types_of_pairs",
    "Riptide.Asof.left_dates_are_refused",
    "Riptide.Asof.refused_times_lose_memory",
    "Riptide.Asof.steps_are_ignored",
    "Riptide.Asof.times_with_gaps_are_wrong",
    "Riptide.Asof.merge_binned_partial",
    "Riptide.Asof.binned_types",
    "Riptide.Asof.binned_floats_are_refused",
    "Riptide.Asof.binned_wrong_category",
    "Riptide.Asof.narrow_keys_are_read_as_wide",
    "Riptide.Asof.keys_read_outside",
    "Riptide.Asof.short_times_read_outside",
    "Riptide.Asof.invalid_keys_outside",
    "Riptide.Asof.invalid_times_match"
   ],
   "note": "The code violates the full statement: steps of times are ignored, refused types lose the index, and the merge of binned keys uses the wrong key and the type of the times for the keys. The partial theorems hold for packed times, and for binned keys when all right keys are equal."
  },
  {
   "property": "C130",
   "status": "partial",
   "theorems": [
    "Riptide.Hash.group_calls_partial",
    "Riptide.Hash.group_defaults_partial",
    "Riptide.Hash.group_refusals",
    "Riptide.Hash.bad_hints_give_no_result",
    "Riptide.Hash.one_byte_rows",
    "Riptide.Hash.gaps_in_filters_are_ignored",
    "Riptide.Hash.small_keys_128",
    "Riptide.Hash.small_keys_are_merged",
    "Riptide.Hash.too_many_groups",
    "Riptide.Hash.group_parts_partial",
    "Riptide.Hash.no_cutoffs_read_outside",
    "Riptide.Hash.cutoff_refusals",
    "Riptide.Hash.gaps_in_cutoffs_are_ignored"
   ],
   "note": "Filters and cutoffs must be packed and the table must have room for the groups; without that the code violates the statement, as the other theorems show."
  },
  {
   "property": "C131",
   "status": "partial",
   "theorems": [
    "Riptide.Hash.unique_calls_partial",
    "Riptide.Hash.too_many_uniques",
    "Riptide.Hash.super_calls_partial",
    "Riptide.Hash.too_many_super_groups",
    "Riptide.Hash.hash_calls_ignore_filters",
    "Riptide.Hash.too_many_links",
    "Riptide.Hash.rolling_calls_partial",
    "Riptide.Hash.wide_rolling_rows_give_nothing",
    "Riptide.Hash.negative_hints_give_nothing",
    "Riptide.Hash.rolling_objects_are_deleted",
    "Riptide.Hash.too_many_rolling_rows"
   ],
   "note": "Filters must be packed, the table must have room, rolling keys must have the same widths and at most 16 bytes; MultiKeyHash ignores the filter. The code violates the statement otherwise."
  },
  {
   "property": "C132",
   "status": "partial",
   "theorems": [
    "Riptide.Hash.member_numbers_partial",
    "Riptide.Hash.member_floats_partial",
    "Riptide.Hash.member_text_partial",
    "Riptide.Hash.member_refuses",
    "Riptide.Hash.member_arguments",
    "Riptide.Hash.wide_numbers_are_never_looked_up",
    "Riptide.Hash.member_table_too_small_partial",
    "Riptide.Hash.member_text_table_too_small_partial",
    "Riptide.Hash.member_strides_are_ignored",
    "Riptide.Hash.member_signed_zeros",
    "Riptide.Hash.member_half_floats",
    "Riptide.Hash.member_exactly_full",
    "Riptide.Hash.member_text_case"
   ],
   "note": "Proved for packed arrays with room in the table, zeros of one sign, and text of equal widths or without an inner NUL; the code violates the rest, shown by the counterexamples listed."
  },
  {
   "property": "C133",
   "status": "partial",
   "theorems": [
    "Riptide.Reduce.call_int_extreme",
    "Riptide.Reduce.call_flt_extreme",
    "Riptide.Reduce.call_int_nan_extreme",
    "Riptide.Reduce.call_flt_nan_extreme",
    "Riptide.Reduce.call_int_arg",
    "Riptide.Reduce.call_flt_arg",
    "Riptide.Reduce.call_int_nan_arg",
    "Riptide.Reduce.call_flt_nan_arg",
    "Riptide.Reduce.call_int_sum_partial",
    "Riptide.Reduce.call_int_nansum_partial",
    "Riptide.Reduce.call_flt_sum_partial",
    "Riptide.Reduce.call_int_mean_partial",
    "Riptide.Reduce.call_int_nanmean_partial",
    "Riptide.Reduce.call_int_var_partial",
    "Riptide.Reduce.call_int_nanvar_partial",
    "Riptide.Reduce.call_flt_var_partial",
    "Riptide.Reduce.call_unnamed",
    "Riptide.Reduce.call_other_type",
    "Riptide.Reduce.call_unsupported_type",
    "Riptide.Reduce.call_nan_aware",
    "Riptide.Reduce.call_no_crash_partial",
    "Riptide.Reduce.call_wrong",
    "Riptide.Reduce.call_func_wraps",
    "Riptide.Reduce.call_func_overflow",
    "Riptide.Reduce.call_arguments"
   ],
   "note": "The code violates the full statement: means of unsupported types call a null pointer (call_unsupported_type), the number 210 returns NULL without an exception (call_nan_aware), numbers are cut to 32 bits (call_func_wraps). Sums are exact below 2^53 only, long double and sums of fractions are not modelled."
  },
  {
   "property": "C134",
   "status": "partial",
   "theorems": [
    "Riptide.Ema.Entry.call_refuses_partial",
    "Riptide.Ema.Entry.call_complaints",
    "Riptide.Ema.Entry.call_threads",
    "Riptide.Ema.Entry.kern_named",
    "Riptide.Ema.Entry.kern_exists",
    "Riptide.Ema.Entry.kern_fits_partial",
    "Riptide.Ema.Entry.kern_long_double",
    "Riptide.Ema.Entry.call_shape_partial",
    "Riptide.Ema.Entry.call_cumSum_partial",
    "Riptide.Ema.Entry.call_cumProd_partial",
    "Riptide.Ema.Entry.call_findNth_partial",
    "Riptide.Ema.Entry.call_extremes_partial",
    "Riptide.Ema.Entry.call_empty",
    "Riptide.Ema.Entry.call_pending_error",
    "Riptide.Ema.Entry.call_short_column",
    "Riptide.Ema.Entry.call_long_column",
    "Riptide.Ema.Entry.call_none_column",
    "Riptide.Ema.Entry.call_strided_key",
    "Riptide.Ema.Entry.call_strided_mask",
    "Riptide.Ema.Entry.call_key_above",
    "Riptide.Ema.Entry.call_negative_key",
    "Riptide.Ema.Entry.call_long_double",
    "Riptide.Ema.Entry.call_weighted_needs_time",
    "Riptide.Ema.Entry.call_func_wraps",
    "Riptide.Ema.Entry.call_bool_extreme"
   ],
   "note": "False of the code for times and masks which are no arrays, shorter and None columns, steps, keys out of range, long double times and empty lists; proved for sound arguments. Values of floating-point sums and of the averages are left to C72-C75 (arithmetic is opaque here)."
  },
  {
   "property": "C135",
   "status": "partial",
   "theorems": [
    "Riptide.Convert.Call.kernel_exists",
    "Riptide.Convert.Call.same_type",
    "Riptide.Convert.Call.safe_item_ints",
    "Riptide.Convert.Call.safe_item_to_float",
    "Riptide.Convert.Call.safe_item_from_float",
    "Riptide.Convert.Call.item_to_bool",
    "Riptide.Convert.Call.safe_item_from_bool",
    "Riptide.Convert.Call.item_floats",
    "Riptide.Convert.Call.unsafe_item_ints",
    "Riptide.Convert.Call.unsafe_item_from_float",
    "Riptide.Convert.Call.unsafe_item_to_float",
    "Riptide.Convert.Call.safe_call_partial",
    "Riptide.Convert.Call.safe_ints_partial",
    "Riptide.Convert.Call.safe_to_float_partial",
    "Riptide.Convert.Call.safe_from_float_partial",
    "Riptide.Convert.Call.safe_to_bool_partial",
    "Riptide.Convert.Call.safe_copy_partial",
    "Riptide.Convert.Call.unsafe_call_partial",
    "Riptide.Convert.Call.unsafe_ints_partial",
    "Riptide.Convert.Call.unsafe_leaves_output",
    "Riptide.Convert.Call.unsafe_zero_dim",
    "Riptide.Convert.Call.undefined_item",
    "Riptide.Convert.Call.call_refuses",
    "Riptide.Convert.Call.args_taken",
    "Riptide.Convert.Call.safe_scrambles",
    "Riptide.Convert.Call.safe_leaves_input",
    "Riptide.Convert.Call.safe_surprises"
   ],
   "note": "False of the code for strided Fortran order and overlapping windows (safe) and for more than one dimension not in Fortran order (unsafe); proved for the other shapes. Empty arrays of several dimensions and casts between floats (opaque) are left out."
  },
  {
   "property": "C136",
   "status": "partial",
   "theorems": [
    "Riptide.Sort.Call.lexsort_call_orders_rows",
    "Riptide.Sort.Call.lexsort_call_index_partial",
    "Riptide.Sort.Call.lexsort_call_cutoffs_partial",
    "Riptide.Sort.Call.lexsort_call_index_and_cutoffs",
    "Riptide.Sort.Call.lexsort_call_refuses",
    "Riptide.Sort.Call.bad_key_refused",
    "Riptide.Sort.Call.unequal_lengths_refused",
    "Riptide.Sort.Call.empty_index_undefined",
    "Riptide.Sort.Call.index_out_of_range_undefined",
    "Riptide.Sort.Call.one_row_number_kept",
    "Riptide.Sort.Call.empty_cutoffs_undefined",
    "Riptide.Sort.Call.falling_cutoffs_undefined",
    "Riptide.Sort.Call.no_keys_undefined",
    "Riptide.Sort.Call.none_key_undefined",
    "Riptide.Sort.Call.zero_dim_undefined",
    "Riptide.Sort.Call.ascending_other_ignored",
    "Riptide.Sort.Call.ascending_numbers_misread",
    "Riptide.Sort.Call.ascending_two_undefined",
    "Riptide.Sort.Call.unknown_type_unsorted",
    "Riptide.Sort.Call.strided_index_corrupted"
   ],
   "note": "Proved for arrays of sortable types without keywords, with ascending as a bool or boolean array, with cutoffs which rise, and with an index of valid row numbers, item after item in memory; false of the code for the other keyword values (witnesses). Types: long double left out."
  },
  {
   "property": "C137",
   "status": "partial",
   "theorems": [
    "Riptide.Sds.Include.column_list_exact",
    "Riptide.Sds.Include.folder_list_exact",
    "Riptide.Sds.Include.list_history",
    "Riptide.Sds.Include.read_exact",
    "Riptide.Sds.Include.read_many_partial",
    "Riptide.Sds.Include.read_onefile_partial",
    "Riptide.Sds.Include.folder_entries_read",
    "Riptide.Sds.Include.categories_read",
    "Riptide.Sds.Include.read_file_folders",
    "Riptide.Sds.Include.slash_in_name_missed",
    "Riptide.Sds.Include.path_in_include_reads_nothing",
    "Riptide.Sds.Include.bang_in_name_confused",
    "Riptide.Sds.Include.nested_folders_missed",
    "Riptide.Sds.Include.folder_entries_lost",
    "Riptide.Sds.Include.wrong_items_read_all",
    "Riptide.Sds.Include.include_not_list_reads_all",
    "Riptide.Sds.Include.read_file_ignores_include",
    "Riptide.Sds.Include.sections_ignored",
    "Riptide.Sds.Include.wrong_file_names_dropped",
    "Riptide.Sds.Include.zero_byte_cuts_name"
   ],
   "note": "Exact description proved for all names and lists (column_list_exact, folder_list_exact, read_exact); the wanted choice proved for columns without / and ! and folders given with their slash; false of the code otherwise (witnesses)."
  },
  {
   "property": "C138",
   "status": "partial",
   "theorems": [
    "Riptide.OneInput.rounding_floats",
    "Riptide.OneInput.round_floats",
    "Riptide.OneInput.round_floats_partial",
    "Riptide.OneInput.abs_floats",
    "Riptide.OneInput.sqrt_floats",
    "Riptide.OneInput.abs_unsigned",
    "Riptide.OneInput.abs_signed_partial",
    "Riptide.OneInput.abs_int64",
    "Riptide.OneInput.invert_ints",
    "Riptide.OneInput.neg_never",
    "Riptide.OneInput.invert_floats",
    "Riptide.OneInput.round_ints_partial",
    "Riptide.OneInput.unknown_function_throws",
    "Riptide.OneInput.unknown_type_throws",
    "Riptide.OneInput.text_never_ends",
    "Riptide.OneInput.tests_outside",
    "Riptide.OneInput.tests_false",
    "Riptide.OneInput.stride_outside",
    "Riptide.OneInput.second_returns_nothing",
    "Riptide.OneInput.given_output_partial",
    "Riptide.OneInput.given_two_dims",
    "Riptide.OneInput.columns_outside",
    "Riptide.OneInput.rows_first_only",
    "Riptide.OneInput.round_wrong",
    "Riptide.OneInput.abs_int64_wrong",
    "Riptide.OneInput.abs_smallest",
    "Riptide.OneInput.round_ints_wrong",
    "Riptide.OneInput.broadcast_wrong",
    "Riptide.OneInput.given_strided",
    "Riptide.OneInput.columns_wrong",
    "Riptide.OneInput.given_refused",
    "Riptide.OneInput.given_refused_tests",
    "Riptide.OneInput.overlapping_output_wrong"
   ],
   "note": "Proved for items side by side: floor, ceil, trunc, abs, sqrt of floats, abs of unsigned and small signed types, invert. The rest of the statement is false of the code: exact descriptions and witnesses are given."
  },
  {
   "property": "C139",
   "status": "partial",
   "theorems": [
    "Riptide.Bins.Call.search_partial",
    "Riptide.Bins.Call.search_same_partial",
    "Riptide.Bins.Call.search_whole_partial",
    "Riptide.Bins.Call.search_float_partial",
    "Riptide.Bins.Call.search_rounded_partial",
    "Riptide.Bins.Call.bins_refused",
    "Riptide.Bins.Call.values_refused",
    "Riptide.Bins.Call.mode_refused",
    "Riptide.Bins.Call.text_any_mode",
    "Riptide.Bins.Call.no_bins_undefined",
    "Riptide.Bins.Call.cut_false_wrong",
    "Riptide.Bins.Call.wrapped_end_wrong",
    "Riptide.Bins.Call.rounded_end_wrong",
    "Riptide.Bins.Call.end_undefined",
    "Riptide.Bins.Call.value_undefined",
    "Riptide.Bins.Call.large_value_wrong",
    "Riptide.Bins.Call.narrow_bins_wrong",
    "Riptide.Bins.Call.narrow_end_wrong",
    "Riptide.Bins.Call.nan_bin_undefined",
    "Riptide.Bins.Call.sparse_wrong"
   ],
   "note": "Proved for contiguous arrays and in-order bins when the ends and the values between them are numbers of both types, and for integers in floating point bins with harmless ends. Outside these guards the statement is false of the code: witnesses are given."
  },
  {
   "property": "C140",
   "status": "partial",
   "theorems": [
    "Riptide.Mask.Call.sum_partial",
    "Riptide.Mask.Call.sum_contiguous_partial",
    "Riptide.Mask.Call.index_partial",
    "Riptide.Mask.Call.index_contiguous_partial",
    "Riptide.Mask.Call.index_memory_order_partial",
    "Riptide.Mask.Call.type_refused",
    "Riptide.Mask.Call.lengths_refused",
    "Riptide.Mask.Call.objects_refused",
    "Riptide.Mask.Call.rows_refused",
    "Riptide.Mask.Call.fancy_partial",
    "Riptide.Mask.Call.fancy_memory_order_partial",
    "Riptide.Mask.Call.rows_sum_wrong",
    "Riptide.Mask.Call.single_row_sum_wrong",
    "Riptide.Mask.Call.hidden_rows_sum_wrong",
    "Riptide.Mask.Call.hidden_rows_index_wrong",
    "Riptide.Mask.Call.fortran_order_wrong",
    "Riptide.Mask.Call.mixed_order_wrong",
    "Riptide.Mask.Call.shapes_not_compared",
    "Riptide.Mask.Call.records_undefined",
    "Riptide.Mask.Call.sliced_fancy_undefined",
    "Riptide.Mask.Call.fortran_fancy_wrong",
    "Riptide.Mask.Call.rows_fancy_wrong"
   ],
   "note": "Proved for evenly spaced arrays in one order without single-item dimensions at their ends, or contiguous. Outside these guards the statement is false of the code: witnesses are given, several for all sizes."
  },
  {
   "property": "C141",
   "status": "partial",
   "theorems": [
    "Riptide.Date.Call.call_partial",
    "Riptide.Date.Call.dates_partial",
    "Riptide.Date.Call.times_partial",
    "Riptide.Date.Call.moments_partial",
    "Riptide.Date.Call.values_in_range",
    "Riptide.Date.Call.warning_partial",
    "Riptide.Date.Call.strptime_partial",
    "Riptide.Date.Call.type_refused",
    "Riptide.Date.Call.memory_order_partial",
    "Riptide.Date.Call.fortran_order_wrong",
    "Riptide.Date.Call.sliced_wrong",
    "Riptide.Date.Call.backwards_undefined",
    "Riptide.Date.Call.other_byte_order_wrong",
    "Riptide.Date.Call.letters_undefined",
    "Riptide.Date.Call.strptime_characters_wrong",
    "Riptide.Date.Call.shape_lost"
   ],
   "note": "Proved for arrays in C order (and, up to the order, Fortran order) with characters in the machine's order of bytes. Outside these guards the statement is false of the code: witnesses are given."
  },
  {
   "property": "C142",
   "status": "partial",
   "theorems": [
    "Riptide.Take.Call.get_partial",
    "Riptide.Take.Call.contiguous_partial",
    "Riptide.Take.Call.in_range_partial",
    "Riptide.Take.Call.fill_missing",
    "Riptide.Take.Call.default_invalid",
    "Riptide.Take.Call.mask_partial",
    "Riptide.Take.Call.mask_lengths_refused",
    "Riptide.Take.Call.index_type_refused",
    "Riptide.Take.Call.objects_refused",
    "Riptide.Take.Call.layout_refused",
    "Riptide.Take.Call.dates_crash",
    "Riptide.Take.Call.text_default_undefined",
    "Riptide.Take.Call.long_texts_undefined",
    "Riptide.Take.Call.large_default_wrong",
    "Riptide.Take.Call.numpy_default_wrong",
    "Riptide.Take.Call.long_double_default_wrong",
    "Riptide.Take.Call.bool_default_wrong",
    "Riptide.Take.Call.default_wraps",
    "Riptide.Take.Call.nan_default_undefined",
    "Riptide.Take.Call.default_ignored",
    "Riptide.Take.Call.unsigned_index_texts_undefined",
    "Riptide.Take.Call.fortran_order_wrong"
   ],
   "note": "Proved for bools, integers, floats and texts, arrays evenly spaced in C or Fortran order, and defaults which are kept. Outside these guards the statement is false of the code: witnesses are given, most of them for all arrays."
  },
  {
   "property": "C143",
   "status": "partial",
   "theorems": [
    "Riptide.Sds.Masked.one_file_partial",
    "Riptide.Sds.Masked.one_file_same_length",
    "Riptide.Sds.Masked.one_file_no_rows_undefined",
    "Riptide.Sds.Masked.no_columns_all",
    "Riptide.Sds.Masked.other_masks_ignored",
    "Riptide.Sds.Masked.several_files_partial",
    "Riptide.Sds.Masked.several_files_refused",
    "Riptide.Sds.Masked.several_files_other_masks_ignored",
    "Riptide.Sds.Masked.first_array_shorter_undefined",
    "Riptide.Sds.Masked.first_array_shorter_empty_wrong",
    "Riptide.Sds.Masked.first_array_shorter_refused",
    "Riptide.Sds.Masked.scalar_first_empty_wrong",
    "Riptide.Sds.Masked.first_array_longer_wrong",
    "Riptide.Sds.Masked.one_file_long_mask_wrong",
    "Riptide.Sds.Masked.strided_mask_wrong",
    "Riptide.Sds.Masked.reversed_mask_undefined",
    "Riptide.Sds.Masked.structures_refused"
   ],
   "note": "Proved for masks which lie in one piece; for one file if the mask selects a row and none behind a column, for several files if the columns have as many rows as the first array. Outside these guards the statement is false of the code: witnesses are given."
  },
  {
   "property": "C144",
   "status": "partial",
   "theorems": [
    "Riptide.Window.Call.signed_partial",
    "Riptide.Window.Call.overflow_undefined",
    "Riptide.Window.Call.unsigned_partial",
    "Riptide.Window.Call.float_partial",
    "Riptide.Window.Call.lengths_refused",
    "Riptide.Window.Call.time_type_refused",
    "Riptide.Window.Call.unknown_none",
    "Riptide.Window.Call.answer_rows",
    "Riptide.Window.Call.strided_values_wrong",
    "Riptide.Window.Call.strided_times_wrong",
    "Riptide.Window.Call.reversed_undefined",
    "Riptide.Window.Call.fortran_wrong",
    "Riptide.Window.Call.swapped_wrong",
    "Riptide.Window.Call.invalid_value_wrong",
    "Riptide.Window.Call.invalid_int64_undefined",
    "Riptide.Window.Call.invalid_time_undefined",
    "Riptide.Window.Call.unsorted_wrong",
    "Riptide.Window.Call.negative_delta_wrong"
   ],
   "note": "Proved for arrays in C order and native order of bytes with times which do not fall, a delta which is not negative and no overflow (overflow is proved to be undefined). Outside these guards the statement is false of the code: witnesses are given. Float arithmetic is a parameter."
  },
  {
   "property": "C145",
   "status": "partial",
   "theorems": [
    "Riptide.Pack.Call.next_partial",
    "Riptide.Pack.Call.prev_partial",
    "Riptide.Pack.Call.next_type_refused",
    "Riptide.Pack.Call.pack_partial",
    "Riptide.Pack.Call.pack_links_partial",
    "Riptide.Pack.Call.links_length_refused",
    "Riptide.Pack.Call.pack_type_refused",
    "Riptide.Pack.Call.groups_from_counts",
    "Riptide.Pack.Call.count_type_refused",
    "Riptide.Pack.Call.counts_exact",
    "Riptide.Pack.Call.counts_packed",
    "Riptide.Pack.Call.count_empty_refused",
    "Riptide.Pack.Call.count_negative_refused",
    "Riptide.Pack.Call.strided_next_wrong",
    "Riptide.Pack.Call.swapped_next_wrong",
    "Riptide.Pack.Call.strided_pack_wrong",
    "Riptide.Pack.Call.reversed_pack_undefined",
    "Riptide.Pack.Call.swapped_pack_undefined",
    "Riptide.Pack.Call.strided_count_wrong",
    "Riptide.Pack.Call.swapped_count_wrong",
    "Riptide.Pack.Call.strided_counts_wrong",
    "Riptide.Pack.Call.int64_counts_refused",
    "Riptide.Pack.Call.count_type_undefined",
    "Riptide.Pack.Call.group_type_undefined",
    "Riptide.Pack.Call.int64_links_wrong",
    "Riptide.Pack.Call.int8_links_undefined",
    "Riptide.Pack.Call.own_links_undefined",
    "Riptide.Pack.Call.next_no_memory_unwritten",
    "Riptide.Pack.Call.next_negative_wrong",
    "Riptide.Pack.Call.next_many_groups_undefined",
    "Riptide.Pack.Call.pack_negative_undefined",
    "Riptide.Pack.Call.pack_negative_null_undefined",
    "Riptide.Pack.Call.pack_no_memory_undefined",
    "Riptide.Pack.Call.count_no_memory_silent"
   ],
   "note": "Proved for keys of a signed type in C order and native order of bytes with enough memory. Outside these guards the statement is false of the code: witnesses are given."
  },
  {
   "property": "C146",
   "status": "partial",
   "theorems": [
    "Riptide.Keys.reverse_partial",
    "Riptide.Keys.reverse_in_bounds",
    "Riptide.Keys.reverse_type_refused",
    "Riptide.Keys.reindex_partial",
    "Riptide.Keys.reindex_size_refused",
    "Riptide.Keys.filter_partial",
    "Riptide.Keys.filter_refused",
    "Riptide.Keys.first_partial",
    "Riptide.Keys.first_refused",
    "Riptide.Keys.strided_reverse_wrong",
    "Riptide.Keys.reversed_reverse_undefined",
    "Riptide.Keys.swapped_reverse_wrong",
    "Riptide.Keys.no_permutation_leaves_rows_unset",
    "Riptide.Keys.fortran_filter_wrong",
    "Riptide.Keys.strided_filter_wrong",
    "Riptide.Keys.odd_filter_byte_multiplies",
    "Riptide.Keys.float_unique_keys_accepted",
    "Riptide.Keys.unsigned_keys_filtered_out",
    "Riptide.Keys.cutoff_behind_keys_undefined",
    "Riptide.Keys.fewer_cutoffs_undefined",
    "Riptide.Keys.unique_key_truncated",
    "Riptide.Keys.first_type_silent",
    "Riptide.Keys.first_max_overflows"
   ],
   "note": "Proved for arrays of the documented types in C order and native order of bytes, with cutoffs which do not fall and lie within the keys. Outside these guards the statement is false of the code: witnesses are given."
  },
  {
   "property": "C147",
   "status": "partial",
   "theorems": [
    "Riptide.Nums.Info.build_describes",
    "Riptide.Nums.Info.build_only",
    "Riptide.Nums.Info.one_array",
    "Riptide.Nums.Info.other_refused",
    "Riptide.Nums.Info.other_item_refused",
    "Riptide.Nums.Info.date_refused",
    "Riptide.Nums.Info.no_copy_refused",
    "Riptide.Nums.Info.lengths_refused",
    "Riptide.Nums.Info.matrix_refused",
    "Riptide.Nums.Info.strided_refused",
    "Riptide.Nums.Info.two_built",
    "Riptide.Nums.Info.odd_strides_built",
    "Riptide.Nums.Info.no_arrays_accepted",
    "Riptide.Nums.Info.scalar_array_undefined",
    "Riptide.Nums.Info.one_item_slice_refused",
    "Riptide.Nums.Info.one_item_refused",
    "Riptide.Nums.Info.none_accepted",
    "Riptide.Nums.Info.permuted_copy_wrong",
    "Riptide.Nums.Info.strided_matrix_accepted",
    "Riptide.Nums.Info.swapped_copy_kept",
    "Riptide.Nums.Info.no_table_undefined"
   ],
   "note": "Proved for arrays of one dimension whose slices of one item have the distance of an item, with the check of rows, the conversion and memory (build_describes), and the converse for every list (build_only). Outside these guards the statement is false of the code: witnesses are given."
  },
  {
   "property": "C148",
   "status": "partial",
   "theorems": [
    "Riptide.Bins.Sorted.float_counts_partial",
    "Riptide.Bins.Sorted.int_counts_partial",
    "Riptide.Bins.Sorted.bool_counts",
    "Riptide.Bins.Sorted.cuts_partial",
    "Riptide.Bins.Sorted.quantile_calls_partial",
    "Riptide.Bins.Sorted.above_edge_undefined",
    "Riptide.Bins.Sorted.cuts_types",
    "Riptide.Bins.Sorted.counts_failed",
    "Riptide.Bins.Sorted.counts_silent",
    "Riptide.Bins.Sorted.five_cut",
    "Riptide.Bins.Sorted.ints_counted_call",
    "Riptide.Bins.Sorted.other_types_cut",
    "Riptide.Bins.Sorted.no_arguments_undefined",
    "Riptide.Bins.Sorted.none_counted",
    "Riptide.Bins.Sorted.index_outside_undefined",
    "Riptide.Bins.Sorted.index_no_order",
    "Riptide.Bins.Sorted.index_length",
    "Riptide.Bins.Sorted.counts_outside_undefined",
    "Riptide.Bins.Sorted.no_edges_undefined",
    "Riptide.Bins.Sorted.strided_cuts_wrong",
    "Riptide.Bins.Sorted.strided_edges_wrong",
    "Riptide.Bins.Sorted.swapped_counts_wrong",
    "Riptide.Bins.Sorted.one_item_slice_failed",
    "Riptide.Bins.Sorted.counted_row_outside_undefined",
    "Riptide.Bins.Sorted.second_list_refused"
   ],
   "note": "Proved for values of integer and float types (long double is left out) in C order, an index which is an order of the values, fitting counts, at least two edges in order and no value above the last edge. Outside these guards the statement is false of the code: witnesses are given."
  },
  {
   "property": "C149",
   "status": "partial",
   "theorems": [
    "Riptide.Work.worker_count_bounds",
    "Riptide.Work.worker_count",
    "Riptide.Work.workers_per_processor_partial",
    "Riptide.Work.wake_setting_bounds",
    "Riptide.Work.wake_count_bounds",
    "Riptide.Work.bands_tile_whatever_the_setting",
    "Riptide.Work.set_wake_up_partial",
    "Riptide.Work.start_numbers_workers",
    "Riptide.Work.start_numbers_distinct",
    "Riptide.Work.start_steps_terminate",
    "Riptide.Work.start_returns_partial",
    "Riptide.Work.start_leaves_pool",
    "Riptide.Work.first_operation_returns",
    "Riptide.Work.forked_child_works_partial",
    "Riptide.Work.workers_processor_63_ignored",
    "Riptide.Work.workers_more_than_processors",
    "Riptide.Work.empty_mask_stays_empty",
    "Riptide.Work.worker_count_undefined",
    "Riptide.Work.wake_up_number_cut_to_32_bits",
    "Riptide.Work.start_never_returns",
    "Riptide.Work.start_returns_before_idle",
    "Riptide.Work.forked_child_never_returns",
    "Riptide.Work.fork_with_worker_awake"
   ],
   "note": "Proved for processors 0 to 62, settings of 32 bits, threads which can all be created, and forks at moments when no worker is awake; the numbering of the workers and the bounds of the counts hold always. Outside these guards the statement is false of the code: witnesses are given."
  },
  {
   "property": "C150",
   "status": "partial",
   "theorems": [
    "Riptide.Keys.accum2_partial",
    "Riptide.Keys.accum2_tells_pairs_partial",
    "Riptide.Keys.accum2_refused",
    "Riptide.Keys.accum1_partial",
    "Riptide.Keys.accum1_refused",
    "Riptide.Keys.strided_accum1_wrong",
    "Riptide.Keys.swapped_accum1_wrong",
    "Riptide.Keys.reversed_accum_undefined",
    "Riptide.Keys.strided_accum_filter_wrong",
    "Riptide.Keys.fortran_pairs_wrong",
    "Riptide.Keys.fortran_first_rows_wrong",
    "Riptide.Keys.odd_filter_passed_over",
    "Riptide.Keys.short_memory_breaks_list",
    "Riptide.Keys.no_table_undefined",
    "Riptide.Keys.negative_maxima_taken",
    "Riptide.Keys.outside_pairs_collide"
   ],
   "note": "Proved for arrays in C order and in the order of bytes of the machine, numbers within the maxima, fewer than 2^63 pairs, up to 2^31 rows, filters which are None or boolean arrays, and granted memory; refusals are proved for all arguments. Outside these guards the statement is false of the code: witnesses are given."
  },
  {
   "property": "C151",
   "status": "partial",
   "theorems": [
    "Riptide.Quick.Call.isSorted_ints_partial",
    "Riptide.Quick.Call.isSorted_floats_partial",
    "Riptide.Quick.Call.isSorted_texts_partial",
    "Riptide.Quick.Call.isSorted_structures_partial",
    "Riptide.Quick.Call.isSorted_refused",
    "Riptide.Quick.Call.sortInPlace_call_ints_partial",
    "Riptide.Quick.Call.sortInPlace_call_floats_partial",
    "Riptide.Quick.Call.sortInPlace_no_memory",
    "Riptide.Quick.Call.sortInPlace_other_modes",
    "Riptide.Quick.Call.sortInPlace_other_types",
    "Riptide.Quick.Call.sort_call_ints_partial",
    "Riptide.Quick.Call.sort_call_floats_partial",
    "Riptide.Quick.Call.sort_texts_overflow",
    "Riptide.Quick.Call.sort_no_memory",
    "Riptide.Quick.Call.indirect_call_partial",
    "Riptide.Quick.Call.indirect_other_types",
    "Riptide.Quick.Call.indirect_no_memory",
    "Riptide.Quick.Call.isSorted_swapped_wrong",
    "Riptide.Quick.Call.isSorted_structures_wrong",
    "Riptide.Quick.Call.sortInPlace_strided_wrong",
    "Riptide.Quick.Call.sortInPlace_reversed_undefined",
    "Riptide.Quick.Call.sortInPlace_swapped_wrong",
    "Riptide.Quick.Call.sortInPlace_fortran_wrong",
    "Riptide.Quick.Call.sortInPlace_texts_wrong",
    "Riptide.Quick.Call.sortInPlace_bool_undefined",
    "Riptide.Quick.Call.indirect_strided_wrong",
    "Riptide.Quick.Call.indirect_unchecked"
   ],
   "note": "Proved for arrays in C order and in the order of bytes of the machine, known types and modes, granted memory, and for SortInPlaceIndirect an order without repetitions with all keys in it; the refusals of IsSorted are proved for all arrays. Structures: only that equal ones lie together. long double is left out. Outside these guards the statement is false of the code: witnesses are given."
  },
  {
   "property": "C152",
   "status": "partial",
   "theorems": [
    "Riptide.LexGroup.Call.groupFromLexSort_partial",
    "Riptide.LexGroup.Call.base_zero",
    "Riptide.LexGroup.Call.cutoffs_partial",
    "Riptide.LexGroup.Call.longer_refused",
    "Riptide.LexGroup.Call.type_refused",
    "Riptide.LexGroup.Call.cutoffs_type_refused",
    "Riptide.LexGroup.Call.cutoffs_last_refused",
    "Riptide.LexGroup.Call.filter_length_refused",
    "Riptide.LexGroup.Call.memory_refused",
    "Riptide.LexGroup.Call.index_overwritten",
    "Riptide.LexGroup.Call.filter_ignored",
    "Riptide.LexGroup.Call.empty_cutoffs_undefined",
    "Riptide.LexGroup.Call.later_memory_unchecked",
    "Riptide.LexGroup.Call.base_too_large_spoiled",
    "Riptide.LexGroup.Call.base_spoiled",
    "Riptide.LexGroup.Call.no_rows_count_unset",
    "Riptide.LexGroup.Call.strided_index_wrong",
    "Riptide.LexGroup.Call.swapped_index_undefined",
    "Riptide.LexGroup.Call.strided_values_wrong",
    "Riptide.LexGroup.Call.negative_row_undefined",
    "Riptide.LexGroup.Call.rows_cut_to_none",
    "Riptide.LexGroup.Call.rows_cut_to_one",
    "Riptide.LexGroup.Call.later_memory_unchecked_cutoffs"
   ],
   "note": "Proved for an index in C order and in the order of bytes of the machine with distinct rows in range, values in C order of any width but 7 (with cutoffs: of 1, 2, 4 or 8 bytes), granted memory; the refusals are proved for all arrays. Cutoffs which fall or are negative are counted as undefined. Outside these guards the statement is false of the code: witnesses are given."
  },
  {
   "property": "C153",
   "status": "partial",
   "theorems": [
    "Riptide.Sds.Save.saved_partial",
    "Riptide.Sds.Save.order_said",
    "Riptide.Sds.Save.load_written",
    "Riptide.Sds.Save.order_lost",
    "Riptide.Sds.Save.six_dims_undefined",
    "Riptide.Sds.Save.six_dims_saved",
    "Riptide.Sds.Save.objects_undefined",
    "Riptide.Sds.Save.objects_saved",
    "Riptide.Sds.Save.refused_answers_none",
    "Riptide.Sds.Save.dates_answer_none",
    "Riptide.Sds.Save.others_answer_none",
    "Riptide.Sds.Save.one_item_answers_none",
    "Riptide.Sds.Save.scalar_undefined",
    "Riptide.Sds.Save.few_names_undefined",
    "Riptide.Sds.Save.few_names_saved",
    "Riptide.Sds.Save.skipped_name_wrong",
    "Riptide.Sds.Save.value_cut_wrong",
    "Riptide.Sds.Save.value_type_saved",
    "Riptide.Sds.Save.name_cut_wrong",
    "Riptide.Sds.Save.long_names_undefined",
    "Riptide.Sds.Save.short_tuple_undefined",
    "Riptide.Sds.Save.band_size",
    "Riptide.Sds.Save.band_room_saved",
    "Riptide.Sds.Save.section_undefined",
    "Riptide.Sds.Save.section_long_refused",
    "Riptide.Sds.Save.zero_cut_wrong",
    "Riptide.Sds.Save.metadata_lost",
    "Riptide.Sds.Save.level_cut",
    "Riptide.Sds.Save.percent_undefined",
    "Riptide.Sds.Save.no_names_memory",
    "Riptide.Sds.Save.no_memory",
    "Riptide.Sds.Save.no_copy_memory",
    "Riptide.Nums.Info.keepLay_places",
    "Riptide.Nums.Info.copyOf_get"
   ],
   "note": "Proved for arrays of any layout with one to five dimensions, types up to 20 but objects, in the order of bytes of the machine, names of non-zero bytes with values of one byte which have room and are as many as the arrays (or none), metadata below 4 GiB, without bands and without a section (bands: `load_written` for every input which C109 accepts). Outside these guards the statement is false of the code: witnesses are given."
  },
  {
   "property": "C154",
   "status": "partial",
   "theorems": [
    "Riptide.Sds.Many.read_all",
    "Riptide.Sds.Many.read_iff",
    "Riptide.Sds.Many.missing_file_spoils",
    "Riptide.Sds.Many.one_missing_raises",
    "Riptide.Sds.Many.stack_partial",
    "Riptide.Sds.Many.stack_raises",
    "Riptide.Sds.Many.must_exist_raises",
    "Riptide.Sds.Many.join_all",
    "Riptide.Sds.Many.join_fails",
    "Riptide.Sds.Many.digits_value",
    "Riptide.Sds.Many.join_missing_raises",
    "Riptide.Sds.Many.either_first",
    "Riptide.Sds.Many.either_raises",
    "Riptide.Sds.Many.any_order_partial",
    "Riptide.Sds.Many.any_history_partial",
    "Riptide.Sds.Many.empty_list_stale",
    "Riptide.Sds.Many.empty_list_history",
    "Riptide.Sds.Many.empty_list_after_good",
    "Riptide.Sds.Many.join_order",
    "Riptide.Sds.Many.damaged_metadata",
    "Riptide.Sds.Many.one_answers",
    "Riptide.Sds.Many.percent_undefined",
    "Riptide.Sds.Many.stack_ignores_mode",
    "Riptide.Sds.Many.mode_differs",
    "Riptide.Sds.Many.join_without_name",
    "Riptide.Sds.Many.join_without_files",
    "Riptide.Sds.Many.last_missing_told",
    "Riptide.Sds.Many.dropped_names"
   ],
   "note": "Reading and joining are proved when all files can be read, stacking for any files of which something can be read; what happens otherwise is told by theorems which show where the statement is false of the code. Independence of the order is proved for reading and stacking of files without percent signs in names and messages, independence of the history for lists which name a file. Masks are in C143."
  },
  {
   "property": "C155",
   "status": "partial",
   "theorems": [
    "Riptide.Nums.Shift.shift_rows_partial",
    "Riptide.Nums.Shift.flat_order",
    "Riptide.Nums.Shift.shift_frame",
    "Riptide.Nums.Shift.c_order_wrong",
    "Riptide.Nums.Shift.c_order_not_rows",
    "Riptide.Nums.Shift.one_row_moves",
    "Riptide.Nums.Shift.gaps_stay",
    "Riptide.Nums.Shift.three_dims_stay",
    "Riptide.Nums.Shift.same_twice",
    "Riptide.Nums.Shift.overlapping",
    "Riptide.Nums.Shift.far_below_undefined",
    "Riptide.Nums.Shift.far_columns_undefined",
    "Riptide.Nums.Shift.far_columns_call",
    "Riptide.Nums.Shift.no_dims_undefined",
    "Riptide.Nums.Shift.refused",
    "Riptide.Nums.Shift.one_as_list",
    "Riptide.Nums.Shift.shift_no_room"
   ],
   "note": "Rows are proved to be shifted for arrays of one dimension without gaps and of two dimensions in Fortran order with two rows or more, in different places, for shifts without overflow. For the other layouts, for overlaps and for overflows the statement is false of the code, as the other theorems show; what C order does instead is flat_order."
  },
  {
   "property": "C156",
   "status": "partial",
   "theorems": [
    "Riptide.Nums.Stack.hstack_nums_partial",
    "Riptide.Nums.Stack.hstack_keeps",
    "Riptide.Nums.Stack.hstack_texts",
    "Riptide.Nums.Stack.homogenize_nums_partial",
    "Riptide.Nums.Stack.upcast_type",
    "Riptide.Nums.Stack.square_wrong",
    "Riptide.Nums.Stack.dims_refused",
    "Riptide.Nums.Stack.swapped_wrong",
    "Riptide.Nums.Stack.upcast_refuses_slice",
    "Riptide.Nums.Stack.one_slice_refused",
    "Riptide.Nums.Stack.none_counts",
    "Riptide.Nums.Stack.homogenize_none",
    "Riptide.Nums.Stack.homogenize_silent",
    "Riptide.Nums.Stack.homogenize_undefined",
    "Riptide.Nums.Stack.homogenize_texts",
    "Riptide.Nums.Stack.homogenize_type",
    "Riptide.Nums.Stack.homogenize_false_invalid",
    "Riptide.Nums.Stack.hstack_refuses",
    "Riptide.Nums.Stack.no_room",
    "Riptide.Nums.Stack.empty_strings",
    "Riptide.Nums.Stack.one_array_taken"
   ],
   "note": "The values are proved for numbers of one dimension in this machine's byte order, for strings contiguous or of one dimension in C order of memory, and for HomogenizeArrays without booleans. For matrices of strings in Fortran order, other byte orders, None, and types without a conversion the statement is false of the code, as the other theorems show. The long double type is proved over an arbitrary arithmetic."
  },
  {
   "property": "C157",
   "status": "partial",
   "theorems": [
    "Riptide.Unary.Call.op_iff",
    "Riptide.Unary.Call.kernel_known",
    "Riptide.Unary.Call.kernel_rows",
    "Riptide.Unary.Call.walk_right",
    "Riptide.Unary.Call.kind_out",
    "Riptide.Unary.Call.item_size",
    "Riptide.Unary.Call.calls_same",
    "Riptide.Unary.Call.line_partial",
    "Riptide.Unary.Call.plane_partial",
    "Riptide.Unary.Call.contiguous_partial",
    "Riptide.Unary.Call.into_line_partial",
    "Riptide.Unary.Call.into_contiguous_partial",
    "Riptide.Unary.Call.unknown_left",
    "Riptide.Unary.Call.out_ignored",
    "Riptide.Unary.Call.dtype_ignored",
    "Riptide.Unary.Call.scalar_wrong",
    "Riptide.Unary.Call.order_wrong",
    "Riptide.Unary.Call.number_wrong",
    "Riptide.Unary.Call.large_wrong",
    "Riptide.Unary.Call.room_wrong",
    "Riptide.Unary.Call.still_wrong",
    "Riptide.Unary.Call.twin_left",
    "Riptide.Unary.Call.shape_wrong",
    "Riptide.Unary.Call.gap_wrong",
    "Riptide.Unary.Call.root_wrong",
    "Riptide.Unary.Call.normal_wrong",
    "Riptide.Unary.Call.smallest_undefined",
    "Riptide.Unary.Call.letter_wrong",
    "Riptide.Unary.Call.tuple_error",
    "Riptide.Unary.Call.log2_left"
   ],
   "note": "Proved for arrays of at most one dimension with any distance, of two dimensions unless both distances are the same up to sign, and for contiguous arrays of any number of dimensions, with a new or a given output, for items of this machine's byte order and not those which the theorems of the kernels exclude. Elsewhere the statement is false of the code, as the other theorems show. The functions of the C library and long double are arbitrary functions."
  },
  {
   "property": "C158",
   "status": "partial",
   "theorems": [
    "Riptide.Nums.Assign.set_arrays",
    "Riptide.Nums.Assign.set_item_partial",
    "Riptide.Nums.Assign.set_item_refuses",
    "Riptide.Nums.Assign.put_item",
    "Riptide.Nums.Assign.put_arrays",
    "Riptide.Nums.Assign.put_mask_partial",
    "Riptide.Nums.Assign.put_mask_refuses",
    "Riptide.Nums.Assign.apply_rows_partial",
    "Riptide.Nums.Assign.set_item_leaves_exception",
    "Riptide.Nums.Assign.set_item_ignores_strides",
    "Riptide.Nums.Assign.set_item_backwards",
    "Riptide.Nums.Assign.set_item_writes_read_only",
    "Riptide.Nums.Assign.set_item_ignores_byte_order",
    "Riptide.Nums.Assign.set_item_ignores_units",
    "Riptide.Nums.Assign.set_item_overlap",
    "Riptide.Nums.Assign.set_item_overlapping_texts",
    "Riptide.Nums.Assign.put_mask_no_array",
    "Riptide.Nums.Assign.put_mask_many_rows",
    "Riptide.Nums.Assign.put_mask_false_invalid",
    "Riptide.Nums.Assign.put_mask_fortran",
    "Riptide.Nums.Assign.put_mask_ignores_mask_stride",
    "Riptide.Nums.Assign.put_mask_infinity",
    "Riptide.Nums.Assign.put_mask_writes_read_only",
    "Riptide.Nums.Assign.apply_rows_two_arguments",
    "Riptide.Nums.Assign.apply_rows_no_answer",
    "Riptide.Nums.Assign.apply_rows_throws"
   ],
   "note": "Proved for packed arrays which do not overlap, in this machine's byte order, which may be written to, and for PutMask values other than False and infinities and numbers beyond the integer type. Elsewhere the statement is false of the code, as the other theorems show; ApplyRows never gives an answer at all."
  },
  {
   "property": "C159",
   "status": "partial",
   "theorems": [
    "Riptide.Recycle.Call.collect_now",
    "Riptide.Recycle.Call.try_items",
    "Riptide.Recycle.Call.try_recycle",
    "Riptide.Recycle.Call.recycle_call",
    "Riptide.Recycle.Call.recycle_takes",
    "Riptide.Recycle.Call.allocate_numpy",
    "Riptide.Recycle.Call.dump_call",
    "Riptide.Recycle.Call.settings_call",
    "Riptide.Recycle.Call.history_partial",
    "Riptide.Recycle.Call.collect_time_overflows",
    "Riptide.Recycle.Call.timeout_overflows",
    "Riptide.Recycle.Call.negative_type",
    "Riptide.Recycle.Call.not_an_array",
    "Riptide.Recycle.Call.tuple_finds_nothing",
    "Riptide.Recycle.Call.scalar_gets_a_dimension",
    "Riptide.Recycle.Call.exception_stays_set",
    "Riptide.Recycle.Call.collection_for_room_frees_nothing",
    "Riptide.Recycle.Call.held_twice_is_refused",
    "Riptide.Recycle.Call.off_hands_out",
    "Riptide.Recycle.Call.dump_counts_items",
    "Riptide.Recycle.Call.stats_are_from_before",
    "Riptide.Recycle.Call.byte_order_is_lost"
   ],
   "note": "Proved for all histories in which times fit when multiplied by a billion, type numbers are not negative, lists have arrays only, and the program uses only arrays which it holds. Elsewhere the behaviour is undefined, as the other theorems show."
  },
  {
   "property": "C160",
   "status": "partial",
   "theorems": [
    "Riptide.Shm.save_shares",
    "Riptide.Shm.load_reads",
    "Riptide.Shm.saved_is_loaded",
    "Riptide.Shm.readers_keep",
    "Riptide.Shm.readers_see",
    "Riptide.Shm.other_names",
    "Riptide.Shm.loads_use_up",
    "Riptide.Shm.save_undefined",
    "Riptide.Shm.load_copies",
    "Riptide.Shm.info_reads_file",
    "Riptide.Shm.foreign_share_stays",
    "Riptide.Shm.history_partial",
    "Riptide.Shm.saved_twice",
    "Riptide.Shm.full_table_loses_share",
    "Riptide.Shm.no_stdin_loses_share",
    "Riptide.Shm.no_stdin_read_only",
    "Riptide.Shm.no_stdin_reads_nothing",
    "Riptide.Shm.truncate_unnoticed",
    "Riptide.Shm.torn_share_is_read",
    "Riptide.Shm.second_bus_kills",
    "Riptide.Shm.copy_bus_kills",
    "Riptide.Shm.bad_file_leaves_share",
    "Riptide.Shm.bad_file_twice",
    "Riptide.Shm.map_failure_leaks",
    "Riptide.Shm.reader_sees_unfinished",
    "Riptide.Shm.reader_unlinks_unfinished",
    "Riptide.Shm.twice_in_history",
    "Riptide.Shm.killed_in_history",
    "Riptide.Shm.counters_are_no_counters",
    "Riptide.Shm.bad_name_makes_none"
   ],
   "note": "Proved for all histories in which no process makes a share again under a name whose structure it gave back and in which there is memory for the structures. Elsewhere the behaviour is undefined, and failures are not told, as the other theorems show."
  },
  {
   "property": "C161",
   "status": "partial",
   "theorems": [
    "Riptide.LogCall.handed_in_order",
    "Riptide.LogCall.accepted_were_logged",
    "Riptide.LogCall.nothing_lost_partial",
    "Riptide.LogCall.calm_is_defined",
    "Riptide.LogCall.terminates_only",
    "Riptide.LogCall.disable_flushes_partial",
    "Riptide.LogCall.disable_ends_partial",
    "Riptide.LogCall.log_when_wanted",
    "Riptide.LogCall.push_when_room",
    "Riptide.LogCall.levels_follow",
    "Riptide.LogCall.levels_after_batch",
    "Riptide.LogCall.enable_starts",
    "Riptide.LogCall.enable_refuses",
    "Riptide.LogCall.names_differ",
    "Riptide.LogCall.loggers_are",
    "Riptide.LogCall.stamp_partial",
    "Riptide.LogCall.stamp_is_wrong",
    "Riptide.LogCall.high_level_ignored",
    "Riptide.LogCall.silenced_logs",
    "Riptide.LogCall.level_wraps",
    "Riptide.LogCall.no_level_undefined",
    "Riptide.LogCall.unknown_logger_undefined",
    "Riptide.LogCall.level_is_late",
    "Riptide.LogCall.never_returns",
    "Riptide.LogCall.batch_wraps_and_hangs",
    "Riptide.LogCall.no_interval_hangs",
    "Riptide.LogCall.stuck_for_good",
    "Riptide.LogCall.stuck_enable",
    "Riptide.LogCall.late_record_sticks",
    "Riptide.LogCall.exception_sticks",
    "Riptide.LogCall.callback_gone",
    "Riptide.LogCall.exception_unnoticed",
    "Riptide.LogCall.exception_loses",
    "Riptide.LogCall.enable_while_disabling",
    "Riptide.LogCall.enable_terminates",
    "Riptide.LogCall.flusher_cancelled",
    "Riptide.LogCall.batch_withheld",
    "Riptide.LogCall.timeout_drops",
    "Riptide.LogCall.finalizing_loses",
    "Riptide.LogCall.active_takes_anything",
    "Riptide.LogCall.inactive_takes_anything",
    "Riptide.LogCall.size_wraps"
   ],
   "note": "Order and levels are proved for all histories. That nothing is lost, that no history is undefined and that DisableLogging returns is proved for histories without exceptions, expired timeouts and the end of the interpreter, with good Python loggers, a batch size which is not 0, an interval which has not passed when the handler looks and no thread between the test of its level and the queue. Elsewhere it is false, as the other theorems show; the times are always cut."
  },
  {
   "property": "C162",
   "status": "partial",
   "theorems": [
    "Riptide.AsArrayCall.as_any_count_iff",
    "Riptide.AsArrayCall.as_any_twice_iff",
    "Riptide.AsArrayCall.as_any_dtype_iff",
    "Riptide.AsArrayCall.as_any_accepted",
    "Riptide.AsArrayCall.as_any_value_iff_partial",
    "Riptide.AsArrayCall.as_any_both",
    "Riptide.AsArrayCall.as_any_same",
    "Riptide.AsArrayCall.as_any_copy",
    "Riptide.AsArrayCall.as_any_list",
    "Riptide.AsArrayCall.as_any_numpy",
    "Riptide.AsArrayCall.as_any_scalar",
    "Riptide.AsArrayCall.as_any_dims_partial",
    "Riptide.AsArrayCall.as_any_extra",
    "Riptide.AsArrayCall.as_any_no_names",
    "Riptide.AsArrayCall.as_any_position_or_name",
    "Riptide.AsArrayCall.as_any_undefined_iff",
    "Riptide.AsArrayCall.as_any_balanced_iff_partial",
    "Riptide.AsArrayCall.as_fast_undefined_iff",
    "Riptide.AsArrayCall.as_fast_value",
    "Riptide.AsArrayCall.as_fast_no_view",
    "Riptide.AsArrayCall.as_fast_balanced_iff",
    "Riptide.AsArrayCall.as_fast_counts",
    "Riptide.AsArrayCall.as_any_bad_copy_wrong",
    "Riptide.AsArrayCall.as_any_bad_order_wrong",
    "Riptide.AsArrayCall.as_any_never_refuses",
    "Riptide.AsArrayCall.as_any_order_wrong",
    "Riptide.AsArrayCall.as_any_no_dims_wrong",
    "Riptide.AsArrayCall.as_any_copy_adds_dimension",
    "Riptide.AsArrayCall.as_any_dtype_none_wrong",
    "Riptide.AsArrayCall.as_any_unit_wrong",
    "Riptide.AsArrayCall.as_any_swapped_wrong",
    "Riptide.AsArrayCall.as_any_object_wrong",
    "Riptide.AsArrayCall.as_any_twice_leaks",
    "Riptide.AsArrayCall.as_fast_error_wrong"
   ],
   "note": "Proved for all calls, but that wrong values of copy and order are refused, that dimensions are at least one, that scalars keep their type and that references are counted is false of the calls the other theorems name; PyArray_FromAny is any function which keeps its word about copies."
  },
  {
   "property": "C163",
   "status": "partial",
   "theorems": [
    "Riptide.SdsResult.header_fields_partial",
    "Riptide.SdsResult.dict_keys_once",
    "Riptide.SdsResult.dict_undefined_iff",
    "Riptide.SdsResult.dict_leaks",
    "Riptide.SdsResult.read_none_iff",
    "Riptide.SdsResult.read_undefined_iff",
    "Riptide.SdsResult.read_list_iff_partial",
    "Riptide.SdsResult.read_list",
    "Riptide.SdsResult.read_both",
    "Riptide.SdsResult.read_leaks",
    "Riptide.SdsResult.stack_none_iff",
    "Riptide.SdsResult.stack_raised_iff",
    "Riptide.SdsResult.stack_value",
    "Riptide.SdsResult.stack_leaks",
    "Riptide.SdsResult.read_no_memory_wrong",
    "Riptide.SdsResult.read_exception_wrong",
    "Riptide.SdsResult.read_section_wrong",
    "Riptide.SdsResult.read_file_name_wrong",
    "Riptide.SdsResult.read_dims_wrong",
    "Riptide.SdsResult.read_negative_dims_wrong",
    "Riptide.SdsResult.header_time_wrong",
    "Riptide.SdsResult.read_leaks_wrong",
    "Riptide.SdsResult.stack_no_memory_wrong"
   ],
   "note": "Proved for all files, but that references are given back is false, that files are handed over fails with an exception left behind, a section name which is no text or negative dimensions, and file names which are no text or more than five dimensions are undefined; small objects are taken to be always made."
  },
  {
   "property": "C164",
   "status": "partial",
   "theorems": [
    "Riptide.ModuleCall.empty_call_partial",
    "Riptide.ModuleCall.empty_undefined_iff",
    "Riptide.ModuleCall.empty_dims",
    "Riptide.ModuleCall.empty_args",
    "Riptide.ModuleCall.empty_bad_dim",
    "Riptide.ModuleCall.set_type_first",
    "Riptide.ModuleCall.set_type_raises_iff",
    "Riptide.ModuleCall.compare_iff",
    "Riptide.ModuleCall.compare_shares",
    "Riptide.ModuleCall.ledger_call",
    "Riptide.ModuleCall.ledger_refused_iff",
    "Riptide.ModuleCall.remap_iff",
    "Riptide.ModuleCall.remap_loop_undefined_iff",
    "Riptide.ModuleCall.remap_loop_items",
    "Riptide.ModuleCall.empty_two_dims_wrong",
    "Riptide.ModuleCall.empty_item_wrong",
    "Riptide.ModuleCall.empty_size_wrong",
    "Riptide.ModuleCall.empty_negative_type_wrong",
    "Riptide.ModuleCall.empty_second_wrong",
    "Riptide.ModuleCall.empty_unknown_type_wrong",
    "Riptide.ModuleCall.set_type_second_wrong",
    "Riptide.ModuleCall.compare_shares_wrong",
    "Riptide.ModuleCall.ledger_no_arguments_wrong",
    "Riptide.ModuleCall.ledger_leaks_wrong",
    "Riptide.ModuleCall.remap_wrong",
    "Riptide.ModuleCall.remap_loop_cuts"
   ],
   "note": "Proved for all calls; that Empty takes any number of dimensions, any size of items and any type, that LedgerFunction calls functions without arguments and that ReMapIndex answers is false as the other theorems say. PyArray_New is taken to refuse exactly unknown types, negative dimensions, missing sizes and missing memory."
  },
  {
   "property": "C165",
   "status": "partial",
   "theorems": [
    "Riptide.Table.registered_copied",
    "Riptide.Table.copied_ends",
    "Riptide.Table.registered_table",
    "Riptide.Table.methods_names_once",
    "Riptide.Table.callName_entry",
    "Riptide.Table.callName_noName",
    "Riptide.Table.methods_params",
    "Riptide.Table.callName_defined",
    "Riptide.Table.callName_refused",
    "Riptide.Table.callName_runs",
    "Riptide.Table.methods_own_partial",
    "Riptide.Table.callName_own_partial",
    "Riptide.Table.callName_isMember64",
    "Riptide.Table.lut64_bytes",
    "Riptide.Table.lut32_bytes",
    "Riptide.Table.lut_fits",
    "Riptide.Table.importModule_choice",
    "Riptide.Table.threadingMode_previous",
    "Riptide.Table.threadingMode_refused",
    "Riptide.Table.setLustreGateway_bytes_partial",
    "Riptide.Table.setLustreGateway_refused",
    "Riptide.Table.setZstdChecksumming_only",
    "Riptide.Table.setZstdChecksumming_sets",
    "Riptide.Table.run_answers_partial",
    "Riptide.Table.applyRows_wrong",
    "Riptide.Table.applyRows_unreachable",
    "Riptide.Table.reMapIndex_unreachable",
    "Riptide.Table.importModule_wrong",
    "Riptide.Table.setLustreGateway_ends_wrong",
    "Riptide.Table.run_ends_wrong"
   ],
   "note": "False of two names: IsMember64 runs IsMember32 on purpose, ApplyRows runs LedgerFunction by mistake. False of SetLustreGateway with items which are not bytes. Proved for all other names and calls."
  },
  {
   "property": "C166",
   "status": "partial",
   "theorems": [
    "Riptide.Hook.Two.twoInputs_args",
    "Riptide.Hook.Two.twoInputs_proper_partial",
    "Riptide.Hook.Two.twoInputs_no_function",
    "Riptide.Hook.Two.twoInputs_function_cut",
    "Riptide.Hook.Two.twoInputs_arrays",
    "Riptide.Hook.Two.twoInputs_scalar",
    "Riptide.Hook.Two.twoInputs_objects_partial",
    "Riptide.Hook.Two.twoInputs_keeps",
    "Riptide.Hook.Two.twoInputs_size_wrong",
    "Riptide.Hook.Two.twoInputs_other_wrong",
    "Riptide.Hook.Two.twoInputs_number_wrong",
    "Riptide.Hook.Two.twoInputs_scalars_wrong",
    "Riptide.Hook.Two.twoInputs_scalar_list_wrong",
    "Riptide.Hook.Two.twoInputs_text_wrong",
    "Riptide.Hook.Two.twoInputs_scalars_output_wrong",
    "Riptide.Hook.Two.twoInputs_list_leaks_wrong",
    "Riptide.Hook.Two.intoOutput_crash_wrong",
    "Riptide.Hook.Two.twoInputs_flat_wrong",
    "Riptide.Hook.Two.twoInputs_output_other",
    "Riptide.Hook.Two.twoInputs_scalar_first",
    "Riptide.Hook.Two.twoInputs_single_after",
    "Riptide.Hook.Two.twoInputs_single_before",
    "Riptide.Hook.Two.twoInputs_lengths",
    "Riptide.Hook.Two.twoInputs_output",
    "Riptide.Hook.Two.twoInputs_list_first",
    "Riptide.Hook.Two.twoInputs_list_second_partial",
    "Riptide.Hook.Two.twoInputs_gaps_scalar"
   ],
   "note": "False of tuples of another size, objects numpy refuses, types which are no numbers, two scalars, a scalar before a list, texts with an output, lists of one item and outputs without dimensions. Proved for the rest; the addition of texts is in C167."
  },
  {
   "property": "C167",
   "status": "partial",
   "theorems": [
    "Riptide.Binary.Texts.copyText_text",
    "Riptide.Binary.Texts.copyText_undefined",
    "Riptide.Binary.Texts.addTexts_arrays",
    "Riptide.Binary.Texts.addTexts_bytes_after",
    "Riptide.Binary.Texts.addTexts_bytes_before",
    "Riptide.Binary.Texts.addTexts_texts",
    "Riptide.Binary.Texts.addTexts_text_after",
    "Riptide.Binary.Texts.addTexts_text_before",
    "Riptide.Binary.Texts.addTexts_numpy_partial",
    "Riptide.Binary.Texts.addTexts_defined",
    "Riptide.Binary.Texts.addTexts_left",
    "Riptide.Binary.Texts.addTexts_zero_wrong",
    "Riptide.Binary.Texts.addTexts_text_to_bytes_wrong",
    "Riptide.Binary.Texts.addTexts_text_to_bytes_first_wrong",
    "Riptide.Binary.Texts.addTexts_bytes_to_text_wrong",
    "Riptide.Binary.Texts.addTexts_dims_wrong",
    "Riptide.Binary.Texts.addTexts_shapes_wrong",
    "Riptide.Binary.Texts.addTexts_single_left",
    "Riptide.Binary.Texts.addTexts_no_array"
   ],
   "note": "False of texts with zeros inside, of arrays with several dimensions and of texts next to bytes with an output. Proved for the rest."
  },
  {
   "property": "C168",
   "status": "partial",
   "theorems": [
    "Riptide.Shm.ReadOnly.clearWriteable_self",
    "Riptide.Shm.ReadOnly.clearWriteable_root",
    "Riptide.Shm.ReadOnly.clearWriteable_others",
    "Riptide.Shm.ReadOnly.clearWriteable_bases",
    "Riptide.Shm.ReadOnly.clearWriteable_defined",
    "Riptide.Shm.ReadOnly.clearWriteable_twice",
    "Riptide.Shm.ReadOnly.clearWriteable_all_partial",
    "Riptide.Shm.ReadOnly.clearWriteable_between_wrong",
    "Riptide.Shm.ReadOnly.clearWriteable_sibling_wrong"
   ],
   "note": "False of views of views: the arrays in between stay writeable. Proved for chains of at most two arrays; the rest is proved in full."
  }
 ]
}