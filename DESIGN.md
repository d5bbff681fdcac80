# Formal model of riptide_cpp in Lean 4

Source modelled: `/repo/src` (read as text, never built or run). The Lean project is
`/verif/lean`; all modules are under `Verif/` and imported from `Verif.lean`.

## Trusted base

* Lean 4.33.0's kernel (every constant is re-checked by the gate).
* Axioms: no axiom is added. Theorems depend on at most `propext`, `Classical.choice`,
  `Quot.sound`. No `sorry`, `admit`, `native_decide`, `bv_decide`, `implemented_by`, `unsafe`.
* The faithfulness of the hand-written model to the C++ text. Each definition cites the file and
  lines it models and says where it simplifies.

## Modelling conventions

* C++ arrays/pointers are `List`s or total functions on indices with explicit lengths; a read or
  write outside the array is an explicit outcome (`none` / `Res.oob`), never a default value.
* Integer index arithmetic is `Nat`/`Int` (array lengths are assumed below 2^63; where a narrower
  type matters the width is explicit, e.g. `BitVec w` or a `wrap` function).
* Element types are type parameters with the operations used (`+`, `<`, `==`, an `isValid`
  predicate). Theorems state the algebraic laws they need (e.g. commutative monoid for sums), so
  they apply to wrap-around machine integers. IEEE float addition is *not* associative and is not
  claimed by the parallel-sum theorems.
* Concurrency: a transition system whose steps are the atomic operations of the code (interlocked
  increment, fetch-or, lock-protected sections); theorems quantify over all reachable states, i.e.
  over all schedules. Sequential consistency is assumed for the atomics.
* SIMD fast paths are modelled as the lane-wise scalar program with the same block structure
  (vector width, tail handling, partial counters).
* Where the code violates the English property, the property theorem is stated at full strength
  about the code as it is, its negation is proved by a concrete witness, and a theorem with suffix
  `_partial` proves the property under the exact guard. See "Disagreements".

## Not modelled

CPython reference counting/GIL, NumPy allocation, argument parsing and error messages, logging
output, OS futex/affinity details, compressed file payloads (zstd is treated as an opaque
function), memory-model weaker than SC, floating-point rounding.

## Plan per property

| id | what is modelled | how it is proved |
|----|------------------|------------------|
| C01 | work item: BlockNext/BlocksCompleted counters, per-thread program counter, block length rule | inductive invariant over all schedules; blocks form a partition of [0,n) |
| C02 | same transition system plus the submitting thread's wait loop | invariant: completed = n implies all blocks done; return step guarded by it |
| C03 | SegmentBins loop | induction on the number of cores; arithmetic of div/mod |
| C04 | SumBooleanMask: vector blocks, 255-iteration flush, byte counters mod 256, tail, strided path | induction; counter bound shows no overflow |
| C05 | chunk counts, prefix sums, per-chunk compaction writes into the output | refinement to `filter`; order independence because writes are disjoint; counterexample for generic item size stride |
| C06 | BooleanToFancy for both modes | refinement to filtered range; counterexample for strides |
| C07 | GetItemInt / GetItemUInt(+Variable) on index of given width | decision logic + memory safety; counterexamples for unsigned dtype dispatch and variable-size path |
| C08 | ReverseShuffleMT writes | permutation argument |
| C09 | open-addressing table: insert-first, lookup | invariant of linear probing (probe chain has no holes), refinement to an association list with first-wins |
| C10 | float bits/equality abstracted: value type with hash not respecting equality | counterexample with -0.0/+0.0; partial for arrays without zeros of both signs |
| C11 | GetHashSize prime table and power of two search, AllocMemory | bounds by induction; table facts by `decide` over the finite prime table (it is the data of the code) |
| C12 | STRING_MATCH2, MEMCMP style compares, HASH_STRING length rule | list induction against `trim` spec |
| C13 | GroupBy inner loop over the probing table | invariant over rows; refinement to first-appearance numbering |
| C14 | MakeHashLocationMultiKey chains | invariant over rows |
| C15,C16 | FindLastMatchMK / FindNextMatchMK merge walk with a map | loop invariant; counterexample for the categorical variant |
| C17 | insertion sort + merge with workspace | sortedness, permutation, stability by induction; equals spec stable sort |
| C18 | buddy-bit protocol for 8 blocks as a transition system | inductive invariant; final state equals merge tree result |
| C19 | LexSort passes | induction over columns using stability |
| C20,C21,C22 | counting sort cursors; per-core bands; linked chains | loop invariants; refinement to filter over rows |
| C23–C26 | Accum*/Gather* per-bin state machines, scatter over blocks | homomorphism: gather of per-thread folds = fold of all rows; any assignment of blocks |
| C24 | float32 nan-sum clears the wrong range | counterexample + partial |
| C27 | AccumFirst/Last/Nth over packed groups | corollary of C20 |
| C28,C29 | rolling loops over a group's row list | induction on position |
| C30,C31 | Heap.h array heap with positions; rolling quantile | heap invariant preserved by sift up/down |
| C32,C33 | the binary search loops of Bins.cpp | loop invariant; refinement to counting spec; out-of-bounds outcomes explicit |
| C34 | CRC64 on BitVec 64 with tables | XOR-linearity of the byte step; list induction |
| C35 | workspace recycler state machine | counterexamples (aliasing, use after free) + partial for nested use |
| C36 | array recycler buckets | inductive invariant over operations |
| C37 | waiting_deque with condition variable | FIFO invariant; lost wake-up counterexample |
| C38,C39 | nan-passthru min/max, cast_nan_aware | case analysis / fold laws |
| C40 | TimeWindow loops | induction; sortedness gives the window spec |
| C41 | nibble table / popcnt | bit-vector decomposition |
| C42 | ConvertRecArray loops | induction on rows/blocks |
| C43 | string compare loops | list induction against lexicographic order of trimmed strings |
| C44 | transition system of C01/C02 | every non-final state has a thread step; a measure decreases on every thread step |
| C45 | ReIndexGroupsMT in-place loops over partitions | disjointness of partitions; induction over any completion order |
| C46 | same CRC64 model as C34 | every bit step is injective when the top bit of the polynomial is set; 8 bytes are injective in the state |
| C47 | element conversion kernels on bit patterns (`Convert/Model`), written through `elemWork` | IEEE encoding of small integers is exact; truncation inverts it |
| C48 | `argBest`, `nanArgBest` scans (`Reduce/Model`) | invariant: best position so far is the first undominated one |
| C49 | partial sums in doubles holding integers (`Reduce/Sum`), 32-lane vector loop, gather over cores | rounding is the identity below 2^53; counterexamples above |
| C50 | `meanOf`: dividend and divisor of the final division | from C49; counterexample for all-invalid nanmean |
| C51 | VOID_LT as a list of word comparisons | word-wise lexicographic order; widths add up |
| C52,C53,C54 | `uniquePlan`, `superPlan`, `rollPlan` over `tableLoop` (`Hash/Group`) | table loop equals map loop; row-by-row invariants |
| C55 | `memcmpNew`, `setBit` (`Hash/Bytes`) | word values are injective; bitwise case analysis |
| C56 | `partRun`, `collectParts` | C13 per partition; writes to distinct slots commute |
| C57 | per-partition in-place sorts in any completion order | slices of different partitions are disjoint; columns compose by stability |
| C58 | segment loops, overlap by one row, shared flag with read/clear events | adjacent pairs cover all rows; flag cleared iff some segment fails |
| C59 | rolling mean loops, running total and count | invariant: total and count of the window |
| C32 | `Verif/Bins/{Model,Lemmas,Props}` | `searchsorted_partial`: for sorted bins the left/right search returns the number of bins below / not above the value, for every split over threads; guards: at least one bin, casts that do not move a value across the first or last bin (one type is enough), no overflow of `first + last` |
| C33 | `Verif/Bins/{Model,Lemmas,Props,StrProps}` | `cut_partial` (numbers) and `cut_strings_partial` (strings): every value gets the bin of its interval, `isBin_unique`: that bin is unique |
| C35 | `Verif/Recycle/{WsModel,WsProps}` | `workspace_single_owner_partial`: for every history of allocations, frees, collections and mode switches in which the recycled block is not touched while held (`Safe`), no two holders share a block and every held block is allocated and large enough |
| C36 | `Verif/Recycle/{Model,Props}` | `recycler_history_partial`: after every history, occupancy is `Head - Tail` and at most four, an array is in at most one slot with exactly one reference beyond the program's, and a look-up returns only an array nobody else holds, of the type number and length asked for, which is then out of the recycler; guard: type number not negative |
| C37 | `Verif/LogQueue/{Model,Props}` | for all interleavings: `log_fifo`, `log_lossless`, `log_bounded` (order, no duplication, drops only when full, bound), `push_wakes` (no push is lost), `cancel_wakes_partial`, `notify_wakes`, `cancelled_returns` (a cancelled consumer that is not blocked returns after at most three of its own steps whatever the others do); `cancel_again`: a further cancellation repairs a lost one |
| C60 | `Verif/LexGroup/{Model,Spec,Lemmas,Props,PartProps}` | `group_runs`, `runs_iff_equal`, `contiguous_of_sorted`, `differ_exact`, `differ_seven`, `group_from_lexsort_partial` (no cutoffs, any width but 7), `group_parts_partial` (cutoffs, values compared as numbers, all interleavings) |
| C61 | `Verif/Combine/{Model,Props}` | `combine_filter_exact`, `combine_filter_sizes` |
| C62 | `Verif/Combine/{Model,Props}` | `combine2_exact_partial`, `combine2_filter_inside`, `combine2_pairs` |
| C63 | `Verif/Combine/{Model,Props}` | `combine1_first_appearance` (against `Hash.Spec.Numbering`) |
| C64 | `Verif/Combine/{Model,Props}` | `make_ifirst_exact` |
| C65 | `Verif/Arrays/{Model,Spec,UpcastProps}` | `upcast_holds_partial`, `upcast_holds_small`, `upcast_perm` |
| C66 | `Verif/Arrays/{Model,Spec,UpcastProps}` | `trim_all`, `trimmed_unique`, `trim_idempotent` |
| C67 | `Verif/Arrays/{Model,Spec,StackProps}` | `hstack_rows`, `hstack_ints_partial`, `carry_invalid_iff`, `hstack_strings` |
| C68 | `Verif/Arrays/{Model,Spec,ShiftProps}` | `shift_rows`, `shift_columns`, `shift_unique` |
| C69 | `Verif/Arrays/{Model,Spec,AssignProps}` | `set_item_contiguous_partial` |
| C70 | `Verif/Arrays/{Model,Spec,AssignProps}` | `put_mask_contiguous_partial`, `put_mask_ints_partial` |
| C71 | `Verif/Arrays/{Model,Spec,StackProps}` | `homogenize_ints_partial`, `homogenize_numeric_safe` |
| C72 | `Verif/Ema/{Roll,RollProps}` | `rollSum_spec_partial`, `rollNanSum_spec_partial`, `rollSumFloat_partial`, `rollMean_partial`, `rollNanSumFloat_partial`, `rollNanMean_partial` |
| C73 | `Verif/Ema/{Model,Spec,CumProps}` | `cumulate_spec`, `cumSum_spec`, `cumProd_spec`, `cumSum_exact` |
| C74 | `Verif/Ema/{Model,Spec,ExtremeProps}` | `cumNanExtreme_partial`, `cumExtreme_partial` |
| C75 | `Verif/Ema/{Model,Spec,CumProps}` | `findNth_spec` |
| C76 | `Verif/Ema/{Decay,DecayProps}` | `emaDecay_partial` |
| C77 | `Verif/Ema/{Decay,Spec,NormalProps}` | `emaNormal_partial`, `emaNormal_filter_partial`, `emaWeighted_partial` |
| C78 | `Verif/Ema/{Interp,InterpProps}` | `interp_partial`, `polygon_unique` |
| C79 | `Verif/Ema/{Var,VarProps}` | `rollVar_partial`, `rollNanVar_partial` |
| C80 | `Verif/Quick/{Model,InPlace,Spec,Lemmas,Part,Heap,Loop,Props}` | `quicksort_sorts`, `heapsort_sorts`, `mergesort_sorts`, `sortInPlace_ints`, `sortInPlace_floats`, `sortInPlace_merge_partial`, `sortInPlace_chars_partial`, `sortView_contiguous` |
| C81 | `Verif/Quick/{InPlace,Props}` | `sortIndirect_partial` |
| C82 | `Verif/Median/{Model,Spec,Lemmas,Props}` | `medianOf_median`, `median_groups_float`, `median_groups_int_partial` |
| C83 | `Verif/Median/{Model,Spec,Lemmas,Props}` | `modeLoop_spec`, `modeOf_mode`, `mode_groups` |
| C84 | `Verif/Median/{Model,Spec,Idx,QuantProps}` | `quantIdx_range`, `quantIdx_exact`, `quantileOf_ranks`, `quantile_groups`, `quantile_int_partial` |
| C85 | `Verif/Median/{Model,Spec,QuantProps}` | `stripNans_spec`, `trimOf_trimmed`, `trim_groups_partial` |
| C86 | `Verif/GroupBy/{Var,VarProps}` | `accumVar_value`, `accumNanVar_value`, `groupVar_nonneg` |
| C87 | `Verif/Date/{Spec,Model,Props}` | `epochNano_dateOf`, `dateOf_all`, `epochNano_lt`, `epochNano_outside` |
| C88 | `Verif/Date/{Model,ParseProps,Accept}` | `parseDate_text`, `parseTime_text`, `parseDateTime_text`, `parseDateTime_range`, `parseAll_items` |
| C89 | `Verif/Date/{Strptime,StrpProps}` | `parseStrptime_text` |
| C90 | `Verif/Binary/{Vec,Compare,Spec,Loops,CompareProps}` | `compare_int_partial`, `compare_same_type`, `compare_float`, `compare_guard_exact` |
| C91 | `Verif/Binary/{Math,MathSpec,MathLemmas,MathProps}` | `math_int_partial`, `math_bits`, `math_andnot_partial`, `math_bool`, `math_float`, `fits_small` |
| C92 | `Verif/Binary/DivProps` | `floordiv_partial`, `floordiv_undefined`, `mod_partial`, `mod_python`, `subdates_partial`, `float_extreme` |
| C93 | `Verif/Binary/{Layout,LayoutProps}` | `layout_partial`, `layout_given_partial`, `layout_strided_wrong`, `layout_mixed_wrong`, `layout_shapes_wrong` |
| C94 | `Verif/Binary/{Layout,LayoutProps}` | `overlap_sound`, `overlap_complete`, `memRun_exact`, `alias_partial`, `alias_wrong` |
| C95 | `Verif/Binary/{Where,WhereProps}` | `where_partial`, `where_text_undefined`, `where_delta_undefined`, `where_mask_wrong`, `where_item_wrong` |
| C96 | `Verif/Binary/{Where,WhereProps}` | `concat_partial`, `concatRow_length`, `concat_zero_wrong`, `concat_mixed_wrong` |
| C97 | `Verif/Binary/{Upcast,UpcastProps}` | `arrays_numpy_iff`, `arrays_compare`, `single_numpy_iff`, `scalar_type_iff`, `scalar_value_partial`, `scalar_overflow_wrong`, `single_value_partial` |
| C98 | `Verif/Unary/{Model,Lemmas,Spec,KernelProps,SignProps}` | `abs_int_partial`, `neg_int_partial`, `neg_int_undefined`, `abs_float`, `neg_float`, `abs_float_bits_partial`, `neg_float_bits_partial`, `sign_int`, `sign_float`, `invert_bits` |
| C99 | `Verif/Unary/RoundProps` | `round_value`, `round_special`, `round_rows`, `round_differ_iff`, `round_rows_partial`, `round_rows_wrong` |
| C100 | `Verif/Unary/TestProps` | `test_scalar`, `test_vector`, `test_rows`, `test_int_partial`, `test_bool_partial`, `text_iff`, `text_partial`, `text_wrong` |
| C101 | `Verif/Unary/{Strided,StridedProps,TwoDimProps}` | `new_contiguous_partial`, `given_contiguous_partial`, `row_major_partial`, `two_dim_iff`, `new_wrong`, `given_wrong`, `windows_wrong` |
| C102 | `Verif/Unary/{Math,MathProps}` | `unary_alias_partial`, `unary_alias_wrong` |
| C103 | `Verif/Unary/{Math,MathProps}` | `math_partial`, `math_exact`, `math_wrong`, `math_invalid_wrong` |
| C104 | `Verif/Reduce/{Variance,VarianceLemmas,VarianceProps}` | `var_int_partial`, `var_flt_partial`, `nanvar_int_partial`, `nanvar_flt_partial`, `var_core_lost`, `var_large_nan`, `stages_table` |
| C105 | `Verif/Reduce/{Entry,EntryProps}` | `reduce_fortran_partial`, `reduce_one_dim`, `reduce_two_dim`, `reduce_row_wrong`, `reduce_column_major_wrong`, `reduce_scalar_undefined` |
| C106 | `Verif/Cat/{Model,Props}` | `fixup_partial`, `fixup_duplicate_wrong`, `fixup_rows2_undefined`, `fixup_rows1_undefined`, `fixup_category_error` |
| C107 | `Verif/AsArray/{Model,Props}` | `as_array_iff_partial`, `as_array_numpy_iff`, `as_array_bits_iff`, `as_array_length`, `as_array_text_wrong`, `as_array_overflow_wrong`, `as_array_empty_bytes_wrong`, `finish_scalar` |
| C108 | `Verif/Sds/{Codec,Block,BlockLemmas,BlockProps}` | `read_written_partial`, `read_written_wrong`, `read_chance`, `write_fits`, `bands_inside`, `dims_kept`, `dims_lost_wrong`, `rows_written`, `masked_iff`, `masked_rows`, `masked_filled_iff`, `masked_multi`, `masked_none_undefined`, `masked_long_wrong`, `masked_fortran_wrong`, `temp_enough`, `temp_chance_wrong` |
| C109 | `Verif/Sds/{File,FileLemmas,FileProps}` | `file_read_partial`, `file_read_wrong`, `stored_read`, `writes_stored`, `stored_keep`, `writes_inside`, `array_place`, `arrays_apart`, `offset_aligned`, `write_iff` |
| C110 | `Verif/Sds/{Sections,SectionProps,HistoryProps}` | `sections_read_partial`, `section_added`, `history_good`, `names_back`, `names_zero_wrong`, `names_room_iff`, `names_long_wrong`, `dir_back`, `dir_room`, `dir_long_wrong` |
| C111 | `Verif/Sds/{Concat,ConcatProps,HistoryProps}` | `concat_read_partial`, `concat_names_wrong`, `concat_good`, `append_good`, `section_move`, `copy_has` |
| C112 | `Verif/Compress/{Model,Props}` | `round_trip_partial`, `round_trip_empty_fails`, `compress_refused`, `compress_dims_refused`, `compress_none_ub`, `decompress_parts`, `no_memory_wrong`, `string_round_trip_partial`, `string_never_empty`, `string_empty_unwritten` |
| C113 | `Verif/Stack/{Types,TypesSpec,TypesLemmas,TypesProps}` | `numbers_fit_partial`, `numbers_lost`, `numbers_convertible`, `order_free_partial`, `order_matters`, `strings_fit`, `families_refused`, `complex_not_converted`, `orders_agree_partial`, `orders_mixed` |
| C114 | `Verif/Stack/{Convert,ConvertSpec,ConvertLemmas,ConvertProps}` | `rows_converted_partial`, `item_value_partial`, `invalid_kept`, `not_converted`, `false_becomes_invalid`, `wrong_numbers` |
| C115 | `Verif/Stack/{Convert,ConvertSpec,ConvertLemmas,ConvertProps}` | `strings_widened_partial`, `stringFixup_rows`, `cells_wrong`, `string_chars`, `string_rows_wrong` |
| C116 | `Verif/Stack/{Column,ColumnSpec,ColumnLemmas,ColumnProps,ColumnStrings,ColumnFaults}` | `numbers_stacked_partial`, `strings_stacked_partial`, `overrun`, `overrun_void`, `rows_never_written`, `empty_strings_not_written`, `gap_too_long`, `gap_not_invalid` |
| C117 | `Verif/Stack/{Rotate,RotateSpec,RotateLemmas,RotateProps}` | `order_all`, `tables_stacked_partial`, `gap_null`, `columns_not_converted`, `columns_overread`, `columns_not_stretched`, `only_two_dimensions`, `strings_are_gaps` |
| C118 | `Verif/Stack/{Filter,FilterSpec,FilterLemmas,FilterProps,FilterStrings,FilterFaults}` | `counts_total`, `allocated`, `later_counts`, `filtered_numbers_partial`, `filtered_strings_partial`, `mask_checked`, `mask_unchecked`, `reserve_overrun`, `columns_overrun`, `lengths_overrun`, `position_matters`, `position_irrelevant` |
| C119 | `Verif/Member/{Graph,GraphSpec,GraphProps,GraphFaults}` | `numbers_member_partial`, `few_numbers_partial`, `few_strings_partial`, `found_is_equal`, `table_items`, `whole_pieces`, `many_characters`, `missing_table`, `hash_unreduced`, `even_numbers`, `order_decides`, `empty_haystack`, `strings_lost`, `ninetieth_string`, `strings_overread`, `wide_strings`, `strings_of_six` |
| C120 | `Verif/Bins/{Quantile,QuantileSpec,QuantileProps,QuantileCuts}` | `floats_counted`, `ints_counted`, `cuts_labelled`, `float_cuts`, `quantile_cuts_partial`, `above_last_edge`, `one_edge`, `no_edges`, `index_not_checked`, `rounded_into_bin`, `edges_out_of_order` |
| C121 | `Verif/Hash/{MultiKey,MultiKeySpec,MultiKeyLemmas,MultiKeyProps,MultiKeyFull}` | `members_by_bytes`, `members_by_columns_partial`, `unhinted_members_partial`, `split_differently`, `compared_by_bits`, `third_not_bool`, `no_rows`, `no_arrays`, `widths_differ`, `lengths_differ`, `small_hint`, `exactly_full` |
| C122 | `Verif/Take/{ReIndex,ReIndexSpec,ReIndexProps}` | `reIndex_takes_partial`, `structures_overflow`, `index_not_checked`, `unsigned_index_wraps`, `odd_address_faults`, `objects_give_None`, `needs_as_many_rows`, `every_array_is_checked`, `other_index_is_refused`, `none_crashes`, `nothing_crashes` |
| C123 | `Verif/Arrays/{Alloc,AllocSpec,AllocProps}` | `resized_has_room_partial`, `resized_structures_have_one_byte`, `boolean_index_of_structures_overflows`, `fancy_index_of_structures_overflows`, `like_numbers_sound`, `like_flexible_sound_iff`, `like_other_flexible` |
| C124 | `Verif/Hash/{Categorical,CategoricalSpec,CategoricalProps}` | `integer_categories_partial`, `float_categories_partial`, `text_categories_partial`, `dates_compare_as_bytes`, `categories_of_other_types_refused`, `wide_numbers_are_not_looked_up`, `strides_are_ignored`, `broadcast_categories_out_of_bounds`, `small_types_leave_the_table_in_prime_mode`, `signed_zeros_are_no_categories` |
| C125 | `Verif/Sds/{Share,ShareSpec,ShareLemmas,ShareProps}` | `shared_table_read_back_partial`, `c_order_packed`, `f_order_packed`, `scalars_come_back_empty`, `sixth_dimension_is_lost`, `every_second_item_is_wrong`, `reversed_array_is_wrong`, `strings_without_width_clear_the_next_array`, `last_strings_without_width_write_outside`, `half_written_share_is_read` |
| C126 | `Verif/Sds/{ShareFile,ShareFileSpec,ShareFileProps}` | `first_read_through_a_share_partial`, `copy_holds`, `later_reads_return_the_first_table`, `share_names_collide`, `long_names_leave_the_buffer`, `mask_spoils_the_share`, `failed_copy_leaves_an_empty_table` |
| C127 | `Verif/Hook/{Model,Numbers,Props,PowerProps,InPlaceProps,TableProps}` | `operator_of_two_arrays`, `operator_with_a_scalar`, `operators_leave_their_operands`, `small_powers`, `in_place_of_two_arrays_partial`, `in_place_with_a_scalar_partial`, `in_place_of_another_type_makes_another_array`, `overlap_leaks_a_reference`, `each_operator_runs_its_calculation`, `hook_again_changes_nothing` |
| C128 | `Verif/GroupBy/{Entry,EntrySpec,EntryProps,EntryCallProps,EntryPackProps}` | `column_functions`, `column_function_types`, `column_result_type`, `gather_matches`, `group_functions`, `group_function_types`, `column_call_exact`, `columns_are_calculated`, `groups_are_calculated_partial`, `median_of_text_in_bands`, `first_of_void`, `missing_function_loses_arrays`, `unchecked_arguments` |
| C129 | `Verif/Asof/{Entry,EntrySpec,EntryProps}` | `align_matches_partial`, `align_unfit`, `align_types`, `types_of_pairs`, `left_dates_are_refused`, `refused_times_lose_memory`, `steps_are_ignored`, `times_with_gaps_are_wrong`, `merge_binned_partial`, `binned_types`, `binned_wrong_category`, `short_times_read_outside`, `narrow_keys_are_read_as_wide`, `invalid_times_match` |
| C130 | `Verif/Hash/{MkEntry,MkEntrySpec,MkEntryLemmas,MkEntryProps}` | `group_calls_partial`, `group_defaults_partial`, `group_refusals`, `bad_hints_give_no_result`, `one_byte_rows`, `gaps_in_filters_are_ignored`, `small_keys_128`, `small_keys_are_merged`, `too_many_groups`, `group_parts_partial`, `no_cutoffs_read_outside`, `cutoff_refusals`, `gaps_in_cutoffs_are_ignored` |
| C131 | `Verif/Hash/{MkEntryMore,MkEntryRolling}` | `unique_calls_partial`, `too_many_uniques`, `super_calls_partial`, `too_many_super_groups`, `hash_calls_ignore_filters`, `too_many_links`, `rolling_calls_partial`, `wide_rolling_rows_give_nothing`, `negative_hints_give_nothing`, `rolling_objects_are_deleted`, `too_many_rolling_rows` |
| C132 | `Verif/Hash/{IsMemEntry,IsMemEntrySpec,IsMemEntryLemmas,IsMemEntryProps}` | `member_numbers_partial`, `member_floats_partial`, `member_text_partial`, `member_refuses`, `member_arguments`, `wide_numbers_are_never_looked_up`, `member_table_too_small_partial`, `member_text_table_too_small_partial`, `member_strides_are_ignored`, `member_signed_zeros`, `member_half_floats`, `member_exactly_full`, `member_text_case` |
| C133 | `Verif/Reduce/{Call,CallSpec,CallProps,CallMore,CallVar}` | `call_int_extreme`, `call_flt_extreme`, `call_int_nan_extreme`, `call_flt_nan_extreme`, `call_int_arg`, `call_flt_arg`, `call_int_nan_arg`, `call_flt_nan_arg`, `call_int_sum_partial`, `call_int_nansum_partial`, `call_flt_sum_partial`, `call_int_mean_partial`, `call_int_nanmean_partial`, `call_int_var_partial`, `call_int_nanvar_partial`, `call_flt_var_partial`, `call_unnamed`, `call_other_type`, `call_unsupported_type`, `call_nan_aware`, `call_no_crash_partial`, `call_wrong`, `call_func_wraps`, `call_func_overflow`, `call_arguments` |
| C134 | `Verif/Ema/{Entry,EntrySpec,EntryLemmas,EntryProps,EntryCum,EntryVals,EntryBugs}` | `call_refuses_partial`, `call_complaints`, `call_threads`, `kern_named`, `kern_exists`, `kern_fits_partial`, `call_shape_partial`, `call_cumSum_partial`, `call_cumProd_partial`, `call_findNth_partial`, `call_extremes_partial`, `call_empty`, `call_pending_error`, `call_short_column`, `call_long_column`, `call_none_column`, `call_strided_key`, `call_strided_mask`, `call_key_above`, `call_negative_key`, `call_long_double`, `call_weighted_needs_time`, `call_func_wraps`, `call_bool_extreme` |
| C135 | `Verif/Convert/{Call,CallSpec,CallLemmas,CallKern,CallProps,CallVals}` | `kernel_exists`, `same_type`, `safe_item_ints`, `safe_item_to_float`, `safe_item_from_float`, `item_to_bool`, `safe_item_from_bool`, `item_floats`, `unsafe_item_ints`, `unsafe_item_from_float`, `unsafe_item_to_float`, `safe_call_partial`, `safe_ints_partial`, `safe_to_float_partial`, `safe_from_float_partial`, `safe_to_bool_partial`, `safe_copy_partial`, `unsafe_call_partial`, `unsafe_ints_partial`, `unsafe_leaves_output`, `unsafe_zero_dim`, `call_refuses`, `args_taken`, `safe_scrambles`, `safe_leaves_input`, `safe_surprises` |
| C136 | `Verif/Sort/{Call,CallSpec,CallProps,CallCuts,CallBad}` | `lexsort_call_orders_rows`, `lexsort_call_index_partial`, `lexsort_call_cutoffs_partial`, `lexsort_call_index_and_cutoffs`, `lexsort_call_refuses`, `bad_key_refused`, `unequal_lengths_refused`, `empty_index_undefined`, `index_out_of_range_undefined`, `one_row_number_kept`, `empty_cutoffs_undefined`, `falling_cutoffs_undefined`, `no_keys_undefined`, `none_key_undefined`, `zero_dim_undefined`, `ascending_other_ignored`, `ascending_numbers_misread`, `ascending_two_undefined`, `unknown_type_unsorted`, `strided_index_corrupted` |
| C137 | `Verif/Sds/{Include,IncludeSpec,IncludeProps,IncludeBad}` | `column_list_exact`, `folder_list_exact`, `list_history`, `read_exact`, `read_many_partial`, `read_onefile_partial`, `folder_entries_read`, `categories_read`, `read_file_folders`, `slash_in_name_missed`, `path_in_include_reads_nothing`, `bang_in_name_confused`, `nested_folders_missed`, `folder_entries_lost`, `wrong_items_read_all`, `include_not_list_reads_all`, `read_file_ignores_include`, `sections_ignored`, `wrong_file_names_dropped`, `zero_byte_cuts_name` |
| C138 | `Verif/OneInput/{Model,Spec,Lemmas,Props,Bad,Wrong}` | `rounding_floats`, `round_floats`, `round_floats_partial`, `abs_floats`, `sqrt_floats`, `abs_unsigned`, `abs_signed_partial`, `abs_int64`, `invert_ints`, `neg_never`, `invert_floats`, `round_ints_partial`, `unknown_function_throws`, `unknown_type_throws`, `text_never_ends`, `tests_outside`, `tests_false`, `stride_outside`, `second_returns_nothing`, `given_output_partial`, `given_two_dims`, `columns_outside`, `rows_first_only`, `round_wrong`, `abs_int64_wrong`, `abs_smallest`, `round_ints_wrong`, `broadcast_wrong`, `given_strided`, `columns_wrong`, `given_refused`, `given_refused_tests`, `overlapping_output_wrong` |
| C139 | `Verif/Bins/{Call,CallSpec,CallNum,CallLemmas,CallProps,CallWrong}` | `search_partial`, `search_same_partial`, `search_whole_partial`, `search_float_partial`, `search_rounded_partial`, `bins_refused`, `values_refused`, `mode_refused`, `text_any_mode`, `no_bins_undefined`, `cut_false_wrong`, `wrapped_end_wrong`, `rounded_end_wrong`, `end_undefined`, `value_undefined`, `large_value_wrong`, `narrow_bins_wrong`, `narrow_end_wrong`, `nan_bin_undefined`, `sparse_wrong` |
| C140 | `Verif/Mask/{Call,CallSpec,CallLemmas,CallProps,CallWrong}` | `sum_partial`, `sum_contiguous_partial`, `index_partial`, `index_contiguous_partial`, `index_memory_order_partial`, `type_refused`, `lengths_refused`, `objects_refused`, `rows_refused`, `fancy_partial`, `fancy_memory_order_partial`, `rows_sum_wrong`, `single_row_sum_wrong`, `hidden_rows_sum_wrong`, `hidden_rows_index_wrong`, `fortran_order_wrong`, `mixed_order_wrong`, `shapes_not_compared`, `records_undefined`, `sliced_fancy_undefined`, `fortran_fancy_wrong`, `rows_fancy_wrong` |
| C141 | `Verif/Date/{Call,CallSpec,CallLemmas,CallProps,CallWrong}` | `call_partial`, `dates_partial`, `times_partial`, `moments_partial`, `values_in_range`, `warning_partial`, `strptime_partial`, `type_refused`, `memory_order_partial`, `fortran_order_wrong`, `sliced_wrong`, `backwards_undefined`, `other_byte_order_wrong`, `letters_undefined`, `strptime_characters_wrong`, `shape_lost` |
| C142 | `Verif/Take/{Call,CallSpec,CallProps,CallWrong}` | `get_partial`, `contiguous_partial`, `in_range_partial`, `fill_missing`, `default_invalid`, `mask_partial`, `mask_lengths_refused`, `index_type_refused`, `objects_refused`, `layout_refused`, `dates_crash`, `text_default_undefined`, `long_texts_undefined`, `large_default_wrong`, `numpy_default_wrong`, `long_double_default_wrong`, `bool_default_wrong`, `default_wraps`, `nan_default_undefined`, `default_ignored`, `unsigned_index_texts_undefined`, `fortran_order_wrong` |
| C143 | `Verif/Sds/{Masked,MaskedSpec,MaskedProps,MaskedWrong}` | `one_file_partial`, `one_file_same_length`, `one_file_no_rows_undefined`, `no_columns_all`, `other_masks_ignored`, `several_files_partial`, `several_files_refused`, `several_files_other_masks_ignored`, `first_array_shorter_undefined`, `first_array_shorter_empty_wrong`, `first_array_shorter_refused`, `scalar_first_empty_wrong`, `first_array_longer_wrong`, `one_file_long_mask_wrong`, `strided_mask_wrong`, `reversed_mask_undefined`, `structures_refused` |
| C144 | `Verif/Window/{Call,CallSpec,CallLemmas,CallProps,CallWrong}`, `Verif/Arrays/{Nums,NumsSpec,NumsLemmas}` | `signed_partial`, `overflow_undefined`, `unsigned_partial`, `float_partial`, `lengths_refused`, `time_type_refused`, `unknown_none`, `answer_rows`, `strided_values_wrong`, `strided_times_wrong`, `reversed_undefined`, `fortran_wrong`, `swapped_wrong`, `invalid_value_wrong`, `invalid_int64_undefined`, `invalid_time_undefined`, `unsorted_wrong`, `negative_delta_wrong` |
| C145 | `Verif/Pack/{Call,CallSpec,CallProps,CallWrong}` | `next_partial`, `prev_partial`, `next_type_refused`, `pack_partial`, `pack_links_partial`, `links_length_refused`, `pack_type_refused`, `groups_from_counts`, `count_type_refused`, `counts_exact`, `counts_packed`, `count_empty_refused`, `count_negative_refused`, `strided_next_wrong`, `swapped_next_wrong`, `strided_pack_wrong`, `reversed_pack_undefined`, `swapped_pack_undefined`, `strided_count_wrong`, `swapped_count_wrong`, `strided_counts_wrong`, `int64_counts_refused`, `count_type_undefined`, `group_type_undefined`, `int64_links_wrong`, `int8_links_undefined`, `own_links_undefined`, `next_no_memory_unwritten`, `next_negative_wrong`, `next_many_groups_undefined`, `pack_negative_undefined`, `pack_negative_null_undefined`, `pack_no_memory_undefined`, `count_no_memory_silent` |
| C146 | `Verif/Keys/{Call,Spec,Props,Wrong}` | `reverse_partial`, `reverse_in_bounds`, `reverse_type_refused`, `reindex_partial`, `reindex_size_refused`, `filter_partial`, `filter_refused`, `first_partial`, `first_refused`, `strided_reverse_wrong`, `reversed_reverse_undefined`, `swapped_reverse_wrong`, `no_permutation_leaves_rows_unset`, `fortran_filter_wrong`, `strided_filter_wrong`, `odd_filter_byte_multiplies`, `float_unique_keys_accepted`, `unsigned_keys_filtered_out`, `cutoff_behind_keys_undefined`, `fewer_cutoffs_undefined`, `unique_key_truncated`, `first_type_silent`, `first_max_overflows` |
| C147 | `Verif/Arrays/{Info,InfoSpec,InfoProps,InfoWrong}` | `build_describes`, `build_only`, `one_array`, `other_refused`, `other_item_refused`, `date_refused`, `no_copy_refused`, `lengths_refused`, `matrix_refused`, `strided_refused`, `two_built`, `odd_strides_built`, `no_arrays_accepted`, `scalar_array_undefined`, `one_item_slice_refused`, `one_item_refused`, `none_accepted`, `permuted_copy_wrong`, `strided_matrix_accepted`, `swapped_copy_kept`, `no_table_undefined` |
| C148 | `Verif/Bins/{SortedCall,SortedSpec,SortedLemmas,SortedProps,SortedWrong}` | `float_counts_partial`, `int_counts_partial`, `bool_counts`, `cuts_partial`, `quantile_calls_partial`, `above_edge_undefined`, `cuts_types`, `counts_failed`, `counts_silent`, `five_cut`, `ints_counted_call`, `other_types_cut`, `no_arguments_undefined`, `none_counted`, `index_outside_undefined`, `index_no_order`, `index_length`, `counts_outside_undefined`, `no_edges_undefined`, `strided_cuts_wrong`, `strided_edges_wrong`, `swapped_counts_wrong`, `one_item_slice_failed`, `counted_row_outside_undefined`, `second_list_refused` |
| C149 | `Verif/Work/{Start,StartSpec,StartLemmas,StartProps,StartWrong}` | `worker_count_bounds`, `worker_count`, `workers_per_processor_partial`, `wake_setting_bounds`, `wake_count_bounds`, `bands_tile_whatever_the_setting`, `set_wake_up_partial`, `start_numbers_workers`, `start_numbers_distinct`, `start_steps_terminate`, `start_returns_partial`, `start_leaves_pool`, `first_operation_returns`, `forked_child_works_partial`, `workers_processor_63_ignored`, `workers_more_than_processors`, `empty_mask_stays_empty`, `worker_count_undefined`, `wake_up_number_cut_to_32_bits`, `start_never_returns`, `start_returns_before_idle`, `forked_child_never_returns`, `fork_with_worker_awake` |
| C150 | `Verif/Keys/{Accum,AccumProps,AccumWrong}` | `accum2_partial`, `accum2_tells_pairs_partial`, `accum2_refused`, `accum1_partial`, `accum1_refused`, `strided_accum1_wrong`, `swapped_accum1_wrong`, `reversed_accum_undefined`, `strided_accum_filter_wrong`, `fortran_pairs_wrong`, `fortran_first_rows_wrong`, `odd_filter_passed_over`, `short_memory_breaks_list`, `no_table_undefined`, `negative_maxima_taken`, `outside_pairs_collide` |
| C151 | `Verif/Quick/{Call,CallSpec,CallProps,CallWrong}` | `isSorted_ints_partial`, `isSorted_floats_partial`, `isSorted_texts_partial`, `isSorted_structures_partial`, `isSorted_refused`, `sortInPlace_call_ints_partial`, `sortInPlace_call_floats_partial`, `sortInPlace_no_memory`, `sortInPlace_other_modes`, `sortInPlace_other_types`, `sort_call_ints_partial`, `sort_call_floats_partial`, `sort_texts_overflow`, `sort_no_memory`, `indirect_call_partial`, `indirect_other_types`, `indirect_no_memory`, `isSorted_swapped_wrong`, `isSorted_structures_wrong`, `sortInPlace_strided_wrong`, `sortInPlace_reversed_undefined`, `sortInPlace_swapped_wrong`, `sortInPlace_fortran_wrong`, `sortInPlace_texts_wrong`, `sortInPlace_bool_undefined`, `indirect_strided_wrong`, `indirect_unchecked` |
| C152 | `Verif/LexGroup/{Call,CallSpec,CallProps,CallWrong}` | `groupFromLexSort_partial`, `base_zero`, `cutoffs_partial`, `longer_refused`, `type_refused`, `cutoffs_type_refused`, `cutoffs_last_refused`, `filter_length_refused`, `memory_refused`, `index_overwritten`, `filter_ignored`, `empty_cutoffs_undefined`, `later_memory_unchecked`, `later_memory_unchecked_cutoffs`, `base_too_large_spoiled`, `base_spoiled`, `no_rows_count_unset`, `strided_index_wrong`, `swapped_index_undefined`, `strided_values_wrong`, `negative_row_undefined`, `rows_cut_to_none`, `rows_cut_to_one` |
| C153 | `Verif/Sds/{Save,SaveSpec,SaveLemmas,SaveProps,SaveWrong}`, `Verif/Arrays/KeepOrder` | `saved_partial`, `order_said`, `load_written`, `order_lost`, `six_dims_undefined`, `six_dims_saved`, `objects_undefined`, `objects_saved`, `refused_answers_none`, `dates_answer_none`, `others_answer_none`, `one_item_answers_none`, `scalar_undefined`, `few_names_undefined`, `few_names_saved`, `skipped_name_wrong`, `value_cut_wrong`, `value_type_saved`, `name_cut_wrong`, `long_names_undefined`, `short_tuple_undefined`, `band_size`, `band_room_saved`, `section_undefined`, `section_long_refused`, `zero_cut_wrong`, `metadata_lost`, `level_cut`, `percent_undefined`, `no_names_memory`, `no_memory`, `no_copy_memory`, `keepLay_places`, `copyOf_get` |
| C154 | `Verif/Sds/{Many,ManySpec,ManyLemmas,ManyProps,ManyWrong}` | `read_all`, `read_iff`, `missing_file_spoils`, `one_missing_raises`, `stack_partial`, `stack_raises`, `must_exist_raises`, `join_all`, `join_fails`, `digits_value`, `join_missing_raises`, `either_first`, `either_raises`, `any_order_partial`, `any_history_partial`, `empty_list_stale`, `empty_list_history`, `empty_list_after_good`, `join_order`, `damaged_metadata`, `one_answers`, `percent_undefined`, `stack_ignores_mode`, `mode_differs`, `join_without_name`, `join_without_files`, `last_missing_told`, `dropped_names` |
| C155 | `Verif/Arrays/{ShiftCall,ShiftCallSpec,ShiftCallLemmas,ShiftCallProps,ShiftCallWrong}` | `shift_rows_partial`, `flat_order`, `shift_frame`, `c_order_wrong`, `c_order_not_rows`, `one_row_moves`, `gaps_stay`, `three_dims_stay`, `same_twice`, `overlapping`, `far_below_undefined`, `far_columns_undefined`, `far_columns_call`, `no_dims_undefined`, `refused`, `one_as_list`, `shift_no_room` |
| C156 | `Verif/Arrays/{StackCall,StackCallSpec,StackCallLemmas,StackCallProps,StackCallText,StackCallWrong}` | `hstack_nums_partial`, `hstack_keeps`, `hstack_texts`, `homogenize_nums_partial`, `upcast_type`, `square_wrong`, `dims_refused`, `swapped_wrong`, `upcast_refuses_slice`, `one_slice_refused`, `none_counts`, `homogenize_none`, `homogenize_silent`, `homogenize_undefined`, `homogenize_texts`, `homogenize_type`, `homogenize_false_invalid`, `hstack_refuses`, `no_room`, `empty_strings`, `one_array_taken` |
| C157 | `Verif/Unary/{Call,CallSpec,CallLemmas,CallProps,CallWrong}` | `op_iff`, `kernel_known`, `kernel_rows`, `walk_right`, `kind_out`, `item_size`, `calls_same`, `line_partial`, `plane_partial`, `contiguous_partial`, `into_line_partial`, `into_contiguous_partial`, `unknown_left`, `out_ignored`, `dtype_ignored`, `scalar_wrong`, `order_wrong`, `number_wrong`, `large_wrong`, `room_wrong`, `still_wrong`, `twin_left`, `shape_wrong`, `gap_wrong`, `root_wrong`, `normal_wrong`, `smallest_undefined`, `letter_wrong`, `tuple_error`, `log2_left` |
| C158 | `Verif/Arrays/{AssignCall,AssignCallSpec,AssignCallLemmas,AssignCallProps,AssignCallPut,AssignCallWrong}` | `set_arrays`, `set_item_partial`, `set_item_refuses`, `put_item`, `put_arrays`, `put_mask_partial`, `put_mask_refuses`, `apply_rows_partial`, `set_item_leaves_exception`, `set_item_ignores_strides`, `set_item_backwards`, `set_item_writes_read_only`, `set_item_ignores_byte_order`, `set_item_ignores_units`, `set_item_overlap`, `set_item_overlapping_texts`, `put_mask_no_array`, `put_mask_many_rows`, `put_mask_false_invalid`, `put_mask_fortran`, `put_mask_ignores_mask_stride`, `put_mask_infinity`, `put_mask_writes_read_only`, `apply_rows_two_arguments`, `apply_rows_no_answer`, `apply_rows_throws` |
| C159 | `Verif/Recycle/{Call,CallSpec,CallLemmas,CallProps,CallWrong}` | `collect_now`, `try_items`, `try_recycle`, `recycle_call`, `recycle_takes`, `allocate_numpy`, `dump_call`, `settings_call`, `history_partial`, `collect_time_overflows`, `timeout_overflows`, `negative_type`, `not_an_array`, `tuple_finds_nothing`, `scalar_gets_a_dimension`, `exception_stays_set`, `collection_for_room_frees_nothing`, `held_twice_is_refused`, `off_hands_out`, `dump_counts_items`, `stats_are_from_before`, `byte_order_is_lost` |
| C160 | `Verif/Shm/{Call,CallSpec,CallLemmas,CallProps,CallWrong}` | `save_shares`, `load_reads`, `saved_is_loaded`, `readers_keep`, `readers_see`, `other_names`, `loads_use_up`, `save_undefined`, `load_copies`, `info_reads_file`, `foreign_share_stays`, `history_partial`, `saved_twice`, `full_table_loses_share`, `no_stdin_loses_share`, `no_stdin_read_only`, `no_stdin_reads_nothing`, `truncate_unnoticed`, `torn_share_is_read`, `second_bus_kills`, `copy_bus_kills`, `bad_file_leaves_share`, `bad_file_twice`, `map_failure_leaks`, `reader_sees_unfinished`, `reader_unlinks_unfinished`, `twice_in_history`, `killed_in_history`, `counters_are_no_counters`, `bad_name_makes_none` |
| C161 | `Verif/LogCall/{Call,CallSpec,CallLemmas,CallProps,CallEnds,CallWrong}` | `handed_in_order`, `accepted_were_logged`, `nothing_lost_partial`, `calm_is_defined`, `terminates_only`, `disable_flushes_partial`, `disable_ends_partial`, `log_when_wanted`, `push_when_room`, `levels_follow`, `levels_after_batch`, `enable_starts`, `enable_refuses`, `names_differ`, `loggers_are`, `stamp_partial`, `stamp_is_wrong`, `high_level_ignored`, `silenced_logs`, `level_wraps`, `no_level_undefined`, `unknown_logger_undefined`, `level_is_late`, `never_returns`, `batch_wraps_and_hangs`, `no_interval_hangs`, `stuck_for_good`, `stuck_enable`, `late_record_sticks`, `exception_sticks`, `callback_gone`, `exception_unnoticed`, `exception_loses`, `enable_while_disabling`, `enable_terminates`, `flusher_cancelled`, `batch_withheld`, `timeout_drops`, `finalizing_loses`, `active_takes_anything`, `inactive_takes_anything`, `size_wraps` |
| C162 | `Verif/AsArray/{Call,CallSpec,CallLemmas,CallProps,CallWrong}` | `as_any_count_iff`, `as_any_twice_iff`, `as_any_dtype_iff`, `as_any_accepted`, `as_any_value_iff_partial`, `as_any_both`, `as_any_same`, `as_any_copy`, `as_any_list`, `as_any_numpy`, `as_any_scalar`, `as_any_dims_partial`, `as_any_extra`, `as_any_no_names`, `as_any_position_or_name`, `as_any_undefined_iff`, `as_any_balanced_iff_partial`, `as_fast_undefined_iff`, `as_fast_value`, `as_fast_no_view`, `as_fast_balanced_iff`, `as_fast_counts`, `as_any_bad_copy_wrong`, `as_any_bad_order_wrong`, `as_any_never_refuses`, `as_any_order_wrong`, `as_any_no_dims_wrong`, `as_any_copy_adds_dimension`, `as_any_dtype_none_wrong`, `as_any_unit_wrong`, `as_any_swapped_wrong`, `as_any_object_wrong`, `as_any_twice_leaks`, `as_fast_error_wrong` |
| C163 | `Verif/SdsResult/{Call,CallSpec,CallLemmas,CallProps,CallWrong}` | `header_fields_partial`, `dict_keys_once`, `dict_undefined_iff`, `dict_leaks`, `read_none_iff`, `read_undefined_iff`, `read_list_iff_partial`, `read_list`, `read_both`, `read_leaks`, `stack_none_iff`, `stack_raised_iff`, `stack_value`, `stack_leaks`, `read_no_memory_wrong`, `read_exception_wrong`, `read_section_wrong`, `read_file_name_wrong`, `read_dims_wrong`, `read_negative_dims_wrong`, `header_time_wrong`, `read_leaks_wrong`, `stack_no_memory_wrong` |
| C164 | `Verif/Module/{Call,CallSpec,CallProps,CallWrong}` | `empty_call_partial`, `empty_undefined_iff`, `empty_dims`, `empty_args`, `empty_bad_dim`, `set_type_first`, `set_type_raises_iff`, `compare_iff`, `compare_shares`, `ledger_call`, `ledger_refused_iff`, `remap_iff`, `remap_loop_undefined_iff`, `remap_loop_items`, `empty_two_dims_wrong`, `empty_item_wrong`, `empty_size_wrong`, `empty_negative_type_wrong`, `empty_second_wrong`, `empty_unknown_type_wrong`, `set_type_second_wrong`, `compare_shares_wrong`, `ledger_no_arguments_wrong`, `ledger_leaks_wrong`, `remap_wrong`, `remap_loop_cuts` |
| C165 | `Verif/Module/{Table,TableSpec,TableProps,TableWrong}` | `registered_copied`, `copied_ends`, `registered_table`, `methods_names_once`, `callName_entry`, `callName_noName`, `methods_params`, `callName_defined`, `callName_refused`, `callName_runs`, `methods_own_partial`, `callName_own_partial`, `callName_isMember64`, `lut64_bytes`, `lut32_bytes`, `lut_fits`, `importModule_choice`, `threadingMode_previous`, `threadingMode_refused`, `setLustreGateway_bytes_partial`, `setLustreGateway_refused`, `setZstdChecksumming_only`, `setZstdChecksumming_sets`, `run_answers_partial`, `applyRows_wrong`, `applyRows_unreachable`, `reMapIndex_unreachable`, `importModule_wrong`, `setLustreGateway_ends_wrong`, `run_ends_wrong` |
| C166 | `Verif/Hook/{Two,TwoSpec,TwoProps,TwoWrong,TwoMore}` | `twoInputs_args`, `twoInputs_proper_partial`, `twoInputs_no_function`, `twoInputs_function_cut`, `twoInputs_arrays`, `twoInputs_scalar`, `twoInputs_objects_partial`, `twoInputs_keeps`, `twoInputs_scalar_first`, `twoInputs_single_after`, `twoInputs_single_before`, `twoInputs_lengths`, `twoInputs_output`, `twoInputs_list_first`, `twoInputs_gaps_scalar`, `twoInputs_list_second_partial`, `twoInputs_size_wrong`, `twoInputs_other_wrong`, `twoInputs_number_wrong`, `twoInputs_scalars_wrong`, `twoInputs_scalar_list_wrong`, `twoInputs_text_wrong`, `twoInputs_scalars_output_wrong`, `twoInputs_list_leaks_wrong`, `intoOutput_crash_wrong`, `twoInputs_flat_wrong`, `twoInputs_output_other` |
| C167 | `Verif/Binary/{Texts,TextsSpec,TextsProps,TextsWrong}` | `copyText_text`, `copyText_undefined`, `addTexts_arrays`, `addTexts_bytes_after`, `addTexts_bytes_before`, `addTexts_texts`, `addTexts_text_after`, `addTexts_text_before`, `addTexts_numpy_partial`, `addTexts_defined`, `addTexts_left`, `addTexts_no_array`, `addTexts_zero_wrong`, `addTexts_text_to_bytes_wrong`, `addTexts_text_to_bytes_first_wrong`, `addTexts_bytes_to_text_wrong`, `addTexts_dims_wrong`, `addTexts_shapes_wrong`, `addTexts_single_left` |
| C168 | `Verif/Shm/{ReadOnly,ReadOnlySpec,ReadOnlyProps,ReadOnlyWrong}` | `clearWriteable_self`, `clearWriteable_root`, `clearWriteable_others`, `clearWriteable_bases`, `clearWriteable_defined`, `clearWriteable_twice`, `clearWriteable_all_partial`, `clearWriteable_between_wrong`, `clearWriteable_sibling_wrong` |

## Disagreements between the code and the English properties

Each entry is a concrete witness proved in Lean; the positive theorem carries the exact guard.

* C05 (`src/Merge.cpp:586`): with a contiguous mask, strided values and an item size other than
  1/2/4/8, the tail loop advances the *output* by the value stride; the copy goes out of bounds.
  `Riptide.Mask.boolean_index_strided_odd_item_writes_out_of_bounds`.
* C06 (`src/Merge.cpp:1604-1678`): the mask is read at consecutive bytes although the counting pass
  honours its stride; a strided mask gives wrong rows and writes out of bounds.
  `Riptide.Mask.fancy_index_ignores_stride`.
* C07 (`src/Merge.cpp:1151-1265`): the kernels for unsigned index dtypes are instantiated with signed
  index types, so an index with the top bit set gives the default even when it is in range
  (`Riptide.Take.unsigned_index_top_bit_gives_default`); for item sizes other than 1/2/4/8/16 the
  unsigned kernel advances its output twice per item (lines 1017, 1049): it never terminates for an
  odd number of indices, leaves every other item uninitialised otherwise, and reads before the value
  array (`unsigned_index_variable_item_*`).
* C07 (`src/Merge.cpp:1105,1113`): in a parallel run the output offset of a block is computed with the
  stride of the values, so strided values are written out of bounds
  (`Riptide.Take.strided_values_parallel_writes_out_of_bounds`).
- C49: `ReduceAddSlow` accumulates 64-bit integers in a double, so `sum([2^53, 1])` is `2^53` (`sum_int64_inexact`). Proved below `2^53` (`sum_int_partial`, `sum_small_ints`).
- C49: `ReduceAddF32`/`ReduceAddD64` convert every partial sum to `int64_t` (undefined when it does not fit; `INT64_MIN` on x86-64) and the gather step replaces the float result by NaN when that integer is riptide's invalid value. A parallel sum of floats whose partial sum reaches `2^63` therefore returns NaN (`sum_flt_large_nan`).
- C50: `nanmean` of an array without valid values returns 0 instead of NaN (`nanmean_of_nothing_is_zero`, `src/Reduce.cpp:3212-3216`).
- C47: converting a float outside the range of the integer type is undefined behaviour (`float_out_of_range_undefined`), and integers at or above the precision do not survive the round trip (`round_trip_needs_bound`).
- **C40** For a negative `delta` the window still contains row `i` itself (`src/TimeWindow.cpp:36-40` starts from it): `negative_delta_includes_row`. The partial theorems need `0 ≤ delta` and time differences that fit 64 bits.
- **C41** `BitCount` ignores the strides of its input, so `a[::2]` is counted as if it were the first half of `a` (`strided_array_miscounted`). Proved for contiguous input.
- **C42** The gather offsets are 32-bit: with records of `2^31/7` bytes or more rows are read from the wrong (even negative) offset (`huge_records_read_backwards`); with no output column and at least one row `ConvertRecArray` never ends (`no_columns_never_ends`). Proved for smaller records and at least one column.
- **C43** The cross-width comparisons of `Bins.cpp` look at only one byte after the shorter string ends, so strings with an inner NUL compare equal although their contents differ, and equality is not transitive (`inner_nul_compares_equal`, `inner_nul_not_transitive`). Proved for strings without inner NULs; the same-width comparison of `Sort.cpp` is right for all strings.
- **C51** The trailing single byte in `VOID_LT` is compared ascending even when sorting descending (`src/Sort.cpp:171`, 193, 215, …): descending is not the reverse of ascending (`void_descending_not_reversed`).
- **C09** `IsMemberHashCategorical` on 1- and 2-byte keys in prime mode masks with a non-power-of-two table and reads outside it (`small_keys_prime_mode_out_of_bounds`).
- **C10** `+0.0` and `-0.0` are equal numbers but hash to different slots, so `ismember([-0.0],[0.0])` can be False (`signed_zeros_not_found`). Proved when one of the zeros does not occur (`ismember_float_partial`).
- **C11** In prime mode the table of primes ends: a hint of 68719476731 or more gives size 0 (`prime_size_too_large`); a user hint below the number of distinct keys makes the call fail (`small_hint_fails`).
- **C12** Strings with an inner NUL match their prefix (`inner_nul_matches_prefix`).
- **C13** 1- and 2-byte keys with the caller's prime mode: masked with `193 - 1`, different keys share a group (`small_keys_prime_mode_merges`). Floats are grouped by bit pattern, so the two zeros are different groups (`groupby_float_bits`).
- **C15** `FindLastMatchCategorical` (`src/HashLinear.cpp:822`) stores right row `j` under `pKey2[i]`, the key at the *left* position, instead of `pKey2[j]`: rows are matched with rows of another key (`categorical_wrong_key`), and the right keys are read outside the array when there are more left rows than right rows (`categorical_outside`). `categorical_partial` holds when all right keys are equal. Its caller `MergeBinnedAndSorted` (6152-6237) moreover chooses the *key* type by the type of the *times*, so keys and times of different width are misread, and float times always fail.
- **C57** Only the last cutoff is compared with the number of rows (`src/Sort.cpp:3489`). Cutoffs that are not ascending make the index preparation (3566-3574) write past the end of the output; an empty cutoff array reads `pCutOffs[-1]`. Proved for ascending cutoffs (`lexsort_partitions_partial`), witnesses `lexsort_cutoffs_overflow`, `lexsort_cutoffs_empty`.
- **C17/C19** A failed workspace allocation makes a pass return -1, which `LexSort` ignores (3595-3612): the index is then returned unsorted by that column. The model assumes allocations succeed.
- **C20** `GroupByPackFixup32` (`src/MultiKey.cpp:634-643`) indexes the group array with an unchecked key, `GroupByPackFinal32` writes entry 0 of an empty output (691), and with caller-supplied links relies on bins numbered by first appearance (756-784): other bins leave `iFirst`/`nCount` entries unwritten. `GroupFromBinCount` trusts the counts it is given. Proved under exactly these guards (`groupByPack_slices_partial`, `groupByPackNext_slices_partial`, `groupFromBinCount_slices`); witnesses `groupByPack_out_of_bounds`, `groupByPack_negative_key`, `groupByPack_empty`, `groupByPackNext_order`, `groupFromBinCount_wrong_counts`, `groupFromBinCount_tail`.
- **C22** `MakeNextKey` stores row numbers in the type of the keys (`src/MultiKey.cpp:520`, `533`): with `int8` keys a link to row 130 comes back as -126. Rows whose group is outside `[0, unique]` get no value at all, so the returned array has uninitialised entries. Proved when the row numbers fit (`makeNextKey_next_partial`, `makeNextKey_prev_partial`); witnesses `makeNextKey_int8_wraps`, `makeNextKey_unwritten`, negation `nextCorrect_false`.
- **C23** The scattered path fills the bins outside the requested range with 0, the sequential path leaves them unwritten (`group_sum_outside_range`); a range past the last bin writes out of bounds (`group_sum_range_oob`). The property is proved for the bins in the range.
- **C24** `AccumNanSumFloat` and `AccumNanMeanFloat` clear `pOut[0 … binHigh-binLow)` instead of `pOut[binLow … binHigh)` (`src/GroupBy.cpp`, `memset(pOut, 0, …)`), so with `binLow ≥ 1` the last bins are not initialised unless the final copy loop reaches them. Sequential witness `group_nansum_float32_uninitialised`; on the scattered path a core that runs only a short last block contributes uninitialised memory (`group_nan_float32_scattered_uninitialised`). The sum and mean that are not nan-ignoring are right (`group_sum_float32`, `group_mean_float32`); the others are proved under the exact guard (`group_nansum_float32_partial`, `group_nanmean_float32_partial`).
- **C26** Totals are kept in floating point: beyond `2^53` (float32 columns gathered in parallel: `2^24`) the mean depends on which core ran which block (`group_mean_schedule_dependent`). Proved with the exact bound; validity and denominators need no bound.
- **C28** A NaN in a floating-point column stays in the running total after it has left the window: `NaN - NaN` is NaN, so every later row of the group is NaN (`accumRollingSum_sticky`, `accumRollingMean_sticky`). What the code computes is stated exactly in `accumRollingSum_val`; the nan-ignoring versions are right.
- **C28** A negative window returns without writing any row outside bin 0 (`accumRolling_negative`).
- **C28, C29** `V j = start + windowSize` narrows a 64-bit sum to the index type: with int32 index arrays a window near or above 2^31 wraps and reads outside the arrays (`accumRolling_huge`, `accumShift_huge`). The theorems carry the guard `rows + |w| < max(V)` (`Grouped.small`).
- **C28** Rolling sums and differences of integer columns treat the invalid sentinel as a number (modelled as it is; `accumRollingSum_int_partial`).
- **C31** A position `(n-1)*q` within 1e-3 of a whole one is taken as whole: the 0.0005-quantile of 0 and 1000 is 0 (`quantile_tolerance`). `accumQuantile_run` states what is computed; `accumQuantile_exact_partial` gives the exact quantile when no position falls within the tolerance without being whole.
- **C31** `QUANTILE_SPLIT` adds two integers in their own type before dividing by 2.0: undefined behaviour for int32/int64 when the sum overflows, a wrong midpoint for uint32/uint64 (`splitSum_overflow`); the grouped quantile has the same defect.
- **C31** A window of 0 or less sets an exception inside a worker thread and leaves the rows outside bin 0 unwritten (`accumQuantile_nonpositive`).
- **C32** `searchsorted` casts the first and last bin to the type of the data and the value to the type of the bins (`src/Bins.cpp:840-841`, 855). With `int` data and `double` bins `[0.5, 1.5]` the right insertion point of 1 is reported as 2 (`searchRight_truncates`); with `double` data and `int` bins `[1, 2, 3]` the left insertion point of 2.5 is reported as 1 (`searchLeft_truncates`); `int8` data with bins `[0, 1000]` reports 2 for 5 (`searchLeft_wraps`).
- **C32** A NaN among the bins makes the search loop spin for ever (`search_nan_spins`), a NaN as last bin sends every value to the end (`searchRight_nan_bin`), no bins at all reads `pBin1[-1]` (`search_no_bins`), and between 2^30 and 2·10^9 bins `first + last` overflows `int` (`search_overflow`). For strings `searchMode` is ignored (`strings_ignore_mode`) and for unicode strings the output is never written (`unicode_unwritten`).
- **C33** With `int` data and fractional edges the cast of the edges moves the borders: for `[0.5, 1.5, 2.5]` the value 0 gets bin 1 (`cut_below_first`), for `[-2.5, -1.5]` the value -1 gets bin 2, which does not exist (`cut_above_last`); `uint8` data with edges `[-5, 10]` is never in a bin (`cut_wraps`). Infinite values get bin 0 even inside infinite edges (`cut_infinite`).
- **C33** `MakeBinsBSearchString` moves its input pointer by `start` bytes instead of `start` strings (`src/Bins.cpp:1265-1266`), so with threads every block but the first cuts the wrong strings (`cut_strings_threads_wrong`; `strings_exact` says which).
- **C35** `WorkSpaceAllocLarge`/`Small` hand out the recycled block without marking it as taken: two nested users with caching on share one block (`workspace_shared`); freeing a larger block replaces (and frees) the recycled one while it is held (`workspace_replaced_in_use`); a collection frees it while held (`workspace_collected_in_use`); with caching switched off between allocation and free the recycled block is freed and stays recorded (`workspace_mode_switch`), after which a collection or a free is a double free (`workspace_collect_dangling`, `workspace_double_free`). The theorem holds for the histories satisfying `Safe`.
- **C36** `RecycleFindArray` checks `type < 14` but not `type >= 0` (`find_negative_type`: read outside the table), and neither it nor `FinalizeNumpyArray` looks at the byte order, so a byte-swapped array is handed out for a native one (`find_byte_order`). `Head` and `Tail` are `int32_t` in the code and overflow after 2^31 recycled arrays in one bucket; they are unbounded in the model.
- **C37** `cancel_wait` sets `wait_` without taking the lock (`src/logging/waiting_deque.h:57-61`): when it falls between the consumer's test and its blocking, the wake-up is lost and the cancelled consumer sleeps with no notification to come (`cancel_lost`, `blocked_stays`). The flush timer's next cancellation repairs it (`cancel_again`). In C++ terms the unlocked write is also a data race; the model is sequentially consistent.
- **C60** `BINARY_LT` compares the last byte of a 7 byte value with `<` instead of `!=` (`src/Sort.cpp:395`): values differing only in a last byte that goes down are merged (`width_seven_merged`). With base 0 numbers leave the last count uninitialised and strings shift the counts by one (`base_zero_uninitialised`, `base_zero_strings_shifted`); no rows: the count of the zero bin is uninitialised (`no_rows_uninitialised`). With cutoffs and strings the counts are wrong and depend on timing, since the string version always writes one place further, into the next partition (`strings_with_cutoffs_wrong`). Floats are compared by their bits, so equal zeros of different sign in sorted order make the same value appear in several groups (`zeros_split`).
- **C61** holds for boolean bytes 0 and 1; other bytes multiply the group number (`combine_filter_odd_bytes`).
- **C62** negative (invalid) group numbers and numbers above the stated maximum are not rejected: without a filter nothing is checked, with a filter only the narrowed pair number is, so such rows take the number of another pair (`combine2_collides`, `combine2_filter_collides`). Two negative maxima pass the size check and the product may overflow (`combine2_negative_maxima`, `combine2_overflow`).
- **C63** first rows are stored as `int32_t`; a first row at or beyond 2^31 is truncated (`combine1_first_truncated`).
- **C65** `long long` beside `unsigned long` gives `long long`, which loses the upper half of the unsigned values (`upcast_loses_unsigned`); 64-bit integers beside floats or the other signedness give double (`upcast_holds_partial` lists the exceptions); a boolean beside an unsigned 64-bit array forces double as well (`upcast_bool_unsigned`).
- **C66** the stride of the array is ignored: for a strided view the wrong items are changed (`trim_ignores_stride`).
- **C67** inherits C65: beside a `long long` array, large values of an `unsigned long` array become negative (`hstack_unsigned_wraps`).
- **C68** a C-ordered matrix is shifted by elements and a Fortran one by rows, so that the same matrix gives different results (`shift_depends_on_layout`); an array that is not contiguous is copied and only the copy is shifted (`shift_view_unchanged`, `shift_view_wrong`).
- **C69** strides of array, mask and values are ignored although the comment says they are checked (`set_item_ignores_stride`, `set_item_ignores_mask_stride`).
- **C70** strides of mask and values are ignored (`put_mask_ignores_stride`); a false value put into an integer array becomes the invalid value, because the input sentinel of booleans is false (`put_mask_false_becomes_invalid`).
- **C71** beside an integer array the false entries of a boolean array become invalid (`homogenize_false_becomes_invalid`, `homogenize_false`); a number beside a string array calls a null function and an object array throws a C++ exception (`homogenize_mixed_undefined`).
- **C72** a negative window writes before the output (`rollSum_negative_window`); one NaN makes every later RollingSum NaN, even after it has left the window (`rollSumFloat_sticky`); RollingNanMean of integers counts invalid values (`rollNanMeanInt_counts_invalid`); unsigned 64-bit columns are summed as signed (`rollSum_uint64`).
- **C73** CumSum adds invalid values as ordinary numbers (`cumSum_adds_invalid`); a column shorter than the keys is read past its end (`cumSum_short_column`), a key above `unique_rows` writes past the work space (`cumSum_key_above`).
- **C74** rows outside the groups get the extreme of bin 0 instead of the invalid value (`cumNanExtreme_no_group_false`, `cumExtreme_no_group_false`), in one variant they are not written at all (`cumExtreme_unwritten`); a negative key indexes before the work space (`cumNanExtreme_negative_key`).
- **C76** with filter and reset together every row is 0 (`emaDecay_both_masks`, `emaDecay_both_masks_false`); decreasing unsigned times wrap (`emaDecay_unsigned_wraps`); `long double` times write 16-byte items into an array of doubles (`emaSizes_longdouble`).
- **C77** a reset restarts the average from 0 at time 0 instead of the row's own value (`emaNormal_reset_false`); rows filtered out before the first included one pull the average to 0 (`emaNormal_filter_false`) or, with a reset mask, show the excluded first value (`emaNormal_both_leaks`); a negative key writes before the work space (`emaNormal_negative_key`).
- **C78** a point above the last knot makes the search read one number past the table (`interp_reads_past`, `interp_reads_past_2d`); the stride of the points is ignored (`interp_ignores_stride`).
- **C79** RollingVar divides by n-1 while the window fills and by n afterwards (`rollVar_changes_divisor`, `rollVar_false`); RollingNanVar goes wrong after a NaN because of `delta = old = amean` (`rollNanVar_false`) and because `count_inv` ignores NaNs of the first window (`rollNanVar_wrong_count`).
- **C80** mergesort of doubles compares them as `float`, so doubles that round to the same `float` stay unsorted (`sortInPlace_merge_double_false`, `sortInPlace_merge_keeps`); byte strings are sorted character by character, which changes the strings (`sortInPlace_strings_corrupts`); strides are ignored (`sortView_strided`, `sortView_reads_past`); an unknown mode is silently ignored (`sortInPlace_unknown_mode`).
- **C81** neither the sort order nor the keys are checked (`sortIndirect_unchecked`).
- **C82** invalid integers count as numbers (`median_counts_invalid`); the sum of the two middle values may overflow, undefined for signed types (`median_overflow`); the banded path, used for one column of more than 65536 rows, ignores the range of bins and fills all of them (`median_range_ignored`).
- **C83** invalid integers count as numbers and can be the mode (`mode_counts_invalid`).
- **C84** the rank is computed in double precision and can miss an exact one: the quantile 0.29 of 101 values has rank 29 but the midpoint of ranks 28 and 29 is given (`quantIdx_rounded`, `quantile_rounded`); the midpoint of integers may overflow (`quantile_overflow`).
- **C85** the mean of an integer column is truncated to an integer although the output is floating point (`trim_truncates`); the values at the bounds are kept, so one value less than `ntrimbad` says is left out on each side.
- **C87** days up to 31 are accepted in every month: 2021-02-31 is the third of March (`epochNano_past_month`).
- **C88** what is no date becomes 0, the epoch, without a warning (`parseDate_invalid_silent`); a time with an hour only is 0 (`parseTime_hour_only`); an hour out of range keeps the date although the comment says that anything invalid is 0 (`parseDateTime_bad_hour`); zero-padded items cause warnings (`parseTime_pad_warns`, `parseDateTime_pad_warns`); a fraction after the minutes counts as one of seconds (`parseTime_fraction_minutes`); `isspace` is called with characters outside of `unsigned char` (`parse_nonascii_undefined`).
- **C89** a date out of range with a time of day gives the time of day less one nanosecond instead of 0 (`strptime_range_leaks`); the time zone and the day of the year are read and ignored (`strptime_zone_ignored`, `strptime_yday_ignored`); PM before the hour is lost (`strptime_pm_order`); `%b` takes the full name if it is there (`strptime_abbrev_month`); `%G` at the end of the text reads past its terminating zero (`strptime_G_reads_past`); characters are cut to a byte (`strptime_cuts_characters`); what follows the text is ignored (`strptime_trailing`). The fields of `struct tm` for the week, the day of the year and the zone, which nobody reads, are left out of the model.
- **C90** an array of uint64 equals an array of int64 where the bit patterns agree: 2^64-1 == -1 (`compare_equal_wrong`); with the scalar first the loop is chosen by the scalar's type alone (`compare_scalar_first_wrong`). The guard of `compare_int_partial` is exact (`compare_guard_exact`).
- **C91** an overflow of a signed type wraps in the registers but is undefined in the tail, and uint16 products overflow `int` (`math_overflow`); in place on an address which is no multiple of the item size the aligned instructions fault (`math_misaligned`; since blocks have 16384 rows, every block's address has the same remainder by 32); BITWISE_ANDNOT with a scalar uses the first item of the array for all rows and reads beyond the scalar (`andnot_scalar_wrong`); the remainder of booleans is exclusive or (`mod_bool_wrong`). IEEE arithmetic itself is a parameter of the model.
- **C92** the remainder has the sign of the dividend, unlike `%` of Python and numpy, which it replaces (`mod_wrong`, `mod_python`); the divisor 0 and the least number by -1 are undefined (`mod_wrong`, `floordiv_overflow`); the difference of a missing date is the valid span 0, and valid dates may overflow (`subdates_limits`).
- **C93** only the stride of the first dimension is checked: arrays such as `a[:1, ::2]` and Fortran arrays with gaps are read as if contiguous (`layout_strided_wrong`); C and Fortran order may be mixed if the first dimension is 1 (`layout_mixed_wrong`); equal lengths with different dimensions are not broadcast (`layout_shapes_wrong`).
- **C94** if the items of an input are larger than those of the output, an output inside the input is not noticed (`alias_wrong`). When the test rejects, the reference taken at line 2847 is not given back.
- **C95** the strides of the condition are not looked at (`where_mask_wrong`), nor whether the items of an array have the size of the output's (`where_item_wrong`); a scalar text longer than the output's items is written past the end of its buffer (`where_text_undefined`); strings of 2, 4 or 8 bytes at addresses which are not a multiple of that apart make the pointer difference undefined (`where_delta_undefined`). `if (extraAlloc2 == nullptr) free(extraAlloc2)` (line 3960) never frees.
- **C96** a zero inside of a text ends it (`concat_zero_wrong`). In place, the kind of the scalar is not compared with that of the array: a `str` adds only its first letter to byte strings (`concat_mixed_wrong`). The result has one dimension whatever the inputs have, and a given output is not used.
- **C97** float32 with integers of 32 or 64 bits stays float32 (`arrays_narrow_wrong`); `unsigned long` with a signed type is float32 for scalars and arrays of one item (`scalar_float32_wrong`, `single_numpy_iff`); negative numbers of 8, 16 or 32 bits are taken for positive ones with unsigned arrays, so 56 == -200 in uint8 (`scalar_mixed_wrong`; the set is exact by `scalar_type_iff`); a Python int beyond 64 bits is used as -1 (`scalar_overflow_wrong`); an item of uint64 from 2^63 on is negative as a float (`single_float_wrong`). Python floats and numpy scalars are not in the model.
- **C98** negating the smallest 32- or 64-bit integer outside of a register is signed overflow (`neg_int_undefined`, `abs_int_undefined`); negative zero and NaN get other bits with registers than without (`float_bits_wrong`); the sign of the invalid integer is -1 (`sign_invalid_wrong`); the complement of a boolean stored as 2 is 3 (`invert_bool_wrong`).
- **C99** `round` rounds halves to even with registers and away from zero otherwise, so that 0.5 becomes 0 or 1 depending on its position and the alignment (`round_rows_wrong`).
- **C100** a text is invalid if its first byte is zero, so also "Ā" in unicode (`text_wrong`); the invalid integer and zero count as normal (`test_int_wrong`); a boolean stored as 128 is NaN for one test and not for another (`test_bool_wrong`).
- **C101** an array whose first and last dimension have the same stride is read as if contiguous, also overlapping windows (read past the end, `windows_wrong`) and slices under a leading dimension of 1; of a column-major array with gaps and three dimensions only a part of the output is written (`new_wrong`); given outputs are only compared by length, so C and Fortran order mix (`given_wrong`). Empty arrays are left out (numpy's strides of them are not modelled).
- **C102** no overlap of a given output with the input is looked for (`unary_alias_wrong`).
- **C103** unsigned 64-bit integers are read as signed ones (`math_wrong`); riptide's invalid integers are not passed on as NaN (`math_invalid_wrong`). `BasicMathUnaryOp` checks but then ignores its `out=` and `dtype=` keywords (not modelled).
- **C104** computed in parallel, a variance whose squares reach `2^63` on one core is NaN, because the sum is also converted to `int64_t` (undefined there; `INT64_MIN` on x86-64) and that copy takes part in the test for invalid sums (`var_core_lost`, `var_large_nan`). Rounding of doubles in the second pass is not modelled.
- **C105** an array is read as if it were contiguous when its first dimension is 1 or its first stride is the item size: a slice `[1, 3]` with gaps reads the gaps (`reduce_row_wrong`), as does a column-major slice (`reduce_column_major_wrong`); for an array without dimensions `PyArray_DIM(…, 0)` is read (`reduce_scalar_undefined`).
- **C106** of two categories of the first array that are the same one of the second only the last is found (`fixup_duplicate_wrong`); rows beyond the categories read outside of the maps (`fixup_rows2_undefined`, `fixup_rows1_undefined`).
- **C107** a text shorter than the longest of its list is followed by one terminator only; numpy strips trailing zeros, so the item shows what was in the memory behind it (`as_array_text_wrong`). An int outside of `int64_t` becomes −1 silently (`as_array_overflow_wrong`). Empty byte strings get one byte each of which only the first is set (`as_array_empty_bytes_wrong`). `as_array_iff_partial` says exactly when the items are right.
- **C108** whether an array was compressed is told from its stored size being different from its own; a banded array is always stored in another form, so that when the two sizes happen to be equal the stored bytes are returned as the data (`read_written_wrong`, `read_chance`). A mask which selects nothing divides by zero when a single file is read (`masked_none_undefined`, `masked_iff`). A mask longer than the array leaves rows of the result uninitialised (`masked_long_wrong`), and the rows of column-major arrays are not its rows (`masked_fortran_wrong`). More than five dimensions are written over what follows the block (`dims_lost_wrong`).
- **C109** an array of C108 whose stored size is by chance its own is read wrongly from a file as well (`file_read_wrong`).
- **C110** the memory for the names of arrays is 300 bytes for each and is not checked: one name of 307 bytes is written behind it (`names_long_wrong`, `names_room_iff`); likewise for the name of a section (`dir_long_wrong`, `dir_room`). A name with a zero byte is cut there (`names_zero_wrong`). Behind the directory uninitialised memory is written to the file.
- **C111** the sections of a concatenation have all the name `0`, whatever their names were (`concat_names_wrong`).
- **C112** arrays without rows are compressed, but decompressing them sets an exception (`round_trip_empty_fails`, `src/Compress.cpp:80`); the empty byte string is compressed to unwritten memory and can never be decompressed (`string_empty_unwritten`, `string_never_empty`); `None` in a list of arrays without rows is read through a null pointer (`compress_none_ub`); arrays of different lengths or with more dimensions are refused; when no context can be allocated, the number 64 of the error is taken for a length (`no_memory_wrong`, `src/ZstdCompress.cpp:35`).
- **C113** 64-bit integers stacked with a float column become `double` and lose bits; `uint64` with any signed integers becomes `int64`; with `int64` it is the type of the first file (`numbers_lost`, `order_matters`); `uint16`, a small signed type and `float` give `float` or `double` depending on the order (`order_matters`); complex types of two sizes are called compatible although no function converts them (`complex_not_converted`); after a first file with a single row, files in Fortran order and in C order are both accepted and the Fortran ones are read as if they were in C order (`orders_mixed`, `src/SDSFile.cpp:5727-5752,6274`).
- **C114** when a column of `bool` is stacked with other numbers, `False` becomes invalid (`false_becomes_invalid`, `src/SDSFile.cpp:108,4563`); -1 becomes the invalid of `uint64`, 2^64-2 becomes -2, 2^53+1 becomes 2^53 (`wrong_numbers`).
- **C115** strings of columns with two dimensions get their zeros after the row instead of after each string, which shifts the characters between the cells (`cells_wrong`, `src/SDSFile.cpp:5425-5450`); byte strings in a column of 32-bit characters which is wider are not stretched at all, so the rows run together (`string_rows_wrong`, `src/SDSFile.cpp:4629-4662`).
- **C116** stacking `datetime64` and `timedelta64` makes items of 4 bytes to which 8 bytes are written, over the end of the memory of the column (`overrun`, `src/SDSFile.cpp:4493-4510`), and so does stacking complex numbers with `void` (`overrun_void`); a column without rows (or dimensions) in a file with rows leaves its rows uninitialised (`rows_never_written`, `src/SDSFile.cpp:7391-7400,7622-7625`), as do strings of width 0 (`empty_strings_not_written`, 5965); the loops for gaps count in 32 bits (`gap_too_long`, 4790-4820); the gap of `long double` is 0.0 and that of `complex64` the bits of an integer (`gap_not_invalid`).
- **C117** columns in Fortran order are not converted or stretched: items of another type keep their bits (`columns_not_converted`) and smaller items are read over the end of the buffer (`columns_overread`, `columns_not_stretched`, `src/SDSFile.cpp:5816-5830`); of more than two dimensions only the second is copied, after an error in the log (`only_two_dimensions`, 5820); a file which lacks a column of `long` (64-bit integers on Linux), of strings or of complex numbers makes the worker call a null pointer (`gap_null`, 5187-5252).
- **C118** rows which are reserved are not allocated when there is a filter, but are filled when the last file lacks the column: over the end of memory (`reserve_overrun`, `src/SDSFile.cpp:7484-7494,7634` with 3376-3396); tables in Fortran order are copied with all rows of the file to the memory of the selected ones (`columns_overrun`, 5816); columns which are longer than the first column of their file, of which there is only a warning, are given the counts of the first and written over the end (`lengths_overrun`, 7411-7416); a column without a filter loses the rows of files which are filtered out or not, depending on whether it comes after or before the first column with a filter (`position_matters`, 7445-7459); a mask of any length is taken if `IsFancy` is not given (`mask_unchecked`, 7205).
- **C119** (only with `RT_NEW_HASH=1`) a second array of k·10^6 or k·10^6+999999 numbers, or strings with 999999 characters or more, gives an empty last range, and `bucket[0]` of an empty bucket is read: a null pointer (`whole_pieces`, `many_characters`, `src/is_member_tg.h:245,300`); so does a range of a million numbers without one for some table, for example even numbers only (`even_numbers`); with more than one range the reported place is not the first one but depends on the order of the tasks (`order_decides`); an empty second array gives a remainder by 0 (`empty_haystack`); the number of characters is cast to the type of the indices, so that of 90 strings of width 3 only the first 5 are found (`strings_lost`, `ninetieth_string`) and for 50 the loop leaves the array (`strings_overread`, `src/is_member_tg.h:70`); widths of unicode strings are bytes but used as characters (`wide_strings`, `src/HashLinear.cpp:5800`); of a million strings of width 6 only 166666 are looked at (`strings_of_six`).
- **C120** a finite value above the last edge makes `pBin1[maxbin]` be read, one past the end (`above_last_edge`, `src/Bins.cpp:609-615`; the value read does not change the labels); without edges `pBin1[0]` is read (`no_edges`, `src/Bins.cpp:563`); a single edge gives its own value the label of values outside (`one_edge`); the index is neither compared with the values in length nor checked for its range, and the counts are not checked either (`index_not_checked`, `src/Bins.cpp:801-806`); 64-bit integers are compared with the edges after rounding (`rounded_into_bin`); edges out of order put values into bins they are not in (`edges_out_of_order`); an error about the type of the edges is set but `None` is returned.
- **C121** only the number of bytes of a whole row is compared, so keys that are split into arrays of other widths match (`split_differently`, `src/MultiKey.cpp:1642-1647`); items agree by their bytes: 0.0 is not -0.0, a NaN is found, and floats match integers of the same bits (`compared_by_bits`); with three or more arrays in a tuple the third one is taken for a filter and refused unless it is boolean (`third_not_bool`, `src/MultiKey.cpp:376-400, 425-436`); keys without rows are an error that says lengths do not match (`no_rows`, `src/MultiKey.cpp:1630-1640`); without arrays the entry of the first is read (`no_arrays`); a hint that is too small makes `None` the result (`small_hint`), or ends the process if a worker thread finds the table full (`exactly_full`).
- **C122** structures (`NPY_VOID`) overflow the result, which has one byte per row (`structures_overflow`, `src/RipTide.cpp:849-872`); the index is not checked at all (`index_not_checked`), and an unsigned index is read as a signed one (`unsigned_index_wraps`, `src/Bins.cpp:88-94`); items of 16 bytes at an odd address fault (`odd_address_faults`, `src/Bins.cpp:74-75`); the index must have as many rows as the data, although a note in the code says otherwise (`needs_as_many_rows`); objects give `None` without an exception (`objects_give_None`); `None` for the data of an empty index, and no arrays at all, read memory which is not there (`none_crashes`, `nothing_crashes`).
- **C123** `AllocateLikeResize` passes the item size on for strings only, so arrays of structures get items of one byte (`resized_structures_have_one_byte`, `src/RipTide.cpp:860-868`); a boolean or fancy index into structures of two bytes or more therefore always writes behind the result (`boolean_index_of_structures_overflows`, `fancy_index_of_structures_overflows`); `AllocateLikeNumpyArray` passes the strides of strings on to an array with packed memory, which is only sound for packed strings or fewer than two rows (`like_flexible_sound_iff`, `src/RipTide.cpp:824-827`).
- **C124** complex numbers and `long double` are not looked up at all: the output keeps whatever was in its memory and the flag says that everything was found (`wide_numbers_are_not_looked_up`, `src/HashLinear.cpp:4540-4608`, 2483-2567); both arrays are read as packed whatever their strides are (`strides_are_ignored`, `broadcast_categories_out_of_bounds`, `src/HashFunctions.cpp:134-138`); items of one or two bytes index the table by themselves, outside a table of 53 slots in prime mode (`small_types_leave_the_table_in_prime_mode`, `src/HashLinear.cpp:1371-1379`); `-0.0` is not found among `0.0` (`signed_zeros_are_no_categories`).
- **C125** a number without dimensions comes back as an array without items (`scalars_come_back_empty`, `src/SDSFile.cpp:2964-2977`); of more than five dimensions the rest is lost (`sixth_dimension_is_lost`); arrays with gaps or negative strides are copied as if they were packed, with only a message, but their strides are kept, so that items are read from beside their place (`every_second_item_is_wrong`, `reversed_array_is_wrong`, `src/SDSFilePython.cpp:1437-1443`, `src/SDSFile.cpp:2999-3000`); reading strings without a width writes a zero into the share, over the next array or outside (`strings_without_width_clear_the_next_array`, `last_strings_without_width_write_outside`, `src/RipTide.cpp:766-771`); the header says that all arrays are there before they are (`half_written_share_is_read`, `src/SDSFile.cpp:2891,2929`).
- **C126** a share which is there is read whatever the file is: a rewritten file, or one of the same name in another directory, gives the old table, and masks are ignored (`later_reads_return_the_first_table`, `src/SDSFile.cpp:1052-1063,4389-4414`); the name of the share and of the file are joined with `!`, which both may contain (`share_names_collide`); the joined name is put into a buffer of 300 bytes without a check (`long_names_leave_the_buffer`, `src/SDSFile.cpp:958,1044-1094`); a mask filters the data in the share but not the shape of the array (`mask_spoils_the_share`, `src/SDSFile.cpp:2477-2550,4050-4061`); if the metadata cannot be decompressed the share stays with a header of no arrays, which the next reader takes for the table (`failed_copy_leaves_an_empty_table`, `src/SDSFile.cpp:3962-4122`).
- **C127** `x op= y` is not in place when the calculation has another type: a new array, converted to the type of `x`, is given back and views of `x` keep the old values; this is so also for long and long long, and for the division of integers, whose quotients lose their fractions (`in_place_of_another_type_makes_another_array`, `long_and_long_long_are_not_added_in_place`, `dividing_integers_in_place`, `src/Hook.cpp:136-164`); the new array may be longer than `x` (`in_place_may_grow_the_array`); without memory a null pointer is followed (`in_place_crashes_without_memory`, `powers_crash_without_memory`, `src/Hook.cpp:46-92,136-164`); the class of `x` is lost unless it is `FastArray` (`in_place_loses_the_class`); a partly overlapping operand leaks a reference to `x` (`overlap_leaks_a_reference`, `src/BasicMath.cpp:2796-2970`); `x **= y` does not keep the type of `x`, and with a modulus numpy starts with the powers (`in_place_power_changes_the_type`, `in_place_power_with_a_modulus_is_done_twice`, `src/Hook.cpp:94-107`); `x ** 1` is `x` itself (`power_one_is_the_array_itself`).
- **C128** The median of a bytes or text column of more than 65536 rows, calculated by threads, writes whole items into a result made with items of one byte (`median_of_text_in_bands`, `src/GroupBy.cpp:2397-2417,4242-4392`, `src/RipTide.cpp:670-676`); so do the functions of groups for void columns (`first_of_void`, `src/RipTide.cpp:849-872`); `None` for a column of no rows is followed as a null pointer by GroupByAllPack32 (`none_for_a_column`); keys of a view are read as if they were next to each other, ranges of bins and the list of upper bins are not checked, an empty list of columns is read (`distant_keys_are_not_read`, `unchecked_arguments`, `negative_range_of_float32`); when a column has no function the results of the columns before it are never released (`missing_function_loses_arrays`); function numbers are cut to 32 bits (`function_numbers_are_cut`).
- **C129** MultiKeyAlign32 does not look at the steps of the times (`steps_are_ignored`, `times_with_gaps_are_wrong`, `src/MultiKey.cpp:1791-1792`); dates are refused on the left but taken as int64 on the right of int64 times (`left_dates_are_refused`, `types_of_pairs`); for the other types the index is allocated and never released (`refused_times_lose_memory`). MergeBinnedAndSorted takes the type of the times for the type of the keys and the index (`narrow_keys_are_read_as_wide`, `keys_read_outside`), refuses the floats which its message names (`binned_floats_are_refused`), checks no lengths (`short_times_read_outside`), no keys (`invalid_keys_outside`), merges invalid times (`invalid_times_match`) and stores right rows under the key of another row (`binned_wrong_category`, `src/HashLinear.cpp:786-844`).
- **C130** The calls on rows of several arrays do not look at the steps of filters and cutoffs (`gaps_in_filters_are_ignored`, `gaps_in_cutoffs_are_ignored`); rows of one and two bytes share slots in the hash modes that use prime sizes and are merged into one group (`small_keys_are_merged`); a table that gets full gives an error but the index array is not released (`too_many_groups`); an empty array of cutoffs is read outside (`no_cutoffs_read_outside`); a hint that does not fit raises an exception that is seen only after the whole work (`bad_hints_give_no_result`).
- **C131** A full table makes MultiKeyUnique32 return None without any exception (`too_many_uniques`), makes MultiKeyGroupBy32Super raise an error while the lock of the interpreter is released (`too_many_super_groups`), and ends the process in MultiKeyHash and MultiKeyRolling (`too_many_links`, `too_many_rolling_rows`). MultiKeyHash checks the filter but does not use it (`hash_calls_ignore_filters`). MultiKeyRolling returns uninitialised arrays for rows of more than 16 bytes and for negative hints (`wide_rolling_rows_give_nothing`, `negative_hints_give_nothing`).
- **C132** IsMember32 ignores the strides of both arrays (`member_strides_are_ignored`); returns uninitialised arrays for `long double` and complex numbers of 16 bytes or more (`wide_numbers_are_never_looked_up`); loses one index array in every call on text that is not of 1, 2, 4 or 8 bytes (`member_text_partial`) and all its arrays when the table is too small for the hint (`member_table_too_small_partial`, `member_text_table_too_small_partial`); a table that is exactly full ends the process when threads look up (`member_exactly_full`); zeros of two signs are different (`member_signed_zeros`), half floats are compared as bytes, so that a NaN is found (`member_half_floats`); with less than two arguments `NULL` is returned without an exception (`member_arguments`).
- **C133** Reduce calls a null pointer for mean, nanmean, std and nanstd of complex numbers, objects, strings and records, because these functions have a kernel for every type and the pointers of the passes are not tested; the position of an extreme of such an array is a `ValueError` about valid values instead of `None` (`call_unsupported_type`, `call_wrong`); the number 210 runs a kernel and returns `NULL` without an exception (`call_nan_aware`); function numbers are cut to 32 bits (`call_func_wraps`), and a number beyond 64 bits returns `None` with an `OverflowError` pending (`call_func_overflow`).
- **C134** EmaAll32 goes on after setting the exception for a time or mask which is no array and takes the object for one (`call_pending_error`); it does not compare the rows of the columns with those of the key (`call_short_column`, `call_long_column`), reads `None` columns (`call_none_column`), ignores steps of key, time and masks (`call_strided_key`, `call_strided_mask`), trusts the keys (`call_key_above`, `call_negative_key`), writes `long double` averages into an array of `double` when the time is `long double` (`kern_long_double`, `call_long_double`), writes behind an empty work space for an empty list (`call_empty`), cuts function numbers to 32 bits (`call_func_wraps`), returns `None` for the weighted average without a time (`call_weighted_needs_time`) and puts the byte 0x80 into boolean results (`call_bool_extreme`).
- **C135** ConvertSafe scrambles a strided array in Fortran order, whose output is allocated in C order (`safe_scrambles`), and reads beyond overlapping windows (`safe_leaves_input`). ConvertUnsafe walks over all items with the distance of the first dimension: every array of two or more dimensions which is not in Fortran order is written out of bounds (`unsafe_leaves_output`); an array without dimensions reads a distance which is not there (`unsafe_zero_dim`). The number of the type is cut to 32 bits, an infinity becomes NaN on the way to or from `long double`, invalid integers and NaN become true although the comment says false (`safe_surprises`, `item_to_bool`). An array without dimensions comes back with one dimension, and arrays of three or more dimensions which are not contiguous are left to numpy, which does not know invalid values.
- **C136** With cutoffs, the row numbers of an index are not used, and as many items as the arrays have rows are written over its memory, beyond its end when it is shorter (`lexsort_call_index_and_cutoffs`). An index without items gives a new array which is never filled (`empty_index_undefined`); its row numbers are not checked (`index_out_of_range_undefined`) and its stride is not looked at (`strided_index_corrupted`). Cutoffs without items or falling ones are undefined (`empty_cutoffs_undefined`, `falling_cutoffs_undefined`), as are calls without arrays, with `None` alone or with an array without dimensions (`no_keys_undefined`, `none_key_undefined`, `zero_dim_undefined`). An array `ascending` of any type is read as bytes (`ascending_numbers_misread`, `ascending_two_undefined`), a list is ignored (`ascending_other_ignored`). Complex numbers and objects are passed over without an exception (`unknown_type_unsorted`).
- **C137** A column whose own name has a `/` is not read by its name but by what follows its last slash (`slash_in_name_missed`, `path_in_include_reads_nothing`); one with a `!` is read by what is in front of it (`bang_in_name_confused`). A folder does not take what is in folders inside it (`nested_folders_missed`). With columns named and no folders, the entries of the folders are not read (`folder_entries_lost`; a comment at `src/SDSFile.cpp:3309` knows it). A list without a name in it, or an argument which is not a list, reads everything (`wrong_items_read_all`, `include_not_list_reads_all`); names which are not ASCII leave an exception behind a finished call. `DecompressFile` ignores `include` (`read_file_ignores_include`), every reader ignores `sections` (`sections_ignored`). Items which are no names are dropped from the list of files (`wrong_file_names_dropped`), zero bytes cut a name (`zero_byte_cuts_name`).
- **C138** `process_one_input` (compiled into the library and tested, no caller in it) is right only for items side by side without a given output, and there: `round` sends halves to the even number in registers and away from zero behind them (`round_wrong`); `abs` of negative 64 bit numbers in registers gives `x + 2^63` (`abs_int64_wrong`); `NEG` is `INVERT` and makes floating point numbers NaN (`neg_never`, `invert_floats`); rounding integers loses everything beyond 2^53 and is undefined at the end of the type (`round_ints_wrong`). The tests store masks as wide as the items into bytes, behind the end of the array, for every type of more than one byte (`tests_outside`), and say False for every number of one byte (`tests_false`). The output is walked by the distance of the input (`stride_outside`, `broadcast_wrong`). With an output given `None` is returned (`second_returns_nothing`); of rows apart from each other only the first item is computed (`rows_first_only`), columns and more dimensions are written behind the end (`columns_outside`, `given_two_dims`), gaps are written over (`given_strided`). Texts never end (`text_never_ends`), unknown numbers throw through C code (`unknown_function_throws`, `unknown_type_throws`).
- **C139** `BinsToCutsBSearch` casts the first and the last bin to the type of the values and each value to the type of the bins. It is right when these numbers exist in the other type (`search_partial`), for integers in floating point bins also when the ends are on the harmless side of zero (`search_rounded_partial`). Otherwise: ends wrap (`wrapped_end_wrong`), are rounded towards zero (`rounded_end_wrong`) or to `float` (`narrow_end_wrong`), values are rounded (`large_value_wrong`, `narrow_bins_wrong`), and casts which do not fit are undefined (`end_undefined`, `value_undefined`). `False` is never in a bin (`cut_false_wrong`). Without bins the item before the array is read (`no_bins_undefined`); a NaN among the bins makes the search endless (`nan_bin_undefined`). Distances are ignored in both arrays (`sparse_wrong`). Bins of type bool, uint8, uint16 and uint32 are refused (`bins_refused`).
- **C140** `BooleanSum` ignores that one stride is not enough: columns of a larger mask (`rows_sum_wrong`), a sliced mask behind a dimension of one item (`single_row_sum_wrong`) and columns behind such a dimension (`hidden_rows_sum_wrong`) are counted from other bytes. `BooleanIndex` refuses most of these (`rows_refused`) but not the last (`hidden_rows_index_wrong`); it returns the order of the memory for arrays in Fortran order (`fortran_order_wrong`), applies flags to other items when the orders differ (`mixed_order_wrong`), does not compare shapes (`shapes_not_compared`) and writes beyond its result for records (`records_undefined`). `BooleanToFancy` reads the bytes of the mask one after the other whatever its strides (`sliced_fancy_undefined`, `fortran_fancy_wrong`, `rows_fancy_wrong`).
- **C141** The calls on date and time strings ignore strides and the order of bytes: an array in Fortran order comes back in the order of its memory (`fortran_order_wrong`), of a slice other items are read (`sliced_wrong`), of an array read backwards what lies behind it (`backwards_undefined`), and characters in the other order of bytes are undefined behaviour or 0 (`other_byte_order_wrong`). The result has always one dimension (`shape_lost`). Letters beyond ASCII reach `isspace` (`letters_undefined`); `StrptimeToNanos` cuts characters to a byte (`strptime_characters_wrong`). A warning made an error by a filter is ignored and ends in a `SystemError` (`warning_partial`).
- **C142** `mbget` asks for the default of the type even if one is given, and for dates, time spans, complex numbers, half floats and records this throws an exception which ends the process (`dates_crash`). A text as the default leaves memory unwritten which is then taken for the default (`text_default_undefined`); texts of more than 1024 bytes are filled from beyond a buffer (`long_texts_undefined`). A Python int beyond 64 bits becomes -1.0 (`large_default_wrong`), numpy's uint64 from 2^63 becomes negative (`numpy_default_wrong`), a float for the long double becomes two float64 (`long_double_default_wrong`), NaN for integers is an undefined cast (`nan_default_undefined`), integers are cut to the type (`default_wraps`, `bool_default_wrong`), and others are silently ignored (`default_ignored`). Values in Fortran order are counted in the order of their memory (`fortran_order_wrong`).
- **C143** For several files the rows of the mask are counted over the length of the first array of the file, whatever that is. If it is not a column and shorter than the columns, the new arrays are written past their ends (`first_array_shorter_undefined`) or come out empty (`first_array_shorter_empty_wrong`), always so if it is a scalar (`scalar_first_empty_wrong`); if it is longer, rows are left unwritten (`first_array_longer_wrong`). With one file the length of the mask is never checked, so a long one leaves rows unwritten (`one_file_long_mask_wrong`), and a mask without a row divides by zero (`one_file_no_rows_undefined`). The stride of the mask is not looked at (`strided_mask_wrong`, `reversed_mask_undefined`). A mask which is no array of bools is ignored and all rows are read (`other_masks_ignored`). Structures are not filtered but refused for the length (`structures_refused`).
- **C144** `TimeWindow` does not look at strides or the order of bytes of either array (`strided_values_wrong`, `strided_times_wrong`, `reversed_undefined`, `fortran_wrong`, `swapped_wrong`). Riptide's invalid integers are added like numbers (`invalid_value_wrong`, `invalid_int64_undefined`), and an invalid time makes the difference of times overflow (`invalid_time_undefined`). Sums and products which do not fit int64 are undefined (`overflow_undefined`). Times which fall hide rows (`unsorted_wrong`) and a negative delta still adds the row itself (`negative_delta_wrong`). An unknown type or function gives `None` and no error (`unknown_none`).
- **C145** None of the four calls looks at strides or the order of bytes (`strided_next_wrong`, `swapped_next_wrong`, `strided_pack_wrong`, `reversed_pack_undefined`, `swapped_pack_undefined`, `strided_count_wrong`, `swapped_count_wrong`, `strided_counts_wrong`). For keys of another type `BinCount` and `GroupFromBinCount` call a null pointer (`count_type_undefined`, `group_type_undefined`). `GroupByPack32` reads links of any type as int32 (`int64_links_wrong`, `int8_links_undefined`), and the links `MakeiNext` gives end with the smallest int32 where `GroupByPack32` expects -1 (`own_links_undefined`). A scratch array which cannot be allocated leaves the answer of `MakeiNext` unwritten (`next_no_memory_unwritten`), is written by `GroupByPack32` all the same (`pack_no_memory_undefined`), and makes `BinCount` return `NULL` without an exception (`count_no_memory_silent`). Negative numbers of groups are not refused by `MakeiNext` and `GroupByPack32` (`next_negative_wrong`, `pack_negative_undefined`), and a large one wraps the request for memory (`next_many_groups_undefined`).
- **C146** None of the four calls looks at strides or the order of bytes (`strided_reverse_wrong`, `reversed_reverse_undefined`, `swapped_reverse_wrong`, `fortran_filter_wrong`, `strided_filter_wrong`). `ReverseShuffle` does not refuse keys which are no permutation (`no_permutation_leaves_rows_unset`). A byte of a filter other than 0 and 1 multiplies the key in `CombineFilter` (`odd_filter_byte_multiplies`). `ReIndexGroups` looks only at the sizes of items: unique keys of float32 are accepted (`float_unique_keys_accepted`), as are keys of uint8 (`unsigned_keys_filtered_out`); cutoffs behind the last key or fewer than the others are undefined (`cutoff_behind_keys_undefined`, `fewer_cutoffs_undefined`), and new keys are cut to the type of the keys (`unique_key_truncated`). `MakeiFirst` refuses other types without an exception (`first_type_silent`) and counts the groups up before checking their number (`first_max_overflows`).
- **C147** `BuildArrayInfo` reads the first distance of an array without dimensions through a null pointer (`scalar_array_undefined`). A slice of one item is contiguous for numpy, is not copied, and is then refused for its distance (`one_item_slice_refused`, `one_item_refused`). `None` alone or beside empty arrays passes the check of rows (`none_accepted`). The copy of an array with permuted axes keeps their order, so that it is contiguous in neither order (`permuted_copy_wrong`); without conversion any strided matrix is accepted (`strided_matrix_accepted`). The order of bytes is lost (`swapped_copy_kept`). The answer of `AllocArrayInfo` is not looked at (`no_table_undefined`).
- **C148** `NanInfCountFromSort` without arguments reads an entry which does not exist (`no_arguments_undefined`), takes `None` for the values (`none_counted`), sets an exception but returns `None` when it refuses (`counts_failed`), or returns `None` without an exception (`counts_silent`). `BinsToCutsSorted` reads behind the edges for a value above the last one (`above_edge_undefined`) and without edges (`no_edges_undefined`), looks neither at the length nor at the rows of the index (`index_length`, `index_outside_undefined`, `index_no_order`) nor at the counts (`counts_outside_undefined`) nor at strides (`strided_cuts_wrong`, `strided_edges_wrong`). Neither looks at the order of bytes (`swapped_counts_wrong`).
- **C149** Processors from 63 on are not counted (`workers_processor_63_ignored`); a process bound to one of them gets five workers (`workers_more_than_processors`, `empty_mask_stays_empty`), and when the kernel refuses the question the answer is read from memory nobody wrote (`worker_count_undefined`). `SetThreadWakeUp` cuts its number to 32 bits first (`wake_up_number_cut_to_32_bits`). When one thread cannot be created, `import riptide_cpp` never returns (`start_never_returns`). The wait for idle workers does not wait for those which are not counted yet (`start_returns_before_idle`; harmless, by `start_leaves_pool`). A child forked while a worker is counted as awake hangs in its first parallel operation (`forked_child_never_returns`, `fork_with_worker_awake`).
- **C150** `CombineAccum1Filter` and `CombineAccum2Filter` look at neither strides nor the order of bytes (`strided_accum1_wrong`, `swapped_accum1_wrong`, `reversed_accum_undefined`, `strided_accum_filter_wrong`); a Fortran matrix is paired with a C matrix by place in memory (`fortran_pairs_wrong`) and its first rows are places in memory (`fortran_first_rows_wrong`). A list as a filter is passed over without a word by `CombineAccum1Filter` (`odd_filter_passed_over`). Without memory for the shorter array of first rows a list with a `NULL` item is returned (`short_memory_breaks_list`), without memory for the table a null pointer is cleared (`no_table_undefined`). Two negative maxima are taken, and maxima whose product does not fit 64 bits are undefined (`negative_maxima_taken`). Numbers outside of the maxima collide (`outside_pairs_collide`).
- **C151** `Sort` of strings, unicode or structures of more than one byte each copies them into a new array whose items have one byte, and so writes behind its end (`sort_texts_overflow`). `SortInPlace` and `Sort` look at neither strides nor the order of bytes (`sortInPlace_strided_wrong`, `sortInPlace_reversed_undefined`, `sortInPlace_swapped_wrong`); a matrix in Fortran order is sorted in memory and so is not in order (`sortInPlace_fortran_wrong`). Of strings the first characters are mixed, unicode and other types are left as they are without an error (`sortInPlace_texts_wrong`, `sortInPlace_other_types`), and so is every array with an unknown mode or without memory for the mergesort (`sortInPlace_other_modes`, `sortInPlace_no_memory`). `IsSorted` reads the other order of bytes wrongly (`isSorted_swapped_wrong`) and compares structures by words with the lowest byte first (`isSorted_structures_wrong`). `SortInPlaceIndirect` leaves the keys of all but three pairs of types as they are and succeeds (`indirect_other_types`), uses a null pointer without memory (`indirect_no_memory`), and checks no key (`indirect_unchecked`).
- **C152** `GroupFromLexSort` checks the length of a filter and then never applies it (`filter_ignored`); with cutoffs it overwrites the index which is passed in (`index_overwritten`); empty cutoffs make it read the number before them (`empty_cutoffs_undefined`). Strides and the order of bytes of the index and strides of the values are not looked at (`strided_index_wrong`, `swapped_index_undefined`, `strided_values_wrong`), nor whether a row is in range (`negative_row_undefined`). Without rows, and with base 0 for numbers, a count is returned which was never set (`no_rows_count_unset`, `base_zero`). 2^32 rows with an `int32` index give no groups (`rows_cut_to_none`), 2^31 only the first (`rows_cut_to_one`). The arrays allocated at the end are not checked (`later_memory_unchecked`), and a `base_index` beyond `int64` leaves an exception set (`base_spoiled`).
- **C153** `CompressFile` does not keep the order of bytes: an array of another order is saved without a word and loaded with other numbers (`order_lost`). Six dimensions are cut to five, and loading writes behind the memory of the array (`six_dims_undefined`, `six_dims_saved`); of objects the addresses are saved (`objects_undefined`). When an array is refused (a date, something which is no array, one item of a slice with a step) the call returns `None` with an exception set and saves nothing (`refused_answers_none`); an array without dimensions makes it read a distance which is not there (`scalar_undefined`). Fewer names than arrays are accepted and make loading read behind a table (`few_names_undefined`), a name which is no tuple of bytes is skipped but counted, so that the loaded list holds null pointers (`skipped_name_wrong`), long names are written behind their memory (`long_names_undefined`), and only one byte of a value is kept (`value_cut_wrong`). A value which is no integer or a band size beyond `int64` leaves an exception, but the file is written (`value_type_saved`, `band_room_saved`). A section which is not ASCII gives `strlen` a null pointer (`section_undefined`); metadata of 4 GiB are dropped (`metadata_lost`); and a file name with `%s` which cannot be opened is used as a format (`percent_undefined`).
- **C154** `MultiDecompressFiles` of two or more files of which one is missing makes all entries and returns them while an exception is set, a `SystemError`, although the files need not exist (`missing_file_spoils`); only stacking clears the errors of the files. Joining writes the file and raises then (`join_missing_raises`), and which file the exception tells depends on the threads (`join_order`). An empty list raises the error of an earlier call (`empty_list_stale`, `empty_list_history`). Damaged metadata are an exception for one file, a `SystemError` for two and nothing for `DecompressFile` and for stacking (`damaged_metadata`). Stacking asked for infos stacks the data (`stack_ignores_mode`), and the mode 0 means data for one file and infos for many (`mode_differs`). Joining without `output=` sets an exception and goes on with a null pointer (`join_without_name`). With `mustexist` the last missing file is told, not the first (`last_missing_told`). The message is used as a format, so a missing file with `%s` in its name is undefined behaviour (`percent_undefined`).
- **C155** `ShiftArrays` returns the list it was given, so an array which is contiguous in neither order is copied, its copy is shifted and dropped, and nothing changes (`gaps_stay`). Arrays of two or more dimensions in C order are shifted by items, not by rows (`flat_order`, `c_order_wrong`, `c_order_not_rows`), arrays of one row along their columns (`one_row_moves`), and Fortran order of three dimensions is only printed about (`three_dims_stay`). The same array twice, or arrays which overlap, are moved by two threads at once (`same_twice`, `overlapping`). A shift far from zero overflows although nothing would be moved (`far_below_undefined`, `far_columns_call`), and an array without dimensions is undefined behaviour (`no_dims_undefined`).
- **C156** `HStack` takes strings of two dimensions in the order in which they are in memory, which for Fortran order is not that of numpy (`square_wrong`), ignores byte order (`swapped_wrong`), refuses `None` and slices of one item (`none_counts`, `one_slice_refused`), and without memory for its list of offsets writes through a null pointer (`no_room`). `GetUpcastNum` refuses slices which `HStack` takes (`upcast_refuses_slice`) and counts `None` as booleans, so that it answers float64 beside uint64 (`none_counts`). `HomogenizeArrays` follows a null pointer for `None` (`homogenize_none`), returns NULL without an exception for no arrays and complex arrays (`homogenize_silent`), throws a C++ exception for one array of objects and calls a null function for strings to be made numbers (`homogenize_undefined`), returns a list although an exception is set (`homogenize_texts`, `homogenize_type`), cuts the type to 32 bits (`homogenize_type`), and makes false invalid (`homogenize_false_invalid`).
- **C157** `BasicMathUnaryOp` parses `out=` and `dtype=` and then uses neither, so that `out` is never written (`out_ignored`, `dtype_ignored`). Without memory for the result, or with a number beyond 64 bits, None is returned with an exception set (`room_wrong`, `large_wrong`). Numbers count by their lowest 32 bits (`number_wrong`), byte order is ignored (`order_wrong`), an array without dimensions becomes one with a dimension (`scalar_wrong`), an output whose items lie on each other gets nothing (`still_wrong`), one of another shape is filled (`shape_wrong`), and of a column-major array of three dimensions with a gap most of the result is never written (`gap_wrong`).
- **C158** `SetItem` ignores the strides of all three arrays (`set_item_ignores_strides`, `set_item_backwards`), whether the array may be written to (`set_item_writes_read_only`), byte order and the units of dates (`set_item_ignores_byte_order`, `set_item_ignores_units`), and that the values may be part of the array (`set_item_overlap`; texts are then copied by `memcpy` between overlapping places, `set_item_overlapping_texts`). Of an object which cannot become an array it answers `False` with an exception set (`set_item_leaves_exception`), while `PutMask` reads through the null pointer (`put_mask_no_array`). `PutMask` looks at the first stride of the array only (`put_mask_fortran`, `put_mask_ignores_mask_stride`), makes an invalid of `False` (`put_mask_false_invalid`), casts infinity to integers (`put_mask_infinity`) and counts 2^31 rows with an `int` without threads (`put_mask_many_rows`). `ApplyRows` never answers: with sensible arguments it returns `NULL` without an exception (`apply_rows_no_answer`), with two it reads through a null pointer (`apply_rows_two_arguments`), and without arrays `GetDefaultForType` throws (`apply_rows_throws`). Not modelled: `SetItem` copies the pointers of object arrays without counting references, and `PutMask` never gives back the array which it makes of the third argument.
- **C159** The time given to `RecycleGarbageCollectNow` is multiplied by a billion without a test (`collect_time_overflows`), and so is the time set by `RecycleSetGarbageCollectTimeout`, much later (`timeout_overflows`). A negative type number reads outside the table of the recycler (`negative_type`). `TryRecycleNumpy` takes any item of the list for an array (`not_an_array`), finds nothing when given a tuple as its comment says (`tuple_finds_nothing`), and neither it nor `AllocateNumpy` looks at the byte order of what it hands out (`byte_order_is_lost`). `AllocateNumpy` makes an array of one dimension for one without (`scalar_gets_a_dimension`); when the memory has run out it collects only if nothing was collected within 60 billion cycles (`collection_for_room_frees_nothing`), and after a second attempt with success the exception of the first stays set (`exception_stays_set`). A recycler which is turned off still hands out what it has (`off_hands_out`). The dump counts items, not bytes (`dump_counts_items`); the counters in the answer of a collection are from before it (`stats_are_from_before`).
- **C160** `AddSharedMemory` records the structure of a share by name and never forgets it, but `SDSWriteFile` frees the structure at its end: the second save under a name in one process counts in memory which was given back (`saved_twice`), and so does a read after the copy of a bad file (`bad_file_twice`); shares which are found are never counted, as `MapExisting` waits for a positive answer (`counters_are_no_counters`). Every read of a share keeps its descriptor and mapping, so that a process runs out of descriptors (`loads_use_up`); a save without a free descriptor removes the share which was there and returns `None` (`full_table_loses_share`). A descriptor 0 counts as a failure: without standard input a save leaves an empty object (`no_stdin_loses_share`), a read uses two descriptors and maps read-only (`no_stdin_read_only`), and a file is not read at all the first time (`no_stdin_reads_nothing`). `result && errno < 0` is never true, so a failed `ftruncate` is not seen (`truncate_unnoticed`); after a failed `mmap` the descriptor stays open and the share is zeros (`map_failure_leaks`). When `/dev/shm` is full a part of the table stays under the name and is read by others (`torn_share_is_read`); the handler leaves `SIGBUS` blocked, so the second one kills (`second_bus_kills`); reading has no handler at all (`copy_bus_kills`). A bad file leaves its part too (`bad_file_leaves_share`). A reader in the middle of a save gets an empty table (`reader_sees_unfinished`) or removes the name of the share which is being made (`reader_unlinks_unfinished`). A share name with `/`, or one too long, makes no share and nobody is told (`bad_name_makes_none`).
- **C161** The time of a record is handed to `Py_BuildValue` with the format `I`, so Python gets its lowest 32 bits (`stamp_partial`, `stamp_is_wrong`). A level above 50 is not taken, so a logger which was silenced goes on (`high_level_ignored`, `silenced_logs`), one of more than 32 bits is cut (`level_wraps`), a Python logger without a level and a logger made after the module was loaded are null pointers (`no_level_undefined`, `unknown_logger_undefined`). The sizes are taken with `I` too, without a look at the upper bits; with a batch size of 0 or an interval which is not positive the handler turns round without looking at the queue, and `DisableLogging` without a timeout never returns (`never_returns`, `batch_wraps_and_hangs`, `no_interval_hangs`, `size_wraps`). `active` is true when something is in the queue although the service is shut down; a record which comes after the handler has returned, or an exception in the handler, leaves one there, and from then on `EnableLogging` returns `None` and does nothing for good (`stuck_for_good`, `stuck_enable`, `late_record_sticks`, `exception_sticks`). After an exception the service still takes records which nobody hands over (`exception_unnoticed`), the batch is lost (`exception_loses`), and the callback, which is not kept alive, is called (`callback_gone`). `EnableLogging` in the moment in which another thread waits for the handler assigns to a thread which was not joined: `std::terminate` (`enable_while_disabling`, `enable_terminates`); a moment later its flusher is cancelled (`flusher_cancelled`) and a batch which is not full is kept until more is logged (`batch_withheld`).
- **C162** A `copy` which is no bool or an `order` which is no text sets an exception, but the call goes on and returns an array beside it, of which Python makes a `SystemError` (`as_any_bad_copy_wrong`, `as_any_bad_order_wrong`, `as_any_never_refuses`); every text but `F` asks for the order `C` (`as_any_order_wrong`), and names nobody knows are taken (`as_any_extra`). `dtype=None` asks for doubles (`as_any_dtype_none_wrong`). An array without dimensions comes back as it is, although the comment promises one dimension for scalars; with `copy=True` it gets one (`as_any_no_dims_wrong`, `as_any_copy_adds_dimension`). A scalar is copied byte by byte into an array which knows only number and size of its type: the unit of a date, the fields of a record and the order of bytes are lost (`as_any_unit_wrong`, `as_any_swapped_wrong`), and a Python object is pointed to without being counted, so that it is freed while the array is in use (`as_any_object_wrong`). A dtype given twice is never given back (`as_any_twice_leaks`). `AsFastArray` follows a null pointer whenever `AsAnyArray` raises and the class of fast arrays is known (`as_fast_error_wrong`). Without memory null pointers are followed (`as_any_undefined_iff`).
- **C163** `PyDict_SetItemString` takes a reference of its own, but none of the values put into the dictionary of a file is given back: every file read leaves 27 to 31 objects behind, every stack 27 (`dict_leaks`, `read_leaks`, `read_leaks_wrong`, `stack_leaks`). An array without memory is to be `None` by the comment, but the exception numpy set is still there, so that the file and all after it are null pointers in a list which goes back beside the exception (`read_no_memory_wrong`, `read_exception_wrong`, `read_both`); the same holds for the name of a section which is no UTF-8 (`read_section_wrong`) and for a negative number of dimensions (`read_negative_dims_wrong`). Without memory for the offsets of a stack `None` is put in, but then the stack is lost (`stack_no_memory_wrong`). A file name which is no UTF-8 puts a null pointer into a dictionary, and more than five dimensions in a file are read behind the block (`read_file_name_wrong`, `read_dims_wrong`, `read_undefined_iff`). A time stamp from 2^63 on is shown as a negative number (`header_time_wrong`).
- **C164** `Empty` takes a list of dimensions, but answers `None` for any number of them but one (`empty_dims`, `empty_two_dims_wrong`); a size of items is cut to 32 bits (`empty_item_wrong`) and ignored for types with a size of their own (`empty_size_wrong`); a negative type reads outside the table of the recycler (`empty_undefined_iff`, `empty_negative_type_wrong`); an array made at the second attempt comes back beside the exception of the first (`empty_second_wrong`); and a type numpy does not know or a negative length is taken for missing memory, so that the recycler is emptied (`empty_unknown_type_wrong`). `SetFastArrayType` with another class after the first is answered as if it had been set (`set_type_second_wrong`). `CompareNumpyMemAddress` does not tell whether arrays share memory (`compare_shares_wrong`). `LedgerFunction` cannot call a function without arguments (`ledger_no_arguments_wrong`) and holds the class of what cannot be called for ever (`ledger_leaks_wrong`). `ReMapIndex` parses its arguments with `O!O!O` and one pointer too many: with right arguments the third is written over the class of arrays and a null pointer is followed (`remap_iff`, `remap_wrong`).
- **C165** The name `ApplyRows` is bound to `LedgerFunction` (`src/RipTide.cpp:1739`), so that the function `ApplyRows`, `src/Convert.cpp:3986`, is run by no call (`applyRows_wrong`, `applyRows_unreachable`); nor is `ReMapIndex` (`reMapIndex_unreachable`). `RT_NEW_HASH=0` and an empty value make the import fail rather than choose the old hash, and any value which begins with `1` chooses the new one (`importModule_wrong`). `SetLustreGateway` gives the null pointer of an item which is not bytes to `std::string`, which ends the process (`setLustreGateway_ends_wrong`, `run_ends_wrong`). Under the guards: `callName_own_partial`, `setLustreGateway_bytes_partial`, `run_answers_partial`.
- **C166** `BasicMathTwoInputs` returns `None` or a result with an exception set for a tuple of another size, for an object of which numpy makes no array, and for a type of the output which is no number (`twoInputs_size_wrong`, `twoInputs_other_wrong`, `twoInputs_number_wrong`). Two scalars give an array without elements, or the output as it was (`twoInputs_scalars_wrong`, `twoInputs_scalars_output_wrong`). A float before a list of whole numbers is cut, after it not (`twoInputs_scalar_list_wrong`). With an output the bytes of a text are taken for a number (`twoInputs_text_wrong`). The array made of a list of one item leaks when the first input is converted, as `toDelete2` is written over (`twoInputs_list_leaks_wrong`). An output without dimensions is read through a null pointer (`intoOutput_crash_wrong`, `twoInputs_flat_wrong`). Under the guards: `twoInputs_proper_partial`, `twoInputs_objects_partial`.
- **C167** Adding texts loses what follows a zero inside of a text (`addTexts_zero_wrong`) and all dimensions but one, and adds arrays whose dimensions do not match (`addTexts_dims_wrong`, `addTexts_shapes_wrong`). With an output a text next to bytes is not refused: only its first character is added (`addTexts_text_to_bytes_wrong`, `addTexts_text_to_bytes_first_wrong`), and bytes next to texts are read four at a time as one character (`addTexts_bytes_to_text_wrong`). Under the guards: `addTexts_numpy_partial`, `addTexts_arrays`, `addTexts_texts`.
- **C168** Only the array and the last array of the chain of bases become read-only: with a view of a view the one in between stays writeable (`clearWriteable_between_wrong`), and so do other views of the same array (`clearWriteable_sibling_wrong`). With at most two arrays in the chain: `clearWriteable_all_partial`.
