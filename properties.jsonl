{"id": "C01", "title": "Parallel element-wise work covers every row exactly once", "statement": "When an operation over an array of n rows is handed to the worker pool, the blocks that the worker threads obtain are pairwise disjoint, none of them reaches past row n, and when the work is complete every row 0..n-1 has been processed exactly once.", "quantifier": "every array length, every number of threads, every interleaving of the atomic block requests and completions", "why_tests_cant": "A race or an off-by-one in the last partial block shows only for particular lengths and thread interleavings; tests run a handful of schedules.", "anchors": ["src/MathThreads.h: stMATH_WORKER_ITEM::GetWorkBlock, GetNextWorkBlock, GetNextWorkIndex, CompleteWorkBlock", "src/MathWorker.h: CMathWorker::WorkMain, DoMultiThreadedChunkWork"]}
{"id": "C02", "title": "A parallel operation returns only after all of its work is finished", "statement": "The call that submits a parallel operation returns to Python (without an interrupt) only in states where every block of that operation has been completed; no thread is still holding an uncompleted block of it.", "quantifier": "every interleaving of the submitting thread and any number of worker threads", "why_tests_cant": "Early return is a schedule-dependent race that a test can miss for years.", "anchors": ["src/MathWorker.h: CMathWorker::WorkMain", "src/MathThreads.h: stWorkerRing, stMATH_WORKER_ITEM", "src/MathThreads.cpp: WorkerThreadFunction"]}
{"id": "C03", "title": "Bin ranges handed to cores tile the bins", "statement": "When n bins (or rows) are divided over the available cores, the ranges [low,high) are consecutive, start at 0, end at n, and their sizes differ by at most one, so every bin belongs to exactly one core.", "quantifier": "every number of bins and every number of cores", "why_tests_cant": "The remainder distribution has a boundary at every (n mod cores); tests use one machine's core count.", "anchors": ["src/MathWorker.h: CMathWorker::SegmentBins", "src/GroupBy.cpp: GroupBySingleOpMultiBands"]}
{"id": "C04", "title": "Counting True values is exact", "statement": "Summing a boolean array returns the number of True entries, whatever the length, alignment to the vector width, or stride of the array; byte-wide partial counters never overflow.", "quantifier": "every boolean array (any length, including lengths larger than 255 vector widths) and every stride", "why_tests_cant": "Overflow of 8-bit partial counters and the scalar tail only matter at specific lengths.", "anchors": ["src/Merge.cpp: SumBooleanMask, BooleanSum, BooleanCount"]}
{"id": "C05", "title": "Boolean mask indexing keeps exactly the selected rows, in order", "statement": "arr[mask] computed in parallel returns precisely the rows whose mask entry is True, in original order, independent of chunking and of the order in which chunks are processed.", "quantifier": "every array, mask, item size, stride, chunk size and every order of processing the chunks", "why_tests_cant": "The prefix-sum/compaction pipeline fails only for masks whose chunk boundaries, item sizes and strides line up badly.", "anchors": ["src/Merge.cpp: BooleanIndexInternal, BooleanCount"]}
{"id": "C06", "title": "Boolean to fancy index lists the True positions", "statement": "Converting a mask to a fancy index yields the strictly increasing list of positions of True; in 'both' mode the True positions are followed by the False positions and the returned count is the number of True.", "quantifier": "every mask, length, stride, chunking and processing order", "why_tests_cant": "Depends on chunk prefix sums and on mask strides, a combination tests rarely enumerate.", "anchors": ["src/Merge.cpp: BooleanToFancy"]}
{"id": "C07", "title": "Fancy get honours Python indexing and the default value", "statement": "mbget(values, index, default) returns values[index[i]] for every index in [-n, n) (negative indices count from the end) and the default for every other index, for every index dtype; it never reads outside values and never writes outside the output.", "quantifier": "every value array, index array (every signed and unsigned index type), item size and stride", "why_tests_cant": "Out-of-range behaviour at the type boundary and for odd item sizes/odd lengths is not covered by example tests.", "anchors": ["src/Merge.cpp: GetItemInt, GetItemUInt, GetItemIntVariable, GetItemUIntVariable, GetItemCallback, GetItemFunction, MBGet"]}
{"id": "C08", "title": "Reverse shuffle is the inverse permutation", "statement": "For an index array that is a permutation of 0..n-1, ReverseShuffle returns its inverse: gathering with one after the other gives the identity; for arbitrary index arrays it never writes outside the output.", "quantifier": "every permutation of every length and every split of the rows over threads", "why_tests_cant": "All n! permutations and all splits cannot be enumerated.", "anchors": ["src/Merge.cpp: ReverseShuffleMT, ReverseShuffle"]}
{"id": "C09", "title": "ismember on integers reports the first matching position", "statement": "ismember(a, b) for integer keys returns for each a[i] True and the smallest j with b[j] = a[i] if such j exists, and False with the invalid index otherwise, for every hash function, table size and collision pattern.", "quantifier": "all arrays a, b, every hash function into the table and every table size larger than the number of distinct keys", "why_tests_cant": "Correctness under linear probing depends on the whole collision history.", "anchors": ["src/HashLinear.cpp: CHashLinear::MakeHashLocation, IsMember, InternalSetLocation, InternalGetLocation"]}
{"id": "C10", "title": "ismember on floats follows float equality, and NaN is never a member", "statement": "ismember on floating point arrays reports x as a member of b exactly when some element of b compares equal to x; NaN is never a member.", "quantifier": "all float arrays, including signed zeros and every NaN payload", "why_tests_cant": "Bit-pattern hashing against value equality only differs on special values and particular table sizes.", "anchors": ["src/HashLinear.cpp: CHashLinear::MakeHashLocationFloat, IsMemberFloat"]}
{"id": "C11", "title": "Hash table sizing always leaves room", "statement": "For every number of keys n, the chosen table has at least n slots in prime mode and is a power of two (so that masking is a modulus) strictly larger than n in mask mode; consequently insertion never fails and every probe sequence terminates.", "quantifier": "every hint size up to the largest supported array length and both hash modes", "why_tests_cant": "Requires checking the whole range of sizes and every collision pattern.", "anchors": ["src/HashLinear.cpp: CHashLinear::GetHashSize, AllocMemory, InternalSetLocation"]}
{"id": "C12", "title": "String ismember ignores padding width", "statement": "Two fixed-width byte strings of different widths compare equal in ismember exactly when they are equal after removing the trailing NUL padding; equal strings hash equally so membership is found.", "quantifier": "all strings and all pairs of widths", "why_tests_cant": "Width combinations and embedded terminators are an infinite family.", "anchors": ["src/HashLinear.cpp: STRING_MATCH, STRING_MATCH2, HASH_STRING, IsMemberString"]}
{"id": "C13", "title": "Group-by numbering is by first appearance and separates exactly the distinct keys", "statement": "Grouping assigns to every row a bin so that two unfiltered rows share a bin if and only if their keys are equal; bins are numbered 1..k in order of first appearance; filtered rows get bin 0; the reported first row of each bin is the first row with that key.", "quantifier": "all key arrays, filters, hash functions and table sizes", "why_tests_cant": "Depends on the collision structure over an unbounded key history.", "anchors": ["src/HashLinear.cpp: CHashLinear::GroupBy, GROUPBY_INNER_LOOP, GroupByItemSize, GroupByFloat"]}
{"id": "C14", "title": "Multi-key hashing produces correct previous/next chains and running counts", "statement": "For each row, the previous (next) link is the nearest earlier (later) row with the same key or invalid if there is none, the running count is the number of rows with that key up to and including the row, and first/last point to the extreme rows.", "quantifier": "all multi-column keys", "why_tests_cant": "Chains are built by in-place updates across the whole history of rows.", "anchors": ["src/HashLinear.cpp: CHashLinear::MakeHashLocationMultiKey", "src/MultiKey.cpp: MultiKeyHash"]}
{"id": "C15", "title": "As-of merge picks the latest eligible match per key", "statement": "The backward as-of merge of two time-sorted tables returns, for each left row, the last right row with the same key whose time is not after the left time (strictly before when exact matches are disallowed), and the invalid index if there is none or the left time is NaN.", "quantifier": "all tables with sorted times and any keys", "why_tests_cant": "A merge walk with lazy table updates: bugs show only for particular interleavings of times and keys.", "anchors": ["src/HashLinear.cpp: FindLastMatchMK, FindLastMatchCategorical, MergePreBinned, AlignHashMK32"]}
{"id": "C16", "title": "Forward as-of merge picks the earliest eligible match per key", "statement": "The forward as-of merge returns, for each left row, the first right row with the same key whose time is not before (strictly after when exact matches are disallowed) the left time, or invalid.", "quantifier": "all tables with sorted times and any keys", "why_tests_cant": "Same as the backward merge, walking from the end.", "anchors": ["src/HashLinear.cpp: FindNextMatchMK"]}
{"id": "C17", "title": "Argsort is a stable sort", "statement": "The merge based argsort returns a permutation of the input indices that is sorted by value and keeps the input order of equal values, ascending or descending, for every value type whose comparison is a strict weak order (including floats with NaN last).", "quantifier": "all arrays of all lengths and any strict weak order", "why_tests_cant": "Stability must hold for every arrangement of ties.", "anchors": ["src/Sort.cpp: amergesort0_, amergesort0_float, amergesort0_string, single_amergesort, COMPARE_LT"]}
{"id": "C18", "title": "Parallel argsort equals sequential stable argsort under every schedule", "statement": "The eight-way parallel merge sort yields the same stable sorted permutation no matter how the eight block sorts and the merges they trigger interleave; each merge happens exactly once, only after both its halves are sorted, and is finished before the call returns.", "quantifier": "all arrays of at least eight rows and every interleaving of worker steps", "why_tests_cant": "The buddy-bit protocol is a concurrent algorithm; only exhaustive reasoning covers its schedules.", "anchors": ["src/Sort.cpp: ParMergeThreadCallback, par_amergesort, ParMergeMerge"]}
{"id": "C19", "title": "Lexsort orders rows lexicographically", "statement": "Sorting by several columns (one stable pass per column, least significant first) orders the rows lexicographically, with remaining ties in original order.", "quantifier": "any number of columns and rows", "why_tests_cant": "Follows from stability of every pass for all tie patterns.", "anchors": ["src/Sort.cpp: LexSort"]}
{"id": "C20", "title": "Group packing lists the rows of every bin contiguously and in order", "statement": "GroupByPack / GroupFromBinCount return iGroup, iFirst, nCount such that for every bin b the slice iGroup[iFirst[b] .. iFirst[b]+nCount[b]) is exactly the increasing list of rows whose bin is b; over all bins the slices tile iGroup.", "quantifier": "all bin arrays, any number of bins, any split of bins over cores and any interleaving", "why_tests_cant": "A counting sort with shared cursors; correctness must hold for every key array and thread split.", "anchors": ["src/MultiKey.cpp: GroupByPackFixup32, GroupByPackFinal32, MakeiGroup, MakeiGroup2, GroupFromBinCount"]}
{"id": "C21", "title": "Bin counts are exact", "statement": "BinCount returns for each bin the number of rows in it, ignoring out-of-range bins, independent of how rows are divided over cores.", "quantifier": "all bin arrays, any number of bins and cores", "why_tests_cant": "Sum over cores of partial counts for all partitions.", "anchors": ["src/MultiKey.cpp: BinCountAlgo, InternalBinCount, BinCount"]}
{"id": "C22", "title": "Next/previous row links within groups are correct", "statement": "MakeiNext returns for each row the nearest later (or earlier) row of the same group, or invalid.", "quantifier": "all group arrays of any length and any integer width", "why_tests_cant": "Narrow key types and long arrays interact.", "anchors": ["src/MultiKey.cpp: MakeNextKey, MakeiNext"]}
{"id": "C23", "title": "Group-by sums are the same sequentially and in parallel", "statement": "The group sum (and nan-ignoring sum) of an integer column computed by scattering blocks to threads and gathering equals the sequential result, and equals the mathematical sum of the group's rows modulo the integer width; a group containing an invalid value gives invalid for sum and ignores it for nansum.", "quantifier": "all columns, group arrays, bin ranges, numbers of threads and assignments of blocks to threads", "why_tests_cant": "The assignment of blocks to threads is decided by a race.", "anchors": ["src/GroupBy.cpp: AccumSum, AccumNanSum, GatherSum, GatherNanSum, ScatterGroupByCall, GroupBySingleOpMultithreaded"]}
{"id": "C24", "title": "Float32 group sums initialise every bin", "statement": "The float32 nan-ignoring sum and mean return 0 (or NaN for the mean) for bins without rows; no bin of the result depends on the previous content of the output buffer.", "quantifier": "all bin ranges, bins without rows, and numbers of rows relative to bins", "why_tests_cant": "Uninitialised output is often zero in tests.", "anchors": ["src/GroupBy.cpp: AccumNanSumFloat, AccumNanMeanFloat, AccumSumFloat"]}
{"id": "C25", "title": "Group-by min/max are the same sequentially and in parallel", "statement": "Group min and max return invalid if the group has an invalid value (or is empty); nanmin and nanmax return the extreme valid value or invalid if there is none; the threaded result equals the sequential result.", "quantifier": "all columns, groups, threads and block assignments", "why_tests_cant": "Schedule-dependent gathering.", "anchors": ["src/GroupBy.cpp: AccumMin, AccumMax, AccumNanMin, AccumNanMax, GatherMin, GatherMax, GatherNanMin, GatherNanMax"]}
{"id": "C26", "title": "Group-by mean numerator and denominator are exact", "statement": "For every group the mean is the group's total divided by the number of valid rows; the parallel path computes the same totals and counts as the sequential one; groups without valid rows, or with an invalid row for the non-nan version, give invalid.", "quantifier": "all columns, groups, threads and block assignments", "why_tests_cant": "Schedule-dependent gathering.", "anchors": ["src/GroupBy.cpp: AccumMean, AccumNanMean, GatherMean, GatherNanMean"]}
{"id": "C27", "title": "First, last and nth return the right row of each group", "statement": "first, last and nth (negative n from the end) return the value of the corresponding row of the group in row order, and invalid when the group has no such row.", "quantifier": "all packed groupings and all n", "why_tests_cant": "Depends on group packing for every key distribution.", "anchors": ["src/GroupBy.cpp: AccumFirst, AccumLast, AccumNth"]}
{"id": "C28", "title": "Rolling sums equal window sums", "statement": "Within each group, the rolling sum (nansum) with window w at the j-th row is the sum of the last min(w, j+1) (valid) values of that group; rows of the invalid bin get invalid; every row is written.", "quantifier": "all columns, groupings and windows", "why_tests_cant": "Incremental add/subtract must equal the direct sum for every history.", "anchors": ["src/GroupBy.cpp: AccumRollingSum, AccumRollingNanSum"]}
{"id": "C29", "title": "Shift, diff and count within groups", "statement": "Group-wise shift by w (positive or negative) returns the value w rows earlier (later) in the same group or invalid; diff returns the difference with that row or invalid; cumulative count numbers the rows of the group forwards or backwards.", "quantifier": "all columns, groupings and window values, including negative ones", "why_tests_cant": "Boundary conditions at each group edge for every window.", "anchors": ["src/GroupBy.cpp: AccumRollingShift, AccumRollingDiff, AccumRollingCount"]}
{"id": "C30", "title": "The binary heap keeps its order under every history", "statement": "After every sequence of push, pop and erase operations the heap order holds, every stored element's recorded position is its actual position, and the top is the extreme element.", "quantifier": "all operation sequences", "why_tests_cant": "Heap invariants must be inductive over unbounded histories.", "anchors": ["src/Heap.h: Heap::Push, PopBack, Erase, SiftUp, SiftDown, ApplyElementChange"]}
{"id": "C31", "title": "Rolling quantile equals the quantile of the window", "statement": "The rolling quantile of the last w values equals the order statistic (or midpoint of the two neighbouring ones) at the requested position among the valid values in the window.", "quantifier": "all value streams (with invalid values), window sizes and quantiles", "why_tests_cant": "Two heaps with evictions: correctness depends on the full update history.", "anchors": ["src/Heap.h: RollingQuantile::Update, NanUpdateFull, NanUpdateNotFull, RebalanceHeaps", "src/GroupBy.cpp: AccumRollingQuantile1e9Mult"]}
{"id": "C32", "title": "searchsorted left/right are correct insertion points", "statement": "For sorted bins, searchsorted returns for each value the left (right) insertion point: the number of bins less than (less than or equal to) the value, always in 0..len(bins).", "quantifier": "all sorted bin arrays of any length and all values", "why_tests_cant": "Binary search boundary cases over all arrays.", "anchors": ["src/Bins.cpp: SearchSortedLeft, SearchSortedRight"]}
{"id": "C33", "title": "cut assigns each value to its interval", "statement": "Cutting values by sorted edges e0<..<ek puts v in bin i exactly when e(i-1) < v <= e(i) (with v = e0 in bin 1) and in bin 0 when v is outside or invalid; no read outside the edges.", "quantifier": "all edge arrays and values", "why_tests_cant": "Binary search with special first-bin rule over all arrays.", "anchors": ["src/Bins.cpp: MakeBinsBSearch, MakeBinsBSearchFloat, BinsToCutsBSearch"]}
{"id": "C34", "title": "CRC64 is chunking-independent and equals the reference definition", "statement": "The slicing-by-8 CRC64 equals the bit-by-bit polynomial definition for every input and every length, and computing it incrementally over pieces equals computing it over the whole.", "quantifier": "all byte strings, all initial values, all splits", "why_tests_cant": "The fast path engages only for lengths of at least 64 and leaves a variable tail.", "anchors": ["src/CRC32.cpp: CalculateCRC64, makeTable, makeSlicingBy8Table"]}
{"id": "C35", "title": "A workspace buffer has a single owner", "statement": "Two live hash tables or sort workspaces never share the same recycled memory, and a buffer is never freed while in use.", "quantifier": "all sequences of allocations, frees, garbage collections and mode switches", "why_tests_cant": "Aliasing needs particular histories.", "anchors": ["src/Recycler.cpp: WorkSpaceAllocLarge, WorkSpaceFreeAllocLarge, WorkSpaceAllocSmall, WorkSpaceFreeAllocSmall, RecycleGarbageCollectNow"]}
{"id": "C36", "title": "The array recycler never hands out an array that is still referenced", "statement": "Each bucket of the recycler holds at most four arrays, its occupancy equals head minus tail, an array given out was held only by the recycler and has the requested type and byte size, and it leaves the recycler when handed out.", "quantifier": "all histories of finalize, find and garbage collect operations", "why_tests_cant": "Invariant over unbounded histories.", "anchors": ["src/Recycler.cpp: RefCountNumpyArray, RecycleFindArray, FinalizeNumpyArray, GarbageCollect, RemoveFromList"]}
{"id": "C37", "title": "The log queue is a bounded FIFO that does not lose wake-ups", "statement": "Log records are delivered in the order of the accepted pushes, never duplicated, and only dropped when the queue is full; a cancelled waiter eventually wakes.", "quantifier": "all interleavings of producers, consumer and cancellation", "why_tests_cant": "Lost wake-ups are a race.", "anchors": ["src/logging/waiting_deque.h: pop_front, push_back, cancel_wait", "src/logging/logging_service.h"]}
{"id": "C38", "title": "min/max reductions propagate or skip invalids consistently", "statement": "The invalid-propagating min and max used by reductions return the invalid value if either operand is invalid and the extreme otherwise, so folding them over an array in any chunking gives invalid iff some element is invalid, else the extreme element.", "quantifier": "all arrays, all integer widths, floats, all chunkings", "why_tests_cant": "Sentinel values coincide with type extremes; chunk results must combine.", "anchors": ["src/rt_math.h: min_with_nan_passthru, max_with_nan_passthru", "src/Reduce.cpp"]}
{"id": "C39", "title": "Conversion between integer types maps invalid to invalid", "statement": "Converting between numeric types maps the source invalid to the target invalid and every valid value that the target type represents to that value.", "quantifier": "all values of all integer type pairs", "why_tests_cant": "The product of types and boundary values; a valid value may land on the target's sentinel.", "anchors": ["src/missing_values.h: invalid_for_type, cast_nan_aware"]}
{"id": "C40", "title": "Time-window sums add exactly the rows inside the window", "statement": "For non-decreasing times, the time-window sum (product) at row i is the sum (product) over all rows j<=i with time[i]-time[j] <= delta, independent of the chunking over threads.", "quantifier": "all value and time arrays, deltas, chunkings", "why_tests_cant": "Chunk boundaries inside windows.", "anchors": ["src/TimeWindow.cpp: TimeWindowSum, TimeWindowProd, TimeWindow"]}
{"id": "C41", "title": "Bit count is the population count", "statement": "BitCount returns the number of one bits of each element for 1, 2, 4 and 8 byte integers and 0/1 for booleans.", "quantifier": "all element values and widths", "why_tests_cant": "2^64 values.", "anchors": ["src/BitCount.cpp: BitCount"]}
{"id": "C42", "title": "Record arrays convert to columns losslessly", "statement": "Converting an array of records to columns copies, for every field and row, exactly the field's bytes to the column's row, independent of the internal row blocking and thread split, and touches no other output byte.", "quantifier": "all record layouts, row counts, item sizes and splits", "why_tests_cant": "Blocking by cache size and vector gathers has many boundary cases.", "anchors": ["src/TileRepeat.cpp: ConvertRecArray, RecordArrayToColMajor"]}
{"id": "C43", "title": "Fixed-width string comparisons form a consistent order", "statement": "The string comparison used for searching and sorting is a strict total order on NUL-padded byte strings equal to the lexicographic order of their unpadded contents, so sorted results do not depend on the padding width.", "quantifier": "all strings and widths", "why_tests_cant": "Order laws range over all triples of strings.", "anchors": ["src/Bins.cpp: STRING_LT, STRING_LTEQ, STRING_GT, STRING_GTEQ", "src/Sort.cpp: STRING_LT, UNICODE_LT"]}
{"id": "C44", "title": "A parallel operation always returns", "statement": "Once work is handed to the pool, some thread can always make progress and the submitting call eventually returns: it never hangs waiting for blocks nobody will complete or for workers that never go back to sleep, even when it is interrupted halfway.", "quantifier": "all numbers of workers and work items, all interleavings, interrupt arriving at any moment", "why_tests_cant": "A lost block or a missed decrement hangs only under particular interleavings.", "anchors": ["src/MathWorker.h: CMathWorker::WorkMain", "src/MathThreads.cpp: WorkerThreadFunction"]}
{"id": "C45", "title": "Re-indexing stacked groups", "statement": "ReIndexGroups maps the group number of every row of a partition through that partition's unique keys: 0 stays 0 (filtered), numbers beyond the unique keys become 0, every other number k becomes the k-th unique key of the partition; rows outside all partitions are unchanged and nothing outside the arrays is accessed.", "quantifier": "every key array, every list of increasing cutoffs, every completion order of the partitions", "why_tests_cant": "Partitions are updated in place by concurrent threads; all cutoffs and orders cannot be enumerated.", "anchors": ["src/Merge.cpp: ReIndexGroupsMT, ReIndexGroups"]}
{"id": "C46", "title": "The array checksum detects local corruption", "statement": "Two arrays of the same size whose bytes differ only inside one window of at most eight consecutive bytes never have the same CRC64.", "quantifier": "every array, every position and every pair of different contents of the window", "why_tests_cant": "There are 2^128 pairs of windows and unboundedly many surroundings; only an argument about the polynomial covers them.", "anchors": ["src/CRC32.cpp: CalculateCRC64, makeTable, makeSlicingBy8Table"]}
{"id": "C47", "title": "Conversion between integers and floats", "statement": "Converting an integer array to floats yields exactly the integer whenever its magnitude is below the float's precision and NaN for the invalid value; converting floats to integers maps NaN and infinities to the invalid value and truncates other numbers; converting an integer to float and back returns it unchanged when it is below the precision.", "quantifier": "all integer types, both float formats, all arrays, strides and splits over threads", "why_tests_cant": "The value spaces have up to 2^64 elements and the guard on the precision is easy to miss.", "anchors": ["src/Convert.cpp: ConvertBase, ConvertSafeInternal"]}
{"id": "C48", "title": "Positions of extremes", "statement": "argmin and argmax return the position of the first invalid element if there is one and else the first position of the least or greatest element; nanargmin and nanargmax return the first position of the least or greatest valid element and fail exactly when no element is valid.", "quantifier": "all non-empty arrays of every type", "why_tests_cant": "Ties, invalid values and order interact for arbitrary arrays.", "anchors": ["src/Reduce.cpp: ReduceArgMax, ReduceArgMin, ReduceNanargmax, ReduceNanargmin"]}
{"id": "C49", "title": "Sum reductions", "statement": "The sum of an array of integers (or of floats holding integers) is exact, invalid if an element is invalid; nansum is the exact sum of the valid elements; the result does not depend on the number of threads.", "quantifier": "all arrays, types, thread counts and assignments of blocks to threads", "why_tests_cant": "Partial sums depend on which thread takes which block and on rounding of large values.", "anchors": ["src/Reduce.cpp: ReduceSum, ReduceNanSum, CMathWorker::WorkScatterGatherCall, ReduceInternal"]}
{"id": "C50", "title": "Mean reductions", "statement": "mean divides the sum by the number of elements and is NaN if an element is invalid; nanmean divides the sum of the valid elements by their number and is NaN if there are none.", "quantifier": "all arrays, types, thread counts", "why_tests_cant": "Same interleavings as sums; the all-invalid case is easily missed.", "anchors": ["src/Reduce.cpp: ReduceInternal"]}
{"id": "C51", "title": "Raw-byte sorting comparison is a strict total order", "statement": "VOID_LT is irreflexive, transitive and total on byte strings of one width, only identical strings tie, and descending order is the reverse of ascending order.", "quantifier": "all widths, both directions, all byte strings", "why_tests_cant": "The comparison is unrolled per width (1-8 and remainders), each with its own word splits; laws range over triples of strings.", "anchors": ["src/Sort.cpp: VOID_LT"]}
{"id": "C52", "title": "Unique reports first rows and counts of the distinct keys", "statement": "Unique returns, in increasing order, exactly the kept rows whose key has no earlier kept row, and for each of them the number of kept rows with that key.", "quantifier": "all multi-column keys, filters, hash functions and sufficiently large tables", "why_tests_cant": "Depends on the collision history of the table over an unbounded number of rows.", "anchors": ["src/HashLinear.cpp: CHashLinear::Unique", "src/MultiKey.cpp: MultiKeyUnique32"]}
{"id": "C53", "title": "Group lists thread every row of a group in order", "statement": "The combined group-by gives the same numbering as the plain one; starting at the first row of a group and following the next links visits each row of the group once in increasing order; the filtered rows form a chain of their own; the counts are the group sizes.", "quantifier": "all keys, filters, hash functions and sufficiently large tables", "why_tests_cant": "Links are patched in place as later rows arrive.", "anchors": ["src/HashLinear.cpp: CHashLinear::GroupBySuper"]}
{"id": "C54", "title": "Rolling multi-key counts continue across calls", "statement": "Repeated calls that keep the hash table number keys by first appearance over the whole history and give each row the number of occurrences of its key so far, as if all batches were one array.", "quantifier": "all sequences of batches, all keys and hash functions", "why_tests_cant": "State survives between calls; the number and sizes of calls are unbounded.", "anchors": ["src/HashLinear.cpp: CHashLinear::MultiKeyRolling, MultiKeyRollingStep2"]}
{"id": "C55", "title": "Row comparison and slot flags are exact", "statement": "The word-wise row comparison reports equality exactly for equal byte strings of every width, and the 64-bit flag words behave as an array of independent booleans.", "quantifier": "all widths, all byte strings, all slot positions", "why_tests_cant": "Every combination of 8-, 4- and 1-byte tails and every position of the first difference.", "anchors": ["src/HashLinear.cpp: MEMCMP_NEW", "src/HashLinear.h: IsBitSet, SetBit, ClearBit"]}
{"id": "C56", "title": "Partitioned grouping numbers each partition on its own under any schedule", "statement": "With cutoffs, each partition is grouped independently by first appearance; the concatenated bins cover the rows, first rows are listed per partition relative to its start, and the returned cutoffs are the running totals of the group counts, for every order in which worker threads finish.", "quantifier": "all keys, all nondecreasing cutoffs, all thread schedules", "why_tests_cant": "Quantifies over thread schedules.", "anchors": ["src/HashLinear.cpp: GroupByImpl"]}
{"id": "C57", "title": "Partitioned lexsort sorts each partition on its own", "statement": "With cutoffs, every execution of the per-partition sorts leaves, in each partition, the lexicographic stable argsort of that partition's rows numbered from 0; nothing outside a partition influences it and nothing is read or written out of bounds.", "quantifier": "all columns, all cutoffs, every completion order", "why_tests_cant": "Partition boundaries, empty partitions and completion orders combine without bound.", "anchors": ["src/Sort.cpp: par_amergesort, LexSort, GetCutOffs"]}
{"id": "C58", "title": "IsSorted is exact under every race", "statement": "IsSorted answers true exactly when no row is below an earlier one (NaNs last), whichever way the overlapping segments are checked and however the callbacks race on the shared flag.", "quantifier": "all arrays of every key type, every schedule", "why_tests_cant": "Segment boundaries and racing flag accesses only matter for particular lengths and timings.", "anchors": ["src/Sort.cpp: IsSorted, IsSortedFloat, IsSortedString"]}
{"id": "C59", "title": "Rolling means equal window means", "statement": "Within each group, the rolling mean (nanmean) with window w at the j-th row is the sum of the last min(w, j+1) (valid) values of the group divided by their number, NaN when the window has an invalid value (no valid value); rows of the invalid bin get NaN; every row is written.", "quantifier": "all columns, groupings and windows", "why_tests_cant": "The running total and count must match the window for every history, including invalid values entering and leaving.", "anchors": ["src/GroupBy.cpp: AccumRollingMean, AccumRollingNanMean"]}
{"id": "C60", "title": "Grouping from a sort order numbers the runs of equal values", "statement": "GroupFromLexSort, given values and a row order in which equal values stand together, gives every row of the order the number of its run of equal values, and returns the head of every run as first row and its length as count (after a 0 for the zero bin); two rows get the same number if and only if their values are equal. With cutoffs every partition is grouped on its own, groups are numbered on across partitions, first rows refer to the whole array and the running number of groups is returned.", "quantifier": "for all values of any width, all row orders of distinct rows, with and without cutoffs, and all interleavings of the work items of the partitions", "why_tests_cant": "Values of width 7, string values with cutoffs and bit-different equal values each take their own branch; whether the partitions' writes collide depends on timing.", "anchors": ["src/Sort.cpp:323-503", "src/Sort.cpp:3679-4381"]}
{"id": "C61", "title": "CombineFilter keeps or zeroes group numbers", "statement": "CombineFilter(index, filter) returns, for every row, the group number if the filter is True and 0 otherwise.", "quantifier": "all indices of the signed integer types, all boolean filters and all schedules of the worker threads", "why_tests_cant": "The code multiplies by the filter byte; only a proof over all values and schedules shows that no value changes and every row is written.", "anchors": ["src/Convert.cpp:1350-1530"]}
{"id": "C62", "title": "CombineAccum2Filter numbers pairs of groups injectively", "statement": "CombineAccum2Filter gives every kept row the number second*(max1+1)+first of its pair of group numbers; different pairs get different numbers below (max1+1)*(max2+1), which fit the chosen output type; rows filtered out get 0.", "quantifier": "all pairs of index arrays with non-negative numbers up to the stated maxima, all filters, all schedules", "why_tests_cant": "The output type changes with the product of the maxima and the bin is narrowed before it is checked, so that only boundary values of each type show a wrong width.", "anchors": ["src/Convert.cpp:1532-2044"]}
{"id": "C63", "title": "CombineAccum1Filter renumbers the surviving groups by first appearance", "statement": "CombineAccum1Filter renumbers the groups that have a row passing the filter from 1 in order of first appearance; two kept rows share their new number exactly when they shared the old one; rows filtered out or with a number outside 1..max get 0; the first row of every new group and their number are returned and the new numbers fit the index type.", "quantifier": "all index types, all rows (also invalid and too large numbers), all filters, up to 2^31 rows", "why_tests_cant": "That the new numbers fit the index type rests on a counting argument over all inputs.", "anchors": ["src/Convert.cpp:2046-2290"]}
{"id": "C64", "title": "MakeiFirst finds first and last rows of the bins", "statement": "MakeiFirst returns for every bin the first (last) row with that group number which passes the filter and the invalid value when there is none; bin 0 is always invalid.", "quantifier": "all index arrays, filters and maxima", "why_tests_cant": "Needs every combination of filtered, out-of-range and repeated group numbers.", "anchors": ["src/Convert.cpp:2292-2525"]}
{"id": "C65", "title": "The common type of arrays holds all their values", "statement": "GetUpcastDtype returns, for any list of numeric arrays, a type that holds every value of every array, and the result depends on which types occur, not on their order.", "quantifier": "all lists of numpy type numbers", "why_tests_cant": "The decision keeps only the largest type number of each kind; the claim ranges over all lists of types.", "anchors": ["src/Convert.cpp:2600-2790"]}
{"id": "C66", "title": "RemoveTrailingSpaces trims every string and nothing else", "statement": "Every item of a string or unicode array has its trailing blanks and zeros replaced by zeros, everything before them is kept, memory outside the array is untouched, and a second pass changes nothing.", "quantifier": "all item widths, item counts and contents", "why_tests_cant": "Needs all positions of blanks, all-blank items and the boundary between neighbouring items.", "anchors": ["src/Convert.cpp:2529-2598"]}
{"id": "C67", "title": "HStack concatenates and keeps values", "statement": "HStack returns the arrays one after the other; every value is carried to the common type unchanged, invalid values stay invalid and no others become invalid, and strings are filled up with zeros to the widest width.", "quantifier": "all lists of integer, boolean or string arrays and all schedules of the worker threads", "why_tests_cant": "The arrays are copied by racing threads at computed offsets, and sentinels of narrow types are ordinary values of wide ones.", "anchors": ["src/Convert.cpp:45-110", "src/Convert.cpp:753-796", "src/Convert.cpp:2794-3060"]}
{"id": "C68", "title": "ShiftArrays shifts in place", "statement": "ShiftArrays moves every row of every array by the amount, rows without a source keep their value; the outcome depends on the contents of the array, not on its memory layout.", "quantifier": "all arrays, shifts of either sign and any size, Fortran arrays column by column", "why_tests_cant": "Overlapping moves with every combination of sign and length.", "anchors": ["src/Convert.cpp:3067-3215", "src/MultiKey.cpp:144-300"]}
{"id": "C69", "title": "SetItem assigns through a boolean mask", "statement": "SetItem(arr, mask, values) gives the k-th masked row the k-th value (or all of them a single value) and returns True, or leaves the array alone and returns False.", "quantifier": "all arrays, masks and value arrays, all schedules of the counting and the copying pass", "why_tests_cant": "Above 16384 rows the mask is counted and copied by sections in any thread order; the offsets of the sections are prefix sums of the counts.", "anchors": ["src/Convert.cpp:3448-3870"]}
{"id": "C70", "title": "PutMask replaces the masked rows", "statement": "PutMask(arr, mask, values) replaces exactly the masked rows by the value of the same row converted to the type of arr; invalid values become invalid and no others do.", "quantifier": "all arrays, masks, values and schedules", "why_tests_cant": "Needs every value of every pair of types and every schedule.", "anchors": ["src/Convert.cpp:124-200", "src/Convert.cpp:909-976", "src/Convert.cpp:3875-3975"]}
{"id": "C71", "title": "HomogenizeArrays converts to a common type without changing values", "statement": "HomogenizeArrays returns all arrays in the common type; values are unchanged, invalid values stay invalid and no others become invalid; lists of arrays that cannot be converted are rejected.", "quantifier": "all lists of arrays", "why_tests_cant": "Needs every combination of types, among them those the conversion table lacks.", "anchors": ["src/Convert.cpp:3220-3308", "src/RipTide.cpp:2098-2177"]}
{"id": "C72", "title": "Rolling sums and means over a whole array", "statement": "RollingSum, RollingNanSum, RollingMean and RollingNanMean give for every row the sum or mean of the last w values (of the valid ones for the nan versions); every row is written and nothing outside the arrays is touched.", "quantifier": "all columns and windows", "why_tests_cant": "The sum is kept incrementally; a wrong value stays for the rest of the array, and integer overflow must cancel out.", "anchors": ["src/Ema.cpp:84-260", "src/Ema.cpp:600-765"]}
{"id": "C73", "title": "Grouped cumulative sums and products", "statement": "CumSum and CumProd give every row the sum or product of the included values of its group up to it since the last reset, and the invalid value outside the groups; every row is written.", "quantifier": "all columns, key arrays, filters and resets", "why_tests_cant": "The interplay of group, filter and reset at every row of every prefix; overflow modulo 2^64.", "anchors": ["src/Ema.cpp:780-1030", "src/Ema.cpp:2300-2480"]}
{"id": "C74", "title": "Grouped cumulative minima and maxima", "statement": "The cumulative minimum (maximum) of a row is the least (greatest) included valid value of its group so far since the last reset; in the strict version an invalid value makes it invalid.", "quantifier": "all columns, key arrays, filters and resets", "why_tests_cant": "Needs every order of valid and invalid values, and rows outside the groups.", "anchors": ["src/Ema.cpp:1030-1400"]}
{"id": "C75", "title": "FindNth numbers the rows of each group", "statement": "The n-th included row of a group gets the number n, other rows 0.", "quantifier": "all key arrays and filters of fewer than 2^31 rows", "why_tests_cant": "Ranges over all interleavings of groups.", "anchors": ["src/Ema.cpp:1400-1480"]}
{"id": "C76", "title": "EmaDecay sums with exponential decay", "statement": "EmaDecay gives every row the sum of the live values of its group, each weighted by the exponential of minus the rate times its age.", "quantifier": "all columns, keys, times, filters and resets", "why_tests_cant": "The code updates one number per group; the closed form needs an argument over all prefixes.", "anchors": ["src/Ema.cpp:1482-1578"]}
{"id": "C77", "title": "EmaNormal and EmaWeighted are moving averages", "statement": "The first row of a group (or after a reset) holds its own value; every later row mixes its value and the result of the previous row of the group with weights 1-W and W, where W comes from the time elapsed (EmaNormal) or is fixed (EmaWeighted). Excluded rows do not contribute.", "quantifier": "all columns, keys, times, filters and resets", "why_tests_cant": "The first value of each group is found by a separate backward loop; the recurrence ties each row to an arbitrarily distant one.", "anchors": ["src/Ema.cpp:1580-1932"]}
{"id": "C78", "title": "InterpExtrap2d evaluates a polygon", "statement": "Every result is the value of the polygon through the knots of its table row at its point, continued linearly or by constants beyond the ends, and NaN exactly for NaN; nothing outside the tables is read.", "quantifier": "all increasing knots, all points, all schedules", "why_tests_cant": "Ranges over all positions of the point between the knots and all thread schedules; a read past the table does not show in the result.", "anchors": ["src/Ema.cpp:2540-2880"]}
{"id": "C79", "title": "Rolling variance", "statement": "RollingVar and RollingNanVar give for every row the variance of the (valid) values among the last w, with the same number of degrees of freedom in every row.", "quantifier": "all columns and windows", "why_tests_cant": "Mean and squared deviations are updated incrementally; correctness is an algebraic invariant over all prefixes.", "anchors": ["src/Ema.cpp:327-575"]}
{"id": "C80", "title": "Sorting in place sorts", "statement": "SortInPlace and Sort leave the elements of the array in ascending order (NaNs at the end), in each of the three modes; no access leaves the array and the stack of the quicksort never overflows.", "quantifier": "all arrays of fewer than 2^63 elements, all strict weak orders, all workspace contents", "why_tests_cant": "Quicksort relies on sentinels instead of bounds checks and on a stack bound that only matters for huge or adversarial arrays.", "anchors": ["src/Sort.cpp:726-1001", "src/Sort.cpp:1195-1281", "src/Sort.cpp:1408-1500", "src/Sort.cpp:2684-2926"]}
{"id": "C81", "title": "SortInPlaceIndirect replaces keys by their position", "statement": "Every key is replaced by its position in the given sort order; no access leaves the arrays.", "quantifier": "all sort orders and key arrays", "why_tests_cant": "The index arrays are not checked; a wrong one writes outside the work space.", "anchors": ["src/Sort.cpp:2940-3024"]}
{"id": "C82", "title": "The median of a group is its middle value", "statement": "For every group, GB_MEDIAN gives the middle one of its valid values in order, the midpoint of the two middle ones if their number is even, and the invalid value if there is none; the banded parallel path gives the same as the sequential one.", "quantifier": "all columns, all packed group arrays, all ranges of bins, all orders in which the bands are run", "why_tests_cant": "The midpoint overflows only for large values, the parallel path needs more than 65536 rows, and the work array is shared between groups.", "anchors": ["src/GroupBy.cpp:2320-2393", "src/GroupBy.cpp:4242-4392", "src/GroupBy.cpp:26-60"]}
{"id": "C83", "title": "The mode of a group is its most frequent value", "statement": "For every group, GB_MODE gives the most frequent valid value, the smallest of them if there are several, and the invalid value if there is none.", "quantifier": "all columns, all packed group arrays, all ranges of bins, all orders in which the bands are run", "why_tests_cant": "Ties and runs at the end of the sorted group need every arrangement of counts.", "anchors": ["src/GroupBy.cpp:2108-2189"]}
{"id": "C84", "title": "The quantile of a group is at the right rank", "statement": "For every group and quantile q, GB_QUANTILE_MULT gives the value at rank q(n-1) of the n valid values, the midpoint of its two neighbours if that is not an integer; without skipping, a group with an invalid value is invalid.", "quantifier": "all columns, all q in units of 1e-9, all group sizes, all conforming nth_element", "why_tests_cant": "The rank is computed in floating point; a wrong rank shows only for particular pairs of q and n.", "anchors": ["src/GroupBy.cpp:2192-2316", "src/GroupBy.cpp:160-167"]}
{"id": "C85", "title": "The trimmed mean leaves out the extreme values", "statement": "For every group, GB_TRIMBR gives the mean of the valid values between the bounds at the trimmed ranks, invalid if too few values remain.", "quantifier": "all columns, all trim functions, all conforming nth_element", "why_tests_cant": "nth_element permutes the work array in an unspecified way between the two selections.", "anchors": ["src/GroupBy.cpp:2028-2105", "src/GroupBy.cpp:130-194"]}
{"id": "C86", "title": "Variance of groups", "statement": "For every group, GB_VAR gives the sum of squared deviations from the mean divided by n-1, invalid for a group with an invalid value or fewer than two values; GB_NANVAR gives that of the valid values. Bins outside the range are left alone.", "quantifier": "all columns, all bin arrays including out of range bins, all ranges of bins", "why_tests_cant": "The count doubles as the mark of an invalid group and the output as the mean, so the result depends on the order of rows unless the argument holds for all.", "anchors": ["src/GroupBy.cpp:947-1145"]}
{"id": "C87", "title": "Day numbers follow the calendar", "statement": "YearToEpochNano gives for every date from 1970 to 2099 the number of days since 1970-01-01 by the Gregorian calendar, times the nanoseconds of a day, increases with the date, and is -1 for what is not a date.", "quantifier": "all years, months and days", "why_tests_cant": "Leap years and month ends must agree on each of the 47482 days.", "anchors": ["src/DateTime.cpp:254-308"]}
{"id": "C88", "title": "Date and time strings are read as what they say", "statement": "For every date and time of day, the text in ISO form, with or without fraction and surrounded by blanks or zeros, is read as its nanoseconds with no warning; anything else gives 0; results lie within the representable range, and the reading of one item does not depend on the others.", "quantifier": "all dates and times, all fractions up to nine digits, all strings, all lengths of items", "why_tests_cant": "The parser skips what it does not expect, so that the space of accepted strings is unbounded.", "anchors": ["src/DateTime.cpp:18-252", "src/DateTime.cpp:310-454"]}
{"id": "C89", "title": "strptime undoes the writing by the same format", "statement": "For every format and moment, the text written by the format is read back as the moment; what does not conform gives 0.", "quantifier": "all formats built of literal characters and of the conversions for year, month, day, hour, minute and second, all moments, all fractions, all following texts", "why_tests_cant": "Formats and texts are unbounded; white space in the format matches any amount of it.", "anchors": ["src/strptime5.cpp:84-567", "src/DateTime.cpp:667-733"]}
{"id": "C90", "title": "Comparisons of arrays compare the numbers", "statement": "For each of ==, !=, <, >, <=, >=, any two arrays or an array and a scalar of integer or floating point types, the loop chosen gives in each row the truth of the relation between the exact numbers (with a NaN only != holds), whatever the length and however the rows are divided among workers.", "quantifier": "all comparisons, types, modes, lengths, contents and schedules", "why_tests_cant": "There is a loop for each width with registers of 4 to 32 rows plus a tail, and mixed signs need the two halves of the 64-bit range.", "anchors": ["src/Compare.cpp:302-1197", "src/BasicMath.cpp:3025-3118"]}
{"id": "C91", "title": "Arithmetic on arrays is arithmetic on each row", "statement": "Addition, subtraction, multiplication, minimum, maximum and the bitwise operations give in each row the exact result reduced into the type, whichever loop is chosen, whether in registers or row by row, in place or not, for arrays and scalars, under every schedule.", "quantifier": "all operations, types, modes, lengths, addresses, contents and schedules", "why_tests_cant": "The scalar and the vector code of each loop differ, and the split between them depends on the address and the length.", "anchors": ["src/BasicMath.cpp:95-600", "src/BasicMath.cpp:619-1097", "src/BasicMath.cpp:1274-2055"]}
{"id": "C92", "title": "Floor division, remainder, differences of dates and extremes of floats", "statement": "Floor division rounds down and gives 0 for the divisor 0; the remainder belongs to it; the difference of dates is 0 if either is missing; the minimum and maximum of floating point numbers are NaN just if an operand is.", "quantifier": "all types, modes, lengths, contents and schedules", "why_tests_cant": "Signs, limits of the types and missing values combine.", "anchors": ["src/BasicMath.cpp:180-360", "src/BasicMath.cpp:1789-1870"]}
{"id": "C93", "title": "An operation on two arrays combines items with the same indices", "statement": "If the checks of dimensions and strides accept two inputs of the same dimensions, each item of the output (a new one or a given one) is computed from the items of the inputs at the same indices.", "quantifier": "all dimensions, strides, item sizes and indices; arrays and scalars", "why_tests_cant": "The strides of arrays with several dimensions are unlimited; tests use contiguous ones.", "anchors": ["src/BasicMath.cpp:2588-2665", "src/BasicMath.cpp:2797-2950", "src/RipTide.cpp:597-705"]}
{"id": "C94", "title": "An operation into a given output is as if the inputs had been copied before", "statement": "If the test for overlapping memory lets an operation through, every row of the output is the result of the rows of the inputs as they were before, whatever the order of the rows and the size of the registers.", "quantifier": "all addresses, item sizes, lengths, contents, functions and orders", "why_tests_cant": "The order of the rows depends on threads, and overlapping outputs are rare in tests.", "anchors": ["src/BasicMath.cpp:2850-2905"]}
{"id": "C95", "title": "Where chooses each row by the condition", "statement": "Each row of the result of Where is the item of the first choice where the condition is true and that of the second where it is false, for every item size, for arrays and scalars, and under every schedule.", "quantifier": "all item sizes, choices, conditions, lengths, addresses and schedules", "why_tests_cant": "The choice between two arrays is an address computation which depends on where the arrays are.", "anchors": ["src/BasicMath.cpp:3573-3974"]}
{"id": "C96", "title": "Adding strings joins the texts", "statement": "Each row of the sum of two arrays of byte strings or of unicode, or of one and a scalar, is the first text followed by the second, filled up with zeros to the sum of both sizes.", "quantifier": "all texts, sizes, lengths and modes", "why_tests_cant": "Texts which fill their size have no terminating zero.", "anchors": ["src/BasicMath.cpp:3123-3385"]}
{"id": "C97", "title": "A common type holds both operands", "statement": "Two arrays are converted to numpy's common type; an array and a Python int are combined in a type which holds the number and every item of the array, and the loops see that number.", "quantifier": "all pairs of types and all integers", "why_tests_cant": "There are 196 pairs of types, three tables of 65 entries and unlimited integers.", "anchors": ["src/RipTide.cpp:1909-2062", "src/RipTide.cpp:2236-2284", "src/RipTide.cpp:974-1227", "src/BasicMath.cpp:2061-2205", "src/BasicMath.cpp:2359-2435"]}
{"id": "C98", "title": "Absolute values, negation, signs and complements", "statement": "Each row of the absolute value, the negation, the sign or the complement of an array is that of its number (the invalid integer staying itself under abs and neg), whether it is computed with registers or one by one, for every alignment and schedule.", "quantifier": "all signed integer types, floats and doubles, all contents, lengths, alignments and schedules", "why_tests_cant": "Which rows are computed with registers depends on the address and the length; the invalid integer is one in 2^32.", "anchors": ["src/UnaryOps.cpp:192-240", "src/UnaryOps.cpp:530-610", "src/UnaryOps.cpp:2230-2320"]}
{"id": "C99", "title": "Rounding gives the integer asked for", "statement": "floor, ceil, trunc and round of a float or double give the integer which the name says, infinities and NaN stay themselves, and rows computed with registers agree with those computed one by one.", "quantifier": "all bit patterns of floats and doubles, lengths, alignments and schedules", "why_tests_cant": "Halves rounded with registers differ from those rounded one by one only in some positions of the array.", "anchors": ["src/UnaryOps.cpp:65-75", "src/UnaryOps.cpp:288-356", "src/UnaryOps.cpp:2320-2360"]}
{"id": "C100", "title": "Tests say what the class of a number is", "statement": "isnan, isfinite, isinf, isnormal, signbit, isnanorzero, not and their opposites say of each row of floats and doubles what its IEEE class says, with registers and tables or one by one; for integers riptide's invalid counts as NaN; texts are invalid exactly if they are empty.", "quantifier": "all bit patterns, lengths, alignments, schedules, integer types and texts", "why_tests_cant": "2^64 bit patterns; characters whose first byte is zero are rare.", "anchors": ["src/UnaryOps.cpp:240-290", "src/UnaryOps.cpp:775-1138", "src/UnaryOps.cpp:1289-1365", "src/UnaryOps.cpp:2254-2296"]}
{"id": "C101", "title": "An operation on one array pairs items with the same indices", "statement": "Whatever the dimensions and strides of an array are, the walk over it either is left to numpy or pairs the item at each index with the output at the same index, for new and for given outputs.", "quantifier": "all dimensions, strides, item sizes and indices", "why_tests_cant": "There are unlimited shapes; overlapping windows, leading dimensions of 1 and column-major slices are rare in tests.", "anchors": ["src/RipTide.cpp:2290-2374", "src/UnaryOps.cpp:2478-2705", "src/RipTide.cpp:790-845"]}
{"id": "C102", "title": "An operation into a given output is as if the input had been copied before", "statement": "With a given output every row is the result of the row of the input as it was before, whatever the order of the rows and the size of the registers.", "quantifier": "all addresses, item sizes, lengths, contents, functions and orders", "why_tests_cant": "The order of the rows depends on threads, and overlapping outputs are rare in tests.", "anchors": ["src/UnaryOps.cpp:2554-2641"]}
{"id": "C103", "title": "Roots, logarithms and exponentials of integers are those of the number", "statement": "SQRT, CBRT, LOG, LOG10, EXP and EXP2 of an array of integers apply the function to each number, rounded to a double, and give NaN for riptide's invalid.", "quantifier": "all integer types and numbers, any function, all lengths and schedules", "why_tests_cant": "Unsigned numbers from 2^63 on are rare.", "anchors": ["src/UnaryOps.cpp:1164-1179", "src/UnaryOps.cpp:2044-2208"]}
{"id": "C104", "title": "Variance and standard deviation", "statement": "VAR and STD of an array are the sum of the squared distances from the mean divided by the number of elements minus ddof, NaN if an element is invalid or there are not more elements than ddof; NANVAR and NANSTD are those of the valid elements; all of it for every distribution of both passes over the cores.", "quantifier": "all integer types, floats and doubles holding integers, all contents, lengths, ddof and schedules of both passes", "why_tests_cant": "Arrays are split only above 16384 elements, and the copy of the sum in an int64 matters only when the squares of one core reach 2^63.", "anchors": ["src/Reduce.cpp:2747-2893", "src/Reduce.cpp:3079-3253", "src/Reduce.cpp:540-558"]}
{"id": "C105", "title": "A reduction reads each item once or leaves it to numpy", "statement": "Whatever the dimensions and strides of an array are, Reduce either leaves the array to numpy or reads the bytes of each item of it exactly once and nothing else.", "quantifier": "all dimensions, strides and item sizes", "why_tests_cant": "There are unlimited shapes; slices under a leading dimension of 1 and column-major slices are rare in tests.", "anchors": ["src/Reduce.cpp:3370-3427", "src/Reduce.cpp:3146-3160"]}
{"id": "C106", "title": "Rows of a categorical are found by their categories", "statement": "For each row of the first array IsMemberCategoricalFixup says whether its category occurs in the second array and gives the first row where it does, and the invalid value for filtered rows, unmatched categories and categories without rows.", "quantifier": "all signed integer types of both arrays, contents, lengths, offsets and matchings of categories", "why_tests_cant": "The search stops early when all matched categories are found; duplicates among the categories are rare in tests.", "anchors": ["src/HashFunctions.cpp:218-310", "src/HashFunctions.cpp:320-348", "src/HashFunctions.cpp:366-483"]}
{"id": "C107", "title": "A list becomes an array of its items", "statement": "AsArray of a list whose items all have one type (bool, int, float, bytes or str) gives an array of as many items, each equal to the item of the list; lists of several types or of other types are left to numpy; an array without dimensions becomes one of one item.", "quantifier": "all lists of Python objects, all prior contents of the new memory, both sizes of long", "why_tests_cant": "The memory behind short texts is usually zero in tests; it is old data once the array comes from the recycler.", "anchors": ["src/Array.cpp:12-170", "src/Array.cpp:301-402", "src/RipTide.cpp:667-695"]}
{"id": "C108", "title": "An array read from an SDS file is the array written", "statement": "Whatever the compressor, the size of the bands and the place in the file, reading an array block gives the bytes which were written; reading it with a mask gives the rows at which the mask is set, and nothing else is in the result.", "quantifier": "all lawful compressors, all arrays, all band sizes, all files which hold the bytes at the offset of the block, all masks", "why_tests_cant": "Whether a stored size equals the size of the array depends on the data and on zstd; masks of other lengths and masks which select nothing hit divisions and memory that tests do not look at.", "anchors": ["src/SDSFile.cpp:1252-1882", "src/SDSFile.cpp:2477-2762", "src/SDSFile.cpp:3365-3415", "src/SDSFile.cpp:5872-6060", "src/SDSFile.h:265-298"]}
{"id": "C109", "title": "An SDS file is read as it was written", "statement": "Whatever the order in which the threads take their places in the file and write their arrays, the file which SDSWriteFileInternal writes is read back as the names, the metadata and the arrays with their types, flags, dimensions, strides and bytes; every array starts at a multiple of 512 and no two arrays overlap.", "quantifier": "all inputs with any number of arrays, all orders of taking places and of writing, all lawful compressors", "why_tests_cant": "The order in which arrays get their places depends on the scheduling of threads; tests see a few orders and few layouts of the parts of a file.", "anchors": ["src/SDSFile.cpp:1874-1986", "src/SDSFile.cpp:2195-2325", "src/SDSFile.cpp:2330-2465", "src/SDSFile.cpp:2555-2762", "src/SDSFile.cpp:3032-3112", "src/SDSFile.cpp:3852-3953", "src/SDSFile.cpp:4150-4345", "src/SDSFile.h:271-392"]}
{"id": "C110", "title": "Sections added to an SDS file keep the others", "statement": "After any history of sections added to a new file or to a file without sections, all sections are found in their order under their names and each is read as it was written; the lists of names are read as they were written.", "quantifier": "all histories of additions of any length, all orders of the threads in each, all contents of uninitialised memory behind the directory", "why_tests_cant": "The directory moves to the end when it outgrows its place and the header of the first section is rewritten; only long histories with particular name lengths meet these cases.", "anchors": ["src/SDSFile.cpp:1991-2180", "src/SDSFile.cpp:2206-2325", "src/SDSFile.cpp:2330-2465", "src/SDSFile.cpp:6968-7046", "src/SDSFilePython.cpp:479-567", "src/SDSFilePython.cpp:1363"]}
{"id": "C111", "title": "The concatenation of SDS files holds all their sections", "statement": "SDSConcatFiles puts files one after the other, moves all offsets in headers and array blocks, and writes a directory; reading the result gives every section of every file as it was written, in order. This holds again for concatenations of concatenations and for sections added to them.", "quantifier": "all lists of files which arose from any history of writing, adding and concatenating, all sizes of the copy buffer", "why_tests_cant": "Which offsets of which sections have to be moved depends on the histories of the files; tests concatenate few and simple files.", "anchors": ["src/SDSFile.cpp:6457-6774", "src/SDSFile.cpp:6968-7046"]}
{"id": "C112", "title": "Arrays and byte strings compressed in memory are decompressed as they were", "statement": "CompressDecompressArrays gives back, for what it compressed itself, arrays of the same type, shape and bytes, each on its own and in any order; CompressString and DecompressString do so for byte strings. Arrays which cannot be represented are refused.", "quantifier": "all lists of arrays, all byte strings, all levels, every codec which keeps the laws of zstd frames, all contents of unwritten memory", "why_tests_cant": "Headers hold sizes of any magnitude and bytes which nobody wrote; empty inputs and failures of memory are rare in tests.", "anchors": ["src/Compress.cpp:20-372", "src/Compress.cpp:379-500", "src/ZstdCompress.cpp:25-51", "src/MultiKey.cpp:144-320"]}
{"id": "C113", "title": "The type of a stacked column can hold what the files hold", "statement": "When files are stacked, the type and the item size of a column are such that every number of every file is a number of that type and every string fits; they do not depend on the order of the files; columns of numbers, of strings and of other types, or of different shapes or orders, are not mixed.", "quantifier": "all lists of blocks of any types, item sizes, dimensions and orders", "why_tests_cant": "The type is folded over any number of files with 22 types; what goes wrong needs certain triples of types or orders in a certain sequence.", "anchors": ["src/SDSFile.cpp:4479-4525", "src/SDSFile.cpp:4835-4897", "src/SDSFile.cpp:5503-5755", "src/SDSFile.cpp:6208-6300", "src/SDSFile.cpp:7360-7385"]}
{"id": "C114", "title": "Items converted in place in a stacked column keep their values", "statement": "When the rows of a file are converted to the type of a stacked column in the memory of the column, every item keeps its value: numbers and infinities are the same and the invalid of one type becomes the invalid of the other; no item is overwritten before it is read and nothing behind the rows is written.", "quantifier": "all pairs of types, all numbers of rows, all contents of memory", "why_tests_cant": "In-place loops with overlapping source and destination over any number of rows; bit patterns of all floating point numbers.", "anchors": ["src/SDSFile.cpp:4536-4625", "src/SDSFile.cpp:4695-4760", "src/SDSFile.cpp:4907-4936", "src/SDSFile.cpp:85-179"]}
{"id": "C115", "title": "Strings of files with different widths keep their characters in a stacked column", "statement": "When the strings of a file are narrower than those of the column, each is followed by zeros up to the width of the column, and byte strings in a column of 32-bit characters keep their characters; nothing behind the rows is written.", "quantifier": "all widths, all numbers of rows and columns, all contents of memory", "why_tests_cant": "The rows are stretched in place from the back; what goes wrong needs columns of two dimensions or mixed kinds of strings with certain widths.", "anchors": ["src/SDSFile.cpp:4629-4662", "src/SDSFile.cpp:5420-5495", "src/SDSFile.cpp:6003-6035"]}
{"id": "C116", "title": "A stacked column is the columns of the files one after the other", "statement": "Whatever the order in which the workers process the files, the memory of a stacked column holds the rows of all files in the order of the files with the values they have in the files, rows of files which lack the column are invalid, no worker writes outside of the rows of its file, and reserved memory behind the rows is left alone.", "quantifier": "all numbers of files, all types and widths, all lengths, all orders of the workers, all contents of memory", "why_tests_cant": "Quantifies over all schedules and all combinations of types, gaps and lengths; writes over the end of memory often go unnoticed.", "anchors": ["src/SDSFile.cpp:7355-7690", "src/SDSFile.cpp:5873-6055", "src/SDSFile.cpp:4766-4832", "src/SDSFile.cpp:6208-6305"]}
{"id": "C117", "title": "Tables in Fortran order are stacked row below row", "statement": "A column of tables which are in Fortran order in all files is stacked in Fortran order: whatever the order in which the workers process the files, the item in row r and column c of a file is in column c and row r of the rows of this file in the stacked table, rows of files which lack the column are invalid in all columns, and reserved rows are left alone.", "quantifier": "all numbers of files, rows and columns, all types, all orders of the workers, all contents of memory", "why_tests_cant": "Quantifies over all schedules and shapes; reads over the end of the buffer and rows which are never written often go unnoticed.", "anchors": ["src/SDSFile.cpp:5310-5335", "src/SDSFile.cpp:5763-5860", "src/SDSFile.cpp:5027-5059", "src/SDSFile.cpp:5187-5256", "src/SDSFile.cpp:7652-7662"]}
{"id": "C118", "title": "A filter on stacked columns keeps the rows at which it is set", "statement": "A column that is stacked with a boolean mask has exactly the rows of the stacked column without a mask at which the mask is set, in their order, after conversion and widening, with invalid values for files which lack the column, whatever the order in which the workers process the files; the memory that is allocated has exactly these rows.", "quantifier": "all masks (also shorter or longer than the rows), all numbers of files and rows, all types of numbers and strings, all orders of the workers, all contents of memory", "why_tests_cant": "Relates two runs over all masks, schedules and mixtures of types; writes over the end of memory often go unnoticed.", "anchors": ["src/SDSFile.cpp:7202-7213", "src/SDSFile.cpp:7373-7500", "src/SDSFile.cpp:3360-3400", "src/SDSFile.cpp:5873-6055", "src/SDSFile.cpp:1530-1718"]}
{"id": "C119", "title": "Membership by a graph of tasks finds equal items in every order of the tasks", "statement": "The ismember that splits the second array into ranges and fills hash tables concurrently reports an item as found exactly when an equal one is in the second array, and the reported place holds an equal one, whatever the order in which the tasks run; with one range it is the first such place. Strings are compared by their text without padding.", "quantifier": "all arrays of numbers and strings, all orders of the messages to the tables", "why_tests_cant": "Depends on the order of concurrent tasks and on arrays of exactly a million items or on casts of lengths.", "anchors": ["src/is_member_tg.h:66-86", "src/is_member_tg.h:234-335", "src/is_member_tg.h:357-429", "src/HashLinear.cpp:5760-5841"]}
{"id": "C120", "title": "Cuts by a sort give every value the label of its bin", "statement": "Given the order of the values, the counts of NaNs, infinities and invalid integers are those of the values, and the labels made with those counts are 0 for every NaN and infinity, 1 for every value outside of the edges, and one more than the number of the first edge that is not below the value otherwise (the smallest value at the first edge belongs to the first bin).", "quantifier": "all arrays of fewer than 2^31 values, all orders that sort them, all lists of at least two edges in order without NaN", "why_tests_cant": "A read one past the last edge is not seen by tests, and the result depends on all values, all orders and all edges.", "anchors": ["src/Bins.cpp:342-413", "src/Bins.cpp:532-632", "src/Bins.cpp:693-815"]}
{"id": "C121", "title": "Rows of several keys are found where all keys agree", "statement": "Membership by several key arrays finds each row of the first set of arrays at the first row of the second set that agrees with it in every array, and reports the invalid index for rows that agree with none, for every hash, hint and schedule.", "quantifier": "all numbers of arrays and rows, all item widths, all bytes, all hash functions, all hints, all schedules of worker threads", "why_tests_cant": "Collisions, splits of the same bytes into different arrays and full tables depend on all bytes, widths and hints; tests pick a few types.", "anchors": ["src/MultiKey.cpp:13-90", "src/MultiKey.cpp:346-466", "src/MultiKey.cpp:1596-1690", "src/HashLinear.cpp:666-778", "src/HashLinear.cpp:1205-1275", "src/HashLinear.cpp:5473-5600"]}
{"id": "C122", "title": "Re-indexing gives the items the index names", "statement": "Re-indexing an array by an integer array gives, for each entry of the index, the bytes of the item of that number, for every item size and every way of sharing the rows among threads.", "quantifier": "all numbers of rows, all item sizes, all bytes, all index types and values, all arguments, all schedules of worker threads", "why_tests_cant": "Structures, addresses, index values and block boundaries are chosen by the caller; an overflow of one byte per item is not seen by comparing results.", "anchors": ["src/Bins.cpp:21-222", "src/Sort.h:41-101", "src/MultiKey.cpp:145-324", "src/RipTide.cpp:849-872"]}
{"id": "C123", "title": "Arrays made like another one have room for its items", "statement": "An array made like another one, with the same or another number of rows, has items of the size that will be written to it, each in its own place within the memory of the array.", "quantifier": "all types, item sizes, numbers of rows and strides; all masks, indexes and schedules for the consequences", "why_tests_cant": "The memory behind an array is not seen by tests; the types and strides for which the room is missing are rare.", "anchors": ["src/RipTide.cpp:597-711", "src/RipTide.cpp:789-872", "src/Merge.cpp:330", "src/Merge.cpp:1380"]}
{"id": "C124", "title": "Positions among categories are right for every type", "statement": "IsMemberCategorical gives every element the number (from 1 on) of the first category equal to it, or 0 when there is none, and its flag tells whether there is an element without a category, for every type, stride, hash function and schedule; types it cannot handle are refused.", "quantifier": "all arrays, types, item sizes, strides, hash functions, hash modes and schedules of worker threads", "why_tests_cant": "The answers depend on the type, the strides and the hash mode together; memory that is never written or read outside the table often looks right by accident.", "anchors": ["src/HashFunctions.cpp:48-205", "src/HashLinear.cpp:593-624", "src/HashLinear.cpp:1612-1674", "src/HashLinear.cpp:2478-2570", "src/HashLinear.cpp:4533-4612", "src/HashLinear.cpp:5407-5450"]}
{"id": "C125", "title": "A table in shared memory is read back as it was written", "statement": "Saving a table under the name of a share writes every part (header, names, metadata, blocks, arrays) inside the mapping that was asked for and apart from each other, and reading the share returns the names, the metadata, the type and for every array its shape, its type and every one of its items.", "quantifier": "all tables: any number of arrays, any shapes, strides, item sizes and types, any names and metadata", "why_tests_cant": "A part that is written one byte outside lands in the rest of the last page; strided arrays, arrays without dimensions and strings without a width are rarely put into shares, and a reader must come between two writes to see a half-written share.", "anchors": ["src/SDSFile.cpp:1874-1938", "src/SDSFile.cpp:2768-2795", "src/SDSFile.cpp:2882-3032", "src/SDSFilePython.cpp:874-953", "src/SDSFilePython.cpp:1395-1452", "src/RipTide.cpp:713-786", "src/SharedMemory.cpp:705-790"]}
{"id": "C126", "title": "A file read through a share is the file", "statement": "Reading a file under the name of a share returns the table which is stored in that file - names, metadata, and every array with its shape, type and items - whether or not the share was made before; different files have different shares, and the share of a failed copy is not used.", "quantifier": "all stored tables, all codecs, all names and directories, all changes of the files between the reads, all masks", "why_tests_cant": "It depends on the history: which file of that name was read first, with which mask, and whether an earlier copy failed; tests use fresh names and read once.", "anchors": ["src/SDSFile.cpp:1044-1094", "src/SDSFile.cpp:2477-2550", "src/SDSFile.cpp:3852-3953", "src/SDSFile.cpp:3962-4122", "src/SDSFile.cpp:4365-4458", "src/SharedMemory.cpp:705-870"]}
{"id": "C127", "title": "The operators of an array do what they say", "statement": "After the hook each operator of Python runs its own calculation on arrays and falls back to numpy's function of the same operator; `x op y` gives a new array and leaves its operands and their references alone; `x op= y` changes `x` itself, keeps its type, its class and its length, and gives `x` back; small integer powers are the repeated products.", "quantifier": "all calculations and their types, all arrays, views and scalars, all references and memory conditions, any number of calls of the hook", "why_tests_cant": "Whether the same object came back, whether a view sees the change and who owns a reference is not seen by comparing values; the failing cases need overlapping views, classes derived from FastArray or an exhausted memory.", "anchors": ["src/Hook.cpp:46-164", "src/Hook.cpp:169-266", "src/Hook.cpp:293-383", "src/BasicMath.cpp:2796-2970", "src/BasicMath.cpp:3390-3556"]}
{"id": "C128", "title": "A group-by call runs the right function of each column on memory it owns", "statement": "For each function number and type of a column GroupByAll32 and GroupByAllPack32 choose a function which reads the type of the column and writes the documented type of result, with the temporary array and the counts which it needs; a call whose ranges of bins lie inside gives one result for each column, of the same types whether threads divide the work or not, and touches no memory outside of its arrays.", "quantifier": "all function numbers, all types and item sizes of columns, all numbers of columns, rows and bins, all ranges of bins", "why_tests_cant": "There are about 25 functions times 21 types times the threads' and the plain path; a wrong size of a result is a write past its end that usually goes unnoticed, and the paths depend on the number of rows and cores.", "anchors": ["src/GroupBy.cpp:2990-3560", "src/GroupBy.cpp:3560-4240", "src/GroupBy.cpp:4242-4900", "src/RipTide.cpp:597-700", "src/RipTide.cpp:849-872"]}
{"id": "C129", "title": "An as-of merge call matches each left row with the nearest right row of the same keys", "statement": "MultiKeyAlign32 returns for each left row the last (forward: the first) right row with the same items in all key arrays whose time is valid and not after (not before) the left time, or the invalid number; MergeBinnedAndSorted does so for keys which are category numbers; other types, lengths and keys are refused without losing memory.", "quantifier": "all keys of any number of arrays and widths, all times of all types, lengths and steps, all hash functions", "why_tests_cant": "Tests use packed arrays of the common types; strided times, keys of another width than the times and unusual type numbers give plausible wrong rows or reads outside of arrays.", "anchors": ["src/MultiKey.cpp:1695-1854", "src/HashLinear.cpp:4846-5065", "src/HashLinear.cpp:6152-6238", "src/RipTide.cpp:188-196"]}
{"id": "C130", "title": "A group-by call on rows of several arrays numbers the groups by first appearance, in each partition", "statement": "MultiKeyGroupBy32 returns for each row 0 if the filter drops it and else the number of its group, groups numbered from 1 by the order of first appearance, with the first row of every group; with cutoffs each partition is grouped on its own and the numbers of uniques are summed up; unfit filters, hints and cutoffs are refused and a full table gives an error without any result.", "quantifier": "all key arrays of any number and widths, all filters of all lengths and steps, all hints, hash modes, hash functions, cutoffs and schedules of the partitions", "why_tests_cant": "Small tests never fill a table, use packed filters and the default hash mode, so merged small keys, ignored steps and lost arrays are never seen.", "anchors": ["src/MultiKey.cpp:362-443", "src/MultiKey.cpp:970-1104", "src/HashLinear.cpp:5142-5228", "src/HashLinear.cpp:5944-6122"]}
{"id": "C131", "title": "The uniques, group lists, links and rolling counts of rows of several arrays", "statement": "MultiKeyUnique32 returns the first row and the count of every distinct kept row; MultiKeyGroupBy32Super the groups, the next row in the group and the counts; MultiKeyHash the number, running count, total, previous, next, first and last row of the same key; MultiKeyRolling numbers and counts over the whole history of calls with the same object.", "quantifier": "all key arrays of any number and widths, all filters, hints, hash modes and functions, all histories of calls", "why_tests_cant": "The failures need full tables, wide rolling keys, negative hints or long histories, and outputs that are not written look plausible.", "anchors": ["src/MultiKey.cpp:1123-1254", "src/MultiKey.cpp:1266-1403", "src/MultiKey.cpp:1421-1490", "src/MultiKey.cpp:1496-1588", "src/HashLinear.cpp:3106-3318", "src/HashLinear.cpp:3325-3478", "src/HashLinear.cpp:3483-3565", "src/HashLinear.cpp:3570-3662"]}
{"id": "C132", "title": "A membership call says of every element whether and where the other array has it", "statement": "IsMember32 returns for each element of the first array whether the second array has an equal item (equal bytes; equal numbers for floats, with NaN in no array; equal contents for text) and the first place of it, or the invalid number of the index type; other pairs of types, items without size and objects are refused, and no array made by the call is lost.", "quantifier": "all types and widths of both arrays, all lengths, hash modes, hints, hash functions, numbers of arguments and schedules of threads", "why_tests_cant": "Lost arrays, uninitialised results for wide numbers, hints that are too small, strided views and zeros of two signs give plausible results or none that a comparison would notice.", "anchors": ["src/HashLinear.cpp:5684-5904", "src/HashLinear.cpp:5606-5621", "src/HashLinear.cpp:5364-5403", "src/HashLinear.cpp:4426-4500", "src/HashLinear.cpp:4352-4413"]}
{"id": "C133", "title": "A reduce call answers its function of its array or leaves it to numpy", "statement": "Reduce with a function number named in Reduce.h and an array of booleans, integers or floats returns that function of the items (minimum, maximum, their positions, sum, mean, variance, standard deviation, each in the form which propagates and the form which skips invalid values); every other type and every other number is left to numpy by returning None; no call crashes or returns NULL without an exception.", "quantifier": "all type numbers, function numbers, arrays, values of ddof, argument lists and distributions of the work over the cores", "why_tests_cant": "Seventeen functions times more than twenty types and the argument forms make hundreds of pairs; the pairs which go wrong (means of strings, positions in arrays of objects, the number 210, numbers beyond 32 bits) are the ones nobody writes a test for.", "anchors": ["src/Reduce.cpp:3054-3120", "src/Reduce.cpp:3128-3360", "src/Reduce.cpp:3370-3427", "src/Reduce.cpp:2948-3050", "src/Reduce.h:6-35"]}
{"id": "C134", "title": "EmaAll32 answers its cumulative function for every column", "statement": "EmaAll32 with columns, a key of signed integers with groups 1..uniq, a function number of Ema.h, a number, an optional time and optional include and reset masks of as many rows returns, for each column, an array with an item for each row: the running sum, product, count, extreme or moving average of the group of the row over the included rows since the last reset, in the result type of the function and the column; None for a column type or number without function; every other call raises an exception; no call accesses memory outside of its arrays; and the distribution of the columns over threads does not matter.", "quantifier": "all lists of columns, types, keys, masks, times, function numbers, argument forms, and schedules of the columns over threads", "why_tests_cant": "Ten functions times fourteen column types times eight time types, with masks, steps and lengths of five arrays which may disagree; the failing calls (shorter columns, steps, objects which are no arrays, long double times) corrupt memory silently.", "anchors": ["src/Ema.cpp:1952-1978", "src/Ema.cpp:1980-2250", "src/Ema.cpp:2258-2314", "src/Ema.cpp:2323-2536", "src/Ema.h:23-35"]}
{"id": "C135", "title": "ConvertSafe and ConvertUnsafe return the array of the asked type", "statement": "ConvertSafe and ConvertUnsafe of an array of booleans, integers or floats and the number of such a type return an array of that type and of the same shape, contiguous in C or Fortran order, whose item at every index is the converted item of the input: ConvertSafe keeps every value which the type has, makes invalid of invalid, NaN and infinities (NaN for floats); ConvertUnsafe casts. Other types, numbers and arguments are refused. No call accesses memory outside of its arrays, and the distribution over threads does not matter.", "quantifier": "all pairs of types, all shapes and strides, all items, all argument lists, all schedules of the threads", "why_tests_cant": "196 pairs of types times shapes and strides of any number of dimensions; the scrambled order needs a strided array in Fortran order, the accesses out of bounds are silent, and the block-wise work needs large arrays.", "anchors": ["src/Convert.cpp:543-836", "src/Convert.cpp:996-1038", "src/Convert.cpp:1050-1240", "src/Convert.cpp:1252-1347", "src/RipTide.cpp:2098-2176", "src/RipTide.cpp:2310-2374"]}
{"id": "C136", "title": "LexSort32 and LexSort64 order the rows with all their keywords", "statement": "LexSort32 and LexSort64 of one or more arrays of the same length return the row numbers in the stable lexicographic order by all arrays, the last one first, each ascending or descending as the keyword ascending says, NaNs at the end; with cutoffs, the same for every partition with its rows counted from its begin; with an index, the row numbers passed, sorted in the array passed. Every other call raises an exception, and no call accesses memory outside of its arrays or returns memory which was never written.", "quantifier": "all lists of arrays of all types, all keywords in all combinations, all schedules of the threads", "why_tests_cant": "The keywords combine and the failing combinations are silent: memory next to the index is overwritten, uninitialised memory is sorted, directions are read from the wrong byte, complex numbers are passed over.", "anchors": ["src/Sort.cpp:3072-3127", "src/Sort.cpp:3352-3635", "src/Sort.h:41-101", "src/MultiKey.cpp:143-324"]}
{"id": "C137", "title": "Reading SDS files with include, folders and sections reads the columns named", "statement": "When SDS files are read with a list of columns (include) and a list of folders, exactly the columns named of the folders named are read, together with the parts of categorical columns and the entries of these folders; without a list all are. The order of the lists and repetitions do not matter. The same holds of reading one file and of reading many, and an argument which names nothing that can be understood raises an exception.", "quantifier": "all names of columns, all lists of names of all lengths, all kinds of items in them, all histories of a list", "why_tests_cant": "The choice depends on the bytes / and ! inside the names, on where they stand, and on lists with one member taking another path; a list which is not understood silently reads everything.", "anchors": ["src/SDSFile.cpp:1098-1246", "src/SDSFile.cpp:3299-3360", "src/SDSFile.cpp:3534-3558", "src/SDSFile.cpp:7830-7980", "src/SDSFilePython.cpp:424-466", "src/SDSFilePython.cpp:1668-1935"]}
{"id": "C138", "title": "The second engine for operations on one array computes every item and stays inside its output", "statement": "process_one_input applies the function asked for to every item of an array of any shape and any distances: abs, neg, invert, floor, ceil, trunc, round and sqrt give an array of the same type with the mathematical result for each item, whatever its position; isnan, isnotnan, isfinite and isnotfinite give an array of bool. A given output of the right type and length is filled and returned. Every call ends, and stores only into the items of its output; what cannot be computed is refused with None.", "quantifier": "all function and type numbers, all shapes and distances of input and output, all items", "why_tests_cant": "Registers are used for all but the last items, so that results depend on position and length; stores behind the end of an array or between its items often go unnoticed.", "anchors": ["src/one_input.cpp:18-219", "src/one_input_impl.h:24-51", "src/one_input_impl.h:120-266", "src/one_input_impl.h:387-475", "src/one_input_impl.h:565-691", "src/operation_traits.h:12-156", "src/simd/avx2.h:2943-2953"]}
{"id": "C139", "title": "BinsToCutsBSearch answers rightly for every pair of types", "statement": "For values and bins of any of the types the call takes, in arrays of any shape and distances, and any split over threads, BinsToCutsBSearch gives every value its bin (mode 0), or the number of bins below it (mode 1) or not above it (mode 2), compared as numbers: no cast between the two types changes an answer or is undefined. The result has the shape of the values and the smallest signed type for the number of bins; types and modes it does not know are refused.", "quantifier": "all type numbers, modes, shapes, distances, items and thread schedules", "why_tests_cant": "126 instances of three templates; the answers depend on single values at the limits of the types, on the side of zero of an edge, and on rounding of casts in both directions.", "anchors": ["src/Bins.cpp:816-976", "src/Bins.cpp:1350-1540", "src/Bins.cpp:1546-1722", "src/Bins.cpp:1734-1956"]}
{"id": "C140", "title": "The mask calls answer for arrays of any shape and strides", "statement": "BooleanSum, BooleanIndex and BooleanToFancy of a boolean mask of any shape and strides answer for the items of the mask: the number of True items, the values at which the mask is True in numpy's order, and the numbers of the True items (with both=True followed by the False ones and the number of True). Values may be of any type and shape with the same number of items. Nothing outside of the arrays and of the result is read or written, under every schedule of the workers; masks of other types and different lengths are refused.", "quantifier": "all shapes, strides, item sizes, kinds of types, contents and thread schedules", "why_tests_cant": "The stride is guessed from the first and last dimension only, so what goes wrong depends on combinations of shapes, single-item dimensions, orders and slices, and wrong answers depend on bytes which are not part of the arrays.", "anchors": ["src/Merge.cpp:248-759", "src/Merge.cpp:1466-1712", "src/RipTide.cpp:2310-2374", "src/RipTide.cpp:849-872"]}
{"id": "C141", "title": "The calls on arrays of date and time strings answer for their items", "statement": "TimeStringToNanos, DateStringToNanos, DateTimeStringToNanos and StrptimeToNanos of an array of bytes or characters of any shape, strides and order of bytes answer the nanoseconds of the texts of its items in numpy's order, and the first text with an error is reported by a warning. Other types are refused. No memory outside of the array is read, and no value is negative or beyond the years of the parser.", "quantifier": "all shapes, strides, item sizes, both kinds of strings, both orders of bytes, all texts, formats and warning filters", "why_tests_cant": "Strides and byte order are never looked at, so the answer depends on bytes which are not part of the array; tests with fresh contiguous arrays never see it.", "anchors": ["src/DateTime.cpp:457-534", "src/DateTime.cpp:543-597", "src/DateTime.cpp:606-660", "src/DateTime.cpp:667-791"]}
{"id": "C142", "title": "mbget answers for arrays of any type and shape with any default", "statement": "mbget of values of any type and shape, an index of integers of any shape, and a default gives, for every number of the index, the item which Python's rules select from the items of the values in numpy's order, or for an index out of range the default as an item of the type, or riptide's invalid value if there is none. A mask as index selects the items at which it is True. Other indices and defaults which the type cannot hold are refused; no memory is read which is not an item or the default.", "quantifier": "all types of values and index, shapes, strides, numbers of the index, defaults (None, bools, integers of Python and numpy, floats, texts, others), and schedules of the workers", "why_tests_cant": "The default is converted by a switch over some 14 x 7 combinations of types, some of which read memory never written or throw through the interpreter; which of them go wrong shows only with an index out of range, and often only by chance.", "anchors": ["src/Merge.cpp:1286-1460", "src/RipTide.cpp:1084-1330", "src/RipTide.cpp:2099-2177"]}
{"id": "C143", "title": "Reading SDS files with a mask reads the rows of the mask", "statement": "Reading one SDS file, or several which are not stacked, with a boolean mask gives for every column of a dataset the rows at which the mask is True, in their order, and all of every other array; the new arrays have as many rows as were selected and no other memory is read or written. If fancy is given, a mask of the wrong length is refused.", "quantifier": "all files and arrays with any flags, dimensions, bands and compression, all masks with any stride, all values of fancy, any number of files", "why_tests_cant": "The number of rows of a new array is counted in one place and written in another, with two different lengths of the mask; they agree for tables whose first array is a column, which is what tests use.", "anchors": ["src/SDSFile.cpp:3366-3396", "src/SDSFile.cpp:3496-3615", "src/SDSFile.cpp:6357-6451", "src/SDSFilePython.cpp:1600-1642"]}
{"id": "C144", "title": "TimeWindow answers the sum or product of the window of every row for arrays of any type and shape", "statement": "The call TimeWindow answers for every row the sum or the product of the values whose times are at most delta before the time of the row: as int64 for booleans and integers with a sign, as uint64 modulo 2^64 for the others, in their own type for floats. Arrays of different length and times which are not int64 are refused, and other types and functions are answered by None.", "quantifier": "all pairs of arrays with any type, shape, strides, order of bytes and memory, all functions and deltas, all splits over threads", "why_tests_cant": "Strides, the order of bytes, invalid values and overflows of sums and of differences of times depend on the layout and on extreme values, and an overflow of a signed integer is undefined, which a test does not see.", "anchors": ["src/TimeWindow.cpp:18-100", "src/TimeWindow.cpp:102-146", "src/TimeWindow.cpp:157-248"]}
{"id": "C145", "title": "MakeiNext, GroupByPack32, GroupFromBinCount and BinCount link, pack and count the keys of an array of any type and layout", "statement": "For an array of keys, MakeiNext answers the next (or previous) row of the same group, GroupByPack32 and GroupFromBinCount answer the rows of every group one after the other, and BinCount answers the number of rows of every group; keys of another type than a signed integer, links of another length, counts of another type, and numbers of groups which are not positive are refused with an exception.", "quantifier": "all arrays of keys, counts and links with any type, shape, strides, order of bytes and memory, all numbers of groups, all outcomes of memory requests, all splits over threads", "why_tests_cant": "Null function pointers, requests for memory which wrap around, scratch arrays which cannot be allocated, and arrays read past their end depend on the layout, on memory and on extreme arguments.", "anchors": ["src/MultiKey.cpp:486-606", "src/MultiKey.cpp:612-950", "src/MultiKey.cpp:1996-2199", "src/MultiKey.cpp:2242-2655", "src/Recycler.cpp:53-68"]}
{"id": "C146", "title": "ReverseShuffle, ReIndexGroups, CombineFilter and MakeiFirst work on the keys of an array of any type and layout", "statement": "For an array of keys, ReverseShuffle answers the inverse of a permutation, ReIndexGroups renumbers the keys of every partition through the unique keys of that partition, CombineFilter sets the keys of the rows which are not kept to 0, and MakeiFirst answers the first (or last) kept row of every group; keys, unique keys, cutoffs and filters of another type or length are refused with an exception.", "quantifier": "all arrays of keys, unique keys, cutoffs and filters with any type, shape, strides, order of bytes and memory, all numbers of groups, all splits over threads and orders of partitions", "why_tests_cant": "Arrays of another type but of the same size of items, cutoffs behind the last key, and strided or swapped arrays give wrong keys or memory errors only for particular layouts and schedules.", "anchors": ["src/Merge.cpp:1827-1890", "src/Merge.cpp:1932-1983", "src/Convert.cpp:1433-1530", "src/Convert.cpp:2421-2525"]}
{"id": "C147", "title": "BuildArrayInfo describes every array of a list, or refuses the list", "statement": "For an array, a tuple or a list, BuildArrayInfo answers for every item its type, the size of its items, its length and a block with its items one after the other (a copy if the array is strided), and the sum of the sizes; anything which is no array, arrays of other dimensions or of unknown type, and arrays of different lengths are refused with an exception.", "quantifier": "all lists of objects, with arrays of any type, shape, strides, order of bytes and memory; with and without the check of rows and the conversion; all patterns of missing memory", "why_tests_cant": "Arrays without dimensions, slices of one item, permuted axes and missing memory are single points of a space of layouts which tests with fresh arrays never reach.", "anchors": ["src/MultiKey.cpp:89-324", "src/RipTide.cpp:242-258", "src/MultiKey.h:4-34"]}
{"id": "C148", "title": "NanInfCountFromSort and BinsToCutsSorted on arrays of any type and layout", "statement": "For values and an index which sorts them, NanInfCountFromSort answers the numbers of NaNs, infinities and negative infinities (of invalid integers), and BinsToCutsSorted with these counts answers 0 for every counted value and the label of its bin for every other one, whatever the types and layouts; arguments of other types, lengths or counts are refused with an exception.", "quantifier": "all arrays of values, edges and index with any type, shape, strides, order of bytes and memory; all counts; all lists of arguments; all patterns of missing memory", "why_tests_cant": "Values above the last edge, negative counts, a short index, strided edges and empty argument lists read memory next to the arrays, which rarely shows in a test.", "anchors": ["src/Bins.cpp:340-510", "src/Bins.cpp:532-815", "src/Sort.h:41-91"]}
{"id": "C149", "title": "Size and start of the pool of workers, and its state in a forked child", "statement": "There is one worker for each processor the process may run on, at most 31 and at least one; an operation wakes between one worker and the setting made from Python, which is the number asked for brought into the range 1 to 31; loading the module returns, under any schedule, with all the workers numbered differently and idle; and a forked child can use the pool.", "quantifier": "all sets of processors; all histories of settings; all numbers of workers, failures of thread creation and interleavings of the loading thread with the new threads; all moments of a fork between operations", "why_tests_cant": "Tests run on a small machine where every thread can be created and the races of the start and of a fork are almost never lost.", "anchors": ["src/MathWorker.cpp:371-406", "src/MathWorker.cpp:474-535", "src/MathWorker.h:98-156", "src/MathThreads.cpp:80-185", "src/RipTide.cpp:1577-1590"]}
{"id": "C150", "title": "CombineAccum1Filter and CombineAccum2Filter on arrays of any type and layout", "statement": "Called with arrays of group numbers of any signed integer types, CombineAccum2Filter gives every kept row the number second * (max1 + 1) + first of its pair and the others 0, in the narrowest type which holds all pairs, and CombineAccum1Filter numbers the kept groups anew by first appearance and returns their first rows; whatever the layout, the order of bytes and the filter, and every other argument is refused.", "quantifier": "all arrays, memory contents, types, maxima, filters and answers of the allocator; all schedules of the parallel loop", "why_tests_cant": "Tests use small contiguous arrays in native order, maxima which fit, and memory which is granted.", "anchors": ["src/Convert.cpp:1728-2028", "src/Convert.cpp:2067-2155", "src/Convert.cpp:2181-2290"]}
{"id": "C151", "title": "IsSorted, SortInPlace, Sort and SortInPlaceIndirect on arrays of any type and layout", "statement": "IsSorted answers for an array in one dimension of any comparable type whether no item comes after a greater one (NaNs last, text by characters), SortInPlace and Sort put the items of an array in order in each of their modes, and SortInPlaceIndirect replaces each key by its place in the given order; whatever the layout, the order of bytes and the memory granted, and every other argument is refused.", "quantifier": "all arrays, memory contents, types, modes and answers of the allocator; all races of the checking callbacks", "why_tests_cant": "Tests sort small contiguous arrays in native order with memory granted; the failures are silent.", "anchors": ["src/Sort.cpp:2686-2741", "src/Sort.cpp:2864-2940", "src/Sort.cpp:2951-3066", "src/Sort.cpp:3216-3346", "src/RipTide.cpp:671-679"]}
{"id": "C152", "title": "GroupFromLexSort on arrays of any type and layout, with its keywords", "statement": "GroupFromLexSort numbers the rows of an array by the runs of equal items in the order given by an index array, and returns the number of every row, the first row and the size of every group; with cutoffs each partition is grouped on its own; filtered rows go to the zero bin; every layout, order of bytes and type gives the same groups, and the arguments which are passed in are left as they are; every other argument is refused.", "quantifier": "all index arrays, values, cutoffs, filters, base indices, memory contents, answers of the allocator and interleavings of the workers", "why_tests_cant": "Tests group small contiguous arrays with memory granted; what is never written to often happens to be right.", "anchors": ["src/Sort.cpp:3352-3378", "src/Sort.cpp:3639-3681", "src/Sort.cpp:3875-3919", "src/Sort.cpp:3927-4321", "src/Sort.cpp:4340-4381"]}
{"id": "C153", "title": "Saving arrays to a file and loading them again", "statement": "CompressFile writes metadata, names with their values and a list of arrays, and DecompressFile of that file returns the same metadata, the same names and, for every array, an array with the same shape and type and the same items at the same places, whatever the layout of the array and whatever the threads which write do; what cannot be saved so is refused with an exception and nothing is written.", "quantifier": "all lists of arrays of any layout with up to five dimensions, names, metadata, levels of compression, orders in which the threads take offsets and write, and answers of the allocator and of the system", "why_tests_cant": "Tests save a few small contiguous arrays of the machine's byte order; the layouts, the orders of the threads and the failing allocations are far too many to be tried.", "anchors": ["src/SDSFilePython.cpp:479-566", "src/SDSFilePython.cpp:1207-1269", "src/SDSFilePython.cpp:1310-1519", "src/SDSFilePython.cpp:1523-1596", "src/SDSFilePython.cpp:1668-1756", "src/RipTide.cpp:242-258", "src/SDSFile.cpp:3126-3154"]}
{"id": "C154", "title": "Reading, stacking and joining many files", "statement": "The calls which take a list of files answer for the files of the list in its order, with their sections: reading gives an entry for each, stacking one table and joining one file of all which can be read; a file which cannot be read is passed over unless the files must exist, and then an exception names it; infos are given when only they are asked for; and nothing of this depends on the order in which threads open the files or on what happened in earlier calls.", "quantifier": "all lists of names, all disks (missing, damaged, sectioned files), all orders in which the threads open the files, and all histories of earlier calls", "why_tests_cant": "Tests read a few files which are all there; which files are missing or damaged, which order the threads take and which errors earlier calls left can be combined in too many ways.", "anchors": ["src/SDSFilePython.cpp:355-371", "src/SDSFilePython.cpp:1668-1756", "src/SDSFilePython.cpp:1765-1970", "src/SDSFile.cpp:183-207", "src/SDSFile.cpp:4218-4350", "src/SDSFile.cpp:6345-6352", "src/SDSFile.cpp:6678-7046", "src/SDSFile.cpp:7054-7275", "src/SDSFile.cpp:7875-7980"]}
{"id": "C155", "title": "ShiftArrays as a call, on arrays of any type and layout", "statement": "ShiftArrays with a list of arrays of any types, shapes and layouts gives every row of every array what the row k further had, keeps rows for which there is none, changes no other byte, and does so in whatever order its threads run; what it cannot shift is an exception and leaves everything as it was.", "quantifier": "all lists with None between the arrays, all types and sizes of items, all shapes and strides, all shifts of 64 bits, all orders of the threads, and all places of the arrays in memory", "why_tests_cant": "Whether rows or items move depends on strides, and overlaps, overflows and orders of threads depend on sizes and places no test enumerates.", "anchors": ["src/Convert.cpp:3067-3211", "src/MultiKey.cpp:89-324", "src/RipTide.cpp:242-258"]}
{"id": "C156", "title": "HStack, HomogenizeArrays and GetUpcastNum as calls, on arrays of any type and layout", "statement": "HStack of a list of arrays gives, in whatever order its threads run, one array of the common type (or the type asked for) with the values of the arrays one after another as numpy lists them, invalid ones staying invalid, and strings filled up with zeros to the widest; HomogenizeArrays gives for every array one of the common type with its values; GetUpcastNum gives the number of that type; what cannot be joined is an exception.", "quantifier": "all lists of arrays of all types, byte orders, shapes and strides, with None among them, all types asked for, all orders of the threads, and with and without memory", "why_tests_cant": "The pairs of types, layouts and orders of threads are too many to list, and values at the ends of types are rarely tried.", "anchors": ["src/Convert.cpp:2764-3060", "src/Convert.cpp:3214-3310", "src/Convert.cpp:2600-2758", "src/MultiKey.cpp:89-324"]}
{"id": "C157", "title": "BasicMathUnaryOp and BasicMathOneInput as calls, on arrays of any type and layout", "statement": "An operation on one array (absolute value, negation, sign, complement, rounding, roots, logarithms, exponentials and the tests for NaN, infinity, zero and so on) gives, whatever the length, the alignment and the work of the threads, a new array of the type which the operation has for the type of the array, with the answer for each item at the same index, or fills the output with these answers; numbers without an operation and types without a kernel are left to numpy.", "quantifier": "all numbers of operations, all types, shapes, strides and contents of the array and of the output, all alignments, schedules of the threads, and with and without memory", "why_tests_cant": "27 operations times 16 types times layouts times the ways through registers, blocks and rows cannot be listed; the smallest integers and other byte orders are rarely tried.", "anchors": ["src/UnaryOps.cpp:1592-2427", "src/UnaryOps.cpp:2484-2703", "src/UnaryOps.cpp:2708-2764", "src/UnaryOps.cpp:2792-2853"]}
{"id": "C158", "title": "SetItem, PutMask and ApplyRows as calls, on arrays of any type and layout in one memory", "statement": "SetItem writes the values one after another, or one value, to the items of the array where the mask is true and changes no other byte; PutMask replaces these items by the items of the values at the same place, converted with riptide's invalid carried over; both do so whatever the sections and threads do, and answer False and change nothing when the arguments do not fit; ApplyRows refuses arguments which do not fit.", "quantifier": "all arguments, all types, shapes, strides, byte orders and places of the three arrays in one memory, all contents, all schedules of the threads, and with and without memory for the counts", "why_tests_cant": "Places in memory which overlap, strides, byte orders, all pairs of types and all schedules cannot be listed; code which ignores strides is right for the arrays which tests make.", "anchors": ["src/Convert.cpp:124-198", "src/Convert.cpp:838-976", "src/Convert.cpp:3446-3773", "src/Convert.cpp:3782-3870", "src/Convert.cpp:3875-3975", "src/Convert.cpp:3986-4050"]}
{"id": "C159", "title": "The calls of the recycler: SetRecycleMode, RecycleSetGarbageCollectTimeout, RecycleGarbageCollectNow, RecycleDump, RecycleNumpy, TryRecycleNumpy and AllocateNumpy", "statement": "After any history of the calls and of the program's own use of its arrays there is no undefined behaviour, no array is kept twice, every kept array has one reference more than the program holds, what came less what went is what is kept, and the hits are the arrays handed out. RecycleGarbageCollectNow gives up exactly the arrays kept longer than the given time and answers their number; TryRecycleNumpy hands out the first kept array which fits an array of the list and which nobody else holds; RecycleNumpy answers True exactly when the array is kept afterwards, driving out at most one other array; AllocateNumpy gives a kept array or a new one of the type and shape asked for; RecycleDump adds the lengths of the kept arrays.", "quantifier": "all histories of calls with all arguments, all arrays, all times, all outcomes of numpy's allocation", "why_tests_cant": "The state is 3584 slots with the references of all arrays of the program; which array is handed out or given up depends on the whole history and on the time, and a wrong count shows only much later as memory used by two arrays.", "anchors": ["src/Recycler.cpp:413-494", "src/Recycler.cpp:497-527", "src/Recycler.cpp:531-579", "src/Recycler.cpp:583-594", "src/Recycler.cpp:606-802", "src/Recycler.cpp:805-967", "src/RipTide.cpp:597-710"]}
{"id": "C160", "title": "The life of shares on Linux: names, objects, descriptors, mappings and counters of SDSWriteFile and SDSReadFile with a share name", "statement": "A table saved under a name is in a new object which has the name from then on, the process holds as many descriptors as before, and every process which may read it gets the whole table whatever its file is. No call of any process changes an object which was there before, takes a name other than its own, or ends a mapping or a descriptor held before, so that what a reader holds stays what it was whatever is saved later. A file without a share is copied into one which stays open and is counted; a share of somebody else which may not be read stays and the file is read. Every history of calls of any number of processes is defined. A failure to save is told to the caller, and reading gives back what it took.", "quantifier": "all histories of saves and reads by any processes with any users, permissions, tables of descriptors and outcomes of ftruncate, mmap and malloc; all names, tables and sizes", "why_tests_cant": "The errors need a second process at the right moment, a full table of descriptors, a closed standard input, a full /dev/shm or a second save in one process whose write into freed memory goes unseen.", "anchors": ["src/SharedMemory.cpp:704-879", "src/SharedMemory.h:52-58", "src/SDSFile.cpp:878-901", "src/SDSFile.cpp:950-1096", "src/SDSFile.cpp:2813-2819", "src/SDSFile.cpp:2882-3032", "src/SDSFile.cpp:3962-4145", "src/SDSFile.cpp:4365-4458"]}
{"id": "C161", "title": "Logging: EnableLogging, DisableLogging, the loggers, the queue, the handler thread and the flusher together", "statement": "In every history of the threads Python gets the records in the order in which the queue took them, none twice, and only what was logged while logging was enabled at a level not below the one of the logger; nothing which the queue took is lost; every record is handed over with its own name, text, level and time. Once logging is disabled the handler makes a bounded number of steps, hands over what is left and is joined, after which the queue is empty and logging can be enabled again. Loggers take the levels of their Python loggers. No history is undefined or ends the program.", "quantifier": "all interleavings of any number of threads which log, the handler, the flusher and threads which call EnableLogging and DisableLogging with any arguments; all Python loggers, levels, times, exceptions in the handler and moments at which the interpreter ends", "why_tests_cant": "The races need a thread stopped between the test of its level and the queue, or a call of EnableLogging in the moment in which another thread joins the handler; the cut time looks like any number.", "anchors": ["src/Logger.cpp:22-236", "src/logging/logging_service.h:59-196", "src/logging/logger.h:18-70", "src/logging/waiting_deque.h:12-70", "src/logging/timer.h:21-67"]}
{"id": "C162", "title": "AsAnyArray and AsFastArray: arguments, what numpy is asked for, scalars, exceptions and references", "statement": "Arguments are refused exactly if there are not one or two by position, the dtype is given twice, numpy knows no such dtype, copy is not a bool or order is neither 'C' nor 'F'; then nothing but an exception comes back. Otherwise an array for which nothing is asked comes back itself, a list of one kind becomes a new array of one dimension, and everything else is what numpy makes of it with this dtype, copy and order, a scalar as an array with one item of the same type and value. With copy=True no array comes back itself. AsFastArray returns the same as a fast array. Every object is counted as often as it is held, and no call is undefined.", "quantifier": "all arguments by position and by name, all arrays, lists and other objects, everything numpy may make of them, with and without memory, with and without the class of fast arrays", "why_tests_cant": "A reference too many or too few shows long after the call, a lost unit or order of bytes needs a scalar of such a type, and an error of AsFastArray ends the process of the test.", "anchors": ["src/Array.cpp:173-415", "src/RipTide.cpp:437-464", "src/RipTide.h:194-214"]}
{"id": "C163", "title": "What reading SDS files hands to Python: headers, infos, arrays, stacks, exceptions and references", "statement": "Every file which was read is handed over in order, with its metadata ({} without any), the names, the arrays (None for one which is missing) or what is known of them, and a dictionary with all 27 fields of the header, the name of the file and its sections, each key once. Without files the answer is None. A stack hands over all columns with the ends of the files in each, all names and metadata and the header of the first file. No reference is left behind, and no call is undefined.", "quantifier": "all headers, blocks, sections, names and metadata of all files, with and without an exception left behind before, with and without memory", "why_tests_cant": "References left behind show as memory which grows, exceptions left behind need memory to run out, and files with wrong dimensions or names must be made by hand.", "anchors": ["src/SDSFilePython.cpp:162-260", "src/SDSFilePython.cpp:599-787", "src/SDSFilePython.cpp:957-1177"]}
{"id": "C164", "title": "Small calls of the module: Empty, SetFastArrayType, CompareNumpyMemAddress, LedgerFunction and ReMapIndex", "statement": "Empty answers an array with the dimensions, the type and the size of items asked for, from the recycler or new, and otherwise raises and changes nothing. SetFastArrayType sets the class of fast arrays once, gives it the finalizer and holds it once, and raises for a class which cannot be taken. CompareNumpyMemAddress is true exactly if both arrays begin at the same address. LedgerFunction calls the function with the other arguments and returns what it returns, an array as a fast array. ReMapIndex maps every index. No reference is left behind and no call is undefined.", "quantifier": "all arguments, all states of the recycler in order, with and without memory; all sequences of calls of SetFastArrayType; all functions; all maps, indices and outputs", "why_tests_cant": "Memory must run out to see an array beside an exception, a negative type reads whatever lies before a table, and a recycler which is emptied shows only as time.", "anchors": ["src/RipTide.cpp:373-464", "src/RipTide.cpp:544-711", "src/RipTide.cpp:875-919", "src/Bins.cpp:224-333"]}
{"id": "C165", "title": "The table of methods, the import of the module and its settings", "statement": "Every name of the table is given once and runs the function of its own name with the arguments it was given; arguments are refused exactly by the flags, and no call by name reads a parameter nobody gave. The copy made at the import holds all entries and ends in a null pointer. The bytes of the tables of bools are the bits of the number and those of the inverse tables their negation. RT_NEW_HASH chooses the hash. ThreadingMode answers with what was set last, SetZstdChecksumming and SetLustreGateway set what they are given and nothing else, and no call ends the process.", "quantifier": "all names, all numbers of arguments by position and by name; all tables; all entries and bytes of the tables of bools; all values of the variable; all histories of calls which set something", "why_tests_cant": "A test calls the names it knows: that a function written and declared is run by no name, or that a name runs another function, shows only over the whole table; and an exception of C++ ends the process of the test.", "anchors": ["src/RipTide.cpp:1654-1804", "src/RipTide.cpp:1830-1859", "src/RipTide.cpp:1879-1906", "src/RipTide.cpp:2078-2097", "src/RipTide.cpp:1333-1344", "src/Compress.cpp:150-162", "src/SDSFilePython.cpp:1970-1997"]}
{"id": "C166", "title": "BasicMathTwoInputs with any objects: arguments, exceptions, scalars, lists and outputs", "statement": "The call returns a null pointer exactly with an exception. Two arrays of one length give a new array whose elements are what the function gives for the elements in the common type; an array and a scalar give a new array in the type both need; it does not matter whether an input is a list or an array, nor which comes first. Two scalars give the result of the function for them. Every object of before is there afterwards as it was, and what is new and still held is the result only. No output is read through a null pointer.", "quantifier": "all worlds of arrays, all inputs (arrays, scalars, objects of which numpy makes an array or raises), all outputs, all numbers of functions and types and what is no number, all calculations", "why_tests_cant": "The tests call with arrays through ufuncs: a list before or after a scalar, two scalars, an output without dimensions or a tuple of another size are never given, and a leaked array shows only as memory.", "anchors": ["src/BasicMath.cpp:2090-2967", "src/BasicMath.cpp:3395-3535"]}
{"id": "C167", "title": "Addition of texts and of bytes", "statement": "Adding two arrays of texts (or of bytes) of one length, or such an array and a text (or bytes) before or after it, gives an array of the same dimensions each item of which is the text of the first input followed by that of the second, as numpy reads both. The items of the result have the sizes of both together and every unit of them is written. Nothing outside of the inputs is read. Inputs of different kinds are left to numpy, with or without an output.", "quantifier": "all arrays of bytes and texts with any size of items and any dimensions, all bytes and texts, with and without an output", "why_tests_cant": "The tests add short arrays of one dimension without zeros inside of the texts; texts next to bytes with an output, several dimensions and zeros inside are never tried.", "anchors": ["src/BasicMath.cpp:3124-3386", "src/BasicMath.cpp:3395-3403", "src/RipTide.cpp:1281-1300"]}
{"id": "C168", "title": "Arrays in shared memory are made read-only", "statement": "Making an array read-only takes the right to write from the array, from the array at the bottom of which it is a view and from every array in between; no other array changes and no base does. The loop over the bases ends, and a second call changes nothing.", "quantifier": "all lists of arrays whose views are younger than what they are views of, all arrays among them", "why_tests_cant": "The tests look at the flag of the array itself, never at its bases or at other arrays, and never at views of views.", "anchors": ["src/SDSFilePython.cpp:847-867", "src/SDSFilePython.cpp:940", "src/SDSFilePython.cpp:1588"]}
