{
 "claims": [
  {
   "property": "C01",
   "status": "proved",
   "theorems": [
    "Verif.C01_indexView",
    "Verif.C01_indexView_panics_iff",
    "Verif.C01_indexView_compose",
    "Verif.get_iff_abs",
    "Verif.RowView.get_eq"
   ],
   "note": "IndexView is the row view on the given rows; panics iff an index is out of range; composition."
  },
  {
   "property": "C02",
   "status": "proved",
   "theorems": [
    "Verif.C02_maskView",
    "Verif.C02_maskView_eq_indexView",
    "Verif.C02_maskView_panics_iff"
   ],
   "note": "Also settles masks longer than the dataframe."
  },
  {
   "property": "C03",
   "status": "partial",
   "theorems": [
    "Verif.C03_sliceView",
    "Verif.C03_sliceView_panics_partial",
    "Verif.C03_out_of_bounds_refuted",
    "Verif.C03_no_column_refuted",
    "Verif.C03_panics_iff"
   ],
   "note": "In-range part proved in full. 'bounds outside panic' is false of the code (re-slicing goes up to the capacity; frames without columns): refutations, and C03_panics_iff gives the exact condition under which the call panics, for every dataframe and all arguments."
  },
  {
   "property": "C04",
   "status": "partial",
   "theorems": [
    "Verif.C04_sliceView_reversed_actual",
    "Verif.C04_sliceView_reversed_partial",
    "Verif.C04_refuted"
   ],
   "note": "False of the code: SliceView(from>to) cuts the reversed dataframe. Actual behaviour proved, documented behaviour only when from+to=NumRows."
  },
  {
   "property": "C05",
   "status": "proved",
   "theorems": [
    "Verif.C05_reverseView",
    "Verif.C05_reverse_involution"
   ],
   "note": ""
  },
  {
   "property": "C06",
   "status": "proved",
   "theorems": [
    "Verif.C06_shuffleView",
    "Verif.C06_sampleView",
    "Verif.C06_sampleView_panics"
   ],
   "note": "The random source is an arbitrary permutation."
  },
  {
   "property": "C07",
   "status": "partial",
   "theorems": [
    "Verif.C07_sortedView_partial",
    "Verif.C07_sortedView_panics",
    "Verif.C07_sortedView_nan",
    "Verif.C07_refuted_large_ints",
    "Verif.Float64.C07_float64",
    "Verif.Float64.C07_float64_refuted",
    "Verif.Float64.C07_float64_int64",
    "Verif.Float64.C07_int64_sharp"
   ],
   "note": "Int columns: proved when the float64 conversion keeps the order of the values, in particular (C07_float64, IEEE binary64) for values up to 2^53 in absolute value; refuted above 2^53 (C07_float64_refuted). Floats without NaN, bools, panics: full. Parametric in the behaviour of gonum's Argsort (IsArgsort). C07_float64_int64: for every column of 64-bit ints the rows are permuted and two ints are out of order only if they have the same float64, hence are at most 1024 apart (sharp)."
  },
  {
   "property": "C08",
   "status": "partial",
   "theorems": [
    "Verif.C08_topView_partial",
    "Verif.C08_topView_negative",
    "Verif.Float64.C07_float64_sortable",
    "Verif.Float64.C08_float64_int64"
   ],
   "note": "Same restriction on large ints as C07: the hypothesis Sortable holds for ints up to 2^53 in absolute value (C07_float64_sortable). C08_float64_int64: the same for TopView."
  },
  {
   "property": "C09",
   "status": "proved",
   "theorems": [
    "Verif.C09_splitView",
    "Verif.C09_splitView_panics"
   ],
   "note": ""
  },
  {
   "property": "C10",
   "status": "partial",
   "theorems": [
    "Verif.C10_splitNView_partial",
    "Verif.C10_splitNView_other",
    "Verif.C10_refuted_empty"
   ],
   "note": "Dataframes with rows: exactly n parts partitioning the rows. Refuted for an empty dataframe (1 part). The shares are now exact (EvenParts: all but the last have ceil(rows/n) rows, none is empty)."
  },
  {
   "property": "C11",
   "status": "proved",
   "theorems": [
    "Verif.C11_splitTrainTest",
    "Verif.C11_partition",
    "Verif.C11_panics",
    "Verif.Float64.C11_float64",
    "Verif.Float64.C11_float64_example"
   ],
   "note": "C11_float64: with IEEE float64 and up to 2^53 rows no assumption is left; t is the whole part of NumRows*ratio, or one more when the rounded product is that integer. C11_splitTrainTest: any float semantics, with t = int(NumRows*ratio) assumed in [0, NumRows]."
  },
  {
   "property": "C12",
   "status": "proved",
   "theorems": [
    "Verif.C12_set_all_observers",
    "Verif.C12_set_through_view",
    "Verif.C12_set_total"
   ],
   "note": "Set through any dataframe writes one cell; every dataframe showing that cell sees it, all else unchanged; the write panics exactly when the row or column does not exist."
  },
  {
   "property": "C13",
   "status": "partial",
   "theorems": [
    "Verif.C13_view_edit_partial",
    "Verif.C13_view_overwrite_new_partial",
    "Verif.C13_drop_refuted",
    "Verif.C13_marks_refuted",
    "Verif.C13_drop_exact",
    "Verif.C13_marks_exact"
   ],
   "note": "Proved: every structural edit of a view whose maps are reallocated leaves the parent's columns alone, except string marks. Missing (false of the code, refutations included): Drop on a view, and string marks created through a view when the parent already has a marks map. C13_drop_exact and C13_marks_exact say exactly which dataframes lose the dropped columns and which see the string marks of an edited view."
  },
  {
   "property": "C14",
   "status": "proved",
   "theorems": [
    "Verif.C14_detached_shows",
    "Verif.C14_detached_isolated",
    "Verif.C14_others_shared"
   ],
   "note": "any later history of cell writes through any consistent dataframe"
  },
  {
   "property": "C15",
   "status": "proved",
   "theorems": [
    "Verif.C15_copy_equal_compact",
    "Verif.C15_copy_isolated"
   ],
   "note": "Equality, compactness, and isolation under every later history of edits on either side."
  },
  {
   "property": "C16",
   "status": "partial",
   "theorems": [
    "Verif.C16_copy_forgets_encoding",
    "Verif.C16_refuted"
   ],
   "note": "The claim is false of the code: Copy drops the text encoding (C16_refuted on a concrete dataframe; C16_copy_forgets_encoding says it for every dataframe)."
  },
  {
   "property": "C17",
   "status": "proved",
   "theorems": [
    "Verif.C17_shallow_same_cells",
    "Verif.C17_shallow_writes_seen",
    "Verif.C17_shallow_structure_isolated"
   ],
   "note": "Same cells; writes seen both ways; structural edits in any later history not seen by the other."
  },
  {
   "property": "C18",
   "status": "proved",
   "theorems": [
    "Verif.C18_columnView",
    "Verif.C18_columnView_all"
   ],
   "note": "All names, all heaps; the memory cells are shared and every existing dataframe shows what it showed."
  },
  {
   "property": "C19",
   "status": "partial",
   "theorems": [
    "Verif.C19_reachable_consistent_partial",
    "Verif.C19_steps_consistent_partial",
    "Verif.C19_checkConsistency_partial",
    "Verif.Demo.C19_alloc_after_drop_refuted",
    "Verif.Demo.C19_intToFloats_missing_refuted",
    "Verif.Demo.C19_intToFloats_twice_refuted",
    "Verif.Demo.C19_columnConcatView_refuted",
    "Verif.Demo.C19_slice_beyond_refuted",
    "Verif.C19_programs_partial"
   ],
   "note": "Proved for every history of calls that respect Call.Legal (guards on alloc/convert/slice/ColumnConcatView arguments); without the guards false (refutations). C19_programs_partial: the same for programs that also preprocess, train, predict, read CSV text and files and merge builders."
  },
  {
   "property": "C20",
   "status": "proved",
   "theorems": [
    "Verif.C20_toDataFrame_ok",
    "Verif.C20_toDataFrame_panics_iff",
    "Verif.C20_toDataFrame_empty"
   ],
   "note": ""
  },
  {
   "property": "C21",
   "status": "partial",
   "theorems": [
    "Verif.C21_rowConcat_stacks",
    "Verif.C21_rowConcat_error_partial",
    "Verif.C21_rowConcat_isolated",
    "Verif.C21_extra_columns_refuted"
   ],
   "note": "Stacking, no-panic and isolation proved for all inputs; the error condition is one-sided in the code (C21_extra_columns_refuted)."
  },
  {
   "property": "C22",
   "status": "partial",
   "theorems": [
    "Verif.C22_concatView_shows_partial",
    "Verif.C22_concatView_consistent",
    "Verif.C22_concatView_errors",
    "Verif.C22_one_row_differs",
    "Verif.C22_rows_refuted",
    "Verif.C22_hash_refuted",
    "Verif.C22_marks_refuted",
    "Verif.C22_concatView_exact"
   ],
   "note": "Proved for equal row positions; the code accepts different row counts, colliding index hashes, and loses marks (refutations). C22_concatView_exact: for any consistent dataframes, exactly when it fails and exactly what it returns otherwise (the columns at the row positions of the first dataframe)."
  },
  {
   "property": "C23",
   "status": "partial",
   "theorems": [
    "Verif.C23_copyConcat_partial",
    "Verif.C23_copyConcat_isolated",
    "Verif.C23_smartConcat",
    "Verif.C22_marks_refuted"
   ],
   "note": "Exact error condition, values, consistency and isolation proved; string marks lost when the first dataframe has none (C22_marks_refuted)."
  },
  {
   "property": "C24",
   "status": "proved",
   "theorems": [
    "Verif.C24_check_overlap"
   ],
   "note": "Exact characterisation."
  },
  {
   "property": "C25",
   "status": "proved",
   "theorems": [
    "Verif.C25_overwrite_existing",
    "Verif.C25_overwrite_creates",
    "Verif.C25_overwrite_short",
    "Verif.C25_overwrite_no_repeat"
   ],
   "note": "existing column, new column (non-empty frame), too few values, repeated rows"
  },
  {
   "property": "C26",
   "status": "partial",
   "theorems": [
    "Verif.C26_encode_partial",
    "Verif.C26_encode_same",
    "Verif.C26_refuted_repeated_rows",
    "Verif.C26_encode_exact",
    "Verif.C26_lossy_refuted"
   ],
   "note": "C26_encode_exact: all-or-nothing proved for every dataframe (repeated rows, shared memory) and all encodings that round-trip: an error leaves the memory exactly as it was, success transcodes each cell as many times as it is visible. 'exactly once' is therefore false for repeated rows (C26_refuted_repeated_rows) and holds when no cell is visible twice (C26_encode_partial); an error is not all-or-nothing for encodings that do not round-trip (C26_lossy_refuted)."
  },
  {
   "property": "C27",
   "status": "proved",
   "theorems": [
    "Verif.C27_labelToInt",
    "Verif.C27_labelToInt_panics"
   ],
   "note": ""
  },
  {
   "property": "C28",
   "status": "proved",
   "theorems": [
    "Verif.C28_iterator",
    "Verif.C28_loop",
    "Verif.C28_new_iff",
    "Verif.C28_reset_check",
    "Verif.Float64.C28_float32",
    "Verif.Float64.C28_float32_rounds",
    "Verif.Float64.C28_float32_top"
   ],
   "note": "Any sequence of NextRow, Reset and user writes into the last row, for one heap. The iterator keeps the dataframe by value. The constructor panics on non-numeric columns although its documentation says they are ignored. C28_float32_top: where float32 ends."
  },
  {
   "property": "C29",
   "status": "partial",
   "theorems": [
    "Verif.C29_batches_partial",
    "Verif.C29_growing_batch_panics",
    "Verif.Demo.C29_growing_batch_wrong"
   ],
   "note": "Proved for one column, or batches not larger than the first. The full claim is false: C29_growing_batch_panics and C29_growing_batch_wrong."
  },
  {
   "property": "C30",
   "status": "proved",
   "theorems": [
    "Verif.C30_fromCSV",
    "Verif.C30_dataframe",
    "Verif.C30_errors",
    "Verif.C30_empty_name_hangs",
    "Verif.Inferred.unique",
    "Verif.parseBool_iff",
    "Verif.parseInt_iff"
   ],
   "note": "encoding/csv is represented by the records it yields; ParseBool and ParseInt are modelled, ParseFloat is an arbitrary parser. All job orders and column-to-goroutine assignments. A header with an empty name is outside (FromCSV hangs: C30_empty_name_hangs)."
  },
  {
   "property": "C31",
   "status": "partial",
   "theorems": [
    "Verif.C31_no_ints",
    "Verif.C31_binary_partial",
    "Verif.C31_binary_ints",
    "Verif.C31_bool_refuted",
    "Verif.C31_bool01_refuted",
    "Verif.C31_binary_refuted"
   ],
   "note": "IntAsFloat part proved; BinaryAsFloat proved together with IntAsFloat; the code contradicts the documentation for BoolAsFloat and for BinaryAsFloat alone (refutations)."
  },
  {
   "property": "C32",
   "status": "partial",
   "theorems": [
    "Verif.C32_to1CSV_partial",
    "Verif.C32_all_alike",
    "Verif.C32_refuted",
    "Verif.C32_panics"
   ],
   "note": "Proved for every number of rows, column order, marker and buffering when MaintainOrder is set or the indices are not altered. In the remaining case the code writes the first backing row NumRows times (C32_all_alike) and the claim is refuted, also up to row order, for every such dataframe with two rows that differ (C32_refuted). C32_panics: marked columns that hold non-strings or do not exist."
  },
  {
   "property": "C33",
   "status": "partial",
   "theorems": [
    "Verif.C33_column",
    "Verif.C33_roundtrip_partial",
    "Verif.C33_text_partial",
    "Verif.C33_refuted_allMissing",
    "Verif.C33_binary_ints",
    "Verif.C33_blank_rows_refuted",
    "Verif.Demo.C33_blank_refuted",
    "Verif.Float64.C33_float64_refuted",
    "Verif.Float64.C84_roundtrip_partial"
   ],
   "note": "Proved down to the bytes of the CSV (C33_text_partial, with encoding/csv transcribed) under ReadsBack (the float text parses back, no cell equals the missing marker, each column holds a value that fixes its kind), distinct non-empty names, no CR before LF in cells, no blank line. Refuted without: an all-missing string column comes back as ints -1, an int column of 0/1 only comes back as bools, a single column loses its rows with an empty text. For IEEE float64 with Go's strconv the float part of ReadsBack is proved (Float64.C84_back, C84_roundtrip_partial)."
  },
  {
   "property": "C34",
   "status": "proved",
   "theorems": [
    "Verif.C34_no_send_on_closed",
    "Verif.C34_terminates",
    "Verif.C34_no_deadlock",
    "Verif.C34_end",
    "Verif.C34_result"
   ],
   "note": "Transition system of the pool; no send on closed channel, bounded number of steps, no deadlock, all jobs done and notified exactly once. Panics inside a job are not modelled."
  },
  {
   "property": "C35",
   "status": "proved",
   "theorems": [
    "Verif.C35_schedule_independent",
    "Verif.C35_hashStringsView",
    "Verif.C35_scaler_fit",
    "Verif.C35_scaler_transform",
    "Verif.C35_imputer_fit",
    "Verif.C35_oneHot_fit",
    "Verif.C35_oneHot_transform"
   ],
   "note": "General theorem for commuting jobs, and instances with individual cell reads and writes for HashStringsView, scaler (fit and transform), imputer (fit; its transform is sequential) and one-hot encoder (fit and transform). Conditions: columns that share no memory cell (scaler), and those of C37/C38."
  },
  {
   "property": "C36",
   "status": "partial",
   "theorems": [
    "Verif.C36_returns_iff",
    "Verif.C36_setMaxCPU_positive",
    "Verif.C36_filePattern_hangs_iff",
    "Verif.C36_hash_hangs"
   ],
   "note": "False of the code: exact condition for the pool to return, and which calls hang (empty column name, EmptyDataFrame with maxCPU<=0, FromCSVFilePattern with MaxCPU >= n(n+1))."
  },
  {
   "property": "C37",
   "status": "partial",
   "theorems": [
    "Verif.C37_hash_range",
    "Verif.C37_hashStringsView_partial",
    "Verif.Demo.C37_all_columns_refuted",
    "Verif.C37_hash_is_fnv",
    "Verif.C37_all_columns"
   ],
   "note": "Full statement holds when at least one column is left out of the hashing; with all the columns listed the input dataframe is altered and the string columns stay (refutation). C37_all_columns: exactly what happens when every column is listed: the receiver and every view that shares its maps gain the int columns and keep the strings."
  },
  {
   "property": "C38",
   "status": "partial",
   "theorems": [
    "Verif.C38_options",
    "Verif.C38_fit_transform",
    "Verif.C38_exactly_one",
    "Verif.C38_other_columns",
    "Verif.C38_fit_panics",
    "Verif.Demo.C38_needs_other_names"
   ],
   "note": "Proved for every dataframe, policy pair, map iteration order and job order, under three conditions on names shown necessary by C38_needs_other_names, C39_needs_new_columns and C39_needs_unmarked_names (int column named like a new column; no new column and no row; int column named like a string column). Learnt says what the policies mean; C38_fit_panics gives the exact condition under which Fit panics."
  },
  {
   "property": "C39",
   "status": "partial",
   "theorems": [
    "Verif.C39_forbidden",
    "Verif.C39_inputs_unchanged",
    "Verif.C38_fit_transform",
    "Verif.Demo.C39_needs_new_columns",
    "Verif.Demo.C39_needs_unmarked_names"
   ],
   "note": "Error iff a forbidden value is visible and every dataframe unchanged, under the conditions on names of C38, each shown necessary."
  },
  {
   "property": "C40",
   "status": "proved",
   "theorems": [
    "Verif.C40_fit",
    "Verif.C40_fit_hangs",
    "Verif.C40_transform",
    "Verif.C40_transform_panics",
    "Verif.C40_twice",
    "Verif.C40_fit_transform",
    "Verif.C40_new",
    "Verif.Float64.C40_float64",
    "Verif.Float64.C40_float64_mean"
   ],
   "note": "fit learns mean/0/1 of the visible values; transform fills exactly the missing visible cells (row repetitions allowed, columns must not be aliases of one another); panics when a fitted column is missing; second application changes nothing for every fallback; hangs of Fit characterised"
  },
  {
   "property": "C41",
   "status": "partial",
   "theorems": [
    "Verif.C41_transform_repeated",
    "Verif.C41_transform",
    "Verif.C41_fit_columns",
    "Verif.C41_inverse",
    "Verif.C41_fit_inverse",
    "Verif.C41_minmax_constant_refuted",
    "Verif.Demo.C41_constant_example",
    "Verif.Demo.C41_repeated_rows_refuted",
    "Verif.Float64.C41_float64_overflow_refuted",
    "Verif.Float64.C41_float64_rounding",
    "Verif.Float64.C41_float64"
   ],
   "note": "exact restoration is proved in idealised (unrounded) arithmetic; in IEEE float64 restoration up to 6/2^53*(|x|+2|shift|) plus subnormal-sized terms is proved for all parameters, whenever the restored value is a number (C41_float64), and exact restoration is refuted by example. The full claim is refuted for repeated rows (transformed once per repetition), for MinMax on constant columns, and in float64 for columns whose squares overflow (restored as NaN)"
  },
  {
   "property": "C42",
   "status": "partial",
   "theorems": [
    "Verif.C42_standard_scaling",
    "Verif.C42_each_option",
    "Verif.Float64.C42_float64_constant_refuted",
    "Verif.Float64.C42_float64_variance_refuted",
    "Verif.Float64.C42_float64",
    "Verif.Float64.C42_float64_overflow"
   ],
   "note": "Proved in exact (unrounded) arithmetic, columns without infinities, no repeated rows. In IEEE float64 the claim is refuted: the constant column 0.1, 0.1, 0.1 is mapped to -1 (its computed mean is the number next to 0.1), and a column of tiny numbers is taken for a constant one. How close float64 comes is C42_float64: for a column of n numbers on which nothing overflows or underflows, the mean of the squares of the result is within (n+10)/2^52 of 1, its mean within b = scale*((n+1)/2^52*mean|x| + 2^-1075) + 2^-50 of 0, its variance within (n+10)/2^52 + b^2 of 1, and a column equal to its computed mean becomes 0. C42_float64_overflow: beyond the range (an infinity in the column, or a sum that overflows) the whole column becomes NaN."
  },
  {
   "property": "C43",
   "status": "partial",
   "theorems": [
    "Verif.C43_minmax_partial",
    "Verif.Demo.C43_refuted",
    "Verif.Float64.C43_float64_partial"
   ],
   "note": "refuted: max is sent to (max-min)^2; the range is [0,1] exactly when max-min=1 C43_float64_partial: what it does in IEEE float64 to every column of finite numbers and missing values (order kept, nothing negative, lo to 0, hi to 1 exactly when the computed range is 1; NaN for the least number when the range overflows)."
  },
  {
   "property": "C44",
   "status": "partial",
   "theorems": [
    "Verif.C44_fit",
    "Verif.C44_transformView",
    "Verif.C44_fitTransform_partial",
    "Verif.C44_fitTransform_panics"
   ],
   "note": "Fit and TransformView proved for every option combination, map order and job order; FitTransform equals Fit then TransformView with both Imputing and Scaling, or with neither when nothing is to be encoded; in the other cases it panics (C44_fitTransform_panics)."
  },
  {
   "property": "C45",
   "status": "partial",
   "theorems": [
    "Verif.C45_mse",
    "Verif.C45_mae",
    "Verif.C45_mse_mean",
    "Verif.C45_mae_mean",
    "Verif.C45_missing",
    "Verif.C45_nonneg",
    "Verif.C45_symmetric",
    "Verif.C45_zero_iff",
    "Verif.C45_mae_sq_le_mse",
    "Verif.Float64.C45_float64_nonneg",
    "Verif.Float64.C45_float64_symmetric",
    "Verif.Float64.C45_float64_equal",
    "Verif.Float64.C45_float64_mse",
    "Verif.Float64.C45_float64_mae",
    "Verif.Float64.C45_float64_refuted_mse_zero",
    "Verif.Float64.C45_float64_refuted_mae_zero",
    "Verif.Float64.C45_float64_refuted_squares"
   ],
   "note": "Value in any float arithmetic (C45_mse, C45_mae: exact equation incl. panic iff sizes differ); means and their laws in exact arithmetic (C45_mse_mean ... C45_mae_sq_le_mse). In IEEE float64: nonnegative, symmetric to the bit, zero on equal columns, and within an explicit rounding error of the exact means; 'zero only if the columns agree' and 'MAE^2 <= MSE' are refuted in float64 (underflow, rounding)."
  },
  {
   "property": "C46",
   "status": "partial",
   "theorems": [
    "Verif.C46_predict_partial",
    "Verif.C46_unscaled",
    "Verif.C46_predict_untrained_panics",
    "Verif.C46_predict_empty_panics",
    "Verif.C46_example",
    "Verif.C46_reorders_rows",
    "Verif.C46_repeated_rows",
    "Verif.C46_target_column_overwritten",
    "Verif.C46_result_named_target",
    "Verif.C46_predict_named",
    "Verif.C46_result_named_target_lost",
    "Verif.C46_target_exists"
   ],
   "note": "Proved for every dataframe with at least one row and no float column _target, result column other than _target; the rows come out in backing order (exactly which order is stated), and the prediction of an underlying row that a view shows n times is unscaled n times (n = 1 without repeated rows). The remaining parts of the claim are refuted by the C46_* counterexamples. gonum's dot product is an abstract function of the row and the weights; C46_unscaled relates it to real arithmetic The remaining cases are now exact: C46_target_exists says, for every dataframe with a float column _target, that this column is overwritten with the predictions and that nothing else changes; C46_predict_named covers every name of the result column, and C46_result_named_target_lost says that with the name _target no prediction is returned."
  },
  {
   "property": "C47",
   "status": "partial",
   "theorems": [
    "Verif.C47_makeRange_partial",
    "Verif.C47_refuted",
    "Verif.C47_makeRange_iff"
   ],
   "note": "Positions proved when s divides the range; C47_makeRange_iff gives the exact result for all arguments (any sign of s, any bounds): the English claim is false when s does not divide b-a (the call panics)."
  },
  {
   "property": "C48",
   "status": "proved",
   "theorems": [
    "Verif.C48_groupIndexer",
    "Verif.C48_splitStringSlice",
    "Verif.C48_splitStringSlice_bad",
    "Verif.C48_indexOfString"
   ],
   "note": ""
  },
  {
   "property": "C49",
   "status": "proved",
   "theorems": [
    "Verif.C49_mask_size",
    "Verif.C49_thread_safe_mask",
    "Verif.C49_views",
    "Verif.C49_recycled"
   ],
   "note": ""
  },
  {
   "property": "C50",
   "status": "partial",
   "theorems": [
    "Verif.C50_intToFloats",
    "Verif.C50_boolToFloats_partial",
    "Verif.C50_bool_refuted"
   ],
   "note": "IntToFloats in full; BoolToFloats leaves the bool column in place (bug, refutation included)"
  },
  {
   "property": "C51",
   "status": "proved",
   "theorems": [
    "Verif.C51_rename",
    "Verif.C51_rename_panics",
    "Verif.C51_rename_same_deletes"
   ],
   "note": "with the two excluded cases also proved: absent column panics, Rename(x,x) deletes the column"
  },
  {
   "property": "C52",
   "status": "proved",
   "theorems": [
    "Verif.C52_resetIndexView",
    "Verif.C52_idempotent",
    "Verif.backingOrder_unique"
   ],
   "note": "backingOrder_unique: the order is determined by the statement"
  },
  {
   "property": "C53",
   "status": "proved",
   "theorems": [
    "Verif.C53_header_sets",
    "Verif.C53_header_content",
    "Verif.C53_headers_private",
    "Verif.C53_names_once"
   ],
   "note": ""
  },
  {
   "property": "C54",
   "status": "partial",
   "theorems": [
    "Verif.C54_shorthands_partial",
    "Verif.C54_display_partial",
    "Verif.C54_display_refuted"
   ],
   "note": "The shorthand part is proved for every column set and iteration order (prefixes, length, no two columns share one, and a column without one has all its long enough prefixes taken). The display part is proved under the condition that no column without a shorthand is itself somebody's shorthand and is refuted in general (C54_display_refuted: two columns displayed alike)."
  },
  {
   "property": "C55",
   "status": "partial",
   "theorems": [
    "Verif.C55_toCSVs_partial",
    "Verif.C55_toCSVDir_partial",
    "Verif.C55_panics_empty",
    "Verif.C55_refuted_noCPU",
    "Verif.C55_alike"
   ],
   "note": "Proved when maxCPU is positive and MaintainOrder is set or the indices are not altered; in the remaining case (altered indices, no MaintainOrder) all records of all files are copies of the row at position 0 (C55_alike; its hypotheses are met in FixDemo.example_ready through C82_run_partial). With maxCPU 0 no file is written (C55_refuted_noCPU); ToCSVs of an empty dataframe into several writers panics (C55_panics_empty). The shares are exact (EvenParts)."
  },
  {
   "property": "C56",
   "status": "partial",
   "theorems": [
    "Verif.C56_rows_partial",
    "Verif.C56_rows_isolated_builder",
    "Verif.C56_rows_isolated_edits",
    "Verif.C56_columns",
    "Verif.C56_rows_forget_marks",
    "Verif.C56_marks_refuted",
    "Verif.C56_columns_clash_refuted"
   ],
   "note": "Rows: values concatenated, new memory, isolation from any later builder call or edit proved; columns: union, last typed column wins, marks, encoding proved. Missing because false of the code: MergeRawDataRows loses every string mark and the encoding (C56_rows_forget_marks, C56_marks_refuted); a clash between columns of different types keeps both (C56_columns_clash_refuted)."
  },
  {
   "property": "C57",
   "status": "proved",
   "theorems": [
    "Verif.C57_vecDense",
    "Verif.C57_copy_private"
   ],
   "note": "gonum rejects empty vectors: the model panics there too."
  },
  {
   "property": "C58",
   "status": "proved",
   "theorems": [
    "Verif.C58_setMaxCPU",
    "Verif.C58_new_inherits",
    "Verif.C58_concat_inherits"
   ],
   "note": ""
  },
  {
   "property": "C59",
   "status": "partial",
   "theorems": [
    "Verif.C59_views_leave_others_partial",
    "Verif.Demo.C37_all_columns_refuted",
    "Verif.C59_programs_partial"
   ],
   "note": "All view/copy functions after any legal history; HashStringsView of all columns excepted (C37_all_columns_refuted). C59_programs_partial: also after such programs, and for hash encoding, CSV reading and merging."
  },
  {
   "property": "C60",
   "status": "proved",
   "theorems": [
    "Verif.C60_imputer",
    "Verif.C60_scaler",
    "Verif.C60_onehot",
    "Verif.Demo.onehot_numbering_is_random"
   ],
   "note": "Imputer, scaler and one-hot encoder. For the one-hot encoder the numbering of the categories follows Go's random map iteration order (Demo.onehot_numbering_is_random), so equality is for equal iteration orders; C38_fit_transform covers different ones."
  },
  {
   "property": "C61",
   "status": "proved",
   "theorems": [
    "Verif.C61_drop"
   ],
   "note": "dataframe that owns its maps; for views see C13"
  },
  {
   "property": "C62",
   "status": "proved",
   "theorems": [
    "Verif.C62_alloc",
    "Verif.C62_allocStrings",
    "Verif.C62_refuted_without_columns"
   ],
   "note": "at least one column; without columns the new column has no cell (refutation included)"
  },
  {
   "property": "C63",
   "status": "proved",
   "theorems": [
    "Verif.C63_unshare_shows_nothing"
   ],
   "note": ""
  },
  {
   "property": "C64",
   "status": "partial",
   "theorems": [
    "Verif.C64_errors_partial",
    "Verif.C64_toCSVs_partial",
    "Verif.C64_create_error",
    "Verif.C64_dir_error",
    "Verif.C64_refuted",
    "Verif.C64_bad_delimiter"
   ],
   "note": "Proved for dataframes with rows, one or several writers that may fail, and files that cannot be created; refuted for dataframes without rows: the error of the deferred Flush is lost (C64_refuted). C64_bad_delimiter: an impossible delimiter is reported and nothing is written."
  },
  {
   "property": "C65",
   "status": "partial",
   "theorems": [
    "Verif.C65_excluded_floats_partial",
    "Verif.C65_excluded_float_partial",
    "Verif.C65_strings_ignore_exclude",
    "Verif.C65_all_excluded",
    "Verif.Demo.C65_refuted"
   ],
   "note": "Proved for excluded float columns when some float column is not excluded; false for string columns (C65_strings_ignore_exclude) and when every float column is excluded (C65_all_excluded); concrete case C65_refuted."
  },
  {
   "property": "C66",
   "status": "partial",
   "theorems": [
    "Verif.C66_refit",
    "Verif.C66_refit_partial",
    "Verif.Demo.C66_refuted"
   ],
   "note": "Exact effect of training again for every previous state (C66_refit); equal to a fresh training when the dataframe has a string column and both Imputing and Scaling are on; false otherwise (C66_refuted)."
  },
  {
   "property": "C67",
   "status": "partial",
   "theorems": [
    "Verif.C67_transformedColumns"
   ],
   "note": "Exact condition: the list is returned with Imputing and a string column; otherwise the method panics (second half of the theorem), so the English claim is false there."
  },
  {
   "property": "C68",
   "status": "partial",
   "theorems": [
    "Verif.C68_no_file",
    "Verif.C68_listing_error",
    "Verif.C68_one_file",
    "Verif.C68_file_error",
    "Verif.C68_several_files_partial",
    "Verif.C68_dataframe_partial",
    "Verif.C68_hangs",
    "Verif.C68_kinds_refuted",
    "Verif.C68_kinds_panic_refuted",
    "Verif.C68_marks_refuted",
    "Verif.C68_threads_partial"
   ],
   "note": "No file, one file, listing and file errors: full. Several files: the rows are stacked in one order when the call does not hang (C36_filePattern_hangs_iff / C68_hangs), but string marks and encoding are lost (C68_marks_refuted), and files whose inferred kinds differ give a wrong or panicking dataframe (C68_kinds_refuted, C68_kinds_panic_refuted). C68_threads_partial: the same columns result from every interleaving of all the goroutines, in the order in which the results come."
  },
  {
   "property": "C69",
   "status": "partial",
   "theorems": [
    "Verif.C69_fit_partial",
    "Verif.C69_step_is_gradient_descent",
    "Verif.C69_no_default_batch_size",
    "Verif.C69_no_default_epochs",
    "Verif.C69_negative_epochs",
    "Verif.C69_int_target_panics",
    "Verif.C69_bool_target_panics",
    "Verif.C69_repeated_rows",
    "Verif.C69_target_column",
    "Verif.C69_no_rows_panics",
    "Verif.C69_example"
   ],
   "note": "Proved for dataframes without a float or boolean column _target, float targets, BatchSize > 0 and Epochs >= 0, for every float semantics and every schedule; C69_step_is_gradient_descent says in idealised arithmetic that a step of the specification follows the derivative of the squared error. The rest of the English claim is false of the code and refuted: no default BatchSize (every such call fails), no default Epochs (nothing is learnt), integer and boolean targets panic, repeated rows are scaled once per repetition (exactly so: in C69_fit_partial), an existing column _target is replaced by the target itself."
  },
  {
   "property": "C70",
   "status": "partial",
   "theorems": [
    "Verif.C70_fit_predict_partial"
   ],
   "note": "Under the conditions of C69_fit_partial and out different from _target; the rows come back in backing order, repeated rows are unscaled once per repetition (see C46)."
  },
  {
   "property": "C71",
   "status": "proved",
   "theorems": [
    "Verif.C71_printHead",
    "Verif.Demo.printHead_example",
    "Verif.Demo.printHead_all",
    "Verif.Demo.printHead_bad",
    "Verif.Demo.df_typeOk"
   ],
   "note": "fmt.Sprintf of a float and the text of an object's address are arbitrary functions; the functions only read the heap."
  },
  {
   "property": "C72",
   "status": "partial",
   "theorems": [
    "Verif.C72_printRecords_partial",
    "Verif.C72_printRecords_format",
    "Verif.C72_percent_refuted",
    "Verif.Demo.printRecords_example"
   ],
   "note": "Proved when no displayed name contains %; C72_printRecords_format gives the exact output otherwise and C72_percent_refuted a case where the name is not shown."
  },
  {
   "property": "C73",
   "status": "proved",
   "theorems": [
    "Verif.C73_printSummary",
    "Verif.Demo.printSummary_example"
   ],
   "note": ""
  },
  {
   "property": "C74",
   "status": "partial",
   "theorems": [
    "Verif.C74_text",
    "Verif.C74_same",
    "Verif.C74_bad_separator",
    "Verif.C74_last_line",
    "Verif.Demo.C74_comment_refuted",
    "Verif.Demo.C74_trim_refuted",
    "Verif.Demo.C74_last_line_lazy_refuted",
    "Verif.C74_plain",
    "Verif.C74_stray_quote"
   ],
   "note": "C74_text gives exactly what is read for all records; the English claim is false for blank records (one empty field), for carriage returns before line feeds (all of them with UseCRLF), for records starting with the comment rune, and when TrimLeadingSpace meets a space separator; C74_same is the claim without these. encoding/csv is transcribed from the standard library. C74_last_line: a missing final line feed makes no difference (without LazyQuotes). C74_plain: texts without quotes split at delimiters and newlines; C74_stray_quote: a quote inside an unquoted field is an error."
  },
  {
   "property": "C75",
   "status": "partial",
   "theorems": [
    "Verif.C75_internals",
    "Verif.C75_write",
    "Verif.C75_sharedIndex_panics",
    "Verif.C75_no_column",
    "Verif.C75_not_altered_partial",
    "Verif.Demo.C75_converse_refuted",
    "Verif.C75_getMask"
   ],
   "note": "Everything but the converse for AreIndicesAltered, which is false of the code: a view on all the rows in order counts as altered (refuted). The unaltered half ranges over histories of the calls modelled in Spec/History."
  },
  {
   "property": "C76",
   "status": "partial",
   "theorems": [
    "Verif.C76_values",
    "Verif.C76_slices",
    "Verif.C76_string_sets_partial",
    "Verif.C76_float_partial",
    "Verif.C76_nan_refuted",
    "Verif.C76_float_slices_partial",
    "Verif.C76_silent_refuted",
    "Verif.Demo.C76_counts_refuted",
    "Verif.Float64.C76_float64_partial",
    "Verif.Float64.C76_float64_slices_partial"
   ],
   "note": "Strings, ints, bools, errors and ordered slices: proved. Floats, float slices and unordered string slices: the claim is false of the code (NaN, near-equal slices, repeated strings: refuted), what they decide instead is proved. C76_float64_partial, C76_float64_slices_partial: what the float assertions decide in IEEE float64, infinities and rounding of the bounds included."
  },
  {
   "property": "C77",
   "status": "partial",
   "theorems": [
    "Verif.C77_scaler_partial",
    "Verif.C77_imputer_partial",
    "Verif.C77_hash_partial",
    "Verif.C77_oneHot_partial",
    "Verif.C77_auto_partial",
    "Verif.C77_linreg_partial",
    "Verif.C77_marshal",
    "Verif.C77_refit_scaler",
    "Verif.C77_refit_imputer",
    "Verif.C77_refit_auto",
    "Verif.C77_trained_scaler",
    "Verif.C77_trained_imputer",
    "Verif.C77_all_missing",
    "Verif.C77_numbers",
    "Verif.Float64.C77_linreg64_partial",
    "Verif.Float64.C77_scaler64_partial",
    "Verif.Float64.C77_texts64",
    "Verif.C77_trained_oneHot",
    "Verif.C77_trained_auto",
    "Verif.C77_missing_members",
    "Verif.C77_spaces"
   ],
   "note": "Proved for names that are UTF-8 texts and finite parameters: what is restored transforms or predicts exactly as the original. C77_marshal: Marshal fails exactly when a learnt number is not finite (e.g. C77_all_missing). The options are lost: C77_refit_scaler, C77_refit_imputer, C77_refit_auto refute the last part. The general theorems take the number texts as a parameter with the contract JsonFloats; Float64.jsonFloat64 proves the contract for Go's own float64 and strconv (C84), so C77_linreg64_partial, C77_scaler64_partial etc. assume nothing about them. C77_trained_oneHot, C77_trained_auto: nothing is assumed of what has been learnt by Fit; that the column names are texts is enough. C77_missing_members: members a text lacks keep the zero value. C77_spaces: any layout with blanks between the tokens of what Marshal wrote is read as the same structure."
  },
  {
   "property": "C78",
   "status": "proved",
   "theorems": [
    "Verif.C78_fromCSV_frames",
    "Verif.C78_fromCSV_sequential",
    "Verif.C78_fromCSV_ends",
    "Verif.C78_toCSVs_sequential",
    "Verif.C78_toCSVs_written",
    "Verif.C78_toCSVs_ends",
    "Verif.C78_files_results",
    "Verif.C78_files_ends",
    "Verif.C78_files_hang"
   ],
   "note": "FromCSV, FromCSVFilePattern and ToCSVs as interleaved goroutines: progress, termination, exact result, equality with the sequential models (C30, C55, C68), for every interleaving. In FromCSVFilePattern the goroutines of all the files are interleaved with each other (Model/FileThreads.lean); C78_files_hang is the case where it starts none (C36). A panic of a goroutine ends the program and is outside the transition system. C78_toCSVs_written adds what the writers hold when the order is maintained or not altered."
  },
  {
   "property": "C79",
   "status": "partial",
   "theorems": [
    "Verif.C79_experiment_partial",
    "Verif.C79_options_panic",
    "Verif.C79_not_finite",
    "Verif.C79_ratio_panics",
    "Verif.C79_once_partial",
    "Verif.C79_ends_iff"
   ],
   "note": "Missing: column names must be valid UTF-8 to survive JSON (C77), the target must be a float column (C69), no column _target (C46). Views with repeated rows are included, with the scalings applied once per repetition; C79_once_partial is the case without repeated rows. The order of the result rows is stated. Reading and writing the CSV files around the experiment: C82. C79_ends_iff: the experiment ends without a panic exactly if the learnt numbers are finite."
  },
  {
   "property": "C80",
   "status": "proved",
   "theorems": [
    "Verif.C80_made",
    "Verif.C80_lifetime",
    "Verif.C80_unchanged",
    "Verif.C80_set",
    "Verif.C80_same_cells",
    "Verif.C80_vecDense"
   ],
   "note": "Demo.C80_stale shows a limit the statement implies: an accessor of a column that was converted no longer writes what the dataframe shows."
  },
  {
   "property": "C81",
   "status": "proved",
   "theorems": [
    "Verif.C81_copyValues"
   ],
   "note": ""
  },
  {
   "property": "C82",
   "status": "partial",
   "theorems": [
    "Verif.C82_run_partial",
    "Verif.C82_main_partial",
    "Verif.C82_hangs",
    "Verif.C82_hangs_default",
    "Verif.FixDemo.C82_refuted_hangs",
    "Verif.FixDemo.example_computed",
    "Verif.C82_arguments",
    "Verif.C82_bad_file",
    "Verif.C82_empty_name",
    "Verif.C82_options",
    "Verif.C82_unwritable",
    "Verif.Float64.C82_main64_partial",
    "Verif.Float64.C82_computed64",
    "Verif.C82_plain_file",
    "Verif.C82_stray_quote"
   ],
   "note": "Everything is proved except what the code does not do: the written files hold copies of one record instead of the test records (ExampleDone.alike, ExampleDone.first, FixDemo.example_computed; the cause is C32/C55), and the program hangs instead of ending when it writes n >= 2 files and n(n+1) <= the number of CPUs (C82_hangs, FixDemo.C82_refuted_hangs). C82_main_partial assumes that the learnt numbers are finite and the names in the header are UTF-8 (ExampleReady.utf8), and for several files that the header has no carriage return and there are at most 512 files. C82_main64_partial is the theorem with nothing left open about numbers (IEEE float64, Go's strconv and encoding/json); C82_computed64 is one whole run, computed by the kernel. C82_plain_file/C82_stray_quote: the same for whole files."
  },
  {
   "property": "C83",
   "status": "proved",
   "theorems": [
    "Verif.C83_consistent",
    "Verif.C83_unchanged",
    "Verif.C83_overwrite_existing",
    "Verif.C83_overwrite_creates",
    "Verif.C83_encode",
    "Verif.C83_returns",
    "Verif.Demo.C83_half_overwritten",
    "Verif.Demo.C83_half_encoded"
   ],
   "note": "Full claim for the dataframe calls of Spec/History.lean. HashStringsView panics in its own goroutines and cannot be recovered from."
  },
  {
   "property": "C84",
   "status": "proved",
   "theorems": [
    "Verif.Float64.C84_reads",
    "Verif.Float64.C84_back",
    "Verif.Float64.C84_injective",
    "Verif.Float64.C84_shortest",
    "Verif.Float64.C84_column",
    "Verif.Float64.C84_fromCSV",
    "Verif.Float64.C84_floats_roundtrip",
    "Verif.Float64.C84_quirks",
    "Verif.Float64.C84_syntax",
    "Verif.Float64.C84_underscores",
    "Verif.Float64.C84_special_out"
   ],
   "note": "Go's strconv.ParseFloat and FormatFloat are modelled from their source (Go/Strconv.lean) and compared with another implementation on 4720 bit patterns outside the build. Exponents beyond 99999 (which Go cuts off) are not covered by C84_reads. (Float64.C84_roundtrip_partial, under C33, is the form for dataframes with other columns.) C84_syntax settles every text without underscores, both ways: the special texts, decimal and hexadecimal literals, and nothing else; C84_underscores reduces every text with underscores to one without. "
  },
  {
   "property": "C85",
   "status": "proved",
   "theorems": [
    "Verif.C85_masks",
    "Verif.C85_ends",
    "Verif.C85_thread_safe",
    "Verif.C85_race"
   ],
   "note": "Model: one step is one access to the mask memory by one goroutine (Model/MaskThreads.lean). C85_masks covers every interleaving (bounded length, no panic, no stuck state, right views, no dataframe changes), C85_thread_safe is the documented case, C85_race shows for all dataframes and stores that the documented restriction is needed. Accesses are sequentially consistent, as Go guarantees for programs without data races; in C85_race, which is a data race, the execution shown is one that Go allows."
  },
  {
   "property": "C86",
   "status": "partial",
   "theorems": [
    "Verif.C86_printUIDs",
    "Verif.C86_generated",
    "Verif.C86_debugPrint",
    "Verif.C86_shared_partial",
    "Verif.C86_hash_duplicate",
    "Verif.C86_unshare_in_place",
    "Verif.C86_transfer_under_view",
    "Verif.C86_columnConcatView",
    "Verif.C86_new_silent",
    "Verif.C86_transfer"
   ],
   "note": "The texts are exact and injective. Common positions: proved for every history of View, IndexView, ShuffleView, MaskView, ReverseView, SliceView, SampleView, SortedView, TopView, ResetIndexView, ColumnView, ShallowCopy, Copy, DetachedView, RowConcat, ColumnCopyConcat and HashStringsView (distinct string columns, and another column). False in general: C86_columnConcatView (the result has the identifier of the first dataframe only), C86_hash_duplicate (repeated names), C86_unshare_in_place (Unshare under a live view), C86_transfer_under_view are the counterexamples. Missing: in-place edits in the histories. C86_new_silent: a new dataframe logs nothing; C86_transfer: TransferRawDataFrom unites the positions."
  },
  {
   "property": "C87",
   "status": "partial",
   "theorems": [
    "Verif.C87_unshare_isolates_partial",
    "Verif.C87_shallowCopy_unshare",
    "Verif.C87_unshare_exact",
    "Verif.C87_refuted_columnView",
    "Verif.C87_refuted_owner",
    "Verif.C87_refuted_view"
   ],
   "note": "Proved for what View and its relatives return, for a fresh ShallowCopy and for every dataframe that still records the columns as shared and does not have the other one's set of columns; C87_unshare_exact says which columns move and which dataframes follow. False in general: a ColumnView of a shallow copy uses the same record of shared columns, so unsharing the view makes a later Unshare of the copy do nothing (C87_refuted_columnView); the dataframe a view was taken of does not know that it is shared (C87_refuted_owner); a View taken before follows (C87_refuted_view)."
  },
  {
   "property": "C88",
   "status": "partial",
   "theorems": [
    "Verif.C88_write_partial",
    "Verif.C88_roundtrip_partial",
    "Verif.C88_single_partial",
    "Verif.C88_blank_file",
    "Verif.C88_stale",
    "Verif.C88_stale_refuted",
    "Verif.C88_create_fails"
   ],
   "note": "Proved when no other file matches the pattern, every file gets a row and every share of the rows reads back as the kinds of its columns; string marks are lost with several files. False in general: files of an earlier write that match are read too (C88_stale, C88_stale_refuted); when the shares are used up before the last file, that file holds a blank line and reading is an error (C88_blank_file); when a file cannot be created those before it have been emptied (C88_create_fails)."
  },
  {
   "property": "C89",
   "status": "partial",
   "theorems": [
    "Verif.C89_stack_views",
    "Verif.C89_splitView",
    "Verif.C89_leaveOut",
    "Verif.C89_trainTest",
    "Verif.C89_splitNView_partial",
    "Verif.C89_mask"
   ],
   "note": "Proved for SplitView, for leaving one batch out and for SplitTrainTestViews; for SplitNView exactly when every part gets a row, otherwise RowConcat is proved to return an error (the padding parts have no columns). The text encoding is not carried over by RowConcat. C89_mask: a mask and its complement, stacked, have every row exactly once."
  }
 ]
}