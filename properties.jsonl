{"id": "C01", "title": "IndexView selects exactly the given rows", "statement": "df.IndexView(idx) has len(idx) rows, and for every column its i-th value is df's value at row idx[i]; the set of columns, their types and string marks are those of df; it panics exactly when some idx[i] is outside [0, df.NumRows()). Views compose: IndexView(a).IndexView(b) shows the rows a[b[i]].", "quantifier": "every dataframe (any stack of views over any data), every index list including repetitions and reorderings, every column", "why_tests_cant": "the set of dataframe/index-list pairs is unbounded and views stack arbitrarily deep; a test fixes one small frame", "anchors": ["dataframe/view.go:IndexView", "dataframe/column_access.go"]}
{"id": "C02", "title": "MaskView keeps exactly the masked rows, in order", "statement": "df.MaskView(mask) is observably the same dataframe as df.IndexView of the increasing list of positions where mask is true; it does not panic when len(mask) <= NumRows.", "quantifier": "every dataframe and every mask", "why_tests_cant": "all 2^n masks over all view stacks", "anchors": ["dataframe/view.go:MaskView"]}
{"id": "C03", "title": "SliceView returns the half-open row range", "statement": "For 0 <= from <= to <= NumRows, df.SliceView(from, to) shows exactly rows from..to-1 of df in order, whichever internal strategy (index slice or column re-slicing) is chosen; a negative bound b stands for NumRows+1+b; bounds outside the dataframe panic.", "quantifier": "every dataframe, every pair of bounds, every number of columns (which selects the strategy)", "why_tests_cant": "the strategy switch depends on rows versus 10x columns and on the history of the view; tests exercise one branch", "anchors": ["dataframe/view.go:SliceView", "dataframe/inplace.go:cut"]}
{"id": "C04", "title": "SliceView with from > to gives the same rows reversed", "statement": "For 0 <= to <= from <= NumRows, df.SliceView(from, to) shows the rows to..from-1 of df in reverse order ('if from is higher than to, the row order will be reversed').", "quantifier": "every dataframe and every pair of bounds with from > to", "why_tests_cant": "needs all bounds; the existing test only checks consistency, not content", "anchors": ["dataframe/view.go:SliceView", "dataframe/view.go:ReverseView"]}
{"id": "C05", "title": "ReverseView reverses and is an involution", "statement": "df.ReverseView() shows df's rows in reverse order, and reversing twice is observably df.", "quantifier": "every dataframe", "why_tests_cant": "unbounded row counts and view stacks", "anchors": ["dataframe/view.go:ReverseView"]}
{"id": "C06", "title": "ShuffleView and SampleView never lose, invent or repeat rows", "statement": "For every outcome of the random source, ShuffleView shows a permutation of df's rows (whole rows stay together across columns), and SampleView(n, false) shows n distinct row positions of df; SampleView panics when n > NumRows or with replacement.", "quantifier": "every dataframe, every n, every outcome of the random generator", "why_tests_cant": "random outcomes cannot be enumerated by a test", "anchors": ["dataframe/view.go:ShuffleView", "dataframe/view.go:SampleView"]}
{"id": "C07", "title": "SortedView is a permutation in ascending order", "statement": "df.SortedView(col) shows a permutation of df's rows (kept whole) in which the values of col are ascending, for float columns without NaN, int columns and bool columns (false first); it panics when col is not a float/int/bool column. Nothing is assumed about tie order for float/int columns; for bool columns equal values keep their order.", "quantifier": "every dataframe, every column, every correct (possibly unstable) sort behaviour", "why_tests_cant": "all inputs and all tie-breaking behaviours of an unstable sort", "anchors": ["dataframe/view.go:SortedView", "utils/utils.go:FloatArgSort"]}
{"id": "C08", "title": "TopView returns the n lowest or highest rows", "statement": "For 0 <= n, TopView(col, n, asc, sorted) shows min(n, NumRows) rows of df, each row at most once, such that no omitted row is lower (asc) / higher (!asc) than a returned one; with sorted=true the result is ordered lowest-first (asc) or highest-first (!asc). Negative n panics.", "quantifier": "every dataframe, every n, both flags", "why_tests_cant": "all inputs", "anchors": ["dataframe/view.go:TopView"]}
{"id": "C09", "title": "SplitView partitions the rows", "statement": "df.SplitView(b) with b > 0 returns batches whose rows concatenated in order are exactly df's rows; every batch but the last has exactly b rows and the last between 1 and b (a single empty batch when df is empty); b <= 0 panics.", "quantifier": "every dataframe and every batch size", "why_tests_cant": "all row counts, batch sizes and both cut strategies", "anchors": ["dataframe/view.go:SplitView", "dataframe/inplace.go:cut"]}
{"id": "C10", "title": "SplitNView returns exactly n parts that partition the rows", "statement": "df.SplitNView(n) with n >= 1 returns exactly n dataframes whose rows concatenated in order are df's rows, no part larger than ceil(NumRows/n); n = 0 gives nil and n < 0 panics.", "quantifier": "every dataframe and every n", "why_tests_cant": "all row counts and n, including empty dataframes", "anchors": ["dataframe/view.go:SplitNView"]}
{"id": "C11", "title": "SplitTrainTestViews partitions without shuffling", "statement": "train and test rows concatenated are exactly df's rows in order, and test has int(NumRows*ratio) rows, for every ratio in [0,1]; other ratios panic.", "quantifier": "every dataframe and every ratio", "why_tests_cant": "all ratios and sizes", "anchors": ["dataframe/view.go:SplitTrainTestViews"]}
{"id": "C12", "title": "Writing through a view writes the parent's cell and nothing else", "statement": "If view was obtained from df by row views (IndexView, MaskView, SliceView, ReverseView, ...), view.Xs(col).Set(i, v) makes df's cell at the row shown at view's position i equal to v, is visible through every other view at every position showing that same row, and changes no other cell of any dataframe.", "quantifier": "every dataframe, every chain of views, every column, row and value", "why_tests_cant": "aliasing must hold for all chains of views and all cells", "anchors": ["dataframe/column_access.go:Set", "dataframe/view.go"]}
{"id": "C13", "title": "Structural edits on a view leave the parent's structure alone", "statement": "After v := df.View(), calling Rename, Drop, AllocInts/Floats/Bools/Objects/Strings, IntToFloats, BoolToFloats or an Overwrite* that creates a column on v leaves df's set of columns, column types, column data and string marks unchanged.", "quantifier": "every dataframe, every operation of the list, every argument", "why_tests_cant": "sharing of the underlying maps depends on the whole history", "anchors": ["dataframe/view.go:View", "dataframe/raw_data.go:reallocateMaps", "dataframe/raw_data.go:Rename", "dataframe/raw_data.go:Drop", "dataframe/raw_data.go:AllocStrings"]}
{"id": "C14", "title": "DetachedView isolates the detached columns", "statement": "After v := df.DetachedView(cols...), v shows the same data as df, and any later write through v to one of cols (or to any column when cols is empty) leaves every dataframe that existed before unchanged, and vice versa; columns not in cols stay shared.", "quantifier": "every heap of dataframes with arbitrary sharing, every column list (including unknown and repeated names), every sequence of later cell writes", "why_tests_cant": "isolation must hold against every sharing history and every later write", "anchors": ["dataframe/view.go:DetachedView", "dataframe/raw_data.go:Unshare"]}
{"id": "C15", "title": "Copy is equal, compact and isolated", "statement": "df.Copy() shows exactly df's rows, columns, types and string marks, has as many allocated rows as visible rows, and no later write or structural edit on either one is visible in the other.", "quantifier": "every dataframe, every later sequence of writes and structural edits", "why_tests_cant": "isolation against all later histories", "anchors": ["dataframe/dataframe.go:Copy"]}
{"id": "C16", "title": "Copies keep the text encoding", "statement": "df.Copy(), df.ShallowCopy() and the concatenation functions return a dataframe with the same text encoding as their input, so that a later Encode decodes its strings properly.", "quantifier": "every dataframe and encoding", "why_tests_cant": "observable only on a later Encode", "anchors": ["dataframe/dataframe.go:Copy", "dataframe/dataframe.go:ShallowCopy", "dataframe/concat.go"]}
{"id": "C17", "title": "ShallowCopy shares cells but not structure", "statement": "df.ShallowCopy() shows the same data as df; a cell written through one is seen by the other; structural edits (add, rename, drop columns) on either one are not seen by the other.", "quantifier": "every dataframe and every later operation", "why_tests_cant": "aliasing against all later operations", "anchors": ["dataframe/dataframe.go:ShallowCopy", "dataframe/raw_data.go:TransferRawDataFrom"]}
{"id": "C18", "title": "ColumnView projects columns and keeps rows", "statement": "df.ColumnView(cols...) with at least one name shows exactly the columns of df named in cols, with the same rows, values, types and string marks, and does not change what df shows; with no name it shows all the columns. Cells stay shared.", "quantifier": "every dataframe and every list of names, including names that do not exist", "why_tests_cant": "all inputs", "anchors": ["dataframe/view.go:ColumnView"]}
{"id": "C19", "title": "Reachable dataframes are always consistent", "statement": "Starting from consistent dataframes, after any sequence of view, copy, write, rename, alloc, detach, concat operations, every dataframe still has all its columns equally long and all its row positions inside them, so reading any row of any column cannot panic.", "quantifier": "every finite history of API calls on any number of dataframes", "why_tests_cant": "unbounded histories", "anchors": ["dataframe/view.go", "dataframe/inplace.go", "dataframe/raw_data.go", "dataframe/dataframe.go", "dataframe/concat.go", "dataframe/checks.go:CheckConsistency"]}
{"id": "C20", "title": "ToDataFrame rejects exactly the ragged builders", "statement": "RawData.ToDataFrame() panics if and only if two columns have different lengths; otherwise it returns a consistent dataframe whose rows are the builder's values in order; Add* calls accumulate values in call order and Set* replaces them.", "quantifier": "every sequence of builder calls", "why_tests_cant": "all call sequences", "anchors": ["dataframe/raw_data.go:ToDataFrame", "dataframe/builder.go"]}
{"id": "C21", "title": "RowConcat stacks rows", "statement": "RowConcat(dfs...) returns an error if and only if dfs is empty or the dataframes don't have the same columns; otherwise the result has the columns of the inputs, its rows are the rows of dfs[0], dfs[1], ... in order, and it shares no cell with its inputs.", "quantifier": "every list of dataframes", "why_tests_cant": "all lists, view stacks and column sets", "anchors": ["dataframe/concat.go:RowConcat"]}
{"id": "C22", "title": "ColumnConcatView merges aligned columns or fails", "statement": "ColumnConcatView(dfs...) returns an error if two dataframes share a column name, have different row counts or different inner indices; otherwise it shows all the columns of all inputs with their values, types and string marks unchanged.", "quantifier": "every non-empty list of dataframes", "why_tests_cant": "hash-based check: all index lists", "anchors": ["dataframe/concat.go:ColumnConcatView", "utils/utils.go:HashIntSlice"]}
{"id": "C23", "title": "ColumnCopyConcat merges columns into an isolated dataframe", "statement": "ColumnCopyConcat(dfs...) returns an error exactly when the row counts differ or column names overlap; otherwise it shows all columns of all inputs with their values, and later writes to it do not alter the inputs.", "quantifier": "every non-empty list of dataframes, every later write", "why_tests_cant": "all inputs and later writes", "anchors": ["dataframe/concat.go:ColumnCopyConcat"]}
{"id": "C24", "title": "CheckNoColumnOverlap detects exactly the overlaps", "statement": "CheckNoColumnOverlap(dfs) returns nil if and only if no column name occurs twice among the dataframes (in two dataframes, or with two types in one).", "quantifier": "every list of dataframes", "why_tests_cant": "all lists", "anchors": ["dataframe/checks.go:CheckNoColumnOverlap"]}
{"id": "C25", "title": "Overwrite* equals setting every row", "statement": "df.OverwriteX(col, values) with len(values) >= NumRows makes row i of col read values[i] for all i when no row is repeated in df (and the last written value for repeated rows), changes no other column, and creates the column when it does not exist.", "quantifier": "every dataframe, column and values", "why_tests_cant": "all inputs and view stacks", "anchors": ["dataframe/inplace.go"]}
{"id": "C26", "title": "Encode is all-or-nothing", "statement": "If Encode(newEncoding) succeeds every visible string has been transcoded exactly once and the dataframe's encoding is the new one; if it returns an error every string is what it was before and so is the encoding; missing values stay missing.", "quantifier": "every dataframe, every pair of encodings that round-trip, every position of the failing string", "why_tests_cant": "the failing string can be anywhere; revert must cover every prefix", "anchors": ["dataframe/inplace.go:Encode", "dataframe/inplace.go:inplaceEncoding"]}
{"id": "C27", "title": "LabelToInt is a dense injective labelling", "statement": "LabelToInt(col) returns labels such that two non-missing rows have equal labels iff they have equal strings; the labels used are exactly 0..k-1 in order of first appearance, the mapping lists exactly the strings present with their label, and missing rows get -1.", "quantifier": "every string column with any missing values", "why_tests_cant": "all inputs", "anchors": ["dataframe/conversions.go:LabelToInt"]}
{"id": "C28", "title": "The row iterator delivers every row once, in order", "statement": "Successive NextRow calls on a Float32Iterator return, for r = 0,1,..., the values of the requested columns at row r in the requested order together with r and the raw position, then nil with NumRows and the allocated size forever; Reset restarts this for the new dataframe from any point.", "quantifier": "every dataframe of any size (not only multiples of the internal batch of 128), every column selection, every history of NextRow/Reset calls", "why_tests_cant": "batching boundaries and arbitrary Reset points", "anchors": ["dataframe/row_iterators.go"]}
{"id": "C29", "title": "DenseMatrix returns the batch's values for any sequence of batches", "statement": "Every call to Dense64Batching.DenseMatrix(batch) returns a NumRows x columns matrix whose (i,j) entry is the j-th requested column's value at row i, for any sequence of batches passed to the same batching object.", "quantifier": "every sequence of non-empty dataframes with the requested columns", "why_tests_cant": "buffer recycling depends on the whole sequence of batch sizes", "anchors": ["dataframe/dense_gonum_batching.go:DenseMatrix", "dataframe/float_batching.go:initialize"]}
{"id": "C30", "title": "CSV type inference follows the documented rule", "statement": "With default options a column is bool iff all its cells parse as bools; else int iff all its cells are missing or parse as ints (missing becomes -1); else float iff all are missing or parse as floats (missing becomes NaN); else string (missing becomes nil); parsed values are kept row by row.", "quantifier": "every table of cells, every set of missing-value literals, every float parser", "why_tests_cant": "all cell texts", "anchors": ["dataframe/csv_parsing.go:toNativeTypes", "dataframe/csv_parsing.go:FromCSV"]}
{"id": "C31", "title": "CSV conversion options produce floats as documented", "statement": "With BoolAsFloat, columns made of true/false/0/1 are read as floats 0.0 and 1.0; with BinaryAsFloat, columns made of 0/1 are read as floats; with IntAsFloat no int column is produced.", "quantifier": "every table of cells and every option combination", "why_tests_cant": "all cell texts and option combinations", "anchors": ["dataframe/csv_parsing.go:toNativeTypes"]}
{"id": "C32", "title": "To1CSV writes the viewed rows", "statement": "To1CSV writes a header with every bool, int, float and string column followed by exactly NumRows records whose multiset equals the dataframe's rows, in row order when MaintainOrder is set or the indices are not altered.", "quantifier": "every dataframe of any size (batches of 256), every option combination, every column order", "why_tests_cant": "batch boundaries and view stacks", "anchors": ["dataframe/csv_writing.go:To1CSV", "dataframe/csv_writing.go:sortIfNeeded"]}
{"id": "C33", "title": "CSV cells round-trip", "statement": "Reading back the cells written for an int, bool or string column yields the same column: ints outside {0,1}-only columns come back as the same ints, bools as the same bools, strings that do not look like numbers or bools as the same strings with missing values preserved when the marker is declared missing.", "quantifier": "every column content", "why_tests_cant": "all integers and strings", "anchors": ["dataframe/csv_writing.go:To1CSV", "dataframe/csv_parsing.go:toNativeTypes"]}
{"id": "C34", "title": "The worker pool processes every key exactly once and never deadlocks", "statement": "With at least one worker and non-empty keys, every fair or unfair interleaving of workers and the waiting caller ends with every job executed exactly once, one notification per key received, no send on a closed channel and the caller resumed after all the jobs are complete.", "quantifier": "every list of keys, every worker count, every interleaving, notifications deferred or immediate", "why_tests_cant": "interleavings are exponential in number", "anchors": ["utils/string_q.go"]}
{"id": "C35", "title": "Multi-threaded operations do not depend on the schedule", "statement": "HashStringsView, the scaler, the imputer and one-hot encoding produce the same dataframe and parameters whatever the number of CPUs and the interleaving of the workers' individual cell accesses.", "quantifier": "every interleaving of individual reads and writes, every worker count", "why_tests_cant": "data races only show under some schedules", "anchors": ["dataframe/view.go:workerHashes", "preprocessing/scaler.go", "preprocessing/one_hot.go", "preprocessing/float_imputer.go"]}
{"id": "C36", "title": "Public operations never hang", "statement": "No operation that dispatches columns or files to the worker pool blocks forever: whatever the column names and the maxCPU setting (any value, as documented for EmptyDataFrame, SetMaxCPU and CSVReadingSpec.MaxCPU), at least one worker runs and every key is acknowledged.", "quantifier": "every list of column names or file paths, every maxCPU and number of CPUs", "why_tests_cant": "depends on the machine's CPU count and on column names", "anchors": ["utils/string_q.go", "dataframe/raw_data.go:SetMaxCPU", "dataframe/csv_parsing.go:FromCSVFilePattern", "dataframe/dataframe.go:EmptyDataFrame"]}
{"id": "C37", "title": "HashStringsView hashes deterministically and marks missing with -1", "statement": "In HashStringsView(cols...) every listed column becomes an int column with the same rows where equal strings get equal values, every non-missing string gets a value in [0, maxInt), and exactly the missing (or non-string) cells get -1; unlisted columns are unchanged and the input dataframe is not altered.", "quantifier": "every dataframe, column list and string", "why_tests_cant": "all strings; the hash range is 2^64", "anchors": ["dataframe/view.go:HashStringsView", "dataframe/view.go:workerHashes"]}
{"id": "C38", "title": "One-hot rows have exactly one active column", "statement": "After OneHotEncoder.Fit(train) and TransformView(df) without error, for every row and every categorical column exactly one of that column's new boolean columns is true: the one of its category if seen at training, otherwise the one of the missing/unknown policy; categories get distinct columns and the categorical columns are dropped unless KeepUsedColumns.", "quantifier": "every training set, every transformed dataframe, every policy pair, every map iteration order", "why_tests_cant": "all data and all orders", "anchors": ["preprocessing/one_hot.go"]}
{"id": "C39", "title": "One-hot errors exactly on forbidden values", "statement": "TransformView returns an error iff some visible value is missing under MissingPolicy=ReturnError or unknown under UnknownPolicy=ReturnError; on error and on success the input dataframe is unchanged.", "quantifier": "every dataframe, every policy pair", "why_tests_cant": "all data", "anchors": ["preprocessing/one_hot.go:workerTransforms", "preprocessing/one_hot.go:TransformView"]}
{"id": "C40", "title": "The imputer replaces exactly the missing values", "statement": "After Fit and TransformInplace, every non-missing visible value of a fitted column is unchanged and every missing one equals the fallback (mean of the non-missing training values, 0 or 1); rows outside the view and other columns are untouched; a second application changes nothing when the fallback is not NaN.", "quantifier": "every training and transformed dataframe, every policy, every float semantics", "why_tests_cant": "all data", "anchors": ["preprocessing/float_imputer.go"]}
{"id": "C41", "title": "The scaler's inverse undoes its transform", "statement": "For every fitted scaler, TransformInplace followed by InverseTransformInplace restores every visible value (up to rounding), and TransformInplace maps each visible value x to (x+shift)*scale exactly once, leaving rows outside the view and other columns untouched.", "quantifier": "every dataframe, every option combination, every training data", "why_tests_cant": "all data, including views with repeated rows", "anchors": ["preprocessing/scaler.go"]}
{"id": "C42", "title": "Standard scaling centers and normalizes", "statement": "Fitting with Centering and Scaling on a column and transforming that column yields mean 0 and variance 1 over the non-missing values (up to rounding) when the column is not constant; a constant column is mapped to 0 and missing values stay missing.", "quantifier": "every column", "why_tests_cant": "all data", "anchors": ["preprocessing/scaler.go:workerFits"]}
{"id": "C43", "title": "MinMax scaling maps the training range onto [0,1]", "statement": "Fitting with MinMax and transforming the training column maps its minimum to 0, its maximum to 1 and every value into [0,1].", "quantifier": "every non-constant column", "why_tests_cant": "the existing test uses a column whose range is exactly 1", "anchors": ["preprocessing/scaler.go:workerFits"]}
{"id": "C44", "title": "AutoPreprocessor.FitTransform equals Fit then TransformView", "statement": "For every option combination FitTransform(df) does not panic and shows the same dataframe as Fit(df) followed by TransformView(df), and neither alters df.", "quantifier": "every dataframe and option combination", "why_tests_cant": "all data and options", "anchors": ["preprocessing/auto_preprocessor.go"]}
{"id": "C45", "title": "MSE and MAE are the documented means", "statement": "MSE is the mean of squared differences and MAE the mean of absolute differences of the two visible columns; both are nonnegative, symmetric, zero iff the columns agree, MAE^2 <= MSE; they panic iff the sizes differ.", "quantifier": "every pair of non-empty float columns and views", "why_tests_cant": "all data", "anchors": ["algorithms/evaluation.go"]}
{"id": "C46", "title": "Predict applies one linear map to every row", "statement": "LinearRegressor.Predict(df, out) returns a view where column out at each row is the inverse target scaling of the dot product of that same row's features with the weights, in the order of df's rows, whatever the batch boundaries; df itself is unchanged.", "quantifier": "every dataframe, weights and view stack", "why_tests_cant": "all data and batch boundaries", "anchors": ["algorithms/linear_regression.go:Predict"]}
{"id": "C47", "title": "MakeRange enumerates the arithmetic progression", "statement": "MakeRange(a, b, s) with s > 0 and a <= b returns a, a+s, ... up to but excluding b.", "quantifier": "every a, b, s", "why_tests_cant": "all integers", "anchors": ["utils/utils.go:MakeRange"]}
{"id": "C48", "title": "SplitStringSlice and GroupIndexer partition", "statement": "SplitStringSlice(strs, n) with n > 0 returns min(n, len) groups whose concatenation is strs, never indexing out of range; the GroupIndexer's intervals are contiguous, cover [0, n) and carry increasing group numbers below NGroups.", "quantifier": "every list and every n", "why_tests_cant": "all sizes", "anchors": ["utils/utils.go:SplitStringSlice", "utils/group_indexer.go"]}
{"id": "C49", "title": "Masks have the right size and are private in thread-safe mode", "statement": "ZeroMask() returns NumRows false values and EmptyMask() NumRows values for every reachable dataframe (including views larger than their parent); in thread-safe mode a mask handed out is never changed by later mask requests on any dataframe; the views of a dataframe in thread-safe mode are in that mode too; after ThreadSafeMasking(false) the masks of a dataframe are one and the same memory again.", "quantifier": "every reachable dataframe, every history of mask requests", "why_tests_cant": "aliasing across histories", "anchors": ["dataframe/dataframe.go:ZeroMask", "dataframe/dataframe.go:EmptyMask", "dataframe/view.go:IndexView"]}
{"id": "C50", "title": "Int and bool columns convert to floats", "statement": "IntToFloats(cols) / BoolToFloats(cols) turn each listed column into a float column with the converted values (false/true to 0/1) and remove the original typed column; other columns are unchanged.", "quantifier": "every dataframe and column list", "why_tests_cant": "all data", "anchors": ["dataframe/raw_data.go:IntToFloats", "dataframe/raw_data.go:BoolToFloats"]}
{"id": "C51", "title": "Rename moves a column without touching data", "statement": "Rename(old, new) with new different from every other column makes the data of old available under new with the same type and string mark, removes old, leaves the other columns alone, and panics iff old does not exist; Rename(x, x) changes nothing.", "quantifier": "every dataframe and names", "why_tests_cant": "all data and names", "anchors": ["dataframe/raw_data.go:Rename"]}
{"id": "C52", "title": "ResetIndexView is the sorted-index permutation", "statement": "ResetIndexView() shows a permutation of df's rows ordered by their raw position and does not change df; applying it twice equals applying it once.", "quantifier": "every dataframe", "why_tests_cant": "all view stacks", "anchors": ["dataframe/view.go:ResetIndexView"]}
{"id": "C53", "title": "Column headers behave as sets and don't leak", "statement": "And, Except, ExceptHeader and Copy compute set union, difference and copy; altering a header returned by Header(), FloatHeader(), StringHeader() etc. has no effect on the dataframe.", "quantifier": "every header and every operation sequence", "why_tests_cant": "aliasing across histories", "anchors": ["dataframe/column_header.go"]}
{"id": "C54", "title": "GoodShortNames gives unambiguous prefixes", "statement": "GoodShortNames(m) maps columns to prefixes of length at least m (3 if m <= 0), no two columns to the same prefix, for every map iteration order; and no column's displayed name (shorthand, or full name when it has none) equals another's.", "quantifier": "every set of column names, every iteration order", "why_tests_cant": "iteration order is random", "anchors": ["dataframe/print.go:GoodShortNames"]}
{"id": "C55", "title": "ToCSVDir uses distinct files, as many as promised", "statement": "ToCSVDir writes between 1 and max(1, min(maxCPU, 1+NumRows/MinRowsPerFile)) files with pairwise distinct paths, and the rows of the files concatenated are the dataframe's rows.", "quantifier": "every dataframe, prefix and options", "why_tests_cant": "all sizes", "anchors": ["dataframe/csv_writing.go:ToCSVDir", "dataframe/csv_writing.go:ToCSVs"]}
{"id": "C56", "title": "Merging raw data keeps every value, type and string mark", "statement": "MergeRawDataRows concatenates each column in list order, keeps string marks, and later edits of the inputs don't affect the result; MergeRawDataColumns holds the union of the columns with later structures winning on name clashes.", "quantifier": "every list of RawData", "why_tests_cant": "all lists and later edits", "anchors": ["dataframe/raw_data.go:MergeRawDataRows", "dataframe/raw_data.go:MergeRawDataColumns"]}
{"id": "C57", "title": "VecDense equals the visible column", "statement": "FloatAccess.VecDense() and VecDenseCopy() have NumRows entries equal to the visible values, on contiguous and index-viewed dataframes alike; changing a VecDenseCopy never changes a dataframe.", "quantifier": "every dataframe", "why_tests_cant": "all view stacks", "anchors": ["dataframe/column_access.go:VecDense", "dataframe/column_access.go:VecDenseCopy"]}
{"id": "C58", "title": "maxCPU settings stay usable", "statement": "After SetMaxCPU(n) ActualMaxCPU() is between 1 and the number of cores, equal to n when 1 <= n < cores; views, copies and concatenations inherit it.", "quantifier": "every n and core count", "why_tests_cant": "machine dependent", "anchors": ["dataframe/raw_data.go:SetMaxCPU", "dataframe/raw_data.go:ActualMaxCPU"]}
{"id": "C59", "title": "View-returning functions never modify what they are applied to", "statement": "IndexView, SliceView, MaskView, ColumnView, ShuffleView, SampleView, SplitNView, SplitView, SplitTrainTestViews, SortedView, TopView, ReverseView, HashStringsView, DetachedView, ResetIndexView, ShallowCopy and ColumnConcatView leave what every existing dataframe shows unchanged.", "quantifier": "every heap of dataframes and every argument", "why_tests_cant": "all sharing histories", "anchors": ["README.md", "dataframe/view.go", "dataframe/dataframe.go", "dataframe/concat.go"]}
{"id": "C60", "title": "Feature and parameter learning only looks at the viewed rows", "statement": "Fit of the imputer, scaler and one-hot encoder depends only on the rows shown by the dataframe passed: two dataframes showing the same values give the same parameters whatever the backing data.", "quantifier": "every pair of dataframes showing the same values", "why_tests_cant": "all backing data", "anchors": ["preprocessing"]}
{"id": "C61", "title": "Drop removes exactly the named columns", "statement": "After df.Drop(cols...) none of the named columns exists in any type nor is marked as string, every other column keeps its values, marks and memory, and the rows are unchanged; names that do not exist are ignored.", "quantifier": "every dataframe that owns its maps, every list of names", "why_tests_cant": "all dataframes and name lists", "anchors": ["dataframe/raw_data.go:Drop"]}
{"id": "C62", "title": "Alloc* creates zeroed columns of the right length", "statement": "After AllocInts/AllocFloats/AllocBools/AllocObjects/AllocStrings(cols...) every named column shows the zero value in every row, everything else is unchanged, and AllocStrings also marks the columns as string. This holds for views as well as for plain dataframes.", "quantifier": "every consistent dataframe with at least one column, every list of names", "why_tests_cant": "all dataframes, views and name lists", "anchors": ["dataframe/raw_data.go:AllocInts", "dataframe/raw_data.go:AllocStrings"]}
{"id": "C63", "title": "Unshare changes no value", "statement": "Unshare(cols...) changes nothing that any dataframe shows (rows, values, marks), whatever columns are named; it only gives the dataframe its own memory.", "quantifier": "every consistent dataframe, every list of names, every other dataframe", "why_tests_cant": "all dataframes, sharing structures and name lists", "anchors": ["dataframe/raw_data.go:Unshare"]}
{"id": "C64", "title": "CSV writing reports a writer that fails", "statement": "When a writer stops accepting data at some point, what reaches it is a prefix of its CSV, and To1CSV / ToCSVs return nil only if everything reached the writers; when a file cannot be created, ToCSVFiles and ToCSVDir return an error.", "quantifier": "every dataframe, every point of failure, every moment the library's buffer fills up", "why_tests_cant": "all failure points and buffer states", "anchors": ["dataframe/csv_writing.go:To1CSV", "dataframe/csv_writing.go:ToCSVs", "dataframe/csv_writing.go:ToCSVFiles", "dataframe/csv_writing.go:ToCSVDir"]}
{"id": "C65", "title": "Excluded columns are left alone by AutoPreprocessor", "statement": "The columns listed in AutoPreprocOptions.Exclude are shown unchanged by TransformView.", "quantifier": "every training dataframe, transformed dataframe, option combination, schedule", "why_tests_cant": "all dataframes, exclusion lists and options", "anchors": ["preprocessing/auto_preprocessor.go:fit", "preprocessing/auto_preprocessor.go:TransformView"]}
{"id": "C66", "title": "Training an AutoPreprocessor again forgets the previous training", "statement": "Fit on an already trained AutoPreprocessor leaves it in the state Fit on a new one would.", "quantifier": "every previous state, every dataframe, options, schedule", "why_tests_cant": "all training histories", "anchors": ["preprocessing/auto_preprocessor.go:fit"]}
{"id": "C67", "title": "AutoPreprocessor.TransformedColumns lists the transformed columns", "statement": "After training TransformedColumns lists the float columns that are imputed or scaled and the string columns, without panicking.", "quantifier": "every training dataframe and option combination", "why_tests_cant": "all dataframes and options", "anchors": ["preprocessing/auto_preprocessor.go:TransformedColumns"]}
{"id": "C68", "title": "Reading the files of a pattern stacks their rows", "statement": "FromCSVFilePattern returns (nil, nil) when no regular file matches, an error when the pattern is malformed, a match cannot be examined or opened or one of the files is not a CSV table, the same as FromCSVFile when one file matches, and otherwise a single RawData holding the rows of all the files, file after file in some order common to all the columns, with the column kinds, string marks and text encoding that FromCSV gives.", "quantifier": "all sets of matching files and their contents, all reading options, all orders in which goroutines take files and columns and in which results arrive, all numbers of CPUs", "why_tests_cant": "The order of files depends on the schedule and the behaviour on the number of CPUs and on how the inferred kinds of different files combine; tests run a few files on one machine.", "anchors": ["dataframe/csv_parsing.go: FromCSVFile, FromCSVFilePattern, processFileQueue", "dataframe/raw_data.go: MergeRawDataRows"]}
{"id": "C69", "title": "LinearRegressor.Fit is mini-batch gradient descent on the rows it is given", "statement": "Fit(df, target, params) learns from all float and boolean columns other than the target, standardises a copy of the target, and ends with the weights of gradient descent on the squared error: in every epoch each row is used exactly once, in a shuffled order, in batches of BatchSize rows, with the given learning rate, momentum and weight decay, whatever LowMemory is; Epochs and BatchSize have default values when they are 0; the dataframe and all other dataframes, the target column included, are left as they were.", "quantifier": "all dataframes and views, targets, training parameters, shuffles, initial weights and orders of the columns", "why_tests_cant": "The result depends on random weights and shuffles and on how the data is laid out in memory; a test checks that a loss is small on one dataset.", "anchors": ["algorithms/linear_regression.go: Fit, LinRegTrainParams"]}
{"id": "C70", "title": "A fitted regressor predicts the rows of the dataframe", "statement": "After Fit(df, target, params), Predict(df, out) returns df with one more float column, whose value in each row is the unscaled product of that row's features and the learnt weights; df keeps its contents.", "quantifier": "all dataframes, targets, parameters, result columns and schedules", "why_tests_cant": "Needs the shape of the scaler and of the features after every possible training.", "anchors": ["algorithms/linear_regression.go: Fit, Predict"]}
{"id": "C71", "title": "PrintHead prints the first n visible rows", "statement": "PrintHead(n, format) prints one line per typed column - floats, ints, bools, objects, each group in alphabetical order - made of the column name and the values that Get returns for its first n rows (all rows when n is negative or larger than NumRows), floats with the given format or %.3f, bools as 0/1, missing strings as <missing>; it panics only when one of these values is not a string in a column marked as strings, and it does not change the dataframe.", "quantifier": "all consistent dataframes and views, all n, all formats, all map iteration orders", "why_tests_cant": "Row positions go through the index list of any view; column order depends on random map iteration; the existing tests do not look at the output.", "anchors": ["dataframe/print.go: PrintHead, printObject, printBool"]}
{"id": "C72", "title": "PrintRecords prints one record per visible row", "statement": "PrintRecords(n, format, shorthands) prints for each of the first n rows its position, the position of its backing row, and every column once in alphabetical order, under its shorthand if it has one and its own name otherwise, with the value of that row.", "quantifier": "all consistent dataframes and views, all n, formats and shorthands, all map iteration orders", "why_tests_cant": "Ranges over all column names (names are used as format strings) and all views.", "anchors": ["dataframe/print.go: PrintRecords, intFormat"]}
{"id": "C73", "title": "PrintSummary lists the columns by type", "statement": "PrintSummary lists the names of the float, int, bool, object and string columns, each group in alphabetical order and without repetition, the columns that share memory, the number of rows and of CPUs.", "quantifier": "all consistent dataframes, all map iteration orders", "why_tests_cant": "Column order depends on random map iteration; ranges over all dataframes.", "anchors": ["dataframe/print.go: PrintSummary"]}
{"id": "C74", "title": "The CSV text layer loses nothing", "statement": "Records written as CSV text with a Comma and UseCRLF, and read again with the same Comma (with or without LazyQuotes, TrimLeadingSpace, Comment), are the same records, whatever bytes the fields hold; an invalid separator makes reading fail.", "quantifier": "every list of records, every byte string as a field, every valid separator and option combination", "why_tests_cant": "all byte strings and option combinations", "anchors": ["dataframe/csv_writing.go:To1CSV", "dataframe/csv_parsing.go:FromCSV"]}
{"id": "C75", "title": "The internals are what the accessors show", "statement": "For every column and row i, the backing data (FloatData, IntData, BoolData, ObjectData) at position GetIndices()[i], which is also SharedIndex(i), is the value that Get(i) returns, and storing there is what Set(i, v) does; SharedIndex panics exactly outside the rows; AreIndicesAltered tells whether the backing data is the column itself, in order.", "quantifier": "all consistent dataframes, columns, rows and values; for AreIndicesAltered every history of calls", "why_tests_cant": "Ranges over all views of views and all histories that lead to them.", "anchors": ["dataframe/dataframe_internals.go: GetIndices, GetMask, FloatData, IntData, BoolData, ObjectData", "dataframe/column_access.go: SharedIndex", "dataframe/view.go: AreIndicesAltered"]}
{"id": "C76", "title": "Assertions report exactly the failed comparisons", "statement": "Each Assert function returns true and reports nothing when the comparison in its name is true, and otherwise returns false and reports an error.", "quantifier": "all values and slices, nil ones included", "why_tests_cant": "Ranges over all values; these functions decide whether the tests pass.", "anchors": ["utils/asserts.go"]}
{"id": "C77", "title": "A trained object restored from JSON behaves like the original", "statement": "Saving a trained Scaler, FloatImputer, HashEncoder, OneHotEncoder, AutoPreprocessor or LinearRegressor with json.Marshal succeeds, and json.Unmarshal of the result gives an object that transforms (or predicts for) every dataframe exactly as the original does; training it again gives what training the original again would give.", "quantifier": "all trained objects, all column names, all learnt values, all dataframes given to the restored object, all schedules", "why_tests_cant": "Ranges over all column names (any bytes), all learnt parameters and all dataframes; the tests restore one object with ASCII names.", "anchors": ["preprocessing/README.md", "preprocessing/scaler.go", "preprocessing/float_imputer.go", "preprocessing/hash_encoder.go", "preprocessing/one_hot.go", "preprocessing/auto_preprocessor.go", "algorithms/linear_regression.go", "examples/linreg.go"]}
{"id": "C78", "title": "CSV files are read and written in parallel without interference", "statement": "FromCSV reads the columns in several goroutines and ToCSVs writes each part in its own goroutine. Whatever the order in which the steps of these goroutines happen: the call comes back, and not before its goroutines are done with their work; every column that is not excluded is read by exactly one goroutine and has the type and values that its cells determine, so that the result is the one of a single-threaded run; each writer receives exactly what a single-threaded run would write to it, and the returned error is the one of a single-threaded run. FromCSVFilePattern runs several FromCSV in goroutines of its own: when it starts at least one (see C36), the same holds of all these goroutines together, with exactly one result per file, an error for a file that cannot be opened or is not a table.", "quantifier": "all files, options, numbers of CPUs, orders of the queue, interleavings of the goroutines; all dataframes, numbers of writers, failing writers", "why_tests_cant": "The number of interleavings of the steps of the goroutines is exponential; a test sees the few that the scheduler happens to choose.", "anchors": ["dataframe/csv_parsing.go: FromCSV, toNativeTypes, FromCSVFilePattern, processFileQueue", "dataframe/csv_writing.go: ToCSVs, threadedTo1CSV", "utils/string_q.go"]}
{"id": "C79", "title": "The example experiment trains on the training rows only and reports the error of its predictions on the test rows", "statement": "The program of examples/linreg.go, from the shuffle to the evaluation: the rows are shuffled and split; the preprocessor is trained and run on the training rows only, the regressor is trained on the preprocessed training rows only (its features are the float and boolean columns other than the target); both are saved and restored; the restored preprocessor and regressor are run on the test rows; every test row appears once in the result with its prediction, the unscaled product of its features with the learnt weights, and the original value of the target; the reported figure is the mean absolute error between the two. Dataframes held elsewhere are unchanged. With the options the library does not support, a ratio outside [0, 1] or learnt numbers that are not finite, the program panics instead of giving a result.", "quantifier": "all dataframes with a float target and another float column, all flags, all shuffles and schedules, all implementations of the dot product", "why_tests_cant": "Ranges over all dataframes, options and random choices, and states which rows may influence what was learnt; a run of the example shows one number.", "anchors": ["examples/linreg.go", "dataframe/view.go: ShuffleView, SplitTrainTestViews", "preprocessing/auto_preprocessor.go", "algorithms/linear_regression.go", "algorithms/evaluation.go"]}
{"id": "C80", "title": "A kept column accessor stays connected to the cells it was made for", "statement": "df.Ints(c), Floats, Bools, Objects and Strings panic exactly if the column does not exist (or is not marked as string); otherwise the accessor has NumRows rows, Get(row) returns the value shown there, Set(row, v) stores v, and both panic outside the rows. The accessor may be kept: whatever the program does afterwards with its dataframes (views, copies, edits, renaming or dropping the column), Get and Set keep working at the same rows and address the same memory cells; as long as no cell is written, Get returns what it returned before; a Set is seen by every accessor, old or new, exactly at the rows that address the same cell; a dataframe that shows these cells reads the same values; VecDense and VecDenseCopy hold the values Get returns at the time of the call.", "quantifier": "all programs made of the calls of Spec/History, all dataframes, columns, rows, values, all later histories", "why_tests_cant": "Ranges over all histories between making and using an accessor; the tests use accessors at once.", "anchors": ["dataframe/column_access.go"]}
{"id": "C81", "title": "CopyValuesToInterfaces copies the shown values of any column", "statement": "CopyValuesToInterfaces(c) returns NumRows values, the ones the dataframe shows in column c in row order, whatever the type of the column and whatever view the dataframe is (when several columns share the name: the object, float, int or bool column, in this order); it panics exactly if there is no such column.", "quantifier": "all dataframes, views and column names", "why_tests_cant": "all view stacks and column sets", "anchors": ["dataframe/conversions.go: CopyValuesToInterfaces"]}
{"id": "C82", "title": "The example program, from the text of its CSV file to the files it writes", "statement": "Run on a readable CSV file with a numeric target column and another numeric column, with valid flags, the example program reads every record of the file, trains its preprocessing and its linear regression on a part of the records and tests them on all the others, prints the mean absolute error of the predictions against the target as it is in the file, writes the preprocessed test records with their predictions to CSV files in outdir, reads them again and ends; on a file or flags it cannot use it panics.", "quantifier": "all file texts, flags, shuffles, map orders, goroutine schedules and CPU counts", "why_tests_cant": "the program is random (shuffle, weights) and concurrent; the outcome depends on the number of records and of CPUs and on the text of the file", "anchors": ["examples/linreg.go: main", "dataframe/csv_parsing.go: FromCSVFile, FromCSVFilePattern", "dataframe/csv_writing.go: ToCSVDir", "preprocessing/auto.go", "algorithms/linear_regression.go"]}
{"id": "C83", "title": "A recovered panic leaves the dataframes consistent", "statement": "If the caller recovers from the panic of a dataframe call and goes on, every dataframe stays consistent (columns of one length, all rows inside it, every cell readable). A panicking Set or Rename has changed nothing any dataframe shows. A panicking Overwrite* (fewer values than rows) has stored exactly the values it was given, creating the column first if it did not exist, with zero values in the other rows. A panicking Encode has transcoded exactly the cells visited before the offending value and still records the old encoding.", "quantifier": "every history of legal calls with any number of recovered panics, every dataframe of it, every argument of the panicking call", "why_tests_cant": "a test fixes one history and one panicking call; the claim ranges over all histories, aliasing patterns and panic points", "anchors": ["dataframe/inplace.go: OverwriteInts, OverwriteFloats64, OverwriteBools, OverwriteObjects, OverwriteStrings, Encode, inplaceEncoding", "dataframe/raw_data.go: Rename", "dataframe/column_access.go: Set"]}
{"id": "C84", "title": "Numbers in CSV and JSON texts are read as the nearest float64, and written floats are read back bit for bit", "statement": "A decimal number in a CSV cell of a float column (or in a JSON model file) is read as the float64 nearest to it, ties to even; a number too large for a float64 is not read as a number. Every float64, including NaN, the infinities, negative zero and subnormal numbers, is written by To1CSV as a text with as few digits as possible that is read back as the same float64, so a dataframe of float columns written with To1CSV and read with FromCSV has the same floats in the same cells. A float column of whole numbers only is excepted: it is read as ints, and the ints can differ from the floats.", "quantifier": "all float64 values; all decimal texts with exponents up to 99999; all dataframes of float columns, all column orders, separators, goroutine assignments and missing-value lists", "why_tests_cant": "there are 2^64 floats and unboundedly many decimal texts; correct rounding and shortest digits fail on rare values only", "anchors": ["dataframe/csv_parsing.go: isFloat, toFloat", "dataframe/csv_writing.go: To1CSV", "preprocessing/scaler.go", "algorithms/linear_regression.go"]}
{"id": "C85", "title": "In thread-safe mode goroutines may mask the same dataframe at the same time", "statement": "After ThreadSafeMasking(true) any number of goroutines may at the same time follow the documented pattern (m := df.ZeroMask() or df.EmptyMask(), stores m[i] = b, df.MaskView(m)), on the same dataframe or on views of it: whatever the interleaving of their accesses, none panics, they all end, each gets exactly the view on the rows whose last store is true, and no dataframe changes at any moment. Without the mode the same holds when no two goroutines use dataframes with the same mask memory; with the same mask memory there are executions where a goroutine gets no row at all, whatever rows it asked for.", "quantifier": "any number of goroutines, all dataframes, all stores, all interleavings of single accesses", "why_tests_cant": "a race shows only under some interleavings, and there are too many to test", "anchors": ["dataframe/dataframe.go: ZeroMask, EmptyMask, ThreadSafeMasking", "dataframe/view.go: MaskView"]}
{"id": "C86", "title": "The debugging identifiers tell which dataframes may share data", "statement": "PrintUIDs prints the structure number and, between bars and in base 36, the positions (0 to 63) of the data identifier, and the text determines both; Debug(true) makes the library log them and Debug(false) logs nothing. Two dataframes derived from the same dataframe by any history of views, slices, samples, sorted views, column views, shallow copies, copies, detached views, hashing views and copying concatenations that share a cell have a position in common: so when no position is common, a write through one can never be seen through the other.", "quantifier": "all identifiers, all histories of the listed calls on any well-formed dataframe, all random draws, all writes", "why_tests_cant": "the identifiers are random and sharing depends on the whole history of calls; a test sees a few histories and a few draws", "anchors": ["dataframe/raw_data.go: printableDataUID, generateDataUID, PrintUIDs, Unshare, TransferRawDataFrom", "dataframe/print.go: debugPrint", "dataframe/dataframe.go: Debug, ShallowCopy, Copy", "dataframe/view.go: ColumnView, HashStringsView, DetachedView"]}
{"id": "C87", "title": "Unshare detaches the columns it is asked for", "statement": "After df.Unshare(cols...), the columns cols (all columns when none is named) have memory of their own: a write to one of them through df changes nothing any dataframe that existed before shows, and a write through such a dataframe changes none of them, at any later point of any history of writes.", "quantifier": "every consistent dataframe, every list of names, every other consistent dataframe, every history of writes", "why_tests_cant": "all sharing structures between dataframes and all histories of writes", "anchors": ["dataframe/raw_data.go:Unshare", "dataframe/dataframe.go:ShallowCopy", "dataframe/view.go:ColumnView"]}
{"id": "C88", "title": "Directory round trip", "statement": "After ToCSVDir(prefix) returned nil, FromCSVFilePattern(prefix*.csv) gives back the rows that were written, in some order, with the same columns; the files that ToCSVDir reports hold nothing but what it wrote, whatever was in them before, and no other file of the disk is touched.", "quantifier": "every consistent dataframe, every contents of the disk, every order in which columns are written and files are taken and arrive, every number of files", "why_tests_cant": "all dataframes, all prior contents of the disk and all schedules of the writing and reading goroutines", "anchors": ["dataframe/csv_writing.go:ToCSVDir", "dataframe/csv_writing.go:ToCSVFiles", "dataframe/csv_parsing.go:FromCSVFilePattern"]}
{"id": "C89", "title": "What was cut into views can be stacked again", "statement": "RowConcat of the batches of SplitView, of the parts of SplitNView or of the two parts of SplitTrainTestViews shows the dataframe again: the same columns, the same cells in the same rows; when one batch is left out, the result has exactly the rows of the other batches, in order.", "quantifier": "every consistent dataframe, every batch size, number of parts and ratio, every batch that is left out", "why_tests_cant": "all dataframes, all masks and all cuts", "anchors": ["dataframe/view.go:SplitView", "dataframe/view.go:SplitNView", "dataframe/view.go:SplitTrainTestViews", "dataframe/concat.go:RowConcat"]}
