# Formal model of rom1mouret/ml-essentials in Lean 4

Source: `/repo` (Go). Model, specifications and proofs: `/verif/lean/Verif`. The first version of this
file was written before the proofs; it is regenerated by `tools/design.py` from `tools/design_head.md`,
from the citations in the model (section 6) and from `#print axioms` (section 5).

## 1. Shape of the model

* **Go runtime layer** (`Verif/Go/Basic`). Strings are byte lists (`GoStr`). A Go function that can
  panic or block is a Lean function returning `Except Abort (α × Heap F)`, with `Abort = panic | hang`.
  The heap holds column arrays (`arrays`), column tables (the four Go maps
  `objects/floats/ints/bools` of one `RawData`, which the code always shares or replaces together),
  header sets (the `map[string]bool` behind a `ColumnHeader`) and mask arrays. A slice is
  `(array, offset, len, cap)` with Go's re-slicing rule (`s[a:b]` is legal up to `cap`), so aliasing
  between views, parents, shallow copies and detached columns is visible. `indices` slices are never
  written after construction in the code, so they are values with a capacity tail.
* **Library layer** (`Verif/Model/*`), function by function. Every definition cites file and lines and
  states its simplifications. Section 6 lists the correspondence.
* **Floats**: `float64` is an abstract type `F` with the operations the code uses (class `GoFloat F`,
  *no laws*). Structural theorems hold for every `F` and every semantics of the operations, hence for
  IEEE-754 as the Go compiler implements it. Theorems that need algebra (C41–C43, C45, C46, C69) are
  stated for `Ideal` (a real number, NaN or an infinity, exact arithmetic, `Spec/Ideal`) and say so.
  What rounding adds is stated for `Float64` (`Go/Float64.lean`): IEEE-754 binary64 itself, computed with
  integers (subnormals, signed zeros, infinities, ties to even; one NaN, no fused multiply-add, `int(x)`
  of a non-finite `x` is 0). `Proofs/Float64.lean` proves that its operations return the correctly
  rounded result (`Spec/Float64.lean`), `Proofs/Float64Sqrt.lean` that `math.Sqrt` is the number nearest
  to the real root, `Props/Float32.lean` the same for conversions to `float32`; `tools/float64_check.lean.txt` compares it with the machine's
  floats on random bit patterns (a test, not part of the build).
* **Integers**: `int` is `Int`; the overflow of `int` is modelled where the code relies on it
  (`HashIntSlice`, the FNV hash on `UInt64` and its reduction modulo `MaxInt`, `ParseInt`'s range), not
  in `len` arithmetic.
* **External code** is a parameter with a stated contract: `rand.Shuffle` / `rand.Perm` (any
  permutation), gonum `floats.Argsort` (`IsArgsort`: a permutation, sorted when there is no NaN, nothing
  on ties), gonum BLAS `Dot`/`Axpy` (`Blas`, arbitrary functions; `exactBlas` for the idealised
  statements), `strconv.ParseFloat/FormatFloat` (arbitrary functions; the round-trip theorems ask that
  they be inverse on the values at hand; `Go/Strconv.lean` defines both for `Float64`, and C84 and the
  `C77_*64` theorems show that Go's own functions meet the contract, for every float), `x/text` encodings (arbitrary decode functions),
  `encoding/csv` (the records it yields or is given; its write buffer is `CsvSink`, at the granularity
  of records), `os.Open`/`filepath.Glob` (a file system, any listing order), map iteration order (any
  order: the oracles `OneHotSched`, `AutoSched`, `FilesSched`, `FitSched`, `ord`, constrained to be
  permutations only).
* **Goroutines**: the worker pool of `utils/string_q.go` is a small-step transition system with
  explicit interleavings (`Model/Pool`); jobs are lists of *atoms* (single cell reads and writes,
  single map updates under the mutex) in `Model/PoolJobs`. The library layer uses its sequential summary
  `runQueue` (any job order) and C34/C35 connect the two: every interleaving of the atoms of the jobs
  ends in the state of every sequential order.

## 2. Specifications

`Verif/Spec/*` is the vocabulary of the statements, kept apart from the model: the *abstract dataframe*
`ADF` (number of rows, a partial map from (kind, name) to the list of visible values, string marks,
encoding), `abs h df` (what dataframe `df` shows in heap `h`, defined by calling the public getters'
meaning cell by cell; `get_iff_abs` connects it to `Get`), `locs h df` (which memory cell is behind each
visible cell), and list-level operations (`ADF.select`, `stack`, `beside`, `withCol`, `dropCols`,
`renameCol`, `hashWith`, `encodeWith`, `imputeWith`, `scaleWith`, `oneHot`, …), reference algorithms
(`sgd`, `mean`, CSV kind inference by `csvKind`), and histories of API calls (`Spec/History`).
Property theorems are in `Verif/Props/*`, one file per topic; helper lemmas are in `Verif/Proofs/*`.
Beside each theorem, `Props/*` has an `example` or a `Demo.*`/`*_example` theorem running the model on a
concrete non-trivial state that meets the hypotheses (`Props/Witness1`–`Witness3` apply the theorems of the manifest
themselves to such states; `decide +kernel` there only evaluates the concrete
case; it is not part of any general proof).

## 3. Plan per property

| id | how |
|----|-----|
| C01 C02 C05 C06 C11 C52 | refinement of each row view to `ADF.select`; random/sort outcomes universally quantified |
| C03 C04 C09 C10 | refinement through both branches of `cut`; partition by induction on the number of batches; over-capacity and empty-frame behaviour refuted on concrete runs where the documented claim is false |
| C07 C08 | contract of argsort (any tie order); int columns through the abstract conversion `float64(int)` |
| C12 | frame lemma on heap writes: cell identity `(array, offset)` |
| C13 C14 C15 C17 C18 C59 C61 C62 C63 | separation lemmas: which tables, headers and arrays are fresh; refutations where sharing leaks |
| C16 C22 C51 C50 | refutation by concrete run and the strongest true part |
| C19 | state machine over API calls (`Spec/History.Call`, and `Spec/Programs.Step` for preprocessing, training, predicting, CSV reading and merging), invariant by induction on the history |
| C20 C24 C57 C58 | direct, both directions |
| C21 C23 C56 | refinement to list append / disjoint union |
| C25 C26 C27 C28 C29 | loop invariants; C28 by induction on any sequence of `NextRow`, `Reset` and user writes |
| C30 C31 C32 C33 C55 C64 | decision logic on cells, `Itoa/ParseInt` inverse proved, induction on the rows and the sink's buffer |
| C34 C35 C36 | transition system invariants, commutation of independent steps, termination measure |
| C37 | FNV-1a on `UInt64`, modulo range |
| C38 C39 | refinement to a "category function", injectivity of the generated column names |
| C40 C41 C42 C43 C60 | list-level characterisation of the loops, algebra over `Ideal` |
| C44 C65 C66 C67 | composition of the hash / one-hot / imputer / scaler specifications (`AutoFits`, `Chosen`) |
| C45 C46 | sums over lists, Cauchy–Schwarz, batching refinement |
| C47 C48 C49 C53 C54 | arithmetic / set reasoning |
| C68 | RowConcat and FromCSV specifications composed over the file queue |
| C69 C70 | refinement of the training loops to a reference mini-batch descent (`Spec/LinRegFit.sgd`), and its step to the derivative of the squared error over `Ideal` |
| C71 C72 C73 | `PrintHead`, `PrintRecords`, `PrintSummary` modelled as the list of writes they make to stdout; equal to a reference layout (`Spec/Printing`); refutation for names containing a percent sign |
| C74 | `encoding/csv`'s writer and reader transcribed to bytes (`Model/CSVText`); induction over fields and records; composed with C33 |
| C75 | the internals (`Model/Internals`) against `abs` for every consistent dataframe; `AreIndicesAltered` over every history of calls; its converse is false |
| C76 | `utils/asserts.go` as (returned value, number of reported errors) (`Model/Asserts`), by cases; false of NaN, of near-equal float slices and of repeated strings |
| C77 | `encoding/json` (strings, numbers, maps with sorted keys, nested values) as text (`Model/Json`), and which fields the structures export; reading inverts writing (`Proofs/JsonText`, `JsonValue`, `Json`), by induction on values; false of names that are not UTF-8, of parameters that are not finite, and of training again |
| C78 | the goroutines of `FromCSV` and `ToCSVs` as transition systems with a memory per goroutine (`Model/Threads`), those of `FromCSVFilePattern` as a pool whose jobs are such systems (`Model/FileThreads`); invariant: what a goroutine's memory becomes after its remaining accesses is the sequential run of the jobs it took; termination measure; the result equals that of the sequential models of C30 and C55 |
| C79 | examples/linreg.go from the shuffle to the evaluation as one function (`Model/Experiment`), composed of the models of the library functions it calls; proved by composing C06, C11, C44, C69, C77, C46 and C45, with the rows named by their positions in the dataframe that was read |
| C80 | accessors as objects (`Model/Access`: row positions and slice by value); every call keeps the lengths of existing columns (`Call.keeps`), calls that write no cell keep their contents (`Call.same`); induction over the history |
| C81 | the four-way choice by case analysis; the loop is `gather`, characterised by what the dataframe shows |
| C82 | the whole of examples/linreg.go as one function over the bytes of the input file (`Model/ExampleMain`), composed of the models of `encoding/csv`, `FromCSV`, the experiment (C79), `ToCSVDir` and `FromCSVFilePattern`; proved by composing C74, C30, C79, C55 and C68 |
| C83 | The in-place functions are followed up to their panics (Model/Recover.lean); histories in which calls return or panic (Spec/Recover.lean); invariant over them, and the exact effect of each panicking call. |
| C84 | `strconv.ParseFloat`/`FormatFloat` defined on the IEEE type; nearest by exact rational arithmetic, shortest by convexity of the rounding intervals; composed with the CSV reader, writer and text layer |
| C85 | goroutines as a transition system over single mask accesses; invariant: every goroutine owns its mask memory; refutation without the mode by an explicit schedule for every dataframe |
| C86 | identifiers kept beside the dataframe; invariant over histories: dataframes with a common array have a common position; injectivity of the printed text by unique decoding at the bars |
| C87 | Heap model; the cells of the columns after `Unshare` against those of every other dataframe, then the isolation lemma of C14 over any history of writes; exact description of what moves; three refutations on the demo heap |
| C88 | Disk = texts by path; `os.Create` and the writers of C55 on it, `encoding/csv` text of C74, `FromCSVFilePattern` of C68 on what `filepath.Glob` finds; exact even shares, then composition; refutations where the code fails | partial |
| C89 | RowConcat (C06) composed with the cuts of C10 and C11; the concatenation of selections is the selection of the concatenation | partial |

No property was found inexpressible. Where the English claim is false of the code, the claim is kept in
`properties.jsonl`, the manifest says `partial`, the file contains a theorem refuting it (`*_refuted*`,
or a theorem stating what happens instead), and the strongest true part is proved.

## 4. Where the code contradicts its documentation (each has a theorem)

* `SliceView(from > to)` cuts the reversed dataframe (C04); out-of-range bounds are accepted up to the
  capacity (C03); `SplitNView` of an empty dataframe yields one part (C10).
* `SortedView`/`TopView` on ints go through `float64` and misorder above 2^53 (C07, C08).
* string marks created through a view leak into its parent, `Drop` on a view drops the parent's column
  (C13); `Copy` loses the text encoding (C16); `ColumnConcatView` accepts different row counts and
  colliding index hashes and loses marks (C22, C23); `RowConcat` ignores extra columns of later
  dataframes (C21); `MergeRawDataRows` loses marks and encoding (C56).
* `Encode` on a view with repeated rows transcodes twice (C26); scaling too (C41).
* `DenseMatrix` panics or returns wrong values when a batch is larger than the first (C29).
* CSV: `BoolAsFloat`, `BinaryAsFloat` alone (C31); without `MaintainOrder`, an index view is written as
  the first row repeated (C32); flush errors lost (C64); `maxCPU ≤ 0` writes no file (C55); several
  files: marks lost, kinds may differ (C68).
* The pool hangs on an empty column name, on non-positive worker counts, and in `FromCSVFilePattern` for
  large `MaxCPU` (C36).
* `HashStringsView` of all the columns alters its input (C37).
* `MinMax` scaling divides by the wrong quantity: the range is `[0,(max-min)^2]` (C43). In float64, if `max-min` overflows, the least number of the column becomes NaN.
* `AutoPreprocessor`: `FitTransform` panics for half of the options (C44), `Exclude` is ignored for
  strings (C65), refitting keeps old state (C66), `TransformedColumns` panics (C67).
* `LinearRegressor`: rows come back in backing order (C46, C70); no default for `Epochs`/`BatchSize`
  although documented (C69).
* `MakeRange` panics when the step does not divide the range (C47); `BoolToFloats` leaves the bool
  column (C50); `Rename(x, x)` deletes the column (C51); display names may collide (C54).
* `PrintRecords` passes column names as part of a format string: a percent sign in a name corrupts the record (C72)
* A CSV of a single column loses the rows whose text is empty (C33, C74).
* `AreIndicesAltered` is true of a view on all the rows in order (C75).
* `AssertFloatEquals` accepts NaN for any expected value; `AssertFloatSliceEquals` returns false but reports nothing when the slices differ by 0.01 or less; `AssertStringSliceEquals` without order does not count repeated strings (C76).
* The options of `Scaler`, `FloatImputer` and `AutoPreprocessor` are not exported: an object restored from JSON transforms like the original, but trained again a restored scaler learns nothing, a restored imputer uses the mean, and a restored preprocessor neither imputes nor scales. `json.Marshal` fails if a learnt parameter is not finite, which is the case as soon as a column has only missing values. Column names that are not UTF-8 are altered (C77).
* C79: the flags `-imputing` and `-scaling` of examples/linreg.go only work together: with one of them off, or with both off and
  a string (or encoded int) column present, the program panics (`C79_options_panic`, from C44). A column without any value in the
  training rows, or anything else that makes a learnt number NaN or infinite, makes `json.Marshal` fail and the program panic
  (`C79_not_finite`). The example writes its result with `ToCSVDir`, without `MaintainOrder`, on a view with an altered order: C32
  applies to it.
* C82: the example program never writes its predictions: it calls `ToCSVDir` without `MaintainOrder` on a shuffled view, so that every record of
  every file is a copy of the first row of the underlying columns (`C55_alike`, `ExampleDone.alike`, `FixDemo.example_computed`). With 512 to 1023 test records, 6 CPUs or more and default flags
  it always hangs after having written the files (`C82_hangs_default`). A column of the input without a name also makes it hang
  (`C82_empty_name`).
* C83: a recovered panic of `Overwrite*` leaves a half-written column, one of `Encode` leaves one column in two encodings with the old encoding recorded.
* In IEEE float64 (not in exact arithmetic) standard scaling maps the constant column 0.1, 0.1, 0.1 to -1, -1, -1, takes a column of tiny numbers for a constant one (C42), and a column whose squares overflow is lost: the inverse transformation returns NaN (C41); `MSE` and `MAE` can be 0 for columns that differ, and MAE^2 can exceed MSE (C45).
* C84: a float column of whole numbers is written without a point and read as an int column; from 2^53 on the ints are not the floats (2^60 becomes 1152921504606847000). `1_000`, `0x1p4`, `Inf` and `nan` are read as floats, so text columns that consist of such words become float columns; `1e400` turns a float column into strings.
* C85: the views of a dataframe use the mask memory of the dataframe from its beginning, so even two goroutines that mask disjoint slices (`SplitView`, `SliceView`) of a dataframe without `ThreadSafeMasking(true)` disturb each other.
* C86: `ColumnConcatView` (the result only has the data identifier of the first dataframe), `HashStringsView` with repeated names, `Unshare` on a dataframe with a live view and `TransferRawDataFrom` into one leave dataframes that share data although their data identifiers have no position in common.
* `Unshare` can leave a column shared (C87): `ColumnView` passes the parent's record of shared columns by reference, so `sc := df.ShallowCopy(); v := sc.ColumnView("a"); v.Unshare("a"); sc.Unshare("a")` leaves `sc` writing into `df`; and a dataframe whose views share its data ignores `Unshare`.
* `ToCSVDir` and `FromCSVFilePattern` do not always fit (C88): 4 rows with `MinRowsPerFile: 2` and 3 CPUs give 3 files, the last of which holds only a blank line, and `FromCSVFilePattern` then returns an error; files of an earlier, larger write stay and are read too; a file that cannot be created leaves the ones before it emptied.
* `RowConcat(df.SplitNView(n)...)` returns an error for some `n` below the number of rows (C89): 4 rows in 3 parts are shares of 2, 2 and an empty part without columns. `RowConcat` also drops the text encoding.

## 5. Trusted base

* Lean 4.33.0's kernel, and the reading of `/repo` that produced the model.
* No axiom is added. Of the theorems named in `MANIFEST.json`, 374 depend on exactly
  `propext`, `Classical.choice`, `Quot.sound`. The others depend on fewer:

  * `propext, Quot.sound` (52): `C03_no_column_refuted`, `C10_refuted_empty`, `C11_partition`, `C13_marks_refuted`, `Demo.C19_alloc_after_drop_refuted`, `Demo.C19_intToFloats_missing_refuted`, `Demo.C19_intToFloats_twice_refuted`, `Demo.C19_columnConcatView_refuted`, `Demo.C19_slice_beyond_refuted`, `C22_concatView_errors`, `C22_one_row_differs`, `C22_rows_refuted`, `C22_hash_refuted`, `C22_marks_refuted`, `C24_check_overlap`, `C26_encode_partial`, `C26_lossy_refuted`, `C27_labelToInt`, `C30_errors`, `C34_no_send_on_closed`, `C34_terminates`, `C36_setMaxCPU_positive`, `C36_hash_hangs`, `Demo.C37_all_columns_refuted`, `C37_hash_is_fnv`, `C38_other_columns`, `C40_fit`, `C40_fit_hangs`, `C46_predict_empty_panics`, `C48_splitStringSlice_bad`, `C52_idempotent`, `backingOrder_unique`, `C57_vecDense`, `C57_copy_private`, `C58_setMaxCPU`, `C60_imputer`, `C69_negative_epochs`, `Demo.df_typeOk`, `C75_sharedIndex_panics`, `C76_string_sets_partial`, `C76_float_slices_partial`, `C77_trained_imputer`, `C77_numbers`, `C77_missing_members`, `C80_made`, `C81_copyValues`, `Demo.C83_half_encoded`, `C86_generated`, `C86_hash_duplicate`, `C86_unshare_in_place`, `C86_transfer_under_view`, `C86_columnConcatView`
  * `propext` (45): `C06_sampleView_panics`, `C07_sortedView_panics`, `C09_splitView_panics`, `C10_splitNView_other`, `C11_panics`, `C18_columnView_all`, `C25_overwrite_short`, `C26_encode_same`, `C27_labelToInt_panics`, `Demo.C29_growing_batch_wrong`, `parseBool_iff`, `C38_options`, `Demo.C41_repeated_rows_refuted`, `C46_predict_untrained_panics`, `C46_example`, `C46_reorders_rows`, `C46_repeated_rows`, `C46_target_column_overwritten`, `C46_result_named_target`, `C49_recycled`, `C54_display_refuted`, `C62_refuted_without_columns`, `C68_no_file`, `C68_listing_error`, `C68_kinds_refuted`, `C68_kinds_panic_refuted`, `C69_bool_target_panics`, `C69_repeated_rows`, `C69_target_column`, `C69_no_rows_panics`, `C69_example`, `C74_bad_separator`, `Demo.C74_comment_refuted`, `Demo.C74_trim_refuted`, `Demo.C74_last_line_lazy_refuted`, `C75_no_column`, `Demo.C75_converse_refuted`, `C75_getMask`, `C76_slices`, `C76_float_partial`, `C76_nan_refuted`, `C83_returns`, `Demo.C83_half_overwritten`, `C87_refuted_columnView`, `C87_refuted_owner`
  * no axiom (1): `Demo.C76_counts_refuted`

* No use of compiled evaluation: `decide +kernel` is kernel reduction; neither `native_decide` nor
  `bv_decide` occurs.

**Not covered by the model, by choice**

* What a call has already written when it panics: a panic is the end of a run (`Except.error`), except for the dataframe
  calls of C83, which are followed up to their panics (`Model/Recover.lean`). Panics inside pool goroutines end the program and
  are represented by the same error.
* Data races below the atom granularity, the Go memory model's weak behaviours, goroutine starvation.
* `fromCSVFilePattern`, `fromCSV` and `toCSVs` run the goroutines one after another in any order; the goroutines of the
  three are interleaved step by step in C78, which gives the same results.
* The byte format of CSV (quoting) is `encoding/csv`'s, transcribed in `Model/CSVText` from the standard library
  (not from /repo); gonum, `strconv`, `x/text`, `os` as above.
* Structure/data UIDs, `Debug`, `debugPrint`, log output, and time measurements: they are written
  but never read by the computations.
* Iterators keep their dataframe by value: structural edits of that dataframe during an iteration are
  outside C28.
* Memory exhaustion, `int` overflow of lengths.

## 6. Which functions are modelled

Generated by `tools/coverage.py`: for every Go function outside the tests, the Lean definitions whose
comment cites lines of it.

* **algorithms/evaluation.go**: `MSE` → `mseLoop`, `mse`; `MAE` → `maeLoop`, `mae`
* **algorithms/linear_regression.go**: `NewLinearRegressor` → `LinearRegressor`; `LinearRegressor.Fit` → `fitMomentum`, `fitUpdate`, `fitBatch`, `fitBatches`, `fitShuffled`, `fitEpoch` …; `LinearRegressor.Predict` → `predictLoop`, `predictBatchSize`, `LinearRegressor.predict`
* **dataframe/builder.go**: `DataBuilder.AddFloats` → `Raw.add`; `DataBuilder.AddBools` → `Raw.add`; `DataBuilder.AddInts` → `Raw.add`; `DataBuilder.AddObjects` → `Raw.add`; `DataBuilder.MarkAsString` → `Raw.markAsString`; `DataBuilder.AddStrings` → `Raw.addStrings`; `DataBuilder.SetFloats` → `Raw.setCol`; `DataBuilder.SetBools` → `Raw.setCol`; `DataBuilder.SetInts` → `Raw.setCol`; `DataBuilder.SetObjects` → `Raw.setCol`; `DataBuilder.ToDataFrame` → `Raw.toDataFrame`
* **dataframe/checks.go**: `CheckNoColumnOverlap` → `overlapStep`, `checkNoColumnOverlap`; `RawData.CheckConsistency` → `Raw.checkConsistency`
* **dataframe/column_access.go**: `DataFrame.Ints` → `DF.access`, `DF.get`, `DF.sharedIndex`, `DF.intVals`; `DataFrame.Bools` → `DF.access`, `DF.get`, `DF.sharedIndex`, `DF.setTrue`; `DataFrame.Floats` → `DF.access`, `DF.get`, `DF.floatAccess`, `DF.sharedIndex`, `DF.floatVals`; `DataFrame.Objects` → `DF.access`, `DF.get`, `DF.sharedIndex`; `DataFrame.Strings` → `DF.stringAccess`, `DF.getString`, `DF.setString`, `DF.sharedIndex`; `ColumnAccess.Size` → `Access.size`, `FloatAccess.size`; `ColumnAccess.SharedIndex` → `Access.sharedIndex`, `DF.sharedIndex`; `FloatAccess.VecDenseCopy` → `Access.vecDenseCopy`, `DF.vecDenseCopy`; `FloatAccess.VecDense` → `Access.vecDense`, `DF.vecDense`; `FloatAccess.Get` → `Access.get`, `DF.get`, `FloatAccess.get`; `FloatAccess.Set` → `Access.set`, `DF.set`; `IntAccess.Get` → `Access.get`, `DF.get`, `DF.intVals`; `IntAccess.Set` → `Access.set`, `DF.set`; `BoolAccess.Get` → `Access.get`, `DF.get`, `DF.floatVals`; `BoolAccess.Set` → `Access.set`, `DF.set`, `DF.setTrue`; `ObjectAccess.Get` → `Access.get`, `DF.get`; `ObjectAccess.Set` → `Access.set`, `DF.set`; `StringAccess.Get` → `Access.getString`, `DF.getString`; `StringAccess.Set` → `Access.setString`, `DF.setString`
* **dataframe/column_header.go**: `Columns` → `hdrColumns`; `ColumnHeader.Num` → `hdrNum`; `ColumnHeader.NameSet` → `hdrList`; `ColumnHeader.NameList` → `hdrList`; `ColumnHeader.ExceptHeader` → `hdrExceptHeader`; `ColumnHeader.Except` → `hdrExcept`; `ColumnHeader.And` → `hdrAnd`; `ColumnHeader.Copy` → `hdrCopy`; `RawData.IntHeader` → `kindHeader`; `RawData.ObjectHeader` → `kindHeader`; `RawData.FloatHeader` → `kindHeader`; `RawData.BoolHeader` → `kindHeader`; `RawData.StringHeader` → `DF.stringNames`; `RawData.Header` → `header`, `allNames`; `ColumnHeader.add` → `hdrAdd`; `ColumnHeader.remove` → `hdrRemove`; `ColumnHeader.contains` → `hdrContains`; `ColumnHeader.get` → `hdrList`
* **dataframe/concat.go**: `RowConcat` → `copyRows`, `concatCols`, `concatLoop`, `makeCol`, `rowConcat`, `Tags.rowConcat`; `ColumnSmartConcat` → `columnSmartConcat`; `ColumnConcatView` → `mergeViews`, `columnConcatView`, `Tags.columnConcatView`; `ColumnCopyConcat` → `copyAll`, `columnCopyConcat`, `Tags.columnCopyConcat`
* **dataframe/conversions.go**: `DataFrame.CopyValuesToInterfaces` → `DF.copyValuesToInterfaces`; `DataFrame.LabelToInt` → `labelLoop`, `DF.labelToInt`
* **dataframe/csv_parsing.go**: `isBinary` → `isBinary`; `isBool` → `isBool`, `toInt`; `toBool` → `toBool`, `csvValue`; `isInt` → `isInt`; `toInt` → `toInt`, `csvValue`; `isFloat` → `isFloat`; `toFloat` → `toFloat`, `csvValue`; `toNativeTypes` → `toStrings`, `CsvWorker`, `csvColumn`, `csvJob`, `WPool`, `WPool.Step` …; `FromCSV` → `readTable`, `csvWorkers`, `csvColumns`, `fromCSV`, `TextReader`, `CSVTextSpec` …; `FromCSVFile` → `fromCSVFile`, `Disk.files`, `fileTable`, `fileInit`; `FromCSVFilePattern` → `regularFiles`, `collectResults`, `fromCSVFilePattern`, `fileThreads`, `fileSpec`, `cpuPerFile` …; `processFileQueue` → `fileJob`
* **dataframe/csv_writing.go**: `DataFrame.To1CSV` → `fmtFloat64`, `TextWriter`, `csvText`, `cellText`, `csvFill`, `csvBatch` …; `DataFrame.threadedTo1CSV` → `csvParts`, `csvOutOps`; `DataFrame.ToCSVs` → `csvParts`, `DF.toCSVs`, `Fork`, `csvOutProg`, `csvFork`, `csvForkOk`; `DataFrame.ToCSVFiles` → `DF.toCSVFiles`, `Disk.create`, `DF.toCSVFilesOn`; `DataFrame.ToCSVDir` → `csvNumFiles`, `csvPaths`, `DF.toCSVDir`, `DF.toCSVDirOn`; `DataFrame.sortIfNeeded` → `DF.sortIfNeeded`
* **dataframe/dataframe.go**: `EmptyDataFrame` → `emptyDataFrame`, `newTags`; `DataFrame.ZeroMask` → `zeroMaskLoop`, `DF.zeroMask`, `MaskThread`, `MaskThread.give`, `MaskThread.step`; `DataFrame.EmptyMask` → `DF.emptyMask`, `MaskThread.give`, `MaskThread.step`; `DataFrame.NumRows` → `DF.numRows`; `DataFrame.ThreadSafeMasking` → `DF.threadSafeMasking`; `DataFrame.Debug` → `Tags.setDebug`; `DataFrame.ShallowCopy` → `DF.shallowCopy`, `Tags.shallowCopy`; `DataFrame.Copy` → `copyCol`, `DF.copy`, `Tags.copy`
* **dataframe/dataframe_internals.go**: `DataFrameInternals.GetMask` → `DF.internalMask`; `DataFrameInternals.GetIndices` → `DF.internalIndices`; `DataFrameInternals.FloatData` → `DF.internalData`; `DataFrameInternals.IntData` → `DF.internalData`; `DataFrameInternals.BoolData` → `DF.internalData`; `DataFrameInternals.ObjectData` → `DF.internalData`
* **dataframe/dense_gonum_batching.go**: `NewDense64Batching` → `newDense64Batching`; `Dense64Batching.DenseMatrix` → `cell64`, `denseCol`, `Dense64Batching.denseMatrix`
* **dataframe/float_batching.go**: `imin` → `FloatBatching`; `FloatBatching.initialize` → `FloatBatching.classify`, `FloatBatching.initialize`
* **dataframe/inplace.go**: `inplaceEncoding` → `transcode`, `inplaceEncoding`, `inplaceReached`; `DataFrame.Encode` → `revertCols`, `encodeLoop`, `DF.encode`, `revertReached`, `encodeLoopReached`, `DF.encodeReached`; `DataFrame.OverwriteInts` → `overwriteLoop`, `DF.overwrite`, `overwriteReached`, `DF.overwriteReached`; `DataFrame.OverwriteFloats64` → `DF.overwrite`, `DF.overwriteReached`; `DataFrame.OverwriteFloats32` → `DF.overwrite`, `DF.overwriteReached`; `DataFrame.OverwriteBools` → `DF.overwrite`, `DF.overwriteReached`; `DataFrame.OverwriteObjects` → `DF.overwrite`, `DF.overwriteReached`; `DataFrame.OverwriteStrings` → `DF.overwrite`, `DF.overwriteReached`; `DataFrame.cut` → `resliceCol`, `DF.cut`
* **dataframe/print.go**: `DataFrame.PrintSummary` → `sortStrs`, `DF.printSummary`; `DataFrame.PrintHead` → `sortStrs`, `floatFormat`, `printCount`, `printCell`, `printCols`, `DF.printHead`; `DataFrame.PrintRecords` → `displayName`, `sortStrs`, `floatFormat`, `printCount`, `printCell`, `recordKind` …; `DataFrame.GoodShortNames` → `firstFree`, `shortStep`, `DF.goodShortNames`; `DataFrame.printObject` → `printObject`; `printBool` → `printBool`; `intFormat` → `intWidth`; `DataFrame.debugPrint` → `DF.debugPrint`
* **dataframe/raw_data.go**: `NewRawData` → `newRawData`; `RawData.printableDataUID` → `uidLoop`, `printableDataUID`; `RawData.resetStructureUID` → `newStructureUID`; `generateDataUID` → `generateDataUID`; `RawData.NumAllocatedRows` → `numAllocatedRows`; `RawData.ToDataFrame` → `Raw.toDataFrame`, `Tags.toDataFrame`; `RawData.NumColumns` → `numColumns`; `RawData.SetMaxCPU` → `clampCPU`, `Raw.setMaxCPU`; `RawData.ActualMaxCPU` → `Raw.actualMaxCPU`; `RawData.Unshare` → `Tags.unshare`, `unshareCol`, `Raw.unshare`; `RawData.Drop` → `Raw.drop`; `RawData.Rename` → `renameKind`, `Raw.rename`, `DF.renameReached`; `RawData.AllocInts` → `Raw.alloc`; `RawData.AllocFloats` → `Raw.alloc`; `RawData.AllocBools` → `Raw.alloc`; `RawData.AllocObjects` → `Raw.alloc`; `RawData.AllocStrings` → `Raw.allocStrings`; `RawData.TransferRawDataFrom` → `Tags.transfer`, `Raw.transferCore`, `Raw.transferFrom`; `MergeRawDataColumns` → `mergeRawDataColumns`; `MergeRawDataRows` → `appendCols`, `preallocCols`, `mergeRawDataRows`; `RawData.IntToFloats` → `intToFloatVal`, `Raw.intToFloats`; `RawData.BoolToFloats` → `boolToFloatVal`, `Raw.boolToFloats`; `RawData.CreateColumnQueue` → `runQueue`; `RawData.reallocateMaps` → `Raw.reallocateMaps`; `RawData.allocateEmptyMaps` → `newTags`, `newRawData`; `RawData.PrintUIDs` → `Tags.printUIDs`
* **dataframe/row_iterators.go**: `RowIterator.Columns` → `FloatBatching`; `RowIterator.Reset` → `checkCols`, `Float32Iterator.reset`; `RowIterator.nextIndices` → `Float32Iterator.nextIndices`; `NewFloat32Iterator` → `newFloat32Iterator`; `Float32Iterator.NextRow` → `cell32`, `fillKind`, `Float32Iterator.refill`, `Float32Iterator.nextRow`
* **dataframe/view.go**: `DataFrame.AreIndicesAltered` → `DF`, `DF.areIndicesAltered`; `DataFrame.IndexView` → `pickRows`, `Heap.appendMask`, `DF.indexView`; `DataFrame.SliceView` → `DF.sliceView`; `DataFrame.MaskView` → `maskRows`, `DF.maskView`, `MaskThread`, `maskResult`, `MaskThread.step`; `DataFrame.ColumnView` → `DF.columnView`, `Tags.columnView`; `DataFrame.ShuffleView` → `DF.shuffleView`; `DataFrame.SampleView` → `DF.sampleView`; `DataFrame.SplitNView` → `DF.splitNView`; `DataFrame.SplitView` → `DF.splitLoop`, `DF.splitView`; `DataFrame.SplitTrainTestViews` → `DF.splitTrainTestViews`; `DataFrame.SortedView` → `boolOrder`, `DF.sortedView`; `DataFrame.TopView` → `DF.topView`; `DataFrame.ReverseView` → `DF.reverseView`; `DataFrame.workerHashes` → `hashVal`, `hashColumn`; `DataFrame.HashStringsView` → `DF.hashStringsView`, `Tags.hashStringsView`; `DataFrame.DetachedView` → `DF.detachedView`, `Tags.detachedView`; `DataFrame.View` → `DF.view`, `Tags.view`; `DataFrame.ResetIndexView` → `DF.resetIndexView`
* **examples/linreg.go**: `main` → `ExampleArgs`, `ExampleArgs.parsed`, `exampleSpec`, `exampleText`, `ExampleArgs.flags`, `exampleRead` …
* **preprocessing/auto_preprocessor.go**: `NewAutoPreprocessor` → `newAutoPreprocessor`; `AutoPreprocessor.TransformedColumns` → `AutoPreprocessor.transformedColumns`; `AutoPreprocessor.Fit` → `AutoPreprocessor.fit`; `AutoPreprocessor.FitTransform` → `AutoPreprocessor.fitTransform`; `AutoPreprocessor.fit` → `AutoPreprocessor.floatCols`, `AutoPreprocessor.fitImputer`, `AutoPreprocessor.fitScaler`, `AutoPreprocessor.fitFloats`, `AutoPreprocessor.fitHash`, `AutoPreprocessor.fitOneHot` …; `AutoPreprocessor.TransformView` → `AutoPreprocessor.detach`, `imputeIf`, `scaleIf`, `hashIf`, `AutoPreprocessor.transformView`
* **preprocessing/float_imputer.go**: `NewFloatImputer` → `newFloatImputer`; `FloatImputer.TransformedColumns` → `FloatImputer.transformedColumns`; `FloatImputer.workerFits` → `FitReg`, `imputerFitAtoms`, `imputerSum`, `imputerMean`, `imputerJob`; `FloatImputer.Fit` → `imputerJob`, `FloatImputer.fit`; `FloatImputer.TransformInplace` → `imputeVal`, `imputeLoop`, `FloatImputer.transformInplace`
* **preprocessing/hash_encoder.go**: `NewHashEncoder` → `HashEncoder`; `HashEncoder.Fit` → `HashEncoder.fit`; `HashEncoder.TransformView` → `HashEncoder.transformView`; `HashEncoder.TransformedColumns` → `HashEncoder.transformedColumns`
* **preprocessing/one_hot.go**: `NewOneHotEncoder` → `newOneHotEncoder`; `OneHotEncoder.workerFits` → `freqKeys`, `mostCommon`, `onehotName`, `missingName`, `unkName`, `numberCats` …; `OneHotEncoder.Fit` → `oneHotInit`, `fallbackMissing`, `newColumnNames`, `OneHotEncoder.fit`; `OneHotEncoder.workerTransforms` → `OneHotEncoder.target`, `oneHotLoop`, `fallbackThere`, `oneHotJob`, `oneHotRow`, `oneHotAtoms`; `OneHotEncoder.TransformView` → `OneHotEncoder.transformView`; `OneHotEncoder.TransformedColumns` → `OneHotEncoder.transformedColumns`; `OneHotOptions.fix` → `OneHotOptions.fix`
* **preprocessing/scaler.go**: `NewScaler` → `newScaler`; `workerFits` → `FitReg`, `scalerFitAtoms`, `scalerMinMax`, `scalerMean`, `scalerSquares`, `scalerFitCol` …; `Scaler.Fit` → `setOpt`, `scalerJob`, `Scaler.fit`; `Scaler.workerTransforms` → `scalerAtoms`, `scaleVal`, `Scaler.transformInplace`; `Scaler.TransformInplace` → `Scaler.transformInplace`; `Scaler.InverseTransformInplace` → `reverseShift`, `Scaler.reverse`, `Scaler.inverseTransformInplace`; `Scaler.TransformedColumns` → `Scaler.transformedColumns`; `mapKeys` → `Scaler.transformedColumns`
* **utils/asserts.go**: `AssertStringEquals` → `assertStringEquals`; `AssertStringNotEquals` → `assertStringNotEquals`; `AssertIntEquals` → `assertIntEquals`; `AssertIntNotEquals` → `assertIntNotEquals`; `AssertFloatEquals` → `assertFloatEquals`; `AssertFalse` → `assertFalse`; `AssertTrue` → `assertTrue`; `AssertNoError` → `assertNoError`; `AssertStringSliceEquals` → `assertStringSliceEquals`; `AssertIntSliceEquals` → `assertIntSliceEquals`; `AssertIntSliceNotEquals` → `assertIntSliceNotEquals`; `AssertFloatSliceEquals` → `assertFloatSliceEquals`; `AssertBoolSliceEquals` → `assertBoolSliceEquals`
* **utils/group_indexer.go**: `CreateGroupIndexer` → `createGroupIndexer`; `GroupIndexer.Initialize` → `createGroupIndexer`; `GroupIndexer.HasNext` → `GroupIndexer.hasNext`; `GroupIndexer.Next` → `GroupIndexer.next`
* **utils/string_q.go**: `CreateStringQueue` → `queueWorkers`, `Pool.init`; `StringQ.Results` → `Pool.Steps`; `StringQ.Wait` → `Pool.Steps`; `StringQ.Next` → `Pool.Steps`, `WPool.Step`; `StringQ.Notify` → `Pool.Steps`
* **utils/utils.go**: `MakeRange` → `makeRangeFill`, `makeRange`; `FloatArgSort` → `DF.sortedView`; `SplitStringSlice` → `GroupIndexer.run`, `assignGroups`, `splitStringSlice`; `HashIntSlice` → `hashIntSlice`; `ToStringSet` → `hdrList`; `StringSetKeys` → `hdrList`, `hashIntSlice`; `IndexOfString` → `indexOfString`

**Functions no definition cites:** `dataframe/builder.go:118 fillBlanks`.

Of these, `fillBlanks` is called by a test only. `examples/linreg.go` is modelled (C79, C82) except what it prints and logs, `-debug`; the disk before it runs is modelled for `ToCSVDir` itself (C88), not for the program.

