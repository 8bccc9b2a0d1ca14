import Verif.Model.DataFrame
import Verif.Model.OneHot
import Verif.Model.CSVParsing

/-! Model of dataframe/csv_writing.go. What is written is the sequence of records handed to
`encoding/csv`'s writer; the quoting of the fields and the line ends are left to the library. The
library's buffering and its error reporting are modelled (`CsvSink`). `strconv.FormatFloat` is a
parameter. -/

namespace Verif
variable {F : Type}

/-- csv_writing.go:13-29 `CSVWritingSpec`. `UseCRLF` only configures `encoding/csv`. `comma` is a rune. -/
structure CSVWritingSpec where
  missingMarker : GoStr
  minRowsPerFile : Int
  maintainOrder : Bool
  comma : Nat
  deriving DecidableEq, Repr

/-- `encoding/csv`'s `validDelim`: not NUL, not a quote, not a line end, not U+FFFD, a valid rune. -/
def validDelim (r : Nat) : Bool :=
  decide (r ≠ 0 ∧ r ≠ 34 ∧ r ≠ 13 ∧ r ≠ 10 ∧ r ≠ 0xFFFD ∧ r < 0x110000 ∧ ¬ (0xD800 ≤ r ∧ r < 0xE000))

/-- A `csv.Writer` over its `bufio.Writer` over the user's `io.Writer`. The `io.Writer` takes `limit`
records (`none`: any number) and then fails. `full n` says whether the buffer overflows when the `n`-th
record is added. Simplification: the unit is the record, not the byte. -/
structure CsvSink where
  comma : Nat
  limit : Option Nat
  full : Nat → Bool
  pending : List (List GoStr)
  written : List (List GoStr)
  failed : Bool

/-- `csv.NewWriter(r)`. -/
def newCsvSink (limit : Option Nat) (full : Nat → Bool) : CsvSink := ⟨44, limit, full, [], [], false⟩

/-- `bufio.Writer.Flush`: a failure is remembered, nothing is written after it. -/
def CsvSink.flush (w : CsvSink) : CsvSink :=
  if w.failed then w
  else
    let all := w.written ++ w.pending
    match w.limit with
    | none => { w with written := all, pending := [] }
    | some n =>
      if all.length ≤ n then { w with written := all, pending := [] }
      else { w with written := all.take n, pending := [], failed := true }

/-- `csv.Writer.Write`: the flag is true when the error is nil. -/
def CsvSink.write (w : CsvSink) (r : List GoStr) : Bool × CsvSink :=
  if validDelim w.comma then
    if w.failed then (false, w)
    else
      let w := { w with pending := w.pending ++ [r] }
      let w := if w.full (w.written.length + w.pending.length) then w.flush else w
      (!w.failed, w)
  else (false, w)

/-- `csv.Writer.WriteAll`: writes the records up to the first error, then flushes. -/
def CsvSink.writeAll (w : CsvSink) : List (List GoStr) → Bool × CsvSink
  | [] => let w := w.flush; (!w.failed, w)
  | r :: rs =>
    match w.write r with
    | (false, w) => (false, w)
    | (true, w) => w.writeAll rs

/-- `strconv.FormatBool`. -/
def fmtBool (b : Bool) : GoStr := if b then b!"true" else b!"false"

/-- `strconv.Itoa`. -/
def fmtInt (n : Int) : GoStr := if n < 0 then 45 :: natDec n.natAbs else natDec n.natAbs

/-- csv_writing.go:72, 79, 86, 93-98: the text of an element. (A bool, int or float column has no element of
another type; the model then takes the zero value.) -/
def cellText [GoFloat F] (ff : F → GoStr) (marker : GoStr) : Kind → Val F → Except Abort GoStr
  | .bool, .bool b => .ok (fmtBool b)
  | .bool, _ => .ok (fmtBool false)
  | .int, .int n => .ok (fmtInt n)
  | .int, _ => .ok (fmtInt 0)
  | .float, .float x => .ok (ff x)
  | .float, _ => .ok (ff GoFloat.zero)
  | .obj, .nil => .ok marker
  | .obj, .str s => .ok s
  | .obj, _ => .error .panic

/-- The loop `for i, k := range df.indices[j:end] { batch[i][col] = ...vals[k]... }` from `i` on. -/
def csvFillCol [GoFloat F] (ff : F → GoStr) (marker : GoStr) (h : Heap F) (k : Kind) (s : Slice) (col : Nat) :
    List Nat → Nat → List (List GoStr) → Except Abort (List (List GoStr))
  | [], _, batch => .ok batch
  | r :: rs, i, batch =>
    match h.cell s r with
    | none => .error .panic
    | some v =>
      match cellText ff marker k v with
      | .error e => .error e
      | .ok t =>
        match batch[i]? with
        | none => .error .panic
        | some row =>
          if col < row.length then csvFillCol ff marker h k s col rs (i + 1) (batch.set i (row.set col t))
          else .error .panic

/-- csv_writing.go:68-101: the four loops over the columns, `col` being the counter. -/
def csvFill [GoFloat F] (ff : F → GoStr) (marker : GoStr) (h : Heap F) (t : Table) (inds : List Nat) :
    List (Kind × GoStr) → Nat → List (List GoStr) → Except Abort (List (List GoStr))
  | [], _, batch => .ok batch
  | (k, c) :: cs, col, batch =>
    match csvFillCol ff marker h k (tabCol t (k, c)) col inds 0 batch with
    | .error e => .error e
    | .ok batch => csvFill ff marker h t inds cs (col + 1) batch

/-- Length of the batch array (csv_writing.go:58). -/
def csvBatch : Nat := 256

/-- csv_writing.go:62-107: the loop over the batches, from row `j` on, in at most `n` iterations. The batch array
is used again for every batch. -/
def csvLoop [GoFloat F] (ff : F → GoStr) (marker : GoStr) (h : Heap F) (t : Table) (rows : List Nat)
    (cols : List (Kind × GoStr)) : Nat → Nat → List (List GoStr) → CsvSink → Except Abort (Bool × CsvSink)
  | 0, _, _, w => .ok (true, w)
  | n + 1, j, batch, w =>
    if j < rows.length then
      let e := j + csvBatch
      let e := if e > rows.length then rows.length else e
      match csvFill ff marker h t ((rows.take e).drop j) cols 0 batch with
      | .error e => .error e
      | .ok batch =>
        match w.writeAll (batch.take (e - j)) with
        | (false, w) => .ok (false, w)
        | (true, w) => csvLoop ff marker h t rows cols n (j + csvBatch) batch w
    else .ok (true, w)

/-- csv_writing.go:196-204 `sortIfNeeded`. -/
def DF.sortIfNeeded (df : DF) (maintainOrder : Bool) : DF :=
  if df.indexViewed && !maintainOrder then
    { df.view with idx := Idx.mk' (sortNat (List.replicate df.idx.rows.length 0)) }
  else df

/-- csv_writing.go:46-51: the columns in the order they are written. `ord` gives the map iteration orders
of the four `NameList` calls (a map has every name once). -/
def DF.csvHeader (df : DF) (ord : Kind → List GoStr → List GoStr) (h : Heap F) : List (Kind × GoStr) × Heap F :=
  let (b, h) := kindHeader h df.tab .bool
  let bCols := ord .bool (hdrList h b)
  let (i, h) := kindHeader h df.tab .int
  let iCols := ord .int (hdrList h i)
  let (f, h) := kindHeader h df.tab .float
  let fCols := ord .float (hdrList h f)
  let sCols := ord .obj (sinsertAll [] (hdrList h df.strHdr))
  (bCols.map (fun c => (Kind.bool, c)) ++ iCols.map (fun c => (Kind.int, c)) ++
    fCols.map (fun c => (Kind.float, c)) ++ sCols.map (fun c => (Kind.obj, c)), h)

/-- csv_writing.go:36-109 `To1CSV`, on a new `csv.Writer`. The flag is true when the returned error is nil.
(The deferred `Flush` runs before every return.) -/
def DF.to1CSV [GoFloat F] (ff : F → GoStr) (ord : Kind → List GoStr → List GoStr) (df : DF) (w : CsvSink)
    (opt : CSVWritingSpec) (h : Heap F) : Except Abort ((Bool × CsvSink) × Heap F) :=
  let w := if opt.comma ≠ 0 then { w with comma := opt.comma } else w
  let df := df.sortIfNeeded opt.maintainOrder
  let (cols, h) := df.csvHeader ord h
  match w.write (cols.map (·.2)) with
  | (false, w) => .ok ((false, w.flush), h)
  | (true, w) =>
    match csvLoop ff opt.missingMarker h (h.tab df.tab) df.rows cols df.numRows 0
        (List.replicate csvBatch (List.replicate cols.length [])) w with
    | .error e => .error e
    | .ok (ok, w) => .ok ((ok, w.flush), h)

/-- csv_writing.go:111-114, 131-133: one `To1CSV` per writer, on the part of the same number. (The goroutines only read
the dataframes and each writes to its own writer; they are run one after the other here.) -/
def csvParts [GoFloat F] (ff : F → GoStr) (ord : Nat → Kind → List GoStr → List GoStr) (dfs : List DF)
    (opt : CSVWritingSpec) : Nat → List CsvSink → Heap F → Except Abort (List (Bool × CsvSink) × Heap F)
  | _, [], h => .ok ([], h)
  | i, w :: ws, h =>
    match dfs[i]? with
    | none => .error .panic
    | some d =>
      match d.to1CSV ff (ord i) w opt h with
      | .error e => .error e
      | .ok (o, h) =>
        match csvParts ff ord dfs opt (i + 1) ws h with
        | .error e => .error e
        | .ok (os, h) => .ok (o :: os, h)

/-- csv_writing.go:122-142 `ToCSVs`. -/
def DF.toCSVs [GoFloat F] (ff : F → GoStr) (ord : Nat → Kind → List GoStr → List GoStr) (df : DF)
    (ws : List CsvSink) (opt : CSVWritingSpec) (h : Heap F) : Except Abort ((Bool × List CsvSink) × Heap F) :=
  match (df.sortIfNeeded opt.maintainOrder).splitNView ws.length h with
  | .error e => .error e
  | .ok (dfs, h) =>
    match csvParts ff ord dfs { opt with maintainOrder := true } 0 ws h with
    | .error e => .error e
    | .ok (os, h) => .ok ((os.all (·.1), os.map (·.2)), h)

/-- `fmt.Sprintf("%0wd", n)`. -/
def padDec (w n : Nat) : GoStr := List.replicate (w - (natDec n).length) 48 ++ natDec n

/-- csv_writing.go:174-180: the number of files. -/
def csvNumFiles (nRows : Nat) (minRows maxCPU : Int) : Int :=
  let m := if minRows ≤ 0 then 512 else minRows
  let n := 1 + Int.tdiv nRows m
  if maxCPU < n then maxCPU else n

/-- csv_writing.go:182-191: the paths. `make` panics when the number of files is negative. -/
def csvPaths (pre : GoStr) (n : Int) : Except Abort (List GoStr) :=
  let width := if n ≥ 100 then 3 else if n ≥ 10 then 2 else 0
  if n < 0 then .error .panic
  else .ok ((List.range n.toNat).map fun i => pre ++ (padDec width i ++ b!".csv"))

/-- csv_writing.go:149-160 `ToCSVFiles`: `create` gives the state of the file system for every path: `none` when
the file cannot be created. The outcome `none` is the returned error of `os.Create`. -/
def DF.toCSVFiles [GoFloat F] (ff : F → GoStr) (ord : Nat → Kind → List GoStr → List GoStr) (df : DF)
    (create : GoStr → Option CsvSink) (opt : CSVWritingSpec) (paths : List GoStr) (h : Heap F) :
    Except Abort ((Bool × Option (List CsvSink)) × Heap F) :=
  match paths.mapM create with
  | none => .ok ((false, none), h)
  | some ws =>
    match df.toCSVs ff ord ws opt h with
    | .error e => .error e
    | .ok ((ok, ws), h) => .ok ((ok, some ws), h)

/-- csv_writing.go:172-194 `ToCSVDir`. -/
def DF.toCSVDir [GoFloat F] (ff : F → GoStr) (ord : Nat → Kind → List GoStr → List GoStr) (df : DF)
    (create : GoStr → Option CsvSink) (opt : CSVWritingSpec) (pre : GoStr) (h : Heap F) :
    Except Abort ((List GoStr × Bool × Option (List CsvSink)) × Heap F) :=
  match csvPaths pre (csvNumFiles df.numRows opt.minRowsPerFile df.actualMaxCPU) with
  | .error e => .error e
  | .ok paths =>
    match df.toCSVFiles ff ord create opt paths h with
    | .error e => .error e
    | .ok (r, h) => .ok ((paths, r), h)

end Verif
