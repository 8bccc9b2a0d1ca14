import Verif.Model.DataFrame
import Verif.Model.Pool

/-! Model of dataframe/csv_parsing.go. The text layer (`encoding/csv`) is in `Verif.Model.CSVText`; here
the reader is what it hands out: a list of records. `strconv.ParseBool` and `strconv.ParseInt` are
modelled, `strconv.ParseFloat` is a parameter. -/

namespace Verif
variable {F : Type}

/-- `strconv.ParseBool`: exactly these literals, anything else is an error. -/
def parseBool (s : GoStr) : Option Bool :=
  if s ∈ [b!"1", b!"t", b!"T", b!"TRUE", b!"true", b!"True"] then some true
  else if s ∈ [b!"0", b!"f", b!"F", b!"FALSE", b!"false", b!"False"] then some false
  else none

/-- The value of a non-empty string of decimal digits. -/
def parseDigits (s : GoStr) : Option Nat :=
  if s ≠ [] ∧ s.all (fun b => decide (48 ≤ b.toNat ∧ b.toNat ≤ 57)) then
    some (s.foldl (fun n b => 10 * n + (b.toNat - 48)) 0)
  else none

/-- `strconv.ParseInt(s, 10, 64)`: an optional sign, decimal digits, and a range check. -/
def parseInt (s : GoStr) : Option Int :=
  match s with
  | [] => none
  | b :: r =>
    if b = 45 then (parseDigits r).bind fun n => if n ≤ 2 ^ 63 then some (-(n : Int)) else none
    else (parseDigits (if b = 43 then r else s)).bind fun n => if n < 2 ^ 63 then some (n : Int) else none

/-- csv_parsing.go:15-50 `CSVReadingSpec`. The last four options only configure `encoding/csv`. -/
structure CSVReadingSpec where
  maxCPU : Int
  header : List GoStr
  exclude : List GoStr
  missingValues : List GoStr
  intAsFloat : Bool
  boolAsFloat : Bool
  binaryAsFloat : Bool
  encoding : Option Nat

/-- What `encoding/csv`'s reader finds in the text: records, then the end of the text or (`fails`) a syntax
or read error. -/
structure CsvInput where
  records : List (List GoStr)
  fails : Bool
  deriving DecidableEq, Repr

/-- `reader.ReadAll()` where the number of fields per record is set by the first record read:
`none` is an error. -/
def readAll (inp : CsvInput) : Option (List (List GoStr)) :=
  match inp.records with
  | [] => if inp.fails then none else some []
  | r :: rs =>
    if inp.fails = false ∧ rs.all (fun x => decide (x.length = r.length)) then some (r :: rs) else none

/-- csv_parsing.go:195-211: header and records, `none` is an error. -/
def readTable (spec : CSVReadingSpec) (inp : CsvInput) : Option (List GoStr × List (List GoStr)) :=
  if spec.header.length = 0 then
    match inp.records with
    | [] => none
    | _ :: _ =>
      match readAll inp with
      | none => none
      | some [] => none
      | some (r :: rs) => some (r, rs)
  else (readAll inp).map fun rs => (spec.header, rs)

/-- `records[row][col]` for every row: an index out of range panics. (All records have the same length
and every branch of the code below reads the first one, so reading them all first changes nothing.) -/
def colCells : List (List GoStr) → Int → Except Abort (List GoStr)
  | [], _ => .ok []
  | r :: rs, col =>
    match (if 0 ≤ col then r[col.toNat]? else none) with
    | none => .error .panic
    | some v =>
      match colCells rs col with
      | .error e => .error e
      | .ok vs => .ok (v :: vs)

/-- csv_parsing.go:52-60 `isBinary`. -/
def isBinary (cells : List GoStr) : Bool := cells.all fun v => !(decide (v ≠ b!"0") && decide (v ≠ b!"1"))

/-- csv_parsing.go:62-70 `isBool`. -/
def isBool (cells : List GoStr) : Bool := cells.all fun v => (parseBool v).isSome

/-- csv_parsing.go:72-79 `toBool` (the error is ignored, the value is then false). -/
def toBool (cells : List GoStr) : List (Val F) := cells.map fun v => .bool ((parseBool v).getD false)

/-- csv_parsing.go:81-91 `isInt`. -/
def isInt (cells : List GoStr) (missing : List Bool) : Bool :=
  (cells.zip missing).all fun p => p.2 || (parseInt p.1).isSome

/-- csv_parsing.go:93-104 `toInt`, on a 64-bit system. -/
def toInt (cells : List GoStr) (missing : List Bool) : List (Val F) :=
  (cells.zip missing).map fun p => if p.2 then .int (-1) else .int ((parseInt p.1).getD 0)

/-- csv_parsing.go:106-116 `isFloat`. -/
def isFloat (pf : GoStr → Option F) (cells : List GoStr) (missing : List Bool) : Bool :=
  (cells.zip missing).all fun p => p.2 || (pf p.1).isSome

/-- csv_parsing.go:118-129 `toFloat`. -/
def toFloat [GoFloat F] (pf : GoStr → Option F) (cells : List GoStr) (missing : List Bool) : List (Val F) :=
  (cells.zip missing).map fun p => if p.2 then .float GoFloat.nan else .float ((pf p.1).getD GoFloat.zero)

/-- csv_parsing.go:154-159: the fallback to strings. -/
def toStrings (cells : List GoStr) (missing : List Bool) : List (Val F) :=
  (cells.zip missing).map fun p => if p.2 then .nil else .str p.1

/-- A goroutine of `FromCSV`: its `missing` slice (csv_parsing.go:134), used again for every column, and its
proto-frame. -/
structure CsvWorker where
  missing : List Bool
  data : Raw

/-- `data.X[colName] = values`. -/
def CsvWorker.put (w : CsvWorker) (k : Kind) (c : GoStr) (vals : List (Val F)) (h : Heap F) : CsvWorker × Heap F :=
  let (s, h) := h.newArr vals
  (w, w.data.setCol k c s h)

/-- csv_parsing.go:136-163: the body of the loop of `toNativeTypes`, for one column. -/
def csvColumn [GoFloat F] (pf : GoStr → Option F) (spec : CSVReadingSpec) (records : List (List GoStr))
    (header : List GoStr) (c : GoStr) (w : CsvWorker) (h : Heap F) : Except Abort (CsvWorker × Heap F) :=
  match colCells records (indexOfString c header 0) with
  | .error e => .error e
  | .ok cells =>
    if !spec.binaryAsFloat && isBinary cells then .ok (w.put .bool c (toBool cells) h)
    else if !spec.boolAsFloat && !spec.binaryAsFloat && isBool cells then .ok (w.put .bool c (toBool cells) h)
    else
      let w := { w with missing :=
        if spec.missingValues.length > 0 then cells.map fun v => decide (v ∈ spec.missingValues) else w.missing }
      if !spec.intAsFloat && isInt cells w.missing then .ok (w.put .int c (toInt cells w.missing) h)
      else if isFloat pf cells w.missing then .ok (w.put .float c (toFloat pf cells w.missing) h)
      else
        let (w, h) := w.put .obj c (toStrings cells w.missing) h
        let (d, h) := w.data.markAsString c h
        .ok ({ w with data := d }, h)

/-- csv_parsing.go:219-224: one new `RawData` (and one `missing` slice) per goroutine. -/
def csvWorkers (nRecords : Nat) : Nat → Heap F → List CsvWorker × Heap F
  | 0, h => ([], h)
  | n + 1, h =>
    let (r, h) := newRawData h
    let (ws, h) := csvWorkers nRecords n h
    (⟨List.replicate nRecords false, r⟩ :: ws, h)

/-- csv_parsing.go:135-165: the column `c` goes to the goroutine number `who c` (modulo their number). -/
def csvJob [GoFloat F] (pf : GoStr → Option F) (spec : CSVReadingSpec) (records : List (List GoStr))
    (header : List GoStr) (who : GoStr → Nat) (c : GoStr) (s : List CsvWorker × Heap F) :
    Except Abort (List CsvWorker × Heap F) :=
  let i := who c % s.1.length
  match s.1[i]? with
  | none => .error .hang
  | some w =>
    match csvColumn pf spec records header c w s.2 with
    | .error e => .error e
    | .ok (w, h) => .ok (s.1.set i w, h)

/-- csv_parsing.go:213: the columns to parse. -/
def csvColumns (header exclude : List GoStr) : List GoStr := sremove (sinsertAll [] header) exclude

/-- csv_parsing.go:179-238 `FromCSV`. The outcome `none` is a returned error. `jobs` is the order in which the
goroutines take the columns, `who` says which goroutine takes which. -/
def fromCSV [GoFloat F] (pf : GoStr → Option F) (jobs : List GoStr → List GoStr) (who : GoStr → Nat)
    (inp : CsvInput) (spec : CSVReadingSpec) (h : Heap F) : Except Abort (Option Raw × Heap F) :=
  match readTable spec inp with
  | none => .ok (none, h)
  | some (header, records) =>
    let cols := csvColumns header spec.exclude
    let cpu := clampCPU h.rt.numCPU spec.maxCPU
    let (ws, h) := csvWorkers records.length (queueWorkers cols cpu).toNat h
    match runQueue cols (jobs cols) cpu (csvJob pf spec records header who) (ws, h) with
    | .error e => .error e
    | .ok (ws, h) =>
      let (r, h) := mergeRawDataColumns (ws.map (·.data)) h
      .ok (some ({ r with enc := spec.encoding }.setMaxCPU h spec.maxCPU), h)

end Verif
