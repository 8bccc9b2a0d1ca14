import Verif.Model.Pool
import Verif.Model.CSVWriting

/-! The goroutines of `FromCSV` and of `ToCSVs` as transition systems: one step is one step of the caller or of one
goroutine, in any order. (A goroutine that panics ends the whole program: that is not part of these systems.) -/

namespace Verif
variable {σ F : Type}

/-! ### Workers with a memory of their own -/

/-- A worker pool (Model/Pool) where what a job does depends on the goroutine that does it: in csv_parsing.go:131-167 each
goroutine has its own proto-frame and its own `missing` slice. `taken` is a history: which goroutine took which key. -/
structure WPool (σ : Type) where
  pool : Pool σ
  taken : List (Nat × GoStr)

/-- csv_parsing.go:217-219: right after `CreateColumnQueue`. -/
def WPool.init (keys order : List GoStr) (maxWorkers : Int) (m : σ) : WPool σ := ⟨Pool.init keys order maxWorkers m, []⟩

/-- One step. `take`: goroutine number `i` gets a key from `q.Next()` (string_q.go:62-67) and starts the job, whose accesses
are `prog i k`. `other`: any other step of the pool; jobs are announced right after their end (csv_parsing.go:164). -/
inductive WPool.Step (prog : Nat → GoStr → List (σ → σ)) : WPool σ → WPool σ → Prop where
  | take {s : Pool σ} {T i p k ks} (hw : s.workers[i]? = some (.next p)) (hk : s.keys = k :: ks) (hne : k ≠ []) :
      Step prog ⟨s, T⟩ ⟨{ s with keys := ks, workers := s.workers.set i (.run k (prog i k) p) }, T ++ [(i, k)]⟩
  | other {s t : Pool σ} {T} (st : Pool.Step ⟨false, fun _ => []⟩ s t) (hk : t.keys = s.keys ∨ s.keys = [] :: t.keys) :
      Step prog ⟨s, T⟩ ⟨t, T⟩

/-- An execution of `n` steps. -/
inductive WPool.Steps (prog : Nat → GoStr → List (σ → σ)) : Nat → WPool σ → WPool σ → Prop where
  | refl (s) : Steps prog 0 s s
  | tail {n s t u} (a : Steps prog n s t) (b : WPool.Step prog t u) : Steps prog (n + 1) s u

/-! ### FromCSV -/

/-- The memory of a goroutine of `FromCSV`: csv_parsing.go:134 `missing`, the column under construction (`kind`, `buf`), and
its proto-frame (csv_parsing.go:219): the columns and the names marked as strings. -/
structure CsvFrame (F : Type) where
  missing : List Bool
  kind : Kind
  buf : List (Val F)
  cols : AMap Key (List (Val F))
  strs : List GoStr

/-- csv_parsing.go:134, 220: a new goroutine. -/
def newCsvFrame (nRecords : Nat) : CsvFrame F := ⟨List.replicate nRecords false, .bool, [], [], []⟩

/-- csv_parsing.go:76, 98-100, 123-125, 156-158: the value of a cell. -/
def csvValue [GoFloat F] (pf : GoStr → Option F) (k : Kind) (v : GoStr) (missing : Bool) : Val F :=
  match k with
  | .bool => .bool ((parseBool v).getD false)
  | .int => if missing then .int (-1) else .int ((parseInt v).getD 0)
  | .float => if missing then .float GoFloat.nan else .float ((pf v).getD GoFloat.zero)
  | .obj => if missing then .nil else .str v

/-- csv_parsing.go:137-150: the accesses that find the kind of a column. -/
def csvKindOps (pf : GoStr → Option F) (spec : CSVReadingSpec) (cells : List GoStr) : List (CsvFrame F → CsvFrame F) :=
  if !spec.binaryAsFloat && isBinary cells || !spec.boolAsFloat && !spec.binaryAsFloat && isBool cells then
    [fun f => { f with kind := .bool }]
  else
    (if spec.missingValues.length > 0 then
      (List.range cells.length).map (fun i f => { f with missing := f.missing.set i (decide (cells.getD i [] ∈ spec.missingValues)) })
    else []) ++
    [fun f => ⟨f.missing, if !spec.intAsFloat && isInt cells f.missing then .int
      else if isFloat pf cells f.missing then .float else .obj, f.buf, f.cols, f.strs⟩]

/-- csv_parsing.go:136-163: the accesses of the job of column `c`, with these cells. -/
def csvOps [GoFloat F] (pf : GoStr → Option F) (spec : CSVReadingSpec) (cells : List GoStr) (c : GoStr) :
    List (CsvFrame F → CsvFrame F) :=
  csvKindOps pf spec cells ++
  [fun f => { f with buf := List.replicate cells.length f.kind.zero }] ++
  ((List.range cells.length).map (fun i f =>
    { f with buf := f.buf.set i (csvValue pf f.kind (cells.getD i []) (f.missing.getD i false)) })) ++
  [fun f => { f with cols := AMap.set f.cols (f.kind, c) f.buf },
   fun f => { f with strs := if f.kind = .obj then sinsert f.strs c else f.strs }]

/-- csv_parsing.go:136: the cells of a column (a panic is not part of this model). -/
def csvJobOps [GoFloat F] (pf : GoStr → Option F) (spec : CSVReadingSpec) (records : List (List GoStr)) (header : List GoStr)
    (c : GoStr) : List (CsvFrame F → CsvFrame F) :=
  match colCells records (indexOfString c header 0) with
  | .ok cells => csvOps pf spec cells c
  | .error _ => []

/-- An access of goroutine number `i`, in the memory of all the goroutines. -/
def onFrame {α : Type} (i : Nat) (o : α → α) (m : Nat → α) : Nat → α := fun j => if j = i then o (m i) else m j

/-- The programs of the goroutines of `FromCSV`. -/
def csvProg [GoFloat F] (pf : GoStr → Option F) (spec : CSVReadingSpec) (records : List (List GoStr)) (header : List GoStr)
    (i : Nat) (c : GoStr) : List ((Nat → CsvFrame F) → Nat → CsvFrame F) :=
  (csvJobOps pf spec records header c).map (onFrame i)

/-- csv_parsing.go:213-221: the goroutines of `FromCSV`, on a machine with `numCPU` cores. `order` is the order of the columns in the
queue. -/
def csvThreads (numCPU : Nat) (spec : CSVReadingSpec) (header : List GoStr) (records : List (List GoStr)) (order : List GoStr) :
    WPool (Nat → CsvFrame F) :=
  WPool.init (csvColumns header spec.exclude) order (clampCPU numCPU spec.maxCPU) (fun _ => newCsvFrame records.length)

/-! ### Goroutines with a wait group -/

/-- `wg.Add(n)`, `n` goroutines that end with `wg.Done()`, `wg.Wait()` (csv_writing.go:128-134). `threads`: what is left of the
started goroutines, `none` when gone. -/
structure Fork (σ : Type) where
  threads : List (Option (List (σ → σ)))
  counter : Int
  returned : Bool
  mem : σ

/-- Right after `wg.Add(n)`. -/
def Fork.init (n : Nat) (m : σ) : Fork σ := ⟨[], n, false, m⟩

/-- One step: the caller starts goroutine number `threads.length`; a goroutine makes an access; a goroutine calls
`wg.Done()` and ends; the caller comes back from `wg.Wait()`. -/
inductive Fork.Step (n : Nat) (prog : Nat → List (σ → σ)) : Fork σ → Fork σ → Prop where
  | start {s : Fork σ} (h : s.threads.length < n) :
      Step n prog s { s with threads := s.threads ++ [some (prog s.threads.length)] }
  | op {s : Fork σ} {i o os} (h : s.threads[i]? = some (some (o :: os))) :
      Step n prog s { s with threads := s.threads.set i (some os), mem := o s.mem }
  | done {s : Fork σ} {i} (h : s.threads[i]? = some (some [])) :
      Step n prog s { s with threads := s.threads.set i none, counter := s.counter - 1 }
  | wait {s : Fork σ} (h : s.threads.length = n) (hc : s.counter = 0) (hr : s.returned = false) :
      Step n prog s { s with returned := true }

/-- An execution of `m` steps. -/
inductive Fork.Steps (n : Nat) (prog : Nat → List (σ → σ)) : Nat → Fork σ → Fork σ → Prop where
  | refl (s) : Steps n prog 0 s s
  | tail {m s t u} (a : Steps n prog m s t) (b : Fork.Step n prog t u) : Steps n prog (m + 1) s u

/-! ### ToCSVs -/

/-- The memory of a goroutine of `ToCSVs`: csv_writing.go:37 the writer, 58 `batch`, and the returned error (`none`: not returned
yet; `some true`: nil). -/
structure CsvOut where
  w : CsvSink
  batch : List (List GoStr)
  ret : Option Bool

/-- csv_writing.go:37-57: configure the writer and write the header. -/
def csvOutHead (opt : CSVWritingSpec) (cols : List (Kind × GoStr)) (o : CsvOut) : CsvOut :=
  let w := if opt.comma ≠ 0 then { o.w with comma := opt.comma } else o.w
  match w.write (cols.map (·.2)) with
  | (false, w) => ⟨w, o.batch, some false⟩
  | (true, w) => ⟨w, List.replicate csvBatch (List.replicate cols.length []), none⟩

/-- csv_writing.go:67-101: fill the batch with the rows from `j` on. (A panic is not part of this model.) -/
def csvOutFill [GoFloat F] (ff : F → GoStr) (marker : GoStr) (h : Heap F) (t : Table) (rows : List Nat)
    (cols : List (Kind × GoStr)) (j : Nat) (o : CsvOut) : CsvOut :=
  match o.ret with
  | some _ => o
  | none =>
    match csvFill ff marker h t ((rows.drop j).take csvBatch) cols 0 o.batch with
    | .error _ => o
    | .ok batch => { o with batch := batch }

/-- csv_writing.go:103-106: hand the batch over to the writer. -/
def csvOutWrite (rows : List Nat) (j : Nat) (o : CsvOut) : CsvOut :=
  match o.ret with
  | some _ => o
  | none =>
    match o.w.writeAll (o.batch.take (min csvBatch (rows.length - j))) with
    | (false, w) => { o with w := w, ret := some false }
    | (true, w) => { o with w := w }

/-- csv_writing.go:108 and the deferred `Flush` of line 42. -/
def csvOutEnd (o : CsvOut) : CsvOut := ⟨o.w.flush, o.batch, some (o.ret.getD true)⟩

/-- The number of batches. -/
def csvNumBatches (n : Nat) : Nat := (n + csvBatch - 1) / csvBatch

/-- csv_writing.go:36-114: what the goroutine of a part does. `cols` are the columns in the order they are written. The
shared memory `h` is only read. -/
def csvOutOps [GoFloat F] (ff : F → GoStr) (opt : CSVWritingSpec) (h : Heap F) (df : DF) (cols : List (Kind × GoStr)) :
    List (CsvOut → CsvOut) :=
  [csvOutHead opt cols] ++
  ((List.range (csvNumBatches df.numRows)).flatMap fun b =>
    [csvOutFill ff opt.missingMarker h (h.tab df.tab) df.rows cols (b * csvBatch), csvOutWrite df.rows (b * csvBatch)]) ++
  [csvOutEnd]

/-- The programs of the goroutines of `ToCSVs`: csv_writing.go:131-133. `ord` gives the map iteration orders. -/
def csvOutProg [GoFloat F] (ff : F → GoStr) (ord : Nat → Kind → List GoStr → List GoStr) (opt : CSVWritingSpec) (h : Heap F)
    (dfs : List DF) (i : Nat) : List ((Nat → CsvOut) → Nat → CsvOut) :=
  match dfs[i]? with
  | none => []
  | some d => (csvOutOps ff opt h d (d.csvHeader (ord i) h).1).map (onFrame i)

/-- csv_writing.go:127-129: the start of the goroutines of `ToCSVs`. -/
def csvFork (ws : List CsvSink) : Fork (Nat → CsvOut) :=
  Fork.init ws.length (fun i => ⟨(ws[i]?).getD (newCsvSink none fun _ => false), [], none⟩)

/-- csv_writing.go:136-141: the error that `ToCSVs` returns is nil. -/
def csvForkOk (n : Nat) (s : Fork (Nat → CsvOut)) : Bool := (List.range n).all fun i => decide ((s.mem i).ret = some true)

end Verif
