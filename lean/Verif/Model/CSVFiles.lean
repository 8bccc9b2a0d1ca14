import Verif.Model.CSVParsing

/-! Model of dataframe/csv_parsing.go:240-316: reading files. The file system is what it answers: the paths that match
the pattern, what `os.Stat` says about them, and the CSV text of the files that can be opened. -/

namespace Verif
variable {F : Type}

/-- csv_parsing.go:245-252 `FromCSVFile`. `files path` is `none` when the file cannot be opened. The outcome `none` is a
returned error. -/
def fromCSVFile [GoFloat F] (pf : GoStr → Option F) (jobs : List GoStr → List GoStr) (who : GoStr → Nat)
    (files : GoStr → Option CsvInput) (path : GoStr) (spec : CSVReadingSpec) (h : Heap F) : Except Abort (Option Raw × Heap F) :=
  match files path with
  | none => .ok (none, h)
  | some inp => fromCSV pf jobs who inp spec h

/-- csv_parsing.go:268-277: the regular files; `none` when `os.Stat` returns an error. `some true`: a regular file. -/
def regularFiles : List (GoStr × Option Bool) → Option (List GoStr)
  | [] => some []
  | (_, none) :: _ => none
  | (p, some reg) :: rest => (regularFiles rest).map fun ps => if reg then p :: ps else ps

/-- The choices of the Go runtime: `take` is the order in which goroutines take the files, `arrive` the order in which
their results arrive, `jobs` and `who` those of `FromCSV` for every file. -/
structure FilesSched where
  take : List GoStr → List GoStr
  arrive : List (GoStr × Option Raw) → List (GoStr × Option Raw)
  jobs : GoStr → List GoStr → List GoStr
  who : GoStr → GoStr → Nat
  take_perm : ∀ l, (take l).Perm l
  arrive_perm : ∀ l, (arrive l).Perm l
  jobs_perm : ∀ p l, (jobs p l).Perm l

/-- csv_parsing.go:310-315: the body of the loop of `processFileQueue`. (Goroutines read different files into different
structures; here they run one after the other.) -/
def fileJob [GoFloat F] (pf : GoStr → Option F) (sch : FilesSched) (files : GoStr → Option CsvInput) (spec : CSVReadingSpec)
    (path : GoStr) (s : List (GoStr × Option Raw) × Heap F) : Except Abort (List (GoStr × Option Raw) × Heap F) :=
  match fromCSVFile pf (sch.jobs path) (sch.who path) files path spec s.2 with
  | .error e => .error e
  | .ok (r, h) => .ok (s.1 ++ [(path, r)], h)

/-- csv_parsing.go:300-306: the results, `none` at the first error. -/
def collectResults : List (GoStr × Option Raw) → Option (List Raw)
  | [] => some []
  | (_, none) :: _ => none
  | (_, some r) :: rest => (collectResults rest).map fun rs => r :: rs

/-- csv_parsing.go:261-309 `FromCSVFilePattern`. `found` is the answer of `filepath.Glob`, `none` a malformed pattern.
The outcome is `none` for a returned error, `some none` for `(nil, nil)`. -/
def fromCSVFilePattern [GoFloat F] (pf : GoStr → Option F) (sch : FilesSched) (found : Option (List (GoStr × Option Bool)))
    (files : GoStr → Option CsvInput) (spec : CSVReadingSpec) (h : Heap F) : Except Abort (Option (Option Raw) × Heap F) :=
  match found.bind regularFiles with
  | none => .ok (none, h)
  | some [] => .ok (some none, h)
  | some [p] =>
    match fromCSVFile pf (sch.jobs p) (sch.who p) files p spec h with
    | .error e => .error e
    | .ok (r, h) => .ok (r.map some, h)
  | some (p :: p' :: ps) =>
    let paths := p :: p' :: ps
    let spec' := { spec with maxCPU := cpuPerFile h.rt.numCPU spec.maxCPU paths.length }
    match runQueue paths (sch.take paths) (filePatternWorkers h.rt.numCPU spec.maxCPU paths.length)
        (fileJob pf sch files spec') ([], h) with
    | .error e => .error e
    | .ok (results, h) =>
      match collectResults (sch.arrive results) with
      | none => .ok (none, h)
      | some rs =>
        let (r, h) := mergeRawDataRows rs h
        .ok (some (some r), h)

end Verif
