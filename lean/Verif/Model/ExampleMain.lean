import Verif.Model.Experiment
import Verif.Model.CSVFiles
import Verif.Model.CSVText

/-! Model of examples/linreg.go:14-136: the whole program, from the text of the CSV file to the files it writes and reads
again. (What is printed and logged is left out; `-debug` is off. The directory `outdir` has no CSV file before the program
runs, and either every file in it can be created and written or none can.) -/

namespace Verif
variable {F : Type}

/-- The arguments (`rest`: those after the flags) and the flags of examples/linreg.go:15-33. -/
structure ExampleArgs (F : Type) where
  rest : List GoStr
  sep : GoStr
  maxCPU : Int
  split : F
  imputing : Bool
  scaling : Bool
  params : LinRegTrainParams F

/-- examples/linreg.go:30-33: the path, the target column, the excluded columns and the separator. `none`: an index is out of
range. -/
def ExampleArgs.parsed (a : ExampleArgs F) : Option (GoStr × GoStr × List GoStr × Nat) :=
  match a.rest with
  | path :: target :: exclude => a.sep.head?.map fun b => (path, target, exclude, b.toNat)
  | _ => none

/-- examples/linreg.go:50-58: the options of the readings, those for the table. -/
def exampleSpec (maxCPU : Int) (exclude : List GoStr) : CSVReadingSpec :=
  ⟨maxCPU, [], exclude, [b!"", b!" ", b!"NA", b!"-"], true, false, true, none⟩

/-- examples/linreg.go:50-58: the options of the readings, those for the text. -/
def exampleText (comma : Nat) : CSVTextSpec := ⟨comma, 0, false, false⟩

/-- examples/linreg.go:15-31: the flags of the experiment. -/
def ExampleArgs.flags (a : ExampleArgs F) (target : GoStr) : ExperimentFlags F :=
  ⟨a.split, a.imputing, a.scaling, target, a.params⟩

/-- The choices of the runtime: during the reading, the experiment, the writing, and the reading of the written files.
`full` is when the buffer of a written file overflows. -/
structure ExampleSched (F : Type) where
  jobs : List GoStr → List GoStr
  who : GoStr → Nat
  experiment : ExperimentSched F
  order : Nat → Kind → List GoStr → List GoStr
  full : GoStr → Nat → Bool
  again : FilesSched
  jobs_perm : ∀ l, (jobs l).Perm l
  order_perm : ∀ i k l, (order i k l).Perm l

/-- What the program has made when it has written the files: the dataframe it has read, the experiment, and the files (path
and text). -/
structure ExampleRun (F : Type) where
  df : DF
  trained : TrainedExperiment F
  result : ExperimentResult F
  files : List (GoStr × GoStr)

/-- examples/linreg.go:48-63: read the file. `disk path` is the text of the file, `none` when it cannot be opened. An error
panics. -/
def exampleRead [GoFloat F] (pf : GoStr → Option F) (sch : ExampleSched F) (disk : GoStr → Option GoStr) (maxCPU : Int) (path : GoStr)
    (exclude : List GoStr) (comma : Nat) (h : Heap F) : Except Abort (DF × Heap F) :=
  match fromCSVFile pf sch.jobs sch.who (fun p => (disk p).map (csvRead (exampleText comma))) path (exampleSpec maxCPU exclude) h with
  | .error e => .error e
  | .ok (none, _) => .error .panic
  | .ok (some raw, h) => raw.toDataFrame h

/-- examples/linreg.go:120-123: write the files. The returned error is not looked at. -/
def exampleWrite [GoFloat F] (ff : F → GoStr) (sch : ExampleSched F) (writable : Bool) (comma : Nat) (test : DF) (h : Heap F) :
    Except Abort (List (GoStr × GoStr) × Heap F) :=
  match test.toCSVDir ff sch.order (fun p => if writable then some (newCsvSink none (sch.full p)) else none) ⟨[], 0, false, comma⟩
      b!"outdir/file" h with
  | .error e => .error e
  | .ok ((_, _, none), h) => .ok ([], h)
  | .ok ((paths, _, some sinks), h) => .ok (paths.zip (sinks.map fun w => csvText comma false w.written), h)

/-- examples/linreg.go:124-135: read the written files. -/
def exampleReread [GoFloat F] (pf : GoStr → Option F) (sch : ExampleSched F) (maxCPU : Int) (exclude : List GoStr) (comma : Nat)
    (files : List (GoStr × GoStr)) (h : Heap F) : Except Abort (DF × Heap F) :=
  match fromCSVFilePattern pf sch.again (some (files.map fun f => (f.1, some true)))
      (fun p => (AMap.get files p).map (csvRead (exampleText comma))) (exampleSpec maxCPU exclude) h with
  | .error e => .error e
  | .ok (none, _) => .error .panic
  | .ok (some none, _) => .error .panic
  | .ok (some (some raw), h) => raw.toDataFrame h

/-- examples/linreg.go:14-123 (`main`), up to the files that are written. -/
def exampleBody [GoFloat F] (pf : GoStr → Option F) (ff : F → GoStr) (j : JsonFloats F) (bl : Blas F) (sch : ExampleSched F)
    (disk : GoStr → Option GoStr) (writable : Bool) (a : ExampleArgs F) (h : Heap F) : Except Abort (ExampleRun F × Heap F) :=
  match a.parsed with
  | none => .error .panic
  | some (path, target, exclude, comma) =>
    match exampleRead pf sch disk a.maxCPU path exclude comma h with
    | .error e => .error e
    | .ok (df, h) =>
      match experiment j bl sch.experiment (a.flags target) df h with
      | .error e => .error e
      | .ok ((t, r), h) =>
        match exampleWrite ff sch writable comma r.test h with
        | .error e => .error e
        | .ok (files, h) => .ok (⟨df, t, r, files⟩, h)

/-- examples/linreg.go:14-136 (`main`). -/
def exampleMain [GoFloat F] (pf : GoStr → Option F) (ff : F → GoStr) (j : JsonFloats F) (bl : Blas F) (sch : ExampleSched F)
    (disk : GoStr → Option GoStr) (writable : Bool) (a : ExampleArgs F) (h : Heap F) : Except Abort (ExampleRun F × Heap F) :=
  match exampleBody pf ff j bl sch disk writable a h with
  | .error e => .error e
  | .ok (run, h) =>
    match a.parsed with
    | none => .error .panic
    | some (_, _, exclude, comma) =>
      match exampleReread pf sch a.maxCPU exclude comma run.files h with
      | .error e => .error e
      | .ok (_, h) => .ok (run, h)

end Verif
