import Verif.Model.Threads
import Verif.Model.CSVFiles

/-! The goroutines of `FromCSVFilePattern` as a transition system: goroutines that take files from a queue, and for every
file the goroutines of its `FromCSV` (Model/Threads). One step is one step of any of them. (A goroutine that panics ends the
whole program: that is not part of this system.) -/

namespace Verif
variable {ι F : Type}

/-- A worker pool (Model/Pool) whose jobs are transition systems themselves. `inner k` is the state of the job of key `k`, from
the moment it is started. In `outer` a goroutine inside the job of `k` is `run k []`. -/
structure Nest (ι : Type) where
  outer : Pool Unit
  inner : GoStr → Option ι

/-- Before the first step. -/
def Nest.start (keys order : List GoStr) (maxWorkers : Int) : Nest ι := ⟨Pool.init keys order maxWorkers (), fun _ => none⟩

/-- One step. `init k`, `istep k`, `ended k`: the job of key `k` as a transition system.
`take`: a goroutine gets a key from `q.Next()` and starts the job; `work`: a step of a started job (its goroutines may go on after
the job has returned); `fin`: a goroutine gets back from its job; `ctl`: any other step of the pool. -/
inductive Nest.Step (init : GoStr → ι) (istep : GoStr → ι → ι → Prop) (ended : GoStr → ι → Prop) : Nest ι → Nest ι → Prop where
  | take {s : Nest ι} {i p k ks} (hw : s.outer.workers[i]? = some (.next p)) (hk : s.outer.keys = k :: ks) (hne : k ≠ []) :
      Step init istep ended s ⟨{ s.outer with keys := ks, workers := s.outer.workers.set i (.run k [] p) },
        fun x => if x = k then some (init k) else s.inner x⟩
  | work {s : Nest ι} {k w w'} (hi : s.inner k = some w) (st : istep k w w') :
      Step init istep ended s ⟨s.outer, fun x => if x = k then some w' else s.inner x⟩
  | fin {s : Nest ι} {i k p w} (hw : s.outer.workers[i]? = some (.run k [] p)) (hi : s.inner k = some w) (he : ended k w) :
      Step init istep ended s ⟨{ s.outer with done := s.outer.done ++ [k], workers := s.outer.workers.set i (.send k p) }, s.inner⟩
  | ctl {s : Nest ι} {o : Pool Unit} (st : Pool.Step ⟨false, fun _ => []⟩ s.outer o) (hd : o.done = s.outer.done)
      (hk : o.keys = s.outer.keys ∨ s.outer.keys = [] :: o.keys) : Step init istep ended s ⟨o, s.inner⟩

/-- An execution of `n` steps. -/
inductive Nest.Steps (init : GoStr → ι) (istep : GoStr → ι → ι → Prop) (ended : GoStr → ι → Prop) : Nat → Nest ι → Nest ι → Prop where
  | refl (s) : Steps init istep ended 0 s s
  | tail {n s t u} (a : Steps init istep ended n s t) (b : Nest.Step init istep ended t u) : Steps init istep ended (n + 1) s u

/-! ### FromCSVFilePattern -/

/-- The table in a file: `none` if it cannot be opened (csv_parsing.go:246-249) or is not a CSV table (csv_parsing.go:195-211). -/
def fileTable (spec : CSVReadingSpec) (files : GoStr → Option CsvInput) (path : GoStr) : Option (List GoStr × List (List GoStr)) :=
  (files path).bind (readTable spec)

/-- csv_parsing.go:245-252, 213-221: the call of `FromCSVFile` on a path: the goroutines of `FromCSV`, or nothing when it returns an
error. `order path` is the order of the columns in the queue. -/
def fileInit (numCPU : Nat) (spec : CSVReadingSpec) (files : GoStr → Option CsvInput) (order : GoStr → List GoStr) (path : GoStr) :
    Option (WPool (Nat → CsvFrame F)) :=
  (fileTable spec files path).map fun t => csvThreads numCPU spec t.1 t.2 (order path)

/-- A step of the goroutines of `FromCSV` on a file. -/
def fileStep [GoFloat F] (pf : GoStr → Option F) (spec : CSVReadingSpec) (files : GoStr → Option CsvInput) (path : GoStr)
    (s t : Option (WPool (Nat → CsvFrame F))) : Prop :=
  ∃ tb w w', fileTable spec files path = some tb ∧ s = some w ∧ t = some w' ∧ WPool.Step (csvProg pf spec tb.2 tb.1) w w'

/-- `FromCSVFile` has returned (an error, at once; or after `q.Wait()`, csv_parsing.go:225). -/
def fileEnded (_ : GoStr) (s : Option (WPool (Nat → CsvFrame F))) : Prop := ∀ w, s = some w → w.pool.caller = .returned

/-- csv_parsing.go:284-299: the goroutines of `FromCSVFilePattern` on these files. -/
def fileThreads (numCPU : Nat) (spec : CSVReadingSpec) (paths order : List GoStr) : Nest (Option (WPool (Nat → CsvFrame F))) :=
  Nest.start paths order (filePatternWorkers numCPU spec.maxCPU paths.length)

/-- csv_parsing.go:294: the options for every file. -/
def fileSpec (numCPU : Nat) (spec : CSVReadingSpec) (paths : List GoStr) : CSVReadingSpec :=
  { spec with maxCPU := cpuPerFile numCPU spec.maxCPU paths.length }

end Verif
