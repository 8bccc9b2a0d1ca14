import Verif.Go.Basic

/-! Model of the worker pool: utils/string_q.go together with the pattern all its users follow
(dataframe/view.go:331-352 and 377-383, dataframe/csv_parsing.go:131-167, 217-228, 293-316,
preprocessing/one_hot.go:55-75, 118-130, 162-220, preprocessing/scaler.go:39-70, 96-112, 116-150,
preprocessing/float_imputer.go:51-95):

```
q := CreateStringQueue(keys, maxWorkers)
for i := 0; i < q.Workers; i++ { go worker(q) }
q.Wait() / q.Results()
```

It is a transition system: one step is one step of the caller or of one worker, in any order. A job is
a straight-line list of atomic accesses to the shared memory `σ` (the loops of the jobs run over row
lists fixed beforehand). A panic inside a job is not part of this model. -/

namespace Verif

/-- string_q.go:19-30: the number of goroutines that the queue asks for. -/
def queueWorkers (keys : List GoStr) (maxWorkers : Int) : Int :=
  if keys.length = 0 then 1
  else if (keys.length : Int) < maxWorkers then keys.length
  else maxWorkers

/-- csv_parsing.go:286-293: the CPUs that `FromCSVFilePattern` gives to every file, with `n` files, the
option `MaxCPU = maxCPU` on a machine with `numCPU` cores. -/
def cpuPerFile (numCPU : Nat) (maxCPU : Int) (n : Nat) : Int :=
  let cpu := if maxCPU ≤ 0 then (numCPU : Int) else maxCPU
  if cpu / n = 0 then 1 else cpu / n

/-- csv_parsing.go:295: the worker count that `FromCSVFilePattern` asks for. -/
def filePatternWorkers (numCPU : Nat) (maxCPU : Int) (n : Nat) : Int := (n : Int) / cpuPerFile numCPU maxCPU n

/-- What the workers of one queue do: `prog k` are the memory accesses of the job of key `k`;
`deferred` says whether the worker announces its jobs with `defer q.Notify(...)` (when the worker
function ends) or right after each job. -/
structure PoolCfg (σ : Type) where
  deferred : Bool
  prog : GoStr → List (σ → σ)

/-- A worker goroutine. `pend` are the deferred notifications of its finished jobs, last one first. (The
deferred call of the running job is registered when the job starts; it is listed in `pend` from the end
of the job on, at the same place.) -/
inductive Worker (σ : Type) where
  /-- about to call `q.Next()` -/
  | next (pend : List GoStr)
  /-- inside the job of `k`, with these accesses left -/
  | run (k : GoStr) (ops : List (σ → σ)) (pend : List GoStr)
  /-- about to call `q.Notify` for `k` (not deferred) -/
  | send (k : GoStr) (pend : List GoStr)
  /-- the loop is over, the deferred calls run -/
  | drain (pend : List GoStr)
  /-- the goroutine is gone -/
  | exited

/-- The calling goroutine. -/
inductive Caller where
  /-- `n` goroutines still to start -/
  | spawn (n : Nat)
  /-- inside `Wait`/`Results`: `n` receives left -/
  | recv (n : Nat)
  /-- `Wait`/`Results` has returned and closed the channel -/
  | returned
  deriving DecidableEq

/-- A state of the pool. -/
structure Pool (σ : Type) where
  /-- content of the `Keys` channel (closed since its creation) -/
  keys : List GoStr
  /-- content of the `Errors` channel (one key per `ProcessedJob`) -/
  errs : List GoStr
  /-- capacity of the `Errors` channel -/
  cap : Nat
  /-- `Errors` has been closed -/
  closed : Bool
  caller : Caller
  /-- `NumJobs` -/
  numJobs : Nat
  workers : List (Worker σ)
  mem : σ
  /-- history: the jobs that ran to their end -/
  done : List GoStr
  /-- history: the notifications received by the caller -/
  got : List GoStr
  /-- history: some goroutine sent on a closed channel -/
  crashed : Bool

/-- string_q.go:18-42 `CreateStringQueue`: `order` is the list of keys, shuffled or not. -/
def Pool.init {σ : Type} (keys order : List GoStr) (maxWorkers : Int) (m : σ) : Pool σ where
  keys := order
  errs := []
  cap := keys.length
  closed := false
  caller := .spawn (queueWorkers keys maxWorkers).toNat
  numJobs := keys.length
  workers := []
  mem := m
  done := []
  got := []
  crashed := false

/-- One step of one goroutine. -/
inductive Pool.Step {σ : Type} (c : PoolCfg σ) : Pool σ → Pool σ → Prop where
  /-- `go worker(q)` -/
  | spawn {s n} (h : s.caller = .spawn (n + 1)) :
      Step c s { s with caller := .spawn n, workers := s.workers ++ [.next []] }
  /-- the spawning loop is over: `Wait`/`Results` begins -/
  | wait {s} (h : s.caller = .spawn 0) : Step c s { s with caller := .recv s.numJobs }
  /-- string_q.go:49-51, 57-59: a receive -/
  | recv {s n k es} (h : s.caller = .recv (n + 1)) (he : s.errs = k :: es) :
      Step c s { s with caller := .recv n, errs := es, got := s.got ++ [k] }
  /-- string_q.go:47, 56: the deferred `close(q.Errors)` -/
  | close {s} (h : s.caller = .recv 0) : Step c s { s with caller := .returned, closed := true }
  /-- string_q.go:61-67 `Next`: a key -/
  | take {s i p k ks} (hw : s.workers[i]? = some (.next p)) (hk : s.keys = k :: ks) (hne : k ≠ []) :
      Step c s { s with keys := ks, workers := s.workers.set i (.run k (c.prog k) p) }
  /-- `Next` on the drained channel returns "": the loop ends -/
  | stop {s i p} (hw : s.workers[i]? = some (.next p)) (hk : s.keys = []) :
      Step c s { s with workers := s.workers.set i (.drain p) }
  /-- `Next` returns a key that is "": the loop ends as well -/
  | stopEmpty {s i p ks} (hw : s.workers[i]? = some (.next p)) (hk : s.keys = [] :: ks) :
      Step c s { s with keys := ks, workers := s.workers.set i (.drain p) }
  /-- one memory access of a job -/
  | op {s i k o os p} (hw : s.workers[i]? = some (.run k (o :: os) p)) :
      Step c s { s with mem := o s.mem, workers := s.workers.set i (.run k os p) }
  /-- the end of a job -/
  | fin {s i k p} (hw : s.workers[i]? = some (.run k [] p)) :
      Step c s { s with done := s.done ++ [k],
                        workers := s.workers.set i (if c.deferred then .next (k :: p) else .send k p) }
  /-- string_q.go:69-71 `Notify`, not deferred -/
  | send {s i k p} (hw : s.workers[i]? = some (.send k p)) (hb : s.errs.length < s.cap) (hc : s.closed = false) :
      Step c s { s with errs := s.errs ++ [k], workers := s.workers.set i (.next p) }
  /-- `Notify`, deferred -/
  | drainSend {s i k p} (hw : s.workers[i]? = some (.drain (k :: p))) (hb : s.errs.length < s.cap)
      (hc : s.closed = false) :
      Step c s { s with errs := s.errs ++ [k], workers := s.workers.set i (.drain p) }
  /-- the worker function returns -/
  | exit {s i} (hw : s.workers[i]? = some (.drain [])) :
      Step c s { s with workers := s.workers.set i .exited }
  /-- a send on the closed channel panics -/
  | crash {s : Pool σ} {i : Nat} {k : GoStr} {p : List GoStr}
      (hw : s.workers[i]? = some (.send k p) ∨ s.workers[i]? = some (.drain (k :: p)))
      (hc : s.closed = true) : Step c s { s with crashed := true }

/-- `Steps c n s t`: an execution of `n` steps. -/
inductive Pool.Steps {σ : Type} (c : PoolCfg σ) : Nat → Pool σ → Pool σ → Prop where
  | refl (s) : Steps c 0 s s
  | tail {n s t u} (a : Steps c n s t) (b : Pool.Step c t u) : Steps c (n + 1) s u

end Verif
