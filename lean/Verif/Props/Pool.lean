import Verif.Proofs.PoolMem
import Verif.Model.RawData

/-! C34, C36 and the schedule-independence theorem behind C35: the worker pool.

`Pool.init keys order maxWorkers m` is the state right after `CreateStringQueue(keys, maxWorkers)`, with
`order` the order in which the keys sit in the channel (a permutation of `keys`) and `m` the content of
the memory. `Pool.Steps c n s t` is any execution of `n` steps, whatever the schedule. -/

namespace Verif
variable {σ : Type}

/-- There is someone to do the jobs. -/
def someWorker (keys : List GoStr) (maxWorkers : Int) : Prop := keys = [] ∨ 0 < maxWorkers

theorem queueWorkers_pos {keys : List GoStr} {mw : Int} :
    0 < (queueWorkers keys mw).toNat ↔ someWorker keys mw := by
  unfold queueWorkers someWorker
  cases keys with
  | nil => simp
  | cons k ks => simp only [List.length_cons]; split <;> (simp_all; try omega)

section
variable {c : PoolCfg σ} {keys order : List GoStr} {mw : Int} {m : σ} {n : Nat} {t : Pool σ}

/-- C34: no schedule ever sends on a closed channel. -/
theorem C34_no_send_on_closed (hp : order.Perm keys) (st : Pool.Steps c n (Pool.init keys order mw m) t) :
    t.crashed = false := (inv_steps (inv_init hp mw m) st).ok

/-- C34: no schedule runs forever; the number of steps is bounded for given keys. -/
theorem C34_terminates (c : PoolCfg σ) (hp : order.Perm keys) (mw : Int) (m : σ) :
    ∃ bound, ∀ n t, Pool.Steps c n (Pool.init keys order mw m) t → n ≤ bound :=
  ⟨(Pool.init keys order mw m).weight c, fun n t st => by
    have := weight_steps (inv_init hp mw m) st; omega⟩

/-- C34: whatever happened so far, until the caller is back somebody can go on (at least one worker, no
empty key). -/
theorem C34_no_deadlock (hp : order.Perm keys) (hw : someWorker keys mw) (hne : [] ∉ keys)
    (st : Pool.Steps c n (Pool.init keys order mw m) t) (hr : t.caller ≠ .returned) :
    ∃ u, Pool.Step c t u :=
  caller_never_blocked c (inv_steps (inv_init hp mw m) st) hne (queueWorkers_pos.2 hw) hr

/-- C34: a schedule that cannot be continued has brought the caller back and ended all workers. -/
theorem C34_end (hp : order.Perm keys) (hw : someWorker keys mw) (hne : [] ∉ keys)
    (st : Pool.Steps c n (Pool.init keys order mw m) t) (hend : ¬ ∃ u, Pool.Step c t u) :
    t.caller = .returned ∧ ∀ w ∈ t.workers, w = .exited := by
  have iv := inv_steps (inv_init hp mw m) st
  constructor
  · by_contra h; exact hend (C34_no_deadlock hp hw hne st h)
  · intro w hm
    by_contra h
    obtain ⟨i, hi⟩ := List.getElem?_of_mem hm
    exact hend (worker_never_blocked c iv hi h)

/-- C34: when the caller is back, every job has been run to its end exactly once, exactly one
notification per key has been received, and no job is running. -/
theorem C34_result (hp : order.Perm keys) (st : Pool.Steps c n (Pool.init keys order mw m) t)
    (hr : t.caller = .returned) :
    t.done.Perm keys ∧ t.got.Perm keys ∧ (∀ k os p, Worker.run k os p ∉ t.workers) := by
  have iv := inv_steps (inv_init hp mw m) st
  obtain ⟨h1, h2, h3⟩ := returned_idle iv hr
  refine ⟨?_, ?_, ?_⟩
  · rw [List.perm_iff_count]
    intro a
    have := iv.jobs a
    rw [h1, h2, proper_eq h3] at this
    simpa [proper] using this
  · have hl : t.got.length = keys.length := (iv.fin hr).1
    have hsp : t.got.Subperm keys := by
      rw [List.subperm_ext_iff]
      intro a _
      have := iv.notifs a
      rw [proper_eq h3] at this
      omega
    exact hsp.perm_of_length_le (by omega)
  · intro k os p hm
    have := h1 k
    obtain ⟨i, hi⟩ := List.getElem?_of_mem hm
    have h4 := mem_sum_le (fun w : Worker σ => w.running.count k) t.workers i _ hi
    unfold rsum at this
    simp at h4
    omega

/-- While nobody works, the caller waits. -/
theorem no_worker_waits (hw : (queueWorkers keys mw).toNat = 0)
    (st : Pool.Steps c n (Pool.init keys order mw m) t) :
    t.workers = [] ∧ t.errs = [] ∧ t.got = [] ∧ t.numJobs = keys.length ∧
      (t.caller = .spawn 0 ∨ t.caller = .recv keys.length ∨ (keys = [] ∧ t.caller = .returned)) := by
  generalize hs : Pool.init keys order mw m = s0 at st
  induction st with
  | refl => subst hs; simp [Pool.init, hw]
  | tail a b ih =>
    obtain ⟨h1, h2, h3, h4, h5⟩ := ih hs
    cases b with
    | spawn h => rw [h] at h5; simp at h5
    | wait h => simp_all
    | recv h he => rw [h2] at he; cases he
    | close h =>
      rw [h] at h5
      simp only [Caller.recv.injEq, reduceCtorEq, false_or, and_false, or_false] at h5
      have hk : keys = [] := List.length_eq_zero_iff.1 h5.symm
      exact ⟨h1, h2, h3, h4, Or.inr (Or.inr ⟨hk, rfl⟩)⟩
    | crash hw => rw [h1] at hw; simp at hw
    | take hw | stop hw | stopEmpty hw | op hw | fin hw | send hw | drainSend hw | exit hw =>
      rw [h1] at hw; simp at hw

/-- C36: the caller of `Wait`/`Results` gets back under every schedule exactly when there is someone to
do the jobs and no key is the empty string; otherwise it gets back under no schedule at all. -/
theorem C36_returns_iff (c : PoolCfg σ) (hp : order.Perm keys) (mw : Int) (m : σ) :
    (∃ n t, Pool.Steps c n (Pool.init keys order mw m) t ∧ t.caller = .returned) ↔
      (someWorker keys mw ∧ [] ∉ keys) := by
  constructor
  · rintro ⟨n, t, st, hr⟩
    have iv := inv_steps (inv_init hp mw m) st
    obtain ⟨h1, h2, h3⟩ := returned_idle iv hr
    refine ⟨?_, h3⟩
    by_contra hw
    have hz : (queueWorkers keys mw).toNat = 0 := by
      by_contra h; exact hw (queueWorkers_pos.1 (Nat.pos_of_ne_zero h))
    have h4 := (no_worker_waits hz st).2.2.2.2
    rw [hr] at h4
    simp at h4
    exact hw (Or.inl h4)
  · rintro ⟨hw, hne⟩
    obtain ⟨B, hB⟩ := C34_terminates c hp mw m
    -- run as long as possible
    have key : ∀ d n t, n + d = B + 1 → Pool.Steps c n (Pool.init keys order mw m) t →
        ∃ n t, Pool.Steps c n (Pool.init keys order mw m) t ∧ t.caller = .returned := by
      intro d
      induction d with
      | zero => intro n t hd st; have := hB n t st; omega
      | succ d ih =>
        intro n t hd st
        by_cases hr : t.caller = .returned
        · exact ⟨n, t, st, hr⟩
        · obtain ⟨u, hu⟩ := C34_no_deadlock hp hw hne st hr
          exact ih (n + 1) u (by omega) (.tail st hu)
    exact key (B + 1) 0 _ (by omega) (.refl _)

/-- C35, general form: if the accesses of jobs of different keys commute, then the memory the caller
finds is the same for every schedule, every worker count and every order of the keys: it is what running
the jobs one after the other leaves. -/
theorem C35_schedule_independent (hp : order.Perm keys) (nd : keys.Nodup) (hc : Commute c keys)
    (st : Pool.Steps c n (Pool.init keys order mw m) t) (hr : t.caller = .returned) :
    t.mem = runJobs c keys m := by
  have iv := inv_steps (inv_init hp mw m) st
  obtain ⟨h1, h2, h3⟩ := returned_idle iv hr
  obtain ⟨h4, h5⟩ := todo_steps (inv_init hp mw m) nd h3 hc (by simp [Pool.init]) st
  have h6 : t.workers.flatMap Worker.left = [] := by
    rw [List.flatMap_eq_nil_iff]
    intro w hm
    cases w with
    | run k os p => exact absurd hm ((C34_result hp st hr).2.2 k os p)
    | _ => rfl
  simp only [Pool.todo, h6, h2, List.flatMap_nil, List.append_nil, execOps_nil] at h4
  rw [h4]
  simp only [Pool.init, List.flatMap_nil, List.nil_append]
  rw [← runJobs_flat, runJobs_perm hp (hp.nodup_iff.2 nd)]
  intro k hk k' hk'
  exact hc k (hp.mem_iff.1 hk) k' (hp.mem_iff.1 hk')

end

/-! ### C36: which public calls can hang -/

/-- `SetMaxCPU` leaves a positive number of workers, whatever its argument. -/
theorem C36_setMaxCPU_positive {F : Type} (r : Raw) (h : Heap F) (n : Int) : 0 < (r.setMaxCPU h n).actualMaxCPU := by
  have := h.rt.numCPU_pos
  unfold Raw.actualMaxCPU Raw.setMaxCPU clampCPU
  dsimp only
  split <;> omega

/-- C36, part of the claim that is false: with two files or more, `FromCSVFilePattern` starts no worker,
and so never returns, exactly when `MaxCPU` (or the number of cores) is at least `n * (n + 1)`. -/
theorem C36_filePattern_hangs_iff (numCPU : Nat) (maxCPU : Int) (n : Nat) (hn : 2 ≤ n) (hc : 0 < numCPU) :
    filePatternWorkers numCPU maxCPU n ≤ 0 ↔
      (n : Int) * (n + 1) ≤ (if maxCPU ≤ 0 then (numCPU : Int) else maxCPU) := by
  unfold filePatternWorkers cpuPerFile
  dsimp only
  generalize hcpu : (if maxCPU ≤ 0 then (numCPU : Int) else maxCPU) = cpu
  have hpos : 0 < cpu := by split at hcpu <;> omega
  have hn0 : (0 : Int) < n := by omega
  have hge : (n : Int) + 1 ≤ cpu / n ↔ (n : Int) * (n + 1) ≤ cpu := by
    rw [Int.le_ediv_iff_mul_le hn0, Int.mul_comm]
  rw [← hge]
  split
  · rename_i h0; rw [h0]; simp; omega
  · rename_i h0
    have hq : 0 < cpu / n := by
      have : 0 ≤ cpu / n := Int.ediv_nonneg (by omega) (by omega)
      omega
    have h1 : (n : Int) / (cpu / n) ≤ 0 ↔ (n : Int) < cpu / n := by
      constructor
      · intro h
        by_contra hlt
        have : 1 ≤ (n : Int) / (cpu / n) := by rw [Int.le_ediv_iff_mul_le hq]; omega
        omega
      · intro h
        simp [Int.ediv_eq_zero_of_lt (by omega : (0 : Int) ≤ n) h]
    rw [h1]; omega

/-! ### Examples -/

-- a pool of one worker and one job that increments a counter: the caller returns and the counter is 1
example : ∃ n t, Pool.Steps (⟨true, fun _ => [fun x => x + 1]⟩ : PoolCfg Nat) n (Pool.init [b!"a"] [b!"a"] 3 0) t ∧
    t.caller = .returned := (C36_returns_iff _ (List.Perm.refl _) _ _).2 ⟨Or.inr (by decide), by decide⟩
-- on a machine with 8 cores, two files hang
example : filePatternWorkers 8 (-1) 2 = 0 := by decide
example : filePatternWorkers 8 5 2 = 1 := by decide
-- and a file list with no worker hangs: no schedule brings the caller back
example : ¬ ∃ n t, Pool.Steps (⟨false, fun _ => []⟩ : PoolCfg Unit) n
    (Pool.init [b!"a.csv", b!"b.csv"] [b!"b.csv", b!"a.csv"] (filePatternWorkers 8 (-1) 2) ()) t ∧
    t.caller = .returned := by
  rw [C36_returns_iff _ (List.Perm.swap _ _ _)]
  rintro ⟨h | h, -⟩
  · cases h
  · exact absurd h (by decide)

/-- Two jobs writing the two halves of a pair. -/
def demoPool : PoolCfg (Nat × Nat) where
  deferred := false
  prog k := if k = b!"a" then [fun m => (m.1 + 1, m.2), fun m => (m.1 * 2, m.2)] else [fun m => (m.1, m.2 + 7)]

example : Commute demoPool [b!"a", b!"b"] := by
  intro k hk k' hk' hne o ho o' ho' m
  simp at hk hk'
  rcases hk with rfl | rfl <;> rcases hk' with rfl | rfl
  · exact absurd rfl hne
  · simp [demoPool] at ho ho'
    rcases ho with rfl | rfl <;> subst ho' <;> rfl
  · simp [demoPool] at ho ho'
    rcases ho' with rfl | rfl <;> subst ho <;> rfl
  · exact absurd rfl hne
example : runJobs demoPool [b!"a", b!"b"] (3, 0) = (8, 7) := by decide

end Verif
