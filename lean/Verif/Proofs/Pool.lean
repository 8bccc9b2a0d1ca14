import Verif.Model.Pool
import Mathlib.Data.List.Perm.Basic
import Mathlib.Algebra.BigOperators.Group.List.Basic

/-! Invariants of the worker pool. -/

set_option linter.unusedSimpArgs false

namespace Verif
variable {σ : Type}

/-- The keys that are not the empty string. -/
def proper (ks : List GoStr) : List GoStr := ks.filter (fun k => decide (k ≠ []))

/-- The notifications a worker still has to send. -/
def Worker.pending : Worker σ → List GoStr
  | .next p => p
  | .run k _ p => k :: p
  | .send k p => k :: p
  | .drain p => p
  | .exited => []

/-- The job a worker is running. -/
def Worker.running : Worker σ → List GoStr
  | .run k _ _ => [k]
  | _ => []

/-- Weight of a worker in the termination measure. -/
def Worker.weight : Worker σ → Nat
  | .next p => 3 + 2 * p.length
  | .run _ os p => os.length + 7 + 2 * p.length
  | .send _ p => 6 + 2 * p.length
  | .drain p => 2 + 2 * p.length
  | .exited => 0

/-- Weight of the caller. -/
def Caller.weight (N : Nat) : Caller → Nat
  | .spawn n => 4 * n + N + 3
  | .recv n => n + 2
  | .returned => 0

/-- The termination measure. -/
def Pool.weight (c : PoolCfg σ) (s : Pool σ) : Nat :=
  (s.keys.map fun k => (c.prog k).length + 5).sum + (s.workers.map Worker.weight).sum + s.errs.length +
    s.caller.weight s.numJobs + (if s.crashed then 0 else 1)

theorem sum_set {A : Type} (f : A → Nat) (l : List A) (i : Nat) (w w' : A) (h : l[i]? = some w) :
    ((l.set i w').map f).sum + f w = (l.map f).sum + f w' := by
  induction l generalizing i with
  | nil => simp at h
  | cons a l ih =>
    cases i with
    | zero => simp at h; subst h; simp; omega
    | succ i =>
      simp only [List.getElem?_cons_succ] at h; have := ih i h
      simp only [List.set_cons_succ, List.map_cons, List.sum_cons]; omega

theorem mem_sum_le {A : Type} (f : A → Nat) (l : List A) (i : Nat) (w : A) (h : l[i]? = some w) :
    f w ≤ (l.map f).sum := by
  have := sum_set f l i w w h
  induction l generalizing i with
  | nil => simp at h
  | cons a l ih =>
    cases i with
    | zero => simp at h; subst h; simp
    | succ i => simp at h; have := ih i h (sum_set f l i w w h); simp; omega

/-- Jobs named `a` running. -/
def rsum (a : GoStr) (ws : List (Worker σ)) : Nat := (ws.map fun w => w.running.count a).sum
/-- Notifications for `a` to come. -/
def psum (a : GoStr) (ws : List (Worker σ)) : Nat := (ws.map fun w => w.pending.count a).sum
/-- Notifications to come. -/
def plen (ws : List (Worker σ)) : Nat := (ws.map fun w => w.pending.length).sum

theorem rsum_set (a : GoStr) {ws : List (Worker σ)} {i : Nat} {w : Worker σ} (w' : Worker σ) (h : ws[i]? = some w) :
    rsum a (ws.set i w') + w.running.count a = rsum a ws + w'.running.count a := sum_set _ _ _ _ _ h
theorem psum_set (a : GoStr) {ws : List (Worker σ)} {i : Nat} {w : Worker σ} (w' : Worker σ) (h : ws[i]? = some w) :
    psum a (ws.set i w') + w.pending.count a = psum a ws + w'.pending.count a := sum_set _ _ _ _ _ h
theorem plen_set {ws : List (Worker σ)} {i : Nat} {w : Worker σ} (w' : Worker σ) (h : ws[i]? = some w) :
    plen (ws.set i w') + w.pending.length = plen ws + w'.pending.length := sum_set _ _ _ _ _ h

theorem plen_le {ws : List (Worker σ)} {i : Nat} {w : Worker σ} (h : ws[i]? = some w) : w.pending.length ≤ plen ws :=
  mem_sum_le (fun w : Worker σ => w.pending.length) ws i w h

@[simp] theorem running_next (p) : (Worker.next p : Worker σ).running = [] := rfl
@[simp] theorem running_run (k p) (os : List (σ → σ)) : (Worker.run k os p : Worker σ).running = [k] := rfl
@[simp] theorem running_send (k p) : (Worker.send k p : Worker σ).running = [] := rfl
@[simp] theorem running_drain (p) : (Worker.drain p : Worker σ).running = [] := rfl
@[simp] theorem running_exited : (Worker.exited : Worker σ).running = [] := rfl
@[simp] theorem pending_next (p) : (Worker.next p : Worker σ).pending = p := rfl
@[simp] theorem pending_run (k p) (os : List (σ → σ)) : (Worker.run k os p : Worker σ).pending = k :: p := rfl
@[simp] theorem pending_send (k p) : (Worker.send k p : Worker σ).pending = k :: p := rfl
@[simp] theorem pending_drain (p) : (Worker.drain p : Worker σ).pending = p := rfl
@[simp] theorem pending_exited : (Worker.exited : Worker σ).pending = [] := rfl
@[simp] theorem weight_next (p) : (Worker.next p : Worker σ).weight = 3 + 2 * p.length := rfl
@[simp] theorem weight_run (k p) (os : List (σ → σ)) : (Worker.run k os p : Worker σ).weight = os.length + 7 + 2 * p.length := rfl
@[simp] theorem weight_send (k p) : (Worker.send k p : Worker σ).weight = 6 + 2 * p.length := rfl
@[simp] theorem weight_drain (p) : (Worker.drain p : Worker σ).weight = 2 + 2 * p.length := rfl
@[simp] theorem weight_exited : (Worker.exited : Worker σ).weight = 0 := rfl

/-- The worker has left its loop. -/
def Worker.stopped : Worker σ → Prop
  | .drain _ => True
  | .exited => True
  | _ => False

/-- What holds in every state reachable from the creation of a queue for `all` with `W` workers. -/
structure Pool.Inv (all : List GoStr) (W : Nat) (s : Pool σ) : Prop where
  jobs : ∀ a, s.done.count a + rsum a s.workers + (proper s.keys).count a =
    (proper all).count a
  notifs : ∀ a, s.got.count a + s.errs.count a + psum a s.workers +
    (proper s.keys).count a = (proper all).count a
  len : s.got.length + s.errs.length + plen s.workers + (proper s.keys).length =
    (proper all).length
  cap : s.cap = all.length
  num : s.numJobs = all.length
  spawned : ∀ n, s.caller = .spawn n → s.got = [] ∧ s.closed = false ∧ s.workers.length + n = W
  waiting : ∀ n, s.caller = .recv n → n + s.got.length = all.length ∧ s.closed = false ∧ s.workers.length = W
  fin : s.caller = .returned → s.got.length = all.length ∧ s.workers.length = W
  ok : s.crashed = false
  sub : ∀ k ∈ s.keys, k ∈ all
  stop : [] ∉ all → ∀ w ∈ s.workers, w.stopped → s.keys = []

theorem proper_cons_ne {k : GoStr} (h : k ≠ []) (ks : List GoStr) : proper (k :: ks) = k :: proper ks := by
  simp [proper, h]
theorem proper_cons_nil (ks : List GoStr) : proper ([] :: ks) = proper ks := by simp [proper]
theorem proper_length_le (ks : List GoStr) : (proper ks).length ≤ ks.length := List.length_filter_le _ _
theorem proper_eq {ks : List GoStr} (h : [] ∉ ks) : proper ks = ks := by
  rw [proper, List.filter_eq_self]
  intro k hk; simp only [decide_eq_true_eq]; intro e; subst e; exact h hk

theorem inv_init {keys order : List GoStr} (hp : order.Perm keys) (mw : Int) (m : σ) :
    Pool.Inv keys (queueWorkers keys mw).toNat (Pool.init keys order mw m) where
  jobs a := by simp [Pool.init, rsum, proper, (hp.filter _).count_eq]
  notifs a := by simp [Pool.init, psum, proper, (hp.filter _).count_eq]
  len := by simp [Pool.init, plen, proper, (hp.filter _).length_eq]
  cap := rfl
  num := rfl
  spawned n h := by simp [Pool.init] at h ⊢; exact h.symm
  waiting n h := by simp [Pool.init] at h
  fin h := by simp [Pool.init] at h
  ok := rfl
  sub k hk := hp.mem_iff.1 hk
  stop _ w hw := by simp [Pool.init] at hw

/-- Replacing worker `i` by `w'` when the keys are left as they are. -/
theorem stop_set {all : List GoStr} {W : Nat} {s : Pool σ} (iv : Pool.Inv all W s) {i : Nat} {w w' : Worker σ}
    (hw : s.workers[i]? = some w) (hs : w'.stopped → w.stopped ∨ s.keys = []) (hne : [] ∉ all) :
    ∀ x ∈ s.workers.set i w', x.stopped → s.keys = [] := by
  intro x hx hst
  rcases List.mem_or_eq_of_mem_set hx with hx | rfl
  · exact iv.stop hne x hx hst
  · rcases hs hst with h | h
    · exact iv.stop hne w (List.mem_of_getElem? hw) h
    · exact h

theorem inv_step {c : PoolCfg σ} {all : List GoStr} {W : Nat} {s t : Pool σ} (iv : Pool.Inv all W s)
    (st : Pool.Step c s t) : Pool.Inv all W t := by
  have hcnt := iv.jobs
  have hnot := iv.notifs
  have hlen := iv.len
  cases st with
  | @spawn n h =>
    obtain ⟨h1, h2, h3⟩ := iv.spawned _ h
    exact {
      jobs := fun a => by have := hcnt a; simpa [rsum] using this
      notifs := fun a => by have := hnot a; simpa [psum] using this
      len := by simpa [plen] using hlen
      cap := iv.cap, num := iv.num
      spawned := fun m hm => by simp at hm ⊢; subst hm; exact ⟨h1, h2, by omega⟩
      waiting := fun m hm => by simp at hm
      fin := fun hm => by simp at hm
      ok := iv.ok, sub := iv.sub
      stop := fun hne w hw hs => by
        rcases List.mem_append.1 hw with hw | hw
        · exact iv.stop hne w hw hs
        · simp at hw; subst hw; exact hs.elim }
  | wait h =>
    obtain ⟨h1, h2, h3⟩ := iv.spawned _ h
    exact { iv with
      spawned := fun m hm => by simp at hm
      waiting := fun m hm => by
        simp at hm; subst hm
        have := iv.num
        simp only [h1, List.length_nil]
        exact ⟨by omega, h2, by omega⟩
      fin := fun hm => by simp at hm }
  | @recv n k es h he =>
    obtain ⟨h1, h2, h3⟩ := iv.waiting _ h
    rw [he] at hlen
    exact { iv with
      jobs := hcnt
      notifs := fun a => by
        have := hnot a; rw [he, List.count_cons] at this
        simp only [List.count_append, List.count_singleton]; omega
      len := by simp only [List.length_append, List.length_cons, List.length_nil] at hlen ⊢; omega
      spawned := fun m hm => by simp at hm
      waiting := fun m hm => by
        simp at hm; subst hm
        simp only [List.length_append, List.length_cons, List.length_nil]
        exact ⟨by omega, h2, h3⟩
      fin := fun hm => by simp at hm }
  | close h =>
    obtain ⟨h1, h2, h3⟩ := iv.waiting _ h
    exact { iv with
      spawned := fun m hm => by simp at hm
      waiting := fun m hm => by simp at hm
      fin := fun _ => ⟨by dsimp only; omega, h3⟩ }
  | @take i p k ks hw hk hne =>
    have hkeys : proper s.keys = k :: proper ks := by rw [hk, proper_cons_ne hne]
    rw [hkeys] at hlen
    exact { iv with
      jobs := fun a => by
        have h1 := hcnt a; rw [hkeys, List.count_cons] at h1
        have h2 := rsum_set a (.run k (c.prog k) p) hw
        simp only [running_next, running_run, running_send, running_drain, running_exited, List.count_nil, List.count_singleton] at h2; dsimp only; omega
      notifs := fun a => by
        have h1 := hnot a; rw [hkeys, List.count_cons] at h1
        have h2 := psum_set a (.run k (c.prog k) p) hw
        simp only [pending_next, pending_run, pending_send, pending_drain, pending_exited, List.count_cons] at h2; dsimp only; omega
      len := by
        have h2 := plen_set (.run k (c.prog k) p) hw
        simp only [pending_next, pending_run, pending_send, pending_drain, pending_exited, List.length_cons] at h2 hlen; dsimp only; omega
      spawned := fun m hm => by have := iv.spawned m hm; simpa using this
      waiting := fun m hm => by have := iv.waiting m hm; simpa using this
      fin := fun hm => by have := iv.fin hm; simpa using this
      sub := fun x hx => iv.sub x (by rw [hk]; simp [hx])
      stop := fun hn x hx hst => by
        rcases List.mem_or_eq_of_mem_set hx with hx | rfl
        · have := iv.stop hn x hx hst; rw [hk] at this; cases this
        · exact hst.elim }
  | @stop i p hw hk =>
    exact { iv with
      jobs := fun a => by
        have h1 := hcnt a
        have h2 := rsum_set a (.drain p) hw
        simp only [running_next, running_run, running_send, running_drain, running_exited, List.count_nil] at h2; dsimp only; omega
      notifs := fun a => by
        have h1 := hnot a
        have h2 := psum_set a (.drain p) hw
        simp only [pending_next, pending_run, pending_send, pending_drain, pending_exited] at h2; dsimp only; omega
      len := by
        have h2 := plen_set (.drain p) hw
        simp only [pending_next, pending_run, pending_send, pending_drain, pending_exited] at h2; dsimp only; omega
      spawned := fun m hm => by have := iv.spawned m hm; simpa using this
      waiting := fun m hm => by have := iv.waiting m hm; simpa using this
      fin := fun hm => by have := iv.fin hm; simpa using this
      stop := fun hn => stop_set iv hw (fun _ => Or.inr hk) hn }
  | @stopEmpty i p ks hw hk =>
    have hkeys : proper s.keys = proper ks := by rw [hk, proper_cons_nil]
    rw [hkeys] at hlen
    exact { iv with
      jobs := fun a => by
        have h1 := hcnt a; rw [hkeys] at h1
        have h2 := rsum_set a (.drain p) hw
        simp only [running_next, running_run, running_send, running_drain, running_exited, List.count_nil] at h2; dsimp only; omega
      notifs := fun a => by
        have h1 := hnot a; rw [hkeys] at h1
        have h2 := psum_set a (.drain p) hw
        simp only [pending_next, pending_run, pending_send, pending_drain, pending_exited] at h2; dsimp only; omega
      len := by
        have h2 := plen_set (.drain p) hw
        simp only [pending_next, pending_run, pending_send, pending_drain, pending_exited] at h2; dsimp only; omega
      spawned := fun m hm => by have := iv.spawned m hm; simpa using this
      waiting := fun m hm => by have := iv.waiting m hm; simpa using this
      fin := fun hm => by have := iv.fin hm; simpa using this
      sub := fun x hx => iv.sub x (by rw [hk]; simp [hx])
      stop := fun hn => absurd (iv.sub [] (by rw [hk]; simp)) hn }
  | @op i k o os p hw =>
    exact { iv with
      jobs := fun a => by
        have h1 := hcnt a
        have h2 := rsum_set a (.run k os p) hw
        simp only [running_next, running_run, running_send, running_drain, running_exited] at h2; dsimp only; omega
      notifs := fun a => by
        have h1 := hnot a
        have h2 := psum_set a (.run k os p) hw
        simp only [pending_next, pending_run, pending_send, pending_drain, pending_exited] at h2; dsimp only; omega
      len := by
        have h2 := plen_set (.run k os p) hw
        simp only [pending_next, pending_run, pending_send, pending_drain, pending_exited] at h2; dsimp only; omega
      spawned := fun m hm => by have := iv.spawned m hm; simpa using this
      waiting := fun m hm => by have := iv.waiting m hm; simpa using this
      fin := fun hm => by have := iv.fin hm; simpa using this
      stop := fun hn => stop_set iv hw (fun h => h.elim) hn }
  | @fin i k p hw =>
    exact { iv with
      jobs := fun a => by
        have h1 := hcnt a
        have h2 := rsum_set a (if c.deferred then .next (k :: p) else .send k p) hw
        simp only [List.count_append]
        cases hd : c.deferred <;> simp only [hd, if_true, if_false, Bool.false_eq_true, running_next, running_run, running_send, List.count_nil] at h2 ⊢ <;> omega
      notifs := fun a => by
        have h1 := hnot a
        have h2 := psum_set a (if c.deferred then .next (k :: p) else .send k p) hw
        cases hd : c.deferred <;> simp only [hd, if_true, if_false, Bool.false_eq_true, pending_next, pending_run, pending_send] at h2 ⊢ <;> omega
      len := by
        have h2 := plen_set (if c.deferred then .next (k :: p) else .send k p) hw
        cases hd : c.deferred <;> simp only [hd, if_true, if_false, Bool.false_eq_true, pending_next, pending_run, pending_send] at h2 ⊢ <;> omega
      spawned := fun m hm => by have := iv.spawned m hm; simpa using this
      waiting := fun m hm => by have := iv.waiting m hm; simpa using this
      fin := fun hm => by have := iv.fin hm; simpa using this
      stop := fun hn => stop_set iv hw (fun h => by cases hd : c.deferred <;> simp [hd, Worker.stopped] at h) hn }
  | @send i k p hw hb hc =>
    exact { iv with
      jobs := fun a => by
        have h1 := hcnt a
        have h2 := rsum_set a (.next p) hw
        simp only [running_next, running_run, running_send, running_drain, running_exited, List.count_nil] at h2; dsimp only; omega
      notifs := fun a => by
        have h1 := hnot a
        have h2 := psum_set a (.next p) hw
        simp only [pending_next, pending_run, pending_send, pending_drain, pending_exited, List.count_cons] at h2
        simp only [List.count_append, List.count_singleton]; omega
      len := by
        have h2 := plen_set (.next p) hw
        simp only [pending_next, pending_run, pending_send, pending_drain, pending_exited, List.length_cons] at h2
        simp only [List.length_append, List.length_cons, List.length_nil]; omega
      spawned := fun m hm => by have := iv.spawned m hm; simpa using this
      waiting := fun m hm => by have := iv.waiting m hm; simpa using this
      fin := fun hm => by have := iv.fin hm; simpa using this
      stop := fun hn => stop_set iv hw (fun h => h.elim) hn }
  | @drainSend i k p hw hb hc =>
    exact { iv with
      jobs := fun a => by
        have h1 := hcnt a
        have h2 := rsum_set a (.drain p) hw
        simp only [running_next, running_run, running_send, running_drain, running_exited, List.count_nil] at h2; dsimp only; omega
      notifs := fun a => by
        have h1 := hnot a
        have h2 := psum_set a (.drain p) hw
        simp only [pending_next, pending_run, pending_send, pending_drain, pending_exited, List.count_cons] at h2
        simp only [List.count_append, List.count_singleton]; omega
      len := by
        have h2 := plen_set (.drain p) hw
        simp only [pending_next, pending_run, pending_send, pending_drain, pending_exited, List.length_cons] at h2
        simp only [List.length_append, List.length_cons, List.length_nil]; omega
      spawned := fun m hm => by have := iv.spawned m hm; simpa using this
      waiting := fun m hm => by have := iv.waiting m hm; simpa using this
      fin := fun hm => by have := iv.fin hm; simpa using this
      stop := fun hn => stop_set iv hw (fun _ => Or.inl trivial) hn }
  | @exit i hw =>
    exact { iv with
      jobs := fun a => by
        have h1 := hcnt a
        have h2 := rsum_set a .exited hw
        simp only [running_next, running_run, running_send, running_drain, running_exited, List.count_nil] at h2; dsimp only; omega
      notifs := fun a => by
        have h1 := hnot a
        have h2 := psum_set a .exited hw
        simp only [pending_next, pending_run, pending_send, pending_drain, pending_exited, List.count_nil] at h2; dsimp only; omega
      len := by
        have h2 := plen_set .exited hw
        simp only [pending_next, pending_run, pending_send, pending_drain, pending_exited, List.length_nil] at h2; dsimp only; omega
      spawned := fun m hm => by have := iv.spawned m hm; simpa using this
      waiting := fun m hm => by have := iv.waiting m hm; simpa using this
      fin := fun hm => by have := iv.fin hm; simpa using this
      stop := fun hn => stop_set iv hw (fun _ => Or.inl trivial) hn }
  | @crash i k p hw hc =>
    exfalso
    have hp : 1 ≤ plen s.workers := by
      rcases hw with hw | hw
      · have := plen_le hw
        simp only [pending_next, pending_run, pending_send, pending_drain, pending_exited, List.length_cons] at this; omega
      · have := plen_le hw
        simp only [pending_next, pending_run, pending_send, pending_drain, pending_exited, List.length_cons] at this; omega
    have := proper_length_le all
    cases hcl : s.caller with
    | spawn n => have := (iv.spawned n hcl).2.1; rw [hc] at this; cases this
    | recv n => have := (iv.waiting n hcl).2.1; rw [hc] at this; cases this
    | returned => have := (iv.fin hcl).1; omega

theorem inv_steps {c : PoolCfg σ} {all : List GoStr} {W n : Nat} {s t : Pool σ} (iv : Pool.Inv all W s)
    (st : Pool.Steps c n s t) : Pool.Inv all W t := by
  induction st with
  | refl => exact iv
  | tail _ b ih => exact inv_step (ih iv) b

/-- Every step of a reachable pool lowers the measure. -/
theorem weight_step {c : PoolCfg σ} {all : List GoStr} {W : Nat} {s t : Pool σ} (iv : Pool.Inv all W s)
    (st : Pool.Step c s t) : t.weight c < s.weight c := by
  have iv' := inv_step iv st
  have ok := iv.ok
  unfold Pool.weight
  cases st with
  | @spawn n h => simp [h, Caller.weight, Worker.weight]; omega
  | wait h => simp [h, Caller.weight]
  | @recv n k es h he => simp [h, he, Caller.weight]; omega
  | close h => simp [h, Caller.weight]
  | @take i p k ks hw hk hne =>
    have h2 := sum_set Worker.weight s.workers i _ (.run k (c.prog k) p) hw
    simp only [weight_next, weight_run, weight_send, weight_drain, weight_exited] at h2
    simp only [hk, List.map_cons, List.sum_cons]; omega
  | @stop i p hw hk =>
    have h2 := sum_set Worker.weight s.workers i _ (.drain p) hw
    simp only [weight_next, weight_run, weight_send, weight_drain, weight_exited] at h2
    dsimp only; omega
  | @stopEmpty i p ks hw hk =>
    have h2 := sum_set Worker.weight s.workers i _ (.drain p) hw
    simp only [weight_next, weight_run, weight_send, weight_drain, weight_exited] at h2
    simp only [hk, List.map_cons, List.sum_cons]; omega
  | @op i k o os p hw =>
    have h2 := sum_set Worker.weight s.workers i _ (.run k os p) hw
    simp only [weight_next, weight_run, weight_send, weight_drain, weight_exited, List.length_cons] at h2
    dsimp only; omega
  | @fin i k p hw =>
    have h2 := sum_set Worker.weight s.workers i _ (if c.deferred then .next (k :: p) else .send k p) hw
    cases hd : c.deferred <;>
    simp only [hd, weight_next, weight_run, weight_send, List.length_cons, List.length_nil, if_true, if_false, Bool.false_eq_true] at h2 ⊢ <;> omega
  | @send i k p hw hb hc =>
    have h2 := sum_set Worker.weight s.workers i _ (.next p) hw
    simp only [weight_next, weight_run, weight_send, weight_drain, weight_exited] at h2
    simp only [List.length_append, List.length_cons, List.length_nil]; omega
  | @drainSend i k p hw hb hc =>
    have h2 := sum_set Worker.weight s.workers i _ (.drain p) hw
    simp only [weight_next, weight_run, weight_send, weight_drain, weight_exited, List.length_cons] at h2
    simp only [List.length_append, List.length_cons, List.length_nil]; omega
  | @exit i hw =>
    have h2 := sum_set Worker.weight s.workers i _ .exited hw
    simp only [weight_next, weight_run, weight_send, weight_drain, weight_exited, List.length_nil] at h2
    dsimp only; omega
  | @crash i k p hw hc => have := iv'.ok; cases this

theorem weight_steps {c : PoolCfg σ} {all : List GoStr} {W n : Nat} {s t : Pool σ} (iv : Pool.Inv all W s)
    (st : Pool.Steps c n s t) : n + t.weight c ≤ s.weight c := by
  induction st with
  | refl => omega
  | tail a b ih =>
    have := weight_step (inv_steps iv a) b
    have := ih iv
    omega

/-- A worker that is not gone can take a step, unless the channel is full or closed. -/
theorem worker_can_step (c : PoolCfg σ) {s : Pool σ} {i : Nat} {w : Worker σ} (hw : s.workers[i]? = some w)
    (hne : w ≠ .exited) (hroom : w.pending ≠ [] → s.errs.length < s.cap ∧ s.closed = false) :
    ∃ t, Pool.Step c s t := by
  cases w with
  | next p =>
    cases hk : s.keys with
    | nil => exact ⟨_, .stop hw hk⟩
    | cons k ks =>
      by_cases he : k = []
      · subst he; exact ⟨_, .stopEmpty hw hk⟩
      · exact ⟨_, .take hw hk he⟩
  | run k os p =>
    cases os with
    | nil => exact ⟨_, .fin hw⟩
    | cons o os => exact ⟨_, .op hw⟩
  | send k p =>
    obtain ⟨h1, h2⟩ := hroom (by simp [Worker.pending])
    exact ⟨_, .send hw h1 h2⟩
  | drain p =>
    cases p with
    | nil => exact ⟨_, .exit hw⟩
    | cons k p =>
      obtain ⟨h1, h2⟩ := hroom (by simp [Worker.pending])
      exact ⟨_, .drainSend hw h1 h2⟩
  | exited => exact absurd rfl hne

/-- No worker of a reachable pool is ever blocked. -/
theorem worker_never_blocked (c : PoolCfg σ) {all : List GoStr} {W : Nat} {s : Pool σ} (iv : Pool.Inv all W s)
    {i : Nat} {w : Worker σ} (hw : s.workers[i]? = some w) (hne : w ≠ .exited) : ∃ t, Pool.Step c s t := by
  refine worker_can_step c hw hne ?_
  intro hp
  have h1 := plen_le hw
  have h2 : 1 ≤ w.pending.length := by cases hq : w.pending with
    | nil => exact absurd hq hp
    | cons => simp
  have h3 := iv.len
  have h4 := proper_length_le all
  have h5 := iv.cap
  refine ⟨by omega, ?_⟩
  cases hcl : s.caller with
  | spawn n => exact (iv.spawned n hcl).2.1
  | recv n => exact (iv.waiting n hcl).2.1
  | returned => have := (iv.fin hcl).1; omega

theorem caller_never_blocked (c : PoolCfg σ) {all : List GoStr} {W : Nat} {s : Pool σ} (iv : Pool.Inv all W s)
    (hne : [] ∉ all) (hW : 0 < W) (hcl : s.caller ≠ .returned) : ∃ t, Pool.Step c s t := by
  cases hc : s.caller with
  | spawn n =>
    cases n with
    | zero => exact ⟨_, .wait hc⟩
    | succ n => exact ⟨_, .spawn hc⟩
  | returned => exact absurd hc hcl
  | recv n =>
    cases n with
    | zero => exact ⟨_, .close hc⟩
    | succ n =>
      cases he : s.errs with
      | cons k es => exact ⟨_, .recv hc he⟩
      | nil =>
        obtain ⟨h1, h2, h3⟩ := iv.waiting _ hc
        by_cases hall : ∀ w ∈ s.workers, w = .exited
        · -- everybody is gone: the keys are exhausted and nothing is pending
          exfalso
          obtain ⟨w, hw⟩ : ∃ w, w ∈ s.workers := List.exists_mem_of_length_pos (by omega)
          have hk := iv.stop hne w hw (by rw [hall w hw]; trivial)
          have hp : plen s.workers = 0 := by
            unfold plen
            rw [List.sum_eq_zero]
            intro x hx
            obtain ⟨v, hv, rfl⟩ := List.mem_map.1 hx
            rw [hall v hv]; rfl
          have h4 := iv.len
          rw [hk, he, hp, proper_eq hne] at h4
          simp [proper] at h4
          omega
        · push Not at hall
          obtain ⟨w, hw, hx⟩ := hall
          obtain ⟨i, hi⟩ := List.getElem?_of_mem hw
          exact worker_never_blocked c iv hi hx

end Verif
