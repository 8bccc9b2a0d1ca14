import Verif.Proofs.Pool

/-! The memory at the end of a pool run, when the accesses of different jobs commute. -/

namespace Verif
variable {σ : Type}

/-- Run a list of accesses one after the other. -/
def execOps (ops : List (σ → σ)) (m : σ) : σ := ops.foldl (fun m o => o m) m

/-- Run the jobs one after the other, on one thread. -/
def runJobs (c : PoolCfg σ) (keys : List GoStr) (m : σ) : σ :=
  keys.foldl (fun m k => execOps (c.prog k) m) m

/-- The accesses left to a worker in its current job. -/
def Worker.left : Worker σ → List (σ → σ)
  | .run _ os _ => os
  | _ => []

@[simp] theorem execOps_nil (m : σ) : execOps [] m = m := rfl
@[simp] theorem execOps_cons (o : σ → σ) (os) (m : σ) : execOps (o :: os) m = execOps os (o m) := rfl
theorem execOps_append (a b : List (σ → σ)) (m : σ) : execOps (a ++ b) m = execOps b (execOps a m) := by
  simp [execOps, List.foldl_append]

theorem runJobs_flat (c : PoolCfg σ) (ks : List GoStr) (m : σ) : runJobs c ks m = execOps (ks.flatMap c.prog) m := by
  induction ks generalizing m with
  | nil => rfl
  | cons k ks ih => rw [List.flatMap_cons, execOps_append, ← ih]; rfl

/-- The accesses of the jobs of different keys commute. -/
def Commute (c : PoolCfg σ) (keys : List GoStr) : Prop :=
  ∀ k ∈ keys, ∀ k' ∈ keys, k ≠ k' → ∀ o ∈ c.prog k, ∀ o' ∈ c.prog k', ∀ m, o (o' m) = o' (o m)

theorem exec_comm_one {o : σ → σ} {A : List (σ → σ)} (h : ∀ o' ∈ A, ∀ m, o (o' m) = o' (o m)) (m : σ) :
    execOps A (o m) = o (execOps A m) := by
  induction A generalizing m with
  | nil => rfl
  | cons a A ih =>
    simp only [execOps_cons]
    rw [← h a (by simp), ih (fun o' ho => h o' (by simp [ho]))]

theorem exec_comm {A B : List (σ → σ)} (h : ∀ o ∈ A, ∀ o' ∈ B, ∀ m, o (o' m) = o' (o m)) (m : σ) :
    execOps B (execOps A m) = execOps A (execOps B m) := by
  induction A generalizing m with
  | nil => rfl
  | cons a A ih =>
    simp only [execOps_cons]
    rw [ih (fun o ho => h o (by simp [ho])), exec_comm_one (h a (by simp))]

/-- What a run still has to do: each worker's rest, then the untouched jobs. -/
def Pool.todo (c : PoolCfg σ) (s : Pool σ) : List (σ → σ) :=
  s.workers.flatMap Worker.left ++ s.keys.flatMap c.prog

/-- The keys of the jobs not finished. -/
def Pool.open (s : Pool σ) : List GoStr := s.workers.flatMap Worker.running ++ s.keys

theorem count_running (a : GoStr) (ws : List (Worker σ)) : (ws.flatMap Worker.running).count a = rsum a ws := by
  induction ws with
  | nil => rfl
  | cons w ws ih => rw [List.flatMap_cons, List.count_append, ih]; simp [rsum]

theorem open_nodup {keys : List GoStr} {W : Nat} {s : Pool σ} (iv : Pool.Inv keys W s) (nd : keys.Nodup)
    (hne : [] ∉ keys) : s.open.Nodup := by
  rw [List.nodup_iff_count]
  intro a
  have h1 := iv.jobs a
  have hk : [] ∉ s.keys := fun h => hne (iv.sub _ h)
  rw [proper_eq hne, proper_eq hk] at h1
  have h2 := List.nodup_iff_count.1 nd a
  simp only [Pool.open, List.count_append, count_running]
  omega

theorem open_sub {keys : List GoStr} {W : Nat} {s : Pool σ} (iv : Pool.Inv keys W s)
    (hne : [] ∉ keys) : ∀ a ∈ s.open, a ∈ keys := by
  intro a ha
  have h1 := iv.jobs a
  have hk : [] ∉ s.keys := fun h => hne (iv.sub _ h)
  rw [proper_eq hne, proper_eq hk] at h1
  have h2 : 0 < s.open.count a := List.count_pos_iff.2 ha
  simp only [Pool.open, List.count_append, count_running] at h2
  exact List.count_pos_iff.1 (by omega)

/-- The accesses left to a worker belong to its job. -/
def Worker.OK (c : PoolCfg σ) : Worker σ → Prop
  | .run k os _ => ∀ o ∈ os, o ∈ c.prog k
  | _ => True

theorem set_split {A : Type} {l : List A} {i : Nat} {w : A} (h : l[i]? = some w) :
    ∃ a b, l = a ++ w :: b ∧ ∀ w', l.set i w' = a ++ w' :: b := by
  induction l generalizing i with
  | nil => simp at h
  | cons x l ih =>
    cases i with
    | zero => simp at h; subst h; exact ⟨[], l, rfl, fun _ => rfl⟩
    | succ i =>
      simp only [List.getElem?_cons_succ] at h
      obtain ⟨a, b, h1, h2⟩ := ih h
      exact ⟨x :: a, b, by simp [h1], fun w' => by simp [h2]⟩

theorem left_mem {c : PoolCfg σ} {ws : List (Worker σ)} (hok : ∀ w ∈ ws, w.OK c) {o : σ → σ}
    (ho : o ∈ ws.flatMap Worker.left) : ∃ k ∈ ws.flatMap Worker.running, o ∈ c.prog k := by
  obtain ⟨w, hw, h⟩ := List.mem_flatMap.1 ho
  cases w with
  | run k os p => exact ⟨k, List.mem_flatMap.2 ⟨_, hw, by simp [Worker.running]⟩, hok _ hw o h⟩
  | _ => simp [Worker.left] at h

theorem ok_step {c : PoolCfg σ} {s t : Pool σ} (hok : ∀ w ∈ s.workers, w.OK c) (st : Pool.Step c s t) :
    ∀ w ∈ t.workers, w.OK c := by
  have key : ∀ (i : Nat) (w' : Worker σ), w'.OK c → ∀ w ∈ s.workers.set i w', w.OK c := by
    intro i w' h w hw
    rcases List.mem_or_eq_of_mem_set hw with hw | rfl
    · exact hok w hw
    · exact h
  cases st with
  | spawn h =>
    intro w hw
    rcases List.mem_append.1 hw with hw | hw
    · exact hok w hw
    · simp at hw; subst hw; trivial
  | wait => exact hok
  | recv => exact hok
  | close => exact hok
  | take hw hk hne => exact key _ _ (fun o ho => ho)
  | stop => exact key _ _ trivial
  | stopEmpty => exact key _ _ trivial
  | @op i k o os p hw =>
    exact key _ _ (fun x hx => hok _ (List.mem_of_getElem? hw) x (by simp [hx]))
  | fin hw => refine key _ _ ?_; cases c.deferred <;> trivial
  | send => exact key _ _ trivial
  | drainSend => exact key _ _ trivial
  | exit => exact key _ _ trivial
  | crash => exact hok

theorem todo_step {c : PoolCfg σ} {keys : List GoStr} {W : Nat} {s t : Pool σ} (iv : Pool.Inv keys W s)
    (nd : keys.Nodup) (hne : [] ∉ keys) (hc : Commute c keys) (hok : ∀ w ∈ s.workers, w.OK c)
    (st : Pool.Step c s t) : execOps (t.todo c) t.mem = execOps (s.todo c) s.mem := by
  have hnd := open_nodup iv nd hne
  have hsub := open_sub iv hne
  cases st with
  | spawn h => simp [Pool.todo, Worker.left]
  | wait => rfl
  | recv => rfl
  | close => rfl
  | crash => rfl
  | @take i p k ks hw hk hn =>
    obtain ⟨a, b, h1, h2⟩ := set_split hw
    simp only [Pool.todo, h2]
    simp only [hk, h1, List.flatMap_append, List.flatMap_cons, Worker.left, execOps_append,
      execOps_nil]
    congr 1
    refine (exec_comm ?_ _)
    intro o ho o' ho' m
    have hok' : ∀ w ∈ b, w.OK c := fun w hw => hok w (by rw [h1]; simp [hw])
    obtain ⟨k', hk', hop⟩ := left_mem hok' ho'
    simp only [Pool.open, h1, hk, List.flatMap_append, List.flatMap_cons] at hnd hsub
    refine hc k (hsub k (by simp)) k' (hsub k' (by simp [hk'])) ?_ o ho o' hop m
    rintro rfl
    have := List.nodup_append.1 hnd
    exact this.2.2 k (by simp [hk']) k (by simp) rfl
  | @stop i p hw hk =>
    obtain ⟨a, b, h1, h2⟩ := set_split hw
    simp only [Pool.todo, h2]; simp [h1, Worker.left]
  | @stopEmpty i p ks hw hk => exact absurd (iv.sub [] (by rw [hk]; simp)) hne
  | @op i k o os p hw =>
    obtain ⟨a, b, h1, h2⟩ := set_split hw
    simp only [Pool.todo, h2]
    simp only [h1, List.flatMap_append, List.flatMap_cons, Worker.left, execOps_append,
      execOps_cons]
    congr 3
    refine exec_comm_one ?_ _
    intro o' ho' m
    have hok' : ∀ w ∈ a, w.OK c := fun w hw => hok w (by rw [h1]; simp [hw])
    obtain ⟨k', hk', hop⟩ := left_mem hok' ho'
    simp only [Pool.open, h1, List.flatMap_append, List.flatMap_cons, Worker.running] at hnd hsub
    refine hc k (hsub k (by simp)) k' (hsub k' (by simp [hk'])) ?_ o ?_ o' hop m
    · rintro rfl
      have h3 := (List.nodup_append.1 (List.nodup_append.1 hnd).1).2.2
      exact h3 k hk' k (by simp) rfl
    · exact hok _ (List.mem_of_getElem? hw) o (by simp)
  | @fin i k p hw =>
    obtain ⟨a, b, h1, h2⟩ := set_split hw
    simp only [Pool.todo, h2]
    cases c.deferred <;> simp [h1, Worker.left]
  | @send i k p hw hb hcl =>
    obtain ⟨a, b, h1, h2⟩ := set_split hw
    simp only [Pool.todo, h2]; simp [h1, Worker.left]
  | @drainSend i k p hw hb hcl =>
    obtain ⟨a, b, h1, h2⟩ := set_split hw
    simp only [Pool.todo, h2]; simp [h1, Worker.left]
  | @exit i hw =>
    obtain ⟨a, b, h1, h2⟩ := set_split hw
    simp only [Pool.todo, h2]; simp [h1, Worker.left]

theorem todo_steps {c : PoolCfg σ} {keys : List GoStr} {W n : Nat} {s t : Pool σ} (iv : Pool.Inv keys W s)
    (nd : keys.Nodup) (hne : [] ∉ keys) (hc : Commute c keys) (hok : ∀ w ∈ s.workers, w.OK c)
    (st : Pool.Steps c n s t) :
    execOps (t.todo c) t.mem = execOps (s.todo c) s.mem ∧ ∀ w ∈ t.workers, w.OK c := by
  induction st with
  | refl => exact ⟨rfl, hok⟩
  | tail a b ih =>
    obtain ⟨h1, h2⟩ := ih iv hok
    exact ⟨(todo_step (inv_steps iv a) nd hne hc h2 b).trans h1, ok_step h2 b⟩

/-- Sequential runs do not depend on the order of the jobs. -/
theorem runJobs_perm {c : PoolCfg σ} {l l' : List GoStr} (hp : l.Perm l') (nd : l.Nodup) (hc : Commute c l) (m : σ) :
    runJobs c l m = runJobs c l' m := by
  induction hp generalizing m with
  | nil => rfl
  | @cons x a b hp ih =>
    exact ih (List.nodup_cons.1 nd).2 (fun k hk k' hk' => hc k (by simp [hk]) k' (by simp [hk'])) _
  | swap x y l =>
    show runJobs c l _ = runJobs c l _
    congr 1
    have : y ≠ x := by intro h; subst h; simp at nd
    exact (exec_comm (fun o ho o' ho' m => hc y (by simp) x (by simp) this o ho o' ho' m) m)
  | trans h1 h2 ih1 ih2 =>
    rw [ih1 nd hc, ih2 (h1.nodup_iff.1 nd) (fun k hk k' hk' => hc k (h1.mem_iff.2 hk) k' (h1.mem_iff.2 hk'))]

/-- Nothing is running nor waiting once the caller is back. -/
theorem returned_idle {keys : List GoStr} {W : Nat} {s : Pool σ} (iv : Pool.Inv keys W s)
    (hr : s.caller = .returned) : (∀ a, rsum a s.workers = 0) ∧ s.keys = [] ∧ [] ∉ keys := by
  have h1 := (iv.fin hr).1
  have h2 := iv.len
  have h3 := proper_length_le keys
  have hne : [] ∉ keys := by
    intro hm
    have : (proper keys).length < keys.length := by
      unfold proper
      rw [List.length_filter_lt_length_iff_exists]
      exact ⟨[], hm, by simp⟩
    omega
  have hk : s.keys = [] := by
    have h4 : proper s.keys = [] := List.length_eq_zero_iff.1 (by omega)
    rwa [proper_eq (fun h => hne (iv.sub _ h))] at h4
  refine ⟨fun a => ?_, hk, hne⟩
  have hp : plen s.workers = 0 := by omega
  unfold plen at hp
  unfold rsum
  refine List.sum_eq_zero ?_
  intro x hx
  obtain ⟨w, hw, rfl⟩ := List.mem_map.1 hx
  have hz : w.pending.length = 0 := by
    obtain ⟨i, hi⟩ := List.getElem?_of_mem hw
    have := plen_le hi
    unfold plen at this; omega
  cases w <;> simp_all

end Verif
