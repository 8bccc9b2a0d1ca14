import Verif.Model.PoolJobs
import Verif.Proofs.PoolMem
import Verif.Props.Pool
import Verif.Proofs.Scaler
import Verif.Proofs.OneHotRun

/-! Pools whose jobs are lists of accesses (`Atom`). -/

namespace Verif
variable {F L : Type}

/-- Two accesses of different jobs do not interfere. -/
def Atom.Indep : Atom F L → Atom F L → Prop
  | .rd s i _, .wr k => ∀ l x v, k l = some (x, v) → i < s.len → x ≠ (s.arr, s.off + i)
  | .wr k, .rd s i _ => ∀ l x v, k l = some (x, v) → i < s.len → x ≠ (s.arr, s.off + i)
  | .wr k, .wr k' => ∀ l l' x v x' v', k l = some (x, v) → k' l' = some (x', v') → x ≠ x' ∨ v = v'
  | _, _ => True

theorem putAt_cell {g : Heap F} {x : Nat × Nat} {v : Val F} {s : Slice} {i : Nat} (hx : i < s.len → x ≠ (s.arr, s.off + i)) :
    (g.putAt x v).cell s i = g.cell s i := by
  obtain ⟨a, p⟩ := x
  unfold Heap.cell Heap.putAt
  split
  · rename_i hi
    have := hx hi
    simp only [Heap.setArr]
    split
    · rename_i ha
      subst ha
      have : p ≠ s.off + i := fun e => this (by rw [e])
      rw [List.getElem?_set_ne this]
    · rfl
  · rfl

theorem putAt_comm {g : Heap F} {x y : Nat × Nat} {v w : Val F} (h : x ≠ y ∨ v = w) :
    (g.putAt x v).putAt y w = (g.putAt y w).putAt x v := by
  obtain ⟨a, p⟩ := x
  obtain ⟨b, q⟩ := y
  simp only [Heap.putAt, Heap.setArr]
  congr 1
  funext z
  by_cases hab : a = b
  · subst hab
    by_cases hz : z = a
    · subst hz
      simp only [if_true]
      by_cases hpq : p = q
      · subst hpq
        rcases h with h | h
        · exact absurd rfl h
        · rw [h]
      · exact List.set_comm _ _ hpq
    · simp [hz]
  · by_cases hz : z = a
    · subst hz; simp [hab]
    · by_cases hz' : z = b
      · subst hz'; simp [Ne.symm hab, hz]
      · simp [hz, hz']

theorem putAt_write {g : Heap F} {s : Slice} {i : Nat} (hi : i < s.len) (v : Val F) :
    g.write s i v = .ok (g.putAt (s.arr, s.off + i) v) := by
  unfold Heap.write; rw [if_pos hi]; rfl

theorem op_comm {a b : Atom F L} (hi : a.Indep b) {c c' : GoStr} (hne : c ≠ c') (m : Heap F × (GoStr → L)) :
    a.op c (b.op c' m) = b.op c' (a.op c m) := by
  obtain ⟨g, reg⟩ := m
  have key : (a.run ((b.run (g, reg c')).1, reg c)).2 = (a.run (g, reg c)).2 ∧
      (b.run ((a.run (g, reg c)).1, reg c')).2 = (b.run (g, reg c')).2 ∧
      (a.run ((b.run (g, reg c')).1, reg c)).1 = (b.run ((a.run (g, reg c)).1, reg c')).1 := by
    cases a with
    | rd s i k =>
      cases b with
      | rd s' i' k' => simp [Atom.run]
      | comp k' => simp [Atom.run]
      | wr k' =>
        simp only [Atom.run]
        cases hk : k' (reg c') with
        | none => simp
        | some p => simp [putAt_cell (fun h => hi _ _ _ hk h)]
    | comp k =>
      cases b with
      | rd s' i' k' => simp [Atom.run]
      | comp k' => simp [Atom.run]
      | wr k' =>
        simp only [Atom.run]
        cases hk : k' (reg c') <;> simp
    | wr k =>
      cases b with
      | rd s' i' k' =>
        simp only [Atom.run]
        cases hk : k (reg c) with
        | none => simp
        | some p => simp [putAt_cell (fun h => hi _ _ _ hk h)]
      | comp k' =>
        simp only [Atom.run]
        cases hk : k (reg c) <;> simp
      | wr k' =>
        simp only [Atom.run]
        cases hk : k (reg c) with
        | none =>
          cases hk' : k' (reg c') <;> simp
        | some p =>
          cases hk' : k' (reg c') with
          | none => simp
          | some p' => simpa using putAt_comm ((hi _ _ _ _ _ _ hk hk').imp Ne.symm Eq.symm)
  simp only [Atom.op, if_neg hne, if_neg (Ne.symm hne)]
  rw [key.1, key.2.1, key.2.2]
  refine Prod.ext rfl ?_
  funext x
  by_cases hx : x = c
  · subst hx; simp [hne]
  · simp [hx]

theorem atomPool_commute {d : Bool} {prog : GoStr → List (Atom F L)} {keys : List GoStr}
    (hi : ∀ c ∈ keys, ∀ c' ∈ keys, c ≠ c' → ∀ a ∈ prog c, ∀ b ∈ prog c', a.Indep b) : Commute (atomPool d prog) keys := by
  intro c hc c' hc' hne o ho o' ho' m
  simp only [atomPool, List.mem_map] at ho ho'
  obtain ⟨a, ha, rfl⟩ := ho
  obtain ⟨b, hb, rfl⟩ := ho'
  exact op_comm (hi c hc c' hc' hne a ha b hb) hne m

/-- A job, seen from inside. -/
def runAtoms (as : List (Atom F L)) (m : Heap F × L) : Heap F × L := as.foldl (fun m a => a.run m) m

@[simp] theorem runAtoms_nil (m : Heap F × L) : runAtoms [] m = m := rfl
@[simp] theorem runAtoms_cons (a : Atom F L) (as) (m : Heap F × L) : runAtoms (a :: as) m = runAtoms as (a.run m) := rfl
theorem runAtoms_append (as bs : List (Atom F L)) (m : Heap F × L) : runAtoms (as ++ bs) m = runAtoms bs (runAtoms as m) := by
  simp [runAtoms, List.foldl_append]

theorem exec_atoms (c : GoStr) (as : List (Atom F L)) (g : Heap F) (reg : GoStr → L) :
    execOps (as.map (Atom.op c)) (g, reg) =
      ((runAtoms as (g, reg c)).1, fun x => if x = c then (runAtoms as (g, reg c)).2 else reg x) := by
  induction as generalizing g reg with
  | nil =>
    refine Prod.ext rfl ?_
    funext x
    by_cases hx : x = c <;> simp [execOps, hx]
  | cons a as ih =>
    rw [List.map_cons, execOps_cons]
    have : a.op c (g, reg) = ((a.run (g, reg c)).1, fun x => if x = c then (a.run (g, reg c)).2 else reg x) := rfl
    rw [this, ih]
    simp only [if_true, runAtoms_cons]
    refine Prod.ext rfl ?_
    funext x
    by_cases hx : x = c <;> simp [hx]

/-- An access that does not write. -/
def Atom.reads : Atom F L → Bool
  | .wr _ => false
  | _ => true

theorem runAtoms_reads {as : List (Atom F L)} (hr : ∀ a ∈ as, a.reads = true) (m : Heap F × L) : (runAtoms as m).1 = m.1 := by
  induction as generalizing m with
  | nil => rfl
  | cons a as ih =>
    rw [runAtoms_cons, ih (fun b hb => hr b (by simp [hb]))]
    have := hr a (by simp)
    cases a <;> simp_all [Atom.reads, Atom.run]

/-- C35 for jobs that only read: whatever the schedule, each job's local variables end as if it had been alone, and
the heap is untouched. -/
theorem readers_result {d : Bool} {prog : GoStr → List (Atom F L)} {keys order : List GoStr} {mw : Int} {h : Heap F} {reg : GoStr → L}
    {n : Nat} {t : Pool (Heap F × (GoStr → L))} (hr : ∀ c ∈ keys, ∀ a ∈ prog c, a.reads = true)
    (hp : order.Perm keys) (nd : keys.Nodup) (st : Pool.Steps (atomPool d prog) n (Pool.init keys order mw (h, reg)) t)
    (hret : t.caller = .returned) :
    t.mem.1 = h ∧ (∀ c ∈ keys, t.mem.2 c = (runAtoms (prog c) (h, reg c)).2) ∧ (∀ c, c ∉ keys → t.mem.2 c = reg c) := by
  have hcm : Commute (atomPool d prog) keys := atomPool_commute (by
    intro c hc c' hc' _ a ha b hb
    have h1 := hr c hc a ha
    have h2 := hr c' hc' b hb
    cases a <;> cases b <;> simp_all [Atom.reads, Atom.Indep])
  rw [C35_schedule_independent hp nd hcm st hret]
  have key : ∀ (ks : List GoStr) (reg : GoStr → L), ks.Nodup → (∀ c ∈ ks, c ∈ keys) →
      (runJobs (atomPool d prog) ks (h, reg)).1 = h ∧
      (∀ c ∈ ks, (runJobs (atomPool d prog) ks (h, reg)).2 c = (runAtoms (prog c) (h, reg c)).2) ∧
      (∀ c, c ∉ ks → (runJobs (atomPool d prog) ks (h, reg)).2 c = reg c) := by
    intro ks
    induction ks with
    | nil => intro reg _ _; exact ⟨rfl, by simp, fun _ _ => rfl⟩
    | cons k ks ih =>
      intro reg nd hsub
      obtain ⟨n1, n2⟩ := List.nodup_cons.1 nd
      have e : runJobs (atomPool d prog) (k :: ks) (h, reg) = runJobs (atomPool d prog) ks
          (h, fun x => if x = k then (runAtoms (prog k) (h, reg k)).2 else reg x) := by
        show runJobs _ ks (execOps ((prog k).map (Atom.op k)) (h, reg)) = _
        rw [exec_atoms, runAtoms_reads (hr k (hsub k (by simp)))]
      rw [e]
      obtain ⟨i1, i2, i3⟩ := ih (fun x => if x = k then (runAtoms (prog k) (h, reg k)).2 else reg x) n2
        (fun c hc => hsub c (by simp [hc]))
      refine ⟨i1, ?_, ?_⟩
      · intro c hc
        simp only [List.mem_cons] at hc
        rcases hc with rfl | hc
        · rw [i3 c n1]; simp
        · have : c ≠ k := fun e => n1 (e ▸ hc)
          rw [i2 c hc]; simp [this]
      · intro c hc
        simp only [List.mem_cons, not_or] at hc
        rw [i3 c hc.2]; simp [hc.1]
  exact key keys reg nd (fun _ h => h)

/-- Reading a column row by row. -/
theorem run_reads {α : Type} {g : Heap F} {s : Slice} {rows : List Nat} {vals : List α} {e : α → Val F}
    (hv : rows.map (g.cell s) = vals.map (fun v => some (e v))) (k : Option (Val F) → L → L) (l : L) :
    runAtoms (rows.map (fun i => Atom.rd s i k)) (g, l) = (g, vals.foldl (fun l v => k (some (e v)) l) l) := by
  induction rows generalizing l vals with
  | nil => cases vals with
    | nil => rfl
    | cons => simp at hv
  | cons i rows ih =>
    cases vals with
    | nil => simp at hv
    | cons v vals =>
      simp only [List.map_cons, List.cons.injEq] at hv
      rw [List.map_cons, runAtoms_cons, List.foldl_cons]
      have : (Atom.rd s i k).run (g, l) = (g, k (some (e v)) l) := by simp [Atom.run, hv.1]
      rw [this, ih hv.2]

end Verif
