import Verif.Model.FileThreads
import Verif.Proofs.Threads
import Verif.Props.Pool

/-! Pools whose jobs are transition systems. -/

namespace Verif
variable {ι : Type} {init : GoStr → ι} {istep : GoStr → ι → ι → Prop} {ended : GoStr → ι → Prop}

/-- An execution of one job. -/
inductive IRun (istep : GoStr → ι → ι → Prop) (k : GoStr) : Nat → ι → ι → Prop where
  | refl (s) : IRun istep k 0 s s
  | tail {n s t u} (a : IRun istep k n s t) (b : istep k t u) : IRun istep k (n + 1) s u

def c0 : PoolCfg Unit := ⟨false, fun _ => []⟩

/-- Every step is a step of the outer pool or leaves it alone. -/
theorem Nest.Step.outer {s t : Nest ι} (st : Nest.Step init istep ended s t) : Pool.Step c0 s.outer t.outer ∨ t.outer = s.outer := by
  cases st with
  | take hw hk hne => exact .inl (.take (c := c0) hw hk hne)
  | work hi st => exact .inr rfl
  | fin hw hi he => exact .inl (.fin (c := c0) hw)
  | ctl st hd hk => exact .inl st

theorem Nest.Steps.outer {n : Nat} {s t : Nest ι} (st : Nest.Steps init istep ended n s t) : ∃ m, Pool.Steps c0 m s.outer t.outer := by
  induction st with
  | refl => exact ⟨0, .refl _⟩
  | tail a b ih =>
    obtain ⟨m, hm⟩ := ih
    rcases b.outer with h | h
    · exact ⟨m + 1, .tail hm h⟩
    · exact ⟨m, by rw [h]; exact hm⟩

/-- What is known of the jobs. -/
structure NestInv (init : GoStr → ι) (istep : GoStr → ι → ι → Prop) (ended : GoStr → ι → Prop) (keys : List GoStr) (s : Nest ι) : Prop where
  pool : ∃ W, Pool.Inv keys W s.outer
  ops : ∀ k os p, Worker.run k os p ∈ s.outer.workers → os = []
  inner : ∀ k w, s.inner k = some w → (∃ n, IRun istep k n (init k) w) ∧ k ∈ keys
  running : ∀ k os p, Worker.run k os p ∈ s.outer.workers → (s.inner k).isSome
  done : ∀ k ∈ s.outer.done, ∃ w, s.inner k = some w ∧ ended k w

theorem mem_set_iff_or {α : Type} {l : List α} {i : Nat} {a x : α} (h : x ∈ l.set i a) : x = a ∨ x ∈ l := by
  rcases List.mem_or_eq_of_mem_set h with h | h
  · exact .inr h
  · exact .inl h

/-- A key still to be taken has not been done. -/
theorem Pool.Inv.fresh {σ : Type} {keys : List GoStr} {W : Nat} {s : Pool σ} (iv : Pool.Inv keys W s) (nd : keys.Nodup) {k : GoStr}
    (hk : k ∈ s.keys) (hne : k ≠ []) : k ∉ s.done := by
  intro hd
  have h1 := iv.jobs k
  have h2 : 0 < s.done.count k := List.count_pos_iff.2 hd
  have h3 : 0 < (proper s.keys).count k := List.count_pos_iff.2 (by simp [proper, hk, hne])
  have h4 : (proper keys).count k ≤ 1 := List.nodup_iff_count_le_one.1 (nd.filter _) k
  omega

theorem Nest.Step.inv {keys : List GoStr} (nd : keys.Nodup) (stable : ∀ k w w', ended k w → istep k w w' → ended k w')
    {s t : Nest ι} (iv : NestInv init istep ended keys s) (st : Nest.Step init istep ended s t) :
    NestInv init istep ended keys t := by
  obtain ⟨W, pi⟩ := iv.pool
  have pool : ∃ W, Pool.Inv keys W t.outer := by
    rcases st.outer with h | h
    · exact ⟨W, inv_step pi h⟩
    · exact ⟨W, by rw [h]; exact pi⟩
  cases st with
  | @take i p k ks hw hk hne =>
    have hkk : k ∈ s.outer.keys := by rw [hk]; simp
    have hfresh := pi.fresh nd hkk hne
    refine ⟨pool, ?_, ?_, ?_, ?_⟩
    · intro a os q hm
      rcases mem_set_iff_or hm with h | h
      · cases h; rfl
      · exact iv.ops a os q h
    · intro a w ha
      dsimp only at ha
      split at ha
      · rename_i e; subst e; cases ha; exact ⟨⟨0, .refl _⟩, pi.sub _ hkk⟩
      · exact iv.inner a w ha
    · intro a os q hm
      dsimp only
      split
      · rfl
      · rename_i hne'
        rcases mem_set_iff_or hm with h | h
        · cases h; exact absurd rfl hne'
        · exact iv.running a os q h
    · intro a ha
      dsimp only at ha ⊢
      rw [if_neg (by rintro rfl; exact hfresh ha)]
      exact iv.done a ha
  | @work k w w' hi st =>
    refine ⟨pool, iv.ops, ?_, ?_, ?_⟩
    · intro a x ha
      dsimp only at ha
      split at ha
      · rename_i e; subst e; cases ha
        obtain ⟨⟨n, r⟩, hm⟩ := iv.inner a w hi
        exact ⟨⟨n + 1, .tail r st⟩, hm⟩
      · exact iv.inner a x ha
    · intro a os q hm
      dsimp only
      split
      · rfl
      · exact iv.running a os q hm
    · intro a ha
      dsimp only
      split
      · rename_i e; subst e
        obtain ⟨x, hx, he⟩ := iv.done a ha
        rw [hi] at hx; cases hx
        exact ⟨w', rfl, stable _ _ _ he st⟩
      · exact iv.done a ha
  | @fin i k p w hw hi he =>
    refine ⟨pool, ?_, iv.inner, ?_, ?_⟩
    · intro a os q hm
      rcases mem_set_iff_or hm with h | h
      · cases h
      · exact iv.ops a os q h
    · intro a os q hm
      rcases mem_set_iff_or hm with h | h
      · cases h
      · exact iv.running a os q h
    · intro a ha
      simp only [List.mem_append, List.mem_singleton] at ha
      rcases ha with ha | rfl
      · exact iv.done a ha
      · exact ⟨w, hi, he⟩
  | @ctl o st hd hk =>
    have hrun : ∀ a os q, Worker.run a os q ∈ o.workers → ∃ os' q', Worker.run a os' q' ∈ s.outer.workers ∧ (os' = [] → os = []) := by
      intro a os q hm
      cases st with
      | spawn h =>
        rcases List.mem_append.1 hm with h | h
        · exact ⟨os, q, h, id⟩
        · simp at h
      | wait h => exact ⟨os, q, hm, id⟩
      | recv h he => exact ⟨os, q, hm, id⟩
      | close h => exact ⟨os, q, hm, id⟩
      | take hw hk' hne =>
        exfalso
        rcases hk with h | h
        · dsimp only at h; rw [hk'] at h; exact absurd (congrArg List.length h) (by simp)
        · dsimp only at h; rw [hk'] at h; injection h with h1 h2; exact hne h1
      | stop hw hk' =>
        rcases mem_set_iff_or hm with h | h
        · cases h
        · exact ⟨os, q, h, id⟩
      | stopEmpty hw hk' =>
        rcases mem_set_iff_or hm with h | h
        · cases h
        · exact ⟨os, q, h, id⟩
      | op hw =>
        rcases mem_set_iff_or hm with h | h
        · cases h
          exact ⟨_, _, List.mem_of_getElem? hw, fun h => by cases h⟩
        · exact ⟨os, q, h, id⟩
      | fin hw =>
        exfalso
        dsimp only at hd
        exact absurd (congrArg List.length hd) (by simp)
      | send hw hb hc =>
        rcases mem_set_iff_or hm with h | h
        · cases h
        · exact ⟨os, q, h, id⟩
      | drainSend hw hb hc =>
        rcases mem_set_iff_or hm with h | h
        · cases h
        · exact ⟨os, q, h, id⟩
      | exit hw =>
        rcases mem_set_iff_or hm with h | h
        · cases h
        · exact ⟨os, q, h, id⟩
      | crash hw hc => exact ⟨os, q, hm, id⟩
    refine ⟨pool, ?_, iv.inner, ?_, ?_⟩
    · intro a os q hm
      obtain ⟨os', q', hm', h⟩ := hrun a os q hm
      exact h (iv.ops _ _ _ hm')
    · intro a os q hm
      obtain ⟨os', q', hm', h⟩ := hrun a os q hm
      exact iv.running _ _ _ hm'
    · intro a ha
      dsimp only at ha
      rw [hd] at ha
      exact iv.done a ha

theorem NestInv.start {keys order : List GoStr} (hp : order.Perm keys) (mw : Int) :
    NestInv init istep ended keys (Nest.start keys order mw) where
  pool := ⟨_, inv_init hp mw ()⟩
  ops k os p h := by simp [Nest.start, Pool.init] at h
  inner k w h := by simp [Nest.start] at h
  running k os p h := by simp [Nest.start, Pool.init] at h
  done k h := by simp [Nest.start, Pool.init] at h

theorem Nest.Steps.inv {keys order : List GoStr} (hp : order.Perm keys) {mw : Int} (nd : keys.Nodup)
    (stable : ∀ k w w', ended k w → istep k w w' → ended k w') {n : Nat} {s0 s : Nest ι}
    (st : Nest.Steps init istep ended n s0 s) (e : s0 = Nest.start keys order mw) : NestInv init istep ended keys s := by
  induction st with
  | refl => subst e; exact .start hp mw
  | tail a b ih => exact b.inv nd stable (ih e)

/-- When the caller is back, there is one result per key and every job has ended. -/
theorem nest_result {keys order : List GoStr} (hp : order.Perm keys) {mw : Int} (nd : keys.Nodup)
    (stable : ∀ k w w', ended k w → istep k w w' → ended k w') {n : Nat} {s : Nest ι}
    (st : Nest.Steps init istep ended n (Nest.start keys order mw) s) (hr : s.outer.caller = .returned) :
    s.outer.got.Perm keys ∧ ∀ k ∈ keys, ∃ w m, s.inner k = some w ∧ IRun istep k m (init k) w ∧ ended k w := by
  obtain ⟨m, pst⟩ := st.outer
  obtain ⟨h1, h2, _⟩ := C34_result hp pst hr
  have iv := st.inv hp nd stable rfl
  refine ⟨h2, fun k hk => ?_⟩
  obtain ⟨w, hw, he⟩ := iv.done k (h1.mem_iff.2 hk)
  obtain ⟨⟨m, r⟩, _⟩ := iv.inner k w hw
  exact ⟨w, m, hw, r, he⟩

/-! ### The end -/

/-- The steps left: those of the outer pool and those of the jobs. -/
def nestLeft (init : GoStr → ι) (left : GoStr → ι → Nat) (keys : List GoStr) (s : Nest ι) : Nat :=
  s.outer.weight c0 + (keys.map fun k => left k ((s.inner k).getD (init k))).sum

theorem map_sum_le {α : Type} {f g : α → Nat} {l : List α} (h : ∀ a ∈ l, g a ≤ f a) : (l.map g).sum ≤ (l.map f).sum := by
  induction l with
  | nil => simp
  | cons a l ih =>
    have := h a (by simp)
    have := ih (fun b hb => h b (by simp [hb]))
    simp; omega

theorem map_sum_lt {α : Type} {f g : α → Nat} {l : List α} (h : ∀ a ∈ l, g a ≤ f a) {a : α} (ha : a ∈ l) (hl : g a < f a) :
    (l.map g).sum < (l.map f).sum := by
  induction l with
  | nil => cases ha
  | cons b l ih =>
    have h1 := h b (by simp)
    rcases List.mem_cons.1 ha with rfl | ha
    · have := map_sum_le (fun b hb => h b (List.mem_cons_of_mem _ hb))
      simp; omega
    · have := ih (fun b hb => h b (List.mem_cons_of_mem _ hb)) ha
      simp; omega

theorem Nest.Step.left {keys : List GoStr} {left : GoStr → ι → Nat} (nd : keys.Nodup)
    (dec : ∀ k ∈ keys, ∀ w w', (∃ n, IRun istep k n (init k) w) → istep k w w' → left k w' < left k w) {s t : Nest ι}
    (iv : NestInv init istep ended keys s) (hout : ∀ k, k ∈ s.outer.keys → k ≠ [] → s.inner k = none)
    (st : Nest.Step init istep ended s t) :
    nestLeft init left keys t < nestLeft init left keys s := by
  obtain ⟨W, pi⟩ := iv.pool
  cases st with
  | @take i p k ks hw hk hne =>
    have h1 := weight_step pi (Pool.Step.take (c := c0) hw hk hne)
    unfold nestLeft
    have h2 : (keys.map fun a => left a ((if a = k then some (init k) else s.inner a).getD (init a))).sum ≤
        (keys.map fun a => left a ((s.inner a).getD (init a))).sum := by
      apply map_sum_le
      intro a _
      split
      · rename_i e; subst e
        rw [hout a (by rw [hk]; simp) hne]; simp
      · exact Nat.le_refl _
    have h3 : (c0.prog k) = [] := rfl
    rw [h3] at h1
    dsimp only
    omega
  | @work k w w' hi st =>
    obtain ⟨r, hm⟩ := iv.inner k w hi
    unfold nestLeft
    have := map_sum_lt (l := keys) (f := fun a => left a ((s.inner a).getD (init a)))
      (g := fun a => left a ((if a = k then some w' else s.inner a).getD (init a))) (a := k) (by
        intro a _
        split
        · rename_i e; subst e; rw [hi]; exact Nat.le_of_lt (dec _ hm _ _ r st)
        · exact Nat.le_refl _) hm (by simp only [if_true]; rw [hi]; exact dec _ hm _ _ r st)
    dsimp only at this ⊢
    omega
  | @fin i k p w hw hi he =>
    have h1 := weight_step pi (Pool.Step.fin (c := c0) hw)
    unfold nestLeft
    have h3 : c0.deferred = false := rfl
    rw [h3] at h1
    dsimp only at h1 ⊢
    simp only [Bool.false_eq_true, if_false] at h1
    omega
  | @ctl o st hd hk =>
    have h1 := weight_step pi st
    unfold nestLeft
    dsimp only
    have : c0 = ⟨false, fun _ => []⟩ := rfl
    rw [this]
    omega

/-- A key still in the queue has not been started. -/
theorem Nest.Steps.unstarted {keys order : List GoStr} (hp : order.Perm keys) {mw : Int} (nd : keys.Nodup) {n : Nat} {s0 s : Nest ι}
    (st : Nest.Steps init istep ended n s0 s) (e : s0 = Nest.start keys order mw) :
    s.outer.keys.Nodup ∧ ∀ k, k ∈ s.outer.keys → k ≠ [] → s.inner k = none := by
  induction st with
  | refl => subst e; exact ⟨hp.nodup_iff.2 nd, fun k _ _ => rfl⟩
  | tail a b ih =>
    obtain ⟨i1, i2⟩ := ih e
    cases b with
    | @take i p k ks hw hk hne =>
      rw [hk] at i1 i2
      have := List.nodup_cons.1 i1
      refine ⟨this.2, fun x hx hx' => ?_⟩
      dsimp only at hx ⊢
      rw [if_neg (by rintro rfl; exact this.1 hx)]
      exact i2 x (by simp [hx]) hx'
    | @work k w w' hi st =>
      refine ⟨i1, fun x hx hx' => ?_⟩
      dsimp only at hx ⊢
      have h0 := i2 x hx hx'
      rw [if_neg (by rintro rfl; rw [hi] at h0; cases h0)]
      exact h0
    | fin hw hi he => exact ⟨i1, i2⟩
    | @ctl o st hd hk =>
      rcases hk with h | h
      · dsimp only; rw [h]; exact ⟨i1, i2⟩
      · rw [h] at i1 i2
        exact ⟨(List.nodup_cons.1 i1).2, fun x hx hx' => i2 x (by simp [hx]) hx'⟩

theorem Nest.Steps.left {keys order : List GoStr} (hp : order.Perm keys) {mw : Int} (nd : keys.Nodup) {left : GoStr → ι → Nat}
    (stable : ∀ k w w', ended k w → istep k w w' → ended k w')
    (dec : ∀ k ∈ keys, ∀ w w', (∃ n, IRun istep k n (init k) w) → istep k w w' → left k w' < left k w) {n : Nat} {s0 s : Nest ι}
    (st : Nest.Steps init istep ended n s0 s) (e : s0 = Nest.start keys order mw) :
    n + nestLeft init left keys s ≤ nestLeft init left keys s0 := by
  induction st with
  | refl => omega
  | tail a b ih =>
    have := b.left nd dec (a.inv hp nd stable e) (a.unstarted hp nd e).2
    have := ih e
    omega

/-- As long as the caller is not back, somebody can go on. -/
theorem nest_never_blocked {keys order : List GoStr} (hp : order.Perm keys) {mw : Int} (nd : keys.Nodup)
    (hw : 0 < (queueWorkers keys mw).toNat) (hne : [] ∉ keys)
    (stable : ∀ k w w', ended k w → istep k w w' → ended k w')
    (live : ∀ k ∈ keys, ∀ n w, IRun istep k n (init k) w → ended k w ∨ ∃ w', istep k w w') {n : Nat} {s : Nest ι}
    (st : Nest.Steps init istep ended n (Nest.start keys order mw) s) (hr : s.outer.caller ≠ .returned) :
    ∃ t, Nest.Step init istep ended s t := by
  have iv := st.inv hp nd stable rfl
  obtain ⟨m, pst⟩ := st.outer
  have pi := inv_steps (inv_init hp mw ()) pst
  obtain ⟨o, ps⟩ := caller_never_blocked c0 pi hne hw hr
  have key : o.done = s.outer.done → (o.keys = s.outer.keys ∨ s.outer.keys = [] :: o.keys) → ∃ t, Nest.Step init istep ended s t :=
    fun a b => ⟨_, .ctl ps a b⟩
  cases ps with
  | take hw hk hne => exact ⟨_, .take hw hk hne⟩
  | stopEmpty hw hk => exact key rfl (.inr hk)
  | @fin i k p hw =>
    obtain ⟨w, hi⟩ := Option.isSome_iff_exists.1 (iv.running k [] p (List.mem_of_getElem? hw))
    obtain ⟨⟨n, r⟩, hm⟩ := iv.inner k w hi
    rcases live k hm n w r with h | ⟨w', h⟩
    · exact ⟨_, .fin hw hi h⟩
    · exact ⟨_, .work hi h⟩
  | _ => exact key rfl (.inl rfl)

end Verif
