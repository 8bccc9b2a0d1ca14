import Verif.Spec.Preproc
import Verif.Proofs.Overwrite
import Verif.Proofs.Copy
import Verif.Proofs.Hash
import Mathlib.Data.List.Nodup
import Mathlib.Logic.Function.Iterate

/-! In-place float transformations. -/

namespace Verif
variable {F : Type}

/-- What one iteration does to the value of a cell. -/
def updVal [GoFloat F] (f : F → Option F) (v : Val F) : Val F :=
  match f (asFloat v) with
  | some y => .float y
  | none => v

/-- The memory cells behind the rows of a column slice. -/
def sliceLocs (s : Slice) (rows : List Nat) : List (Nat × Nat) := rows.map fun i => (s.arr, s.off + i)

theorem write_at {h h' : Heap F} {s : Slice} {i : Nat} {v : Val F} (hv : s.Valid h) (e : h.write s i v = .ok h')
    (x : Nat × Nat) : h'.at x = if x = (s.arr, s.off + i) then some v else h.at x := by
  unfold Heap.write at e
  split at e
  · rename_i hlt
    cases e
    have hin : s.off + i < (h.arr s.arr).length := by
      rcases hv.2 with h0 | ⟨_, h0⟩ <;> (have := hv.1; omega)
    obtain ⟨a, p⟩ := x
    simp only [Heap.at, Heap.setArr, Prod.mk.injEq]
    by_cases ha : a = s.arr
    · subst ha
      by_cases hp : p = s.off + i
      · subst hp; simp [hin]
      · have hp' : ¬ s.off + i = p := fun h => hp h.symm
        simp [hp, hp', List.getElem?_set]
    · simp [ha]
  · cases e

theorem cell_at {h : Heap F} {s : Slice} {i : Nat} (hi : i < s.len) : h.cell s i = h.at (s.arr, s.off + i) := by
  simp [Heap.cell, hi, Heap.at]

theorem updFloats_spec [GoFloat F] (f : F → Option F) {s : Slice} (is : List Nat) (h : Heap F) (hv : s.Valid h)
    (hi : ∀ i ∈ is, i < s.len) :
    ∃ h', updFloats f s is h = .ok h' ∧ Quiet h h' ∧
      ∀ x, h'.at x = (h.at x).map ((updVal f)^[(sliceLocs s is).count x]) := by
  induction is generalizing h with
  | nil => exact ⟨h, rfl, Quiet.refl h, fun x => by simp [sliceLocs]⟩
  | cons i is ih =>
    obtain ⟨v, hc⟩ := hv.cell_some (hi i (by simp))
    have hat : h.at (s.arr, s.off + i) = some v := by rw [← cell_at (hi i (by simp))]; exact hc
    -- the heap after this iteration
    have step : ∃ h1, Quiet h h1 ∧ (∀ x, h1.at x = if x = (s.arr, s.off + i) then some (updVal f v) else h.at x) ∧
        updFloats f s (i :: is) h = updFloats f s is h1 := by
      simp only [updFloats, hc]
      cases hf : f (asFloat v) with
      | none =>
        refine ⟨h, Quiet.refl h, ?_, rfl⟩
        intro x
        split
        · rename_i hx; subst hx; simp [hat, updVal, hf]
        · rfl
      | some y =>
        have hw : ∃ h1, h.write s i (.float y) = .ok h1 := by
          simp [Heap.write, hi i (by simp)]
        obtain ⟨h1, hw⟩ := hw
        refine ⟨h1, write_quiet hw, ?_, by simp only [hw]⟩
        intro x
        rw [write_at hv hw]
        simp [updVal, hf]
    obtain ⟨h1, q1, a1, e1⟩ := step
    obtain ⟨h', e2, q2, a2⟩ := ih h1 (q1.valid hv) (fun j hj => hi j (by simp [hj]))
    refine ⟨h', by rw [e1, e2], q1.trans q2, ?_⟩
    intro x
    rw [a2, a1]
    simp only [sliceLocs, List.map_cons, List.count_cons]
    by_cases hx : x = (s.arr, s.off + i)
    · subst hx
      simp [hat]
    · rw [if_neg hx]
      have : ((s.arr, s.off + i) == x) = false := by simpa using fun h => hx h.symm
      simp [this]

/-- The memory cells behind a float column, row by row. -/
def fcolLocs (h : Heap F) (df : DF) (c : GoStr) : List (Nat × Nat) :=
  match AMap.get (h.tab df.tab) (.float, c) with
  | none => []
  | some s => sliceLocs s df.rows

theorem updFloatCol_spec [GoFloat F] {df : DF} {h : Heap F} (wf : df.WF h) {c : GoStr}
    (hc : ((abs h df).col .float c).isSome) (f : F → Option F) :
    ∃ h', df.updFloatCol c f h = .ok h' ∧ Quiet h h' ∧
      ∀ x, h'.at x = (h.at x).map ((updVal f)^[(fcolLocs h df c).count x]) := by
  simp only [abs, Option.isSome_map] at hc
  obtain ⟨s, hs⟩ := Option.isSome_iff_exists.1 hc
  obtain ⟨N, h1, h2, _⟩ := wf.rect
  simp only [DF.updFloatCol, fcolLocs, hs]
  exact updFloats_spec f df.rows h (wf.slices _ _ hs) (fun i hi => by rw [h1 _ _ hs]; exact h2 i hi)

theorem Quiet.fcolLocs {h h' : Heap F} (q : Quiet h h') (df : DF) (c : GoStr) : fcolLocs h' df c = fcolLocs h df c := by
  unfold Verif.fcolLocs; rw [q.tab]

theorem Quiet.wf {h h' : Heap F} (q : Quiet h h') {d : DF} (wf : d.WF h) : d.WF h' := wf.safe q.safe

theorem Quiet.has {h h' : Heap F} (q : Quiet h h') {d : DF} {k : Kind} {c : GoStr} :
    ((abs h' d).col k c).isSome = ((abs h d).col k c).isSome := by simp [abs, q.tab]

/-- Several columns, one after the other. -/
theorem updCols_spec [GoFloat F] {df : DF} (f : GoStr → F → Option F) (cs : List GoStr) {h : Heap F} (wf : df.WF h)
    (hc : ∀ c ∈ cs, ((abs h df).col .float c).isSome) :
    ∃ h', cs.foldlM (fun h c => df.updFloatCol c (f c) h) h = .ok h' ∧ Quiet h h' ∧
      ∀ x, h'.at x = (h.at x).map (fun v => cs.foldl (fun v c => (updVal (f c))^[(fcolLocs h df c).count x] v) v) := by
  induction cs generalizing h with
  | nil => exact ⟨h, rfl, Quiet.refl h, fun x => by simp⟩
  | cons c cs ih =>
    obtain ⟨h1, e1, q1, a1⟩ := updFloatCol_spec wf (hc c (by simp)) (f c)
    obtain ⟨h2, e2, q2, a2⟩ := ih (q1.wf wf) (fun d hd => by rw [q1.has]; exact hc d (by simp [hd]))
    refine ⟨h2, ?_, q1.trans q2, ?_⟩
    · rw [List.foldlM_cons, e1]; exact e2
    · intro x
      rw [a2, a1, Option.map_map]
      congr 1
      funext v
      simp only [Function.comp, List.foldl_cons]
      simp only [q1.fcolLocs]

theorem mem_fcolLocs {df : DF} {h : Heap F} (wf : df.WF h) {c : GoStr} {x : Nat × Nat} :
    x ∈ fcolLocs h df c ↔ ∃ i : Nat, cellOf h df .float c i = some x := by
  obtain ⟨N, h1, h2, _⟩ := wf.rect
  simp only [fcolLocs, cellOf, locs]
  cases hs : AMap.get (h.tab df.tab) (.float, c) with
  | none => simp
  | some s =>
    simp only [sliceLocs, List.mem_map, Option.map_some, Option.bind_some, List.getElem?_map]
    constructor
    · rintro ⟨r, hr, rfl⟩
      obtain ⟨i, hi⟩ := List.getElem?_of_mem hr
      exact ⟨i, by rw [hi]; simp [h1 _ _ hs, h2 r hr]⟩
    · rintro ⟨i, hi⟩
      cases hr : df.rows[i]? with
      | none => rw [hr] at hi; simp at hi
      | some r =>
        rw [hr] at hi
        have hm := List.mem_of_getElem? hr
        simp [h1 _ _ hs, h2 r hm] at hi
        exact ⟨r, hm, hi⟩

/-- Iterating changes nothing when the count is zero for every column. -/
theorem foldl_miss [GoFloat F] (f : GoStr → F → Option F) (n : GoStr → Nat) (cs : List GoStr) (hn : ∀ c ∈ cs, n c = 0)
    (v : Val F) : cs.foldl (fun v c => (updVal (f c))^[n c] v) v = v := by
  induction cs generalizing v with
  | nil => rfl
  | cons c cs ih =>
    simp only [List.foldl_cons]
    rw [hn c (by simp)]
    exact ih (fun d hd => hn d (by simp [hd])) v

theorem foldl_hit [GoFloat F] (f : GoStr → F → Option F) (n : GoStr → Nat) (cs : List GoStr) (nd : cs.Nodup) {c : GoStr}
    (hc : c ∈ cs) (hn : ∀ d ∈ cs, d ≠ c → n d = 0) (v : Val F) :
    cs.foldl (fun v c => (updVal (f c))^[n c] v) v = (updVal (f c))^[n c] v := by
  induction cs generalizing v with
  | nil => cases hc
  | cons d cs ih =>
    simp only [List.foldl_cons]
    have nd' := List.nodup_cons.1 nd
    by_cases hd : d = c
    · subst hd
      exact foldl_miss f n cs (fun e he => hn e (by simp [he]) (fun h => nd'.1 (h ▸ he))) _
    · rw [hn d (by simp) hd]
      exact ih nd'.2 (by simp at hc; rcases hc with rfl | hc
                         · exact absurd rfl hd
                         · exact hc) (fun e he => hn e (by simp [he])) v

/-- From the cells to the observers. -/
theorem transformed_of_at [GoFloat F] {h h' : Heap F} {df : DF} (wf : df.WF h) {cols : List GoStr} {g : GoStr → F → F}
    (q : Quiet h h')
    (hit : ∀ c ∈ cols, ∀ x ∈ fcolLocs h df c, ∀ y, h.at x = some (.float y) → h'.at x = some (.float (g c y)))
    (miss : ∀ x, (∀ c ∈ cols, x ∉ fcolLocs h df c) → h'.at x = h.at x) : Transformed h h' df cols g := by
  refine ⟨fun d => q.locs d, fun d wd => q.wf wd, ?_, ?_⟩
  · intro c hc i l hl d k c' j x hdl hx
    obtain ⟨l', h1, h2⟩ := (get_of_cellOf k c' j _).1 hx
    rw [hdl] at h1; cases h1
    exact (get_of_cellOf k c' j _).2 ⟨l, by rw [q.cellOf]; exact hdl, hit c hc l ((mem_fcolLocs wf).2 ⟨i, hl⟩) x h2⟩
  · intro d k c' j hno
    rw [get_eq_cellOf, get_eq_cellOf (h := h), q.cellOf]
    cases hd : cellOf h d k c' j with
    | none => rfl
    | some l =>
      simp only [Option.bind_some]
      rw [miss l]
      intro c hc hm
      obtain ⟨i, hi⟩ := (mem_fcolLocs wf).1 hm
      exact hno c hc i l hi hd

/-- Distinct rows have distinct cells. -/
theorem count_fcolLocs {df : DF} {h : Heap F} (nd : df.rows.Nodup) {c : GoStr} {x : Nat × Nat} (hx : x ∈ fcolLocs h df c) :
    (fcolLocs h df c).count x = 1 := by
  unfold fcolLocs at hx ⊢
  cases hs : AMap.get (h.tab df.tab) (.float, c) with
  | none => rw [hs] at hx; cases hx
  | some s =>
    rw [hs] at hx
    simp only at hx ⊢
    have : (sliceLocs s df.rows).Nodup := by
      unfold sliceLocs
      refine List.Nodup.map ?_ nd
      intro a b hab
      simp at hab; exact hab
    have h1 := List.nodup_iff_count.1 this x
    have h2 := List.count_pos_iff.2 hx
    omega

theorem unaliased_count {df : DF} {h : Heap F} (wf : df.WF h) {cols : List GoStr} (hu : Unaliased h df cols) {c c' : GoStr}
    (hc : c ∈ cols) (hc' : c' ∈ cols) (hne : c' ≠ c) {x : Nat × Nat} (hx : x ∈ fcolLocs h df c) :
    (fcolLocs h df c').count x = 0 := by
  refine List.count_eq_zero.2 fun hx' => ?_
  obtain ⟨i, hi⟩ := (mem_fcolLocs wf).1 hx
  obtain ⟨j, hj⟩ := (mem_fcolLocs wf).1 hx'
  exact hu c hc c' hc' (fun h => hne h.symm) i j x hi hj

/-- Transforming columns: every row once. -/
theorem updCols_once [GoFloat F] {df : DF} (g : GoStr → F → F) (cs : List GoStr) (nd : cs.Nodup) {h : Heap F} (wf : df.WF h)
    (hc : ∀ c ∈ cs, ((abs h df).col .float c).isSome) (hr : df.rows.Nodup) (hu : Unaliased h df cs) :
    ∃ h', cs.foldlM (fun h c => df.updFloatCol c (fun x => some (g c x)) h) h = .ok h' ∧ Quiet h h' ∧
      Transformed h h' df cs g := by
  obtain ⟨h', e, q, a⟩ := updCols_spec (fun c x => some (g c x)) cs wf hc
  refine ⟨h', e, q, transformed_of_at wf q ?_ ?_⟩
  · intro c hcc x hx y hy
    rw [a, hy, Option.map_some, foldl_hit _ (fun c => (fcolLocs h df c).count x) cs nd hcc
      (fun d hd hne => unaliased_count wf hu hcc hd hne hx)]
    simp [count_fcolLocs hr hx, updVal, asFloat]
  · intro x hx
    rw [a]
    cases h.at x with
    | none => rfl
    | some v =>
      rw [Option.map_some, foldl_miss _ (fun c => (fcolLocs h df c).count x) cs (fun c hcc => List.count_eq_zero.2 (hx c hcc))]

/-- Transforming columns with an idempotent function: repeated rows do not matter. -/
theorem updCols_idem [GoFloat F] {df : DF} (f : GoStr → F → Option F) (g : GoStr → F → F) (cs : List GoStr) (nd : cs.Nodup)
    (hfg : ∀ c x, updVal (f c) (.float x) = .float (g c x)) (hid : ∀ c x, g c (g c x) = g c x) {h : Heap F} (wf : df.WF h)
    (hc : ∀ c ∈ cs, ((abs h df).col .float c).isSome) (hu : Unaliased h df cs) :
    ∃ h', cs.foldlM (fun h c => df.updFloatCol c (f c) h) h = .ok h' ∧ Quiet h h' ∧
      Transformed h h' df cs g := by
  obtain ⟨h', e, q, a⟩ := updCols_spec f cs wf hc
  have iter : ∀ c n x, (updVal (f c))^[n + 1] (.float x) = .float (g c x) := by
    intro c n x
    induction n with
    | zero => exact hfg c x
    | succ n ih => rw [Function.iterate_succ_apply', ih, hfg, hid]
  refine ⟨h', e, q, transformed_of_at wf q ?_ ?_⟩
  · intro c hcc x hx y hy
    rw [a, hy, Option.map_some, foldl_hit _ (fun c => (fcolLocs h df c).count x) cs nd hcc
      (fun d hd hne => unaliased_count wf hu hcc hd hne hx)]
    have := List.count_pos_iff.2 hx
    obtain ⟨n, hn⟩ : ∃ n, (fcolLocs h df c).count x = n + 1 := ⟨_, (Nat.succ_pred_eq_of_pos this).symm⟩
    rw [hn, iter]
  · intro x hx
    rw [a]
    cases h.at x with
    | none => rfl
    | some v =>
      rw [Option.map_some, foldl_miss _ (fun c => (fcolLocs h df c).count x) cs (fun c hcc => List.count_eq_zero.2 (hx c hcc))]

end Verif
