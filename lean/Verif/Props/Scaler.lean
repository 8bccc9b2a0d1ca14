import Verif.Proofs.Scaler

/-! C41 and C60 for the scaler, for any float semantics. -/

namespace Verif
variable {F : Type}

/-- How many rows of `df` show the memory cell `l` in the float column `c`. -/
def timesShown (h : Heap F) (df : DF) (c : GoStr) (l : Nat × Nat) : Nat :=
  (((locs h df).col .float c).getD []).count (some l)

/-- `f` applied `n` times. -/
def times (n : Nat) (f : F → F) (x : F) : F :=
  match n with
  | 0 => x
  | n + 1 => f (times n f x)

theorem iterate_updVal [GoFloat F] (g : F → F) (n : Nat) (x : F) :
    (updVal (fun x => some (g x)))^[n] (.float x) = .float (times n g x) := by
  induction n with
  | zero => rfl
  | succ n ih => rw [Function.iterate_succ_apply', ih]; rfl

theorem timesShown_eq {h : Heap F} {df : DF} (wf : df.WF h) (c : GoStr) (l : Nat × Nat) :
    timesShown h df c l = (fcolLocs h df c).count l := by
  obtain ⟨N, h1, h2, _⟩ := wf.rect
  unfold timesShown fcolLocs locs
  cases hs : AMap.get (h.tab df.tab) (.float, c) with
  | none => simp [hs]
  | some s =>
    simp only [hs, Option.map_some, Option.getD_some, sliceLocs]
    have hle : ∀ i ∈ df.rows, i < s.len := fun i hi => by rw [h1 _ _ hs]; exact h2 i hi
    generalize df.rows = rows at hle
    induction rows with
    | nil => rfl
    | cons r rows ih =>
      simp only [List.map_cons, List.count_cons]
      rw [ih (fun i hi => hle i (by simp [hi])), if_pos (hle r (by simp))]
      simp

section
variable [GoFloat F] {df : DF} {h : Heap F} {sc : Scaler F}

/-- C41: the exact effect of `TransformInplace` on the memory, in every view: a cell shown `n` times by a
transformed column gets `x ↦ (x + shift) * scale` applied `n` times; all other cells keep their value. So the
value is transformed "exactly once" only if no row is repeated. -/
theorem C41_transform_repeated (wf : df.WF h) (nd : sc.transformedColumns.Nodup)
    (hc : ∀ c ∈ sc.transformedColumns, ((abs h df).col .float c).isSome) (hu : Unaliased h df sc.transformedColumns)
    (hw : sc.transformedColumns = [] ∨ 0 < df.maxCPU) (hemp : [] ∉ sc.transformedColumns) {order : List GoStr}
    (hp : order.Perm sc.transformedColumns) :
    ∃ h', sc.transformInplace df order h = .ok h' ∧ (∀ d : DF, locs h' d = locs h d) ∧
      (∀ c ∈ sc.transformedColumns, ∀ (i : Nat) l, cellOf h df .float c i = some l →
        ∀ (d : DF) k c' (j : Nat) x, cellOf h d k c' j = some l → d.get h k c' j = .ok (.float x) →
          d.get h' k c' j = .ok (.float (times (timesShown h df c l) (scaleVal sc c) x))) ∧
      (∀ (d : DF) k c' (j : Nat), (∀ c ∈ sc.transformedColumns, ∀ i : Nat, ∀ l, cellOf h df .float c i = some l →
          cellOf h d k c' j ≠ some l) → d.get h' k c' j = d.get h k c' j) := by
  rw [scaler_run hw hemp hp]
  obtain ⟨h', e, q, a⟩ := updCols_spec (fun c x => some (scaleVal sc c x)) order wf (fun c hcc => hc c (hp.mem_iff.1 hcc))
  refine ⟨h', e, fun d => q.locs d, ?_, ?_⟩
  · intro c hcc i l hl d k c' j x hd hx
    obtain ⟨l', h1, h2⟩ := (get_of_cellOf k c' j _).1 hx
    rw [hd] at h1; cases h1
    refine (get_of_cellOf k c' j _).2 ⟨l, by rw [q.cellOf]; exact hd, ?_⟩
    have hm := (mem_fcolLocs wf).2 ⟨i, hl⟩
    rw [a, h2, Option.map_some, foldl_hit _ (fun c => (fcolLocs h df c).count l) order ((hp.nodup_iff).2 nd) (hp.mem_iff.2 hcc)
      (fun d hd hne => unaliased_count wf hu hcc (hp.mem_iff.1 hd) hne hm), iterate_updVal, timesShown_eq wf]
  · intro d k c' j hno
    rw [get_eq_cellOf, get_eq_cellOf (h := h), q.cellOf]
    cases hd : cellOf h d k c' j with
    | none => rfl
    | some l =>
      simp only [Option.bind_some]
      rw [a]
      cases h.at l with
      | none => rfl
      | some v =>
        rw [Option.map_some, foldl_miss _ (fun c => (fcolLocs h df c).count l) order]
        intro c hcc
        refine List.count_eq_zero.2 fun hm => ?_
        obtain ⟨i, hi⟩ := (mem_fcolLocs wf).1 hm
        exact hno c (hp.mem_iff.1 hcc) i l hi hd

/-- C41: when no row is repeated, `TransformInplace` maps each visible value `x` of a transformed column to
`(x + shift) * scale` exactly once, and touches nothing else. -/
theorem C41_transform (wf : df.WF h) (nd : sc.transformedColumns.Nodup)
    (hc : ∀ c ∈ sc.transformedColumns, ((abs h df).col .float c).isSome) (hr : df.rows.Nodup)
    (hu : Unaliased h df sc.transformedColumns) (hw : sc.transformedColumns = [] ∨ 0 < df.maxCPU)
    (hemp : [] ∉ sc.transformedColumns) {order : List GoStr} (hp : order.Perm sc.transformedColumns) :
    ∃ h', sc.transformInplace df order h = .ok h' ∧ Transformed h h' df sc.transformedColumns (fun c x =>
      GoFloat.mul (GoFloat.add x ((AMap.get sc.shift c).getD GoFloat.zero)) ((AMap.get sc.scale c).getD GoFloat.one)) := by
  rw [scaler_run hw hemp hp]
  obtain ⟨h', e, q, tr⟩ := updCols_once (scaleVal sc) order ((hp.nodup_iff).2 nd) wf (fun c hcc => hc c (hp.mem_iff.1 hcc)) hr
    (fun c h1 c' h2 => hu c (hp.mem_iff.1 h1) c' (hp.mem_iff.1 h2))
  exact ⟨h', e, tr.shape, tr.wf, fun c hcc => tr.hit c (hp.mem_iff.2 hcc),
    fun d k c' j hno => tr.miss d k c' j (fun c hcc => hno c (hp.mem_iff.1 hcc))⟩

/-- C41: `Fit` learns parameters for every float column, and only for them (no float column is transformed when
no option is set). -/
theorem C41_fit_columns {vals : GoStr → List F} (hv : FloatCols (abs h df) vals)
    (hw : (∀ c, (abs h df).col .float c = none) ∨ 0 < df.maxCPU) (hemp : (abs h df).col .float [] = none) {order : List GoStr}
    (hp : order.Perm (namesOf (h.tab df.tab) .float)) :
    ∃ sc', sc.fit df order h = .ok sc' ∧ sc'.transformedColumns.Nodup ∧
      ∀ c, c ∈ sc'.transformedColumns ↔
        ((abs h df).col .float c).isSome ∧ (sc.options.minMax ∨ sc.options.centering ∨ sc.options.scaling) := by
  obtain ⟨sc', e, _, n1, n2, g1, g2⟩ := scaler_fit (sc := sc) hv hw hemp hp
  refine ⟨sc', e, ?_, ?_⟩
  · unfold Scaler.transformedColumns; split <;> assumption
  · intro c
    unfold Scaler.transformedColumns
    split
    · rename_i hl
      rw [← AMap.get_isSome_iff, g1]
      -- some column has a shift, so the options give one
      obtain ⟨e0, h0⟩ : ∃ e0, e0 ∈ sc'.shift := List.exists_mem_of_length_pos hl
      have h1 := AMap.get_of_mem n1 (k := e0.1) (v := e0.2) h0
      rw [g1] at h1
      have h2 : ∀ vals : List F, (scalerFitCol sc.options vals).1.isSome = (sc.options.minMax || sc.options.centering) := by
        intro vals
        unfold scalerFitCol
        cases sc.options.minMax <;> cases sc.options.scaling <;> cases sc.options.centering <;> rfl
      have h3 : sc.options.minMax || sc.options.centering := by
        split at h1
        · have := h2 (vals e0.1); rw [h1] at this; simpa using this.symm
        · cases h1
      split
      · rw [h2]; simp only [h3, true_iff]; rename_i hh; refine ⟨hh, ?_⟩
        rw [Bool.or_eq_true] at h3; rcases h3 with h3 | h3 <;> simp [h3]
      · simp_all
    · rename_i hl
      have h0 : sc'.shift = [] := List.length_eq_zero_iff.1 (by omega)
      rw [← AMap.get_isSome_iff, g2]
      have h1 := g1 c
      rw [h0, AMap.get_nil] at h1
      split
      · rename_i hh
        rw [if_pos hh] at h1
        simp only [hh, true_and]
        unfold scalerFitCol at h1 ⊢
        cases h4 : sc.options.minMax <;> cases h5 : sc.options.scaling <;> cases h6 : sc.options.centering <;>
          simp [h4, h5, h6] at h1 ⊢
        split <;> rfl
      · rename_i hh; simp [hh]

/-- C60 for the scaler: two dataframes, in whatever memory, that show the same float columns teach the scaler the
same parameters, whatever their hidden rows and other columns. -/
theorem C60_scaler {df₂ : DF} {h₂ : Heap F} {vals : GoStr → List F}
    (hsame : ∀ c, (abs h df).col .float c = (abs h₂ df₂).col .float c) (hv : FloatCols (abs h df) vals)
    (hcpu : 0 < df.maxCPU) (hcpu₂ : 0 < df₂.maxCPU) (hemp : (abs h df).col .float [] = none) {order order₂ : List GoStr}
    (hp : order.Perm (namesOf (h.tab df.tab) .float)) (hp₂ : order₂.Perm (namesOf (h₂.tab df₂.tab) .float)) :
    ∃ a b, sc.fit df order h = .ok a ∧ sc.fit df₂ order₂ h₂ = .ok b ∧
      (∀ c, AMap.get a.shift c = AMap.get b.shift c) ∧ (∀ c, AMap.get a.scale c = AMap.get b.scale c) ∧
      ∀ c, c ∈ a.transformedColumns ↔ c ∈ b.transformedColumns := by
  have hv₂ : FloatCols (abs h₂ df₂) vals := fun c hc => by
    rw [← hsame] at hc; have := hv c hc; unfold ADF.floats at this ⊢; rwa [← hsame]
  have hemp₂ : (abs h₂ df₂).col .float [] = none := by rw [← hsame]; exact hemp
  obtain ⟨a, ea, _, _, _, ga, ga'⟩ := scaler_fit (sc := sc) hv (Or.inr hcpu) hemp hp
  obtain ⟨b, eb, _, _, _, gb, gb'⟩ := scaler_fit (sc := sc) hv₂ (Or.inr hcpu₂) hemp₂ hp₂
  obtain ⟨a', ea', _, ca⟩ := C41_fit_columns (sc := sc) hv (Or.inr hcpu) hemp hp
  obtain ⟨b', eb', _, cb⟩ := C41_fit_columns (sc := sc) hv₂ (Or.inr hcpu₂) hemp₂ hp₂
  rw [ea] at ea'; cases ea'
  rw [eb] at eb'; cases eb'
  exact ⟨a, b, ea, eb, fun c => by rw [ga, gb, hsame], fun c => by rw [ga', gb', hsame], fun c => by rw [ca, cb, hsame]⟩

end
end Verif
