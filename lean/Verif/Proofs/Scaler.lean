import Verif.Props.Imputer

/-! The scaler, for any float semantics. -/

namespace Verif
variable {F : Type}

section
variable [GoFloat F] {df : DF} {h : Heap F} {sc : Scaler F}

/-- What `Fit` stores. -/
theorem scaler_fit {vals : GoStr → List F} (hv : FloatCols (abs h df) vals)
    (hw : (∀ c, (abs h df).col .float c = none) ∨ 0 < df.maxCPU) (hemp : (abs h df).col .float [] = none) {order : List GoStr}
    (hp : order.Perm (namesOf (h.tab df.tab) .float)) :
    ∃ sc', sc.fit df order h = .ok sc' ∧ sc'.options = sc.options ∧ (AMap.keys sc'.shift).Nodup ∧ (AMap.keys sc'.scale).Nodup ∧
      (∀ c, AMap.get sc'.shift c = if ((abs h df).col .float c).isSome then (scalerFitCol sc.options (vals c)).1 else none) ∧
      (∀ c, AMap.get sc'.scale c = if ((abs h df).col .float c).isSome then (scalerFitCol sc.options (vals c)).2 else none) := by
  have hrun := runQueue_ok (σ := AMap GoStr F × AMap GoStr F) (keys := namesOf (h.tab df.tab) .float) (order := order)
    (mw := df.maxCPU) (job := scalerJob sc.options df h)
    (g := fun m c => (setOpt m.1 c (scalerFitCol sc.options (vals c)).1, setOpt m.2 c (scalerFitCol sc.options (vals c)).2))
    (by rcases hw with hw | hw
        · left
          refine List.eq_nil_iff_forall_not_mem.2 fun c hc => ?_
          have := mem_namesOf_iff.1 hc
          rw [hw] at this; simp at this
        · exact Or.inr hw)
    (by rw [mem_namesOf_iff, hemp]; simp) hp
    (by intro c hc s
        simp only [scalerJob, floatVals_of_floats (hv c (mem_namesOf_iff.1 hc))]) ([], [])
  have hfold : ∀ (l : List GoStr) (m : AMap GoStr F × AMap GoStr F),
      l.foldl (fun m c => (setOpt m.1 c (scalerFitCol sc.options (vals c)).1, setOpt m.2 c (scalerFitCol sc.options (vals c)).2)) m
      = (l.foldl (fun m c => setOpt m c (scalerFitCol sc.options (vals c)).1) m.1,
         l.foldl (fun m c => setOpt m c (scalerFitCol sc.options (vals c)).2) m.2) := by
    intro l
    induction l with
    | nil => intro m; rfl
    | cons c l ih => intro m; simp only [List.foldl_cons]; rw [ih]
  rw [hfold] at hrun
  refine ⟨⟨order.foldl (fun m c => setOpt m c (scalerFitCol sc.options (vals c)).1) [],
    order.foldl (fun m c => setOpt m c (scalerFitCol sc.options (vals c)).2) [], sc.options⟩,
    by simp only [Scaler.fit, hrun], rfl, ?_, ?_, ?_, ?_⟩
  · exact nodup_foldl_setOpt _ _ [] List.nodup_nil
  · exact nodup_foldl_setOpt _ _ [] List.nodup_nil
  · intro c
    rw [get_foldl_setOpt]
    simp only [hp.mem_iff, mem_namesOf_iff, AMap.get_nil, Option.or_none]
  · intro c
    rw [get_foldl_setOpt]
    simp only [hp.mem_iff, mem_namesOf_iff, AMap.get_nil, Option.or_none]


/-- `TransformInplace` runs all its columns (in some order). -/
theorem scaler_run (hw : sc.transformedColumns = [] ∨ 0 < df.maxCPU) (hemp : [] ∉ sc.transformedColumns) {order : List GoStr}
    (hp : order.Perm sc.transformedColumns) :
    sc.transformInplace df order h =
      order.foldlM (fun h c => df.updFloatCol c (fun x => some (scaleVal sc c x)) h) h := by
  unfold Scaler.transformInplace
  have hlen : ∀ m : AMap GoStr F, AMap.keys m = [] ↔ m = [] := by intro m; cases m <;> simp [AMap.keys]
  extract_lets m
  by_cases h0 : m.length = 0
  · rw [if_pos h0]
    have : sc.transformedColumns = [] := by
      unfold Scaler.transformedColumns
      by_cases h1 : sc.scale.length > sc.shift.length
      · simp only [m, if_pos h1] at h0; omega
      · simp only [m, if_neg h1] at h0
        rw [if_neg (by omega), hlen]
        exact List.length_eq_zero_iff.1 (by omega)
    rw [this] at hp
    rw [hp.eq_nil]; rfl
  · rw [if_neg h0]
    unfold runQueue
    split
    · rename_i hk
      rw [hk] at hp
      rw [hp.eq_nil]; rfl
    · rename_i hk
      rw [if_neg (by rintro (h1 | h1)
                     · rcases hw with h2 | h2
                       · exact hk h2
                       · omega
                     · exact hemp h1)]

end

theorem mapM_some_iff {α β : Type} (f : α → Option β) (l : List α) (ys : List β) :
    l.mapM f = some ys ↔ l.length = ys.length ∧ ∀ (i : Nat) x y, l[i]? = some x → ys[i]? = some y → f x = some y := by
  induction l generalizing ys with
  | nil =>
    simp only [List.mapM_nil, Option.pure_def, Option.some.injEq]
    constructor
    · rintro rfl; simp
    · rintro ⟨h, _⟩; exact (List.length_eq_zero_iff.1 h.symm).symm
  | cons a l ih =>
    rw [List.mapM_cons]
    simp only [Option.pure_def, Option.bind_eq_bind, Option.bind_eq_some_iff]
    constructor
    · rintro ⟨y, hy, ys', hys, e⟩
      cases e
      obtain ⟨h1, h2⟩ := (ih ys').1 hys
      refine ⟨by simp [h1], ?_⟩
      intro i x z hx hz
      cases i with
      | zero => simp at hx hz; subst hx; subst hz; exact hy
      | succ i => simp at hx hz; exact h2 i x z hx hz
    · rintro ⟨h1, h2⟩
      cases ys with
      | nil => simp at h1
      | cons y ys =>
        refine ⟨y, h2 0 a y rfl rfl, ys, (ih ys).2 ⟨by simpa using h1, fun i x z hx hz => h2 (i + 1) x z (by simpa) (by simpa)⟩, rfl⟩

/-- The numbers of a float column, through `Get`. -/
theorem floats_iff {h : Heap F} {df : DF} {c : GoStr} {vals : List F} :
    (abs h df).floats c = some vals ↔ ((abs h df).col .float c).isSome ∧ vals.length = df.numRows ∧
      ∀ (i : Nat) x, vals[i]? = some x → df.get h .float c i = .ok (.float x) := by
  unfold ADF.floats
  have hlen : ∀ l, (abs h df).col .float c = some l → l.length = df.numRows := by
    intro l hl
    simp only [abs, Option.map_eq_some_iff] at hl
    obtain ⟨s, _, rfl⟩ := hl
    simp [DF.numRows]
  cases hc : (abs h df).col .float c with
  | none => simp
  | some l =>
    simp only [Option.isSome_some, true_and]
    rw [mapM_some_iff, hlen l hc]
    have hget : ∀ (i : Nat) x, df.get h .float c i = .ok (.float x) ↔ l[i]? = some (some (.float x)) := by
      intro i x
      rw [get_of_cellOf]
      rw [abs_eq_locs] at hc
      simp only [ADF.bindCells, Option.map_eq_some_iff] at hc
      obtain ⟨ls, h1, rfl⟩ := hc
      simp only [cellOf, h1, Option.bind_some, List.getElem?_map]
      cases ls[i]? with
      | none => simp
      | some o => cases o <;> simp
    constructor
    · rintro ⟨h1, h2⟩
      refine ⟨h1.symm, ?_⟩
      intro i x hx
      rw [hget]
      have hi : i < l.length := by
        have := (List.getElem?_eq_some_iff.1 hx).1
        have := hlen l hc; omega
      have := h2 i l[i] x (List.getElem?_eq_getElem hi) hx
      rw [List.getElem?_eq_getElem hi]
      split at this
      · rename_i hy; rw [hy]; simp at this; rw [this]
      · cases this
    · rintro ⟨h1, h2⟩
      refine ⟨h1.symm, ?_⟩
      intro i x y hx hy
      have := (hget i y).1 (h2 i y hy)
      rw [hx] at this
      cases this
      rfl

theorem Transformed.floats [GoFloat F] {h h' : Heap F} {df : DF} {cols : List GoStr} {g : GoStr → F → F}
    (tr : Transformed h h' df cols g) {c : GoStr} (hc : c ∈ cols) {vals : List F} (hv : (abs h df).floats c = some vals) :
    (abs h' df).floats c = some (vals.map (g c)) := by
  rw [floats_iff] at hv ⊢
  obtain ⟨h1, h2, h3⟩ := hv
  refine ⟨?_, by simpa using h2, ?_⟩
  · have hs := congrArg (fun a => (a.col Kind.float c).isSome) (tr.shape df)
    simp only [abs, locs, Option.isSome_map] at hs h1 ⊢
    rw [hs]; exact h1
  · intro i y hy
    rw [List.getElem?_map] at hy
    cases hx : vals[i]? with
    | none => rw [hx] at hy; cases hy
    | some x =>
      rw [hx] at hy
      cases hy
      have hg := h3 i x hx
      obtain ⟨l, hl, _⟩ := (get_of_cellOf .float c i _).1 hg
      exact tr.hit c hc i l hl df .float c i x hl hg

end Verif
