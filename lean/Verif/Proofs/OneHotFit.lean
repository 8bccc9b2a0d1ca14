import Verif.Proofs.OneHot

/-! `OneHotEncoder.Fit` on a whole dataframe. -/

namespace Verif
variable {F : Type}

theorem intVals_of_ints {df : DF} {h : Heap F} {c : GoStr} {vals : List Int}
    (hv : (abs h df).col .int c = some (vals.map fun v => some (.int v))) : df.intVals h c = .ok vals := by
  simp only [abs] at hv
  unfold DF.intVals
  cases hs : AMap.get (h.tab df.tab) (.int, c) with
  | none => rw [hs] at hv; cases hv
  | some s =>
    rw [hs] at hv
    simp only [Option.map_some, Option.some.injEq] at hv
    have : ∀ (rows : List Nat) (vals : List Int), rows.map (h.cell s) = vals.map (fun v => some (.int v)) →
        gather h s rows = .ok (vals.map .int) := by
      intro rows
      induction rows with
      | nil => intro vals hv; cases vals with
        | nil => rfl
        | cons => simp at hv
      | cons r rows ih =>
        intro vals hv
        cases vals with
        | nil => simp at hv
        | cons v vals =>
          simp only [List.map_cons, List.cons.injEq] at hv
          simp only [gather, hv.1, ih vals hv.2, List.map_cons]
    simp only [this _ _ hv, List.map_map, Function.comp_def, asInt]
    simp

theorem mem_namesOf_int {h : Heap F} {df : DF} {k : Kind} {c : GoStr} :
    c ∈ namesOf (h.tab df.tab) k ↔ ((abs h df).col k c).isSome := by
  rw [show ((abs h df).col k c).isSome = (AMap.get (h.tab df.tab) (k, c)).isSome from by simp [abs],
    AMap.get_isSome_iff]
  simp only [namesOf, AMap.keys, List.mem_map, List.mem_filter]
  constructor
  · rintro ⟨x, ⟨h1, h2⟩, rfl⟩
    refine ⟨x, h1, ?_⟩
    simp at h2
    exact Prod.ext h2 rfl
  · rintro ⟨x, h1, h2⟩
    exact ⟨x, ⟨h1, by simp [h2]⟩, by rw [h2]⟩

theorem nodup_namesOf_kind {t : Table} (nd : (AMap.keys t).Nodup) (k : Kind) : (namesOf t k).Nodup := by
  unfold namesOf
  have h1 : ((t.filter (fun e => decide (e.1.1 = k))).map (·.1)).Nodup :=
    nd.sublist (List.Sublist.map _ List.filter_sublist)
  have : ((t.filter (fun e => decide (e.1.1 = k))).map (·.1.2)) =
      ((t.filter (fun e => decide (e.1.1 = k))).map (·.1)).map (·.2) := by rw [List.map_map]; rfl
  rw [this]
  refine List.Nodup.map_on ?_ h1
  intro x hx y hy e
  simp only [List.mem_map, List.mem_filter, decide_eq_true_eq] at hx hy
  obtain ⟨a, ⟨_, ha⟩, rfl⟩ := hx
  obtain ⟨b, ⟨_, hb⟩, rfl⟩ := hy
  exact Prod.ext (ha.trans hb.symm) e

/-- The two maps, filled key by key. -/
theorem maps_fold {α β : Type} (v : GoStr → α) (w : GoStr → β) (l : List GoStr) (m : AMap GoStr α × AMap GoStr β) :
    l.foldl (fun m c => (AMap.set m.1 c (v c), AMap.set m.2 c (w c))) m =
      (l.foldl (fun m c => AMap.set m c (v c)) m.1, l.foldl (fun m c => AMap.set m c (w c)) m.2) := by
  induction l generalizing m with
  | nil => rfl
  | cons c l ih => simp only [List.foldl_cons]; rw [ih]

/-- A fitted encoder, given the training values. -/
structure Fitted (o : OneHotOptions) (sch : OneHotSched) (cols : List GoStr) (vals : GoStr → List Int) (enc : OneHotEncoder) : Prop where
  options : enc.options = o
  catCols : enc.catCols = cols
  cats : ∀ c ∈ cols, AMap.get enc.categories c = some (oneHotFitCol o sch c (vals c)).1
  fb : ∀ c ∈ cols, AMap.get enc.fallback c = some (oneHotFitCol o sch c (vals c)).2
  nodup : enc.newCols.Nodup
  news : ∀ n, n ∈ enc.newCols ↔ ∃ c ∈ cols, (∃ v, AMap.get (oneHotFitCol o sch c (vals c)).1 v = some n) ∨
    (n ≠ [] ∧ (n = (oneHotFitCol o sch c (vals c)).2.1 ∨ n = (oneHotFitCol o sch c (vals c)).2.2))

theorem numberCats_nodup (col : GoStr) (i : Nat) (vs : List Int) (m : AMap Int GoStr) (nd : (AMap.keys m).Nodup) :
    (AMap.keys (numberCats col i vs m)).Nodup := by
  induction vs generalizing i m with
  | nil => exact nd
  | cons v vs ih => exact ih _ _ (AMap.nodup_set nd _ _)

theorem mem_iff_get {κ α : Type} [DecidableEq κ] {m : AMap κ α} (nd : (AMap.keys m).Nodup) {k : κ} {x : α} :
    (k, x) ∈ m ↔ AMap.get m k = some x :=
  ⟨fun h => AMap.get_of_mem nd h, fun h => AMap.mem_of_get h⟩

section
variable {df : DF} {h : Heap F} {enc : OneHotEncoder} {sch : OneHotSched} {vals : GoStr → List Int}

theorem fit_run (hv : IntCols (abs h df) vals) (hw : (∀ c, (abs h df).col .int c = none) ∨ 0 < df.maxCPU)
    (hemp : (abs h df).col .int [] = none) :
    ∃ m : OneHotMaps, runQueue (namesOf (h.tab df.tab) .int) (sch.jobs (namesOf (h.tab df.tab) .int)) df.maxCPU
        (oneHotFitJob enc.options sch df h) (oneHotInit (namesOf (h.tab df.tab) .int)) = .ok m ∧
      (AMap.keys m.1).Nodup ∧ (AMap.keys m.2).Nodup ∧
      (∀ c, AMap.get m.1 c = if c ∈ namesOf (h.tab df.tab) .int then some (oneHotFitCol enc.options sch c (vals c)).1 else none) ∧
      (∀ c, AMap.get m.2 c = if c ∈ namesOf (h.tab df.tab) .int then some (oneHotFitCol enc.options sch c (vals c)).2 else none) := by
  have hrun := runQueue_ok (σ := OneHotMaps) (keys := namesOf (h.tab df.tab) .int)
    (order := sch.jobs (namesOf (h.tab df.tab) .int)) (mw := df.maxCPU) (job := oneHotFitJob enc.options sch df h)
    (g := fun m c => (AMap.set m.1 c (oneHotFitCol enc.options sch c (vals c)).1,
      AMap.set m.2 c (oneHotFitCol enc.options sch c (vals c)).2))
    (hw.imp (fun hno => List.eq_nil_iff_forall_not_mem.2 fun c hc => by
      have := mem_namesOf_int.1 hc; rw [hno c] at this; cases this) id)
    (fun hc => by have := mem_namesOf_int.1 hc; rw [hemp] at this; cases this)
    (sch.jobs_perm _)
    (fun c hc s => by simp only [oneHotFitJob, intVals_of_ints (hv c (mem_namesOf_int.1 hc))])
    (oneHotInit (namesOf (h.tab df.tab) .int))
  refine ⟨_, hrun, ?_⟩
  rw [maps_fold (fun c => (oneHotFitCol enc.options sch c (vals c)).1) (fun c => (oneHotFitCol enc.options sch c (vals c)).2)]
  unfold oneHotInit
  rw [maps_fold (fun _ => ([] : AMap Int GoStr)) (fun _ => (([], []) : GoStr × GoStr))]
  refine ⟨nodup_foldl_set _ _ _ (nodup_foldl_set _ _ _ List.nodup_nil), nodup_foldl_set _ _ _ (nodup_foldl_set _ _ _ List.nodup_nil), ?_, ?_⟩
  · intro c
    simp only [get_foldl_set (fun c => (oneHotFitCol enc.options sch c (vals c)).1), get_foldl_set (fun _ => ([] : AMap Int GoStr)),
      (sch.jobs_perm _).mem_iff, AMap.get_nil]
    split <;> rfl
  · intro c
    simp only [get_foldl_set (fun c => (oneHotFitCol enc.options sch c (vals c)).2), get_foldl_set (fun _ => (([], []) : GoStr × GoStr)),
      (sch.jobs_perm _).mem_iff, AMap.get_nil]
    split <;> rfl

theorem oneHot_fit (hv : IntCols (abs h df) vals) (hw : (∀ c, (abs h df).col .int c = none) ∨ 0 < df.maxCPU)
    (hemp : (abs h df).col .int [] = none) (hf : ∀ c, ((abs h df).col .int c).isSome → CanFit enc.options (vals c)) :
    ∃ enc', enc.fit sch df h = .ok enc' ∧ Fitted enc.options sch (namesOf (h.tab df.tab) .int) vals enc' := by
  obtain ⟨m, e, n1, n2, g1, g2⟩ := fit_run (enc := enc) (sch := sch) hv hw hemp
  have hany : m.2.any (fun e => fallbackMissing enc.options e.2) = false := by
    rw [List.any_eq_false]
    rintro ⟨c, fb⟩ hm
    have := (mem_iff_get n2).1 hm
    rw [g2] at this
    split at this
    · rename_i hc
      cases this
      simpa using fallback_ok (hf c (mem_namesOf_int.1 hc))
    · cases this
  refine ⟨_, by simp only [OneHotEncoder.fit, e, hany]; rfl, ?_⟩
  refine ⟨rfl, rfl, ?_, ?_, ?_, ?_⟩
  · intro c hc; rw [g1, if_pos hc]
  · intro c hc; rw [g2, if_pos hc]
  · exact (sch.news_perm _).nodup_iff.2 (List.nodup_dedup _)
  · intro n
    simp only [(sch.news_perm _).mem_iff, newColumnNames, List.mem_dedup, List.mem_append, List.mem_flatMap, List.mem_map]
    constructor
    · rintro (⟨⟨c, cs⟩, hm, ⟨v, x⟩, hx, rfl⟩ | ⟨⟨c, fb⟩, hm, hx⟩)
      · have := (mem_iff_get n1).1 hm
        rw [g1] at this
        split at this
        · rename_i hc
          cases this
          refine ⟨c, hc, Or.inl ⟨v, ?_⟩⟩
          refine AMap.get_of_mem ?_ hx
          simp only [oneHotFitCol]
          exact numberCats_nodup _ _ _ _ List.nodup_nil
        · cases this
      · have := (mem_iff_get n2).1 hm
        rw [g2] at this
        split at this
        · rename_i hc
          cases this
          simp only [List.mem_filter, List.mem_cons, List.not_mem_nil, or_false, decide_eq_true_eq] at hx
          exact ⟨c, hc, Or.inr ⟨hx.2, hx.1⟩⟩
        · cases this
    · rintro ⟨c, hc, ⟨v, hx⟩ | ⟨hx, hy⟩⟩
      · refine Or.inl ⟨(c, _), (mem_iff_get n1).2 (by rw [g1, if_pos hc]), (v, n), ?_, rfl⟩
        exact AMap.mem_of_get hx
      · refine Or.inr ⟨(c, _), (mem_iff_get n2).2 (by rw [g2, if_pos hc]), ?_⟩
        simp only [List.mem_filter, List.mem_cons, List.not_mem_nil, or_false, decide_eq_true_eq]
        exact ⟨hy, hx⟩

theorem oneHot_fit_panics (hv : IntCols (abs h df) vals) (hw : 0 < df.maxCPU)
    (hemp : (abs h df).col .int [] = none) (hf : ∃ c, ((abs h df).col .int c).isSome ∧ ¬ CanFit enc.options (vals c)) :
    enc.fit sch df h = .error .panic := by
  obtain ⟨m, e, n1, n2, g1, g2⟩ := fit_run (enc := enc) (sch := sch) hv (Or.inr hw) hemp
  obtain ⟨c, hc, hb⟩ := hf
  have hany : m.2.any (fun e => fallbackMissing enc.options e.2) = true := by
    rw [List.any_eq_true]
    exact ⟨(c, _), (mem_iff_get n2).2 (by rw [g2, if_pos (mem_namesOf_int.2 hc)]), fallback_bad hb⟩
  simp only [OneHotEncoder.fit, e, hany, if_true]

end

/-- The code of a fitted encoder. -/
theorem Fitted.target {o : OneHotOptions} {sch : OneHotSched} {cols : List GoStr} {vals : GoStr → List Int} {enc : OneHotEncoder}
    (ft : Fitted o sch cols vals enc) {c : GoStr} (hc : c ∈ cols) :
    enc.target c = codeOf o (oneHotFitCol o sch c (vals c)) := by
  funext v
  simp only [OneHotEncoder.target, codeOf, ft.cats c hc, ft.fb c hc, ft.options, Option.getD_some]
  rfl

end Verif
