import Verif.Props.RowViews
import Verif.Props.Sorting
import Verif.Props.Splits
import Verif.Props.Writes
import Verif.Props.ViewEdits
import Verif.Props.Copies
import Verif.Props.ColumnView
import Verif.Props.Exact
import Verif.Props.Float64
import Verif.Props.Float64Demo

/-! Concrete cases for the theorems of C01-C18: each `example` applies one of them to a dataframe built through the
builder (`Demo.df`: 4 rows, columns a (int), x (float), b (bool), s (string)), so its hypotheses are met there. -/

namespace Verif.Demo

/-- A view that repeats a row and changes the order. -/
def view3 : DF := match df.indexView [2, 0, 2] h with | .ok p => p.1 | .error _ => df
/-- The heap after making it. -/
def h3 : Heap Int := match df.indexView [2, 0, 2] h with | .ok p => p.2 | .error _ => h

theorem view3_eq : df.indexView [2, 0, 2] h = .ok (view3, h3) := by
  have : okAnd (df.indexView [2, 0, 2] h) (fun _ => true) = true := by decide
  obtain ⟨p, e, _⟩ := okAnd_iff.1 this
  unfold view3 h3
  rw [e]

theorem view3_row : RowView h df h3 view3 [2, 0, 2] := by
  obtain ⟨v, h', e, r⟩ := C01_indexView df_wf (is := [2, 0, 2]) (by decide)
  rw [view3_eq] at e
  cases e
  exact r

-- C01
example := C01_indexView_compose df_wf (a := [3, 1, 1]) (b := [2, 0]) (by decide) (by decide)
example : view3.get h3 .int b!"a" 2 = df.get h .int b!"a" 2 :=
  RowView.get_eq view3_row df_wf (by decide) .int b!"a" 2 (by decide)
-- C02
example := C02_maskView_eq_indexView df_wf (m := [true, false, true]) (by decide)
example : df.maskView [false, true, true, true, true] = .error .panic :=
  (C02_maskView_panics_iff df_wf _).2 ⟨4, by decide, by decide⟩
-- C04
example := C04_sliceView_reversed_actual df_wf (a := 4) (b := 1) (by decide) (by decide) (by decide)
example := C04_sliceView_reversed_partial df_wf (a := 3) (b := 1) (by decide) (by decide) (by decide) (by decide)
-- C05
example := C05_reverse_involution df_wf
-- C06
example := C06_shuffleView df_wf (perm := [2, 0, 3, 1]) (by decide)
example : df.sampleView 5 false [0, 1, 2, 3] h = .error .panic := C06_sampleView_panics _ _ _ _ _ (Or.inr (by decide))
-- C07, C08
example := C07_sortedView_nan argsort_ok df_wf (c := b!"x") (by decide) (xs := [5, 3, 9, 1]) (by decide)
example : DF.sortedView (fun _ => []) df b!"s" h = .error .panic := C07_sortedView_panics _ _ _ _ (by decide)
example : DF.topView (fun _ => []) df b!"x" (-1) true true h = .error .panic := C08_topView_negative _ _ _ _ _ _ _ (by decide)
-- C09
example : df.splitView 0 h = .error .panic := C09_splitView_panics _ _ (by decide)
-- C11
example := C11_partition 10 3 (by decide)
example : df.splitTrainTestViews 2 h = .error .panic := C11_panics _ _ (Or.inr (by decide))
-- C12
example : ∃ h', view3.set h3 .int b!"a" 1 (.int 7) = .ok h' ∧ df.get h' .int b!"a" 0 = .ok (.int 7) := by
  have : okAnd (view3.set h3 .int b!"a" 1 (.int 7)) (fun _ => true) = true := by decide
  obtain ⟨h', e, _⟩ := okAnd_iff.1 this
  exact ⟨h', e, (C12_set_through_view (i := 1) df_wf view3_row view3_row (by decide) (by decide) (by decide) (by decide) e).1⟩
-- C13
example := C13_drop_refuted df_wf df_sep (c := b!"x")
example : ∃ v' h', df.view.overwrite .float b!"new" [.float 1, .float 2, .float 3, .float 4] false h = .ok (v', h') ∧
    (abs h' v').col .float b!"new" ≠ none ∧ (abs h' df).col .float b!"new" = none := by
  have : okAnd (df.view.overwrite .float b!"new" [.float 1, .float 2, .float 3, .float 4] false h)
      (fun p => decide ((abs p.2 p.1).col .float b!"new" ≠ none)) = true := by decide +kernel
  obtain ⟨p, e, hp⟩ := okAnd_iff.1 this
  refine ⟨p.1, p.2, e, of_decide_eq_true hp, ?_⟩
  rw [(C13_view_overwrite_new_partial (view_wf df_wf) (by decide +kernel) (by decide +kernel) ⟨.int, b!"a", by decide +kernel⟩ e df df_wf).2.1]
  decide +kernel
-- C15, C16, C17, C18
example := C15_copy_equal_compact df_wf
example := C16_copy_forgets_encoding df_wf
example := C17_shallow_same_cells df_wf
example : ∃ h', (df.shallowCopy h).1.set (df.shallowCopy h).2 .int b!"a" 1 (.int 3) = .ok h' ∧ df.get h' .int b!"a" 1 = .ok (.int 3) := by
  have : okAnd ((df.shallowCopy h).1.set (df.shallowCopy h).2 .int b!"a" 1 (.int 3)) (fun _ => true) = true := by decide +kernel
  obtain ⟨h', e, _⟩ := okAnd_iff.1 this
  exact ⟨h', e, (C17_shallow_writes_seen df_wf).1 e⟩
example := C18_columnView_all df_wf
-- C15, C17: a history of edits on both dataframes, after which any further edit of one is invisible in the other
example : ∃ c h' a b h2, df.copy h = .ok (c, h') ∧ runPair [(true, .set .int b!"a" 0 (.int 7)), (false, .rename b!"s" b!"t")] (df, c) h'
    = .ok ((a, b), h2) ∧ ∀ (e : Edit Int) a' h3, e.run a h2 = .ok (a', h3) → abs h3 b = abs h2 b := by
  have : okAnd (df.copy h) (fun p => okAnd (runPair [(true, .set .int b!"a" 0 (.int 7)), (false, .rename b!"s" b!"t")]
      (df, p.1) p.2) fun _ => true) = true := by decide +kernel
  obtain ⟨p, e, hp⟩ := okAnd_iff.1 this
  obtain ⟨q, e2, _⟩ := okAnd_iff.1 hp
  exact ⟨p.1, p.2, q.1.1, q.1.2, q.2, e, e2, (C15_copy_isolated df_wf e df_wf e2).1⟩
example : ∃ a b h2, runPair [(true, .rename b!"s" b!"t"), (false, .set .float b!"x" 1 (.float 8))]
    (df, (df.shallowCopy h).1) (df.shallowCopy h).2 = .ok ((a, b), h2) ∧
    ∀ (e : Edit Int) a' h3, e.structural = true → e.run a h2 = .ok (a', h3) → abs h3 b = abs h2 b ∧ locs h3 b = locs h2 b := by
  have : okAnd (runPair [(true, .rename b!"s" b!"t"), (false, .set .float b!"x" 1 (.float 8))]
      (df, (df.shallowCopy h).1) (df.shallowCopy h).2) (fun _ => true) = true := by decide +kernel
  obtain ⟨q, e2, _⟩ := okAnd_iff.1 this
  exact ⟨q.1.1, q.1.2, q.2, e2, (C17_shallow_structure_isolated df_wf df_wf e2).1⟩

end Verif.Demo

namespace Verif.Float64

/-- Ints around 2^53 and a float column. -/
def wops : List (BOp Float64) := [.add .int b!"n" [.int 9007199254740992, .int (-5), .int 3], .add .float b!"p" [.float (dec 1 10), .float (dec 2 10), .float GoFloat.nan]]
/-- The dataframe. -/
def wdf : DF := match (build wops heap0).1.toDataFrame (build wops heap0).2 with | .ok p => p.1 | .error _ => Demo.df
/-- Its heap. -/
def wh : Heap Float64 := match (build wops heap0).1.toDataFrame (build wops heap0).2 with | .ok p => p.2 | .error _ => heap0
theorem wdf_wf : wdf.WF wh := DF.wf_of_check 3 (by decide +kernel)

-- C07, C08
example := C07_float64_sortable (a := abs wh wdf) (c := b!"n") (l := [some (.int 9007199254740992), some (.int (-5)), some (.int 3)])
  (by decide +kernel) (by decide +kernel) (by decide +kernel)
  (by intro x hx; simp at hx; rcases hx with rfl | rfl | rfl <;> exact ⟨_, rfl, by norm_num⟩)
example := C07_float64 argsort_ok wdf_wf (c := b!"n") (l := [some (.int 9007199254740992), some (.int (-5)), some (.int 3)])
  (by decide +kernel) (by decide +kernel) (by decide +kernel)
  (by intro x hx; simp at hx; rcases hx with rfl | rfl | rfl <;> exact ⟨_, rfl, by norm_num⟩)
example := C07_refuted_large_ints argsort argsort_ok (by decide +kernel) (by decide +kernel) heap0
-- C11
example := C11_float64 wdf_wf (by decide +kernel) (ratio := dec 7 10) (by decide +kernel) (by decide +kernel)

end Verif.Float64
