import Verif.Props.Witness1
import Verif.Props.RowConcat
import Verif.Props.ColConcat
import Verif.Props.Labels
import Verif.Props.Edits
import Verif.Props.Utils
import Verif.Props.Misc
import Verif.Props.Headers
import Verif.Props.Merge
import Verif.Props.Print
import Verif.Props.Printing
import Verif.Props.Internals
import Verif.Props.Access
import Verif.Props.Exports
import Verif.Props.Dense
import Verif.Props.Iter
import Verif.Props.Predict
import Verif.Props.LinRegFit

/-! Concrete cases for the theorems of C20-C29 and C48-C81: see `Witness1`. -/

namespace Verif.Demo

-- C20
example := C20_toDataFrame_empty ([] : List (BOp Int)) heap0 (by intro k c; rfl)
-- C21
example := C21_rowConcat_error_partial [df, df] h (by simp [df_wf])
example : ∃ r h' a b h2, rowConcat [df, df] h = .ok (some (r, h')) ∧
    runPair [(true, .set .int b!"a" 0 (.int 7)), (false, .drop [b!"x"])] (df, r) h' = .ok ((a, b), h2) ∧
    ∀ (e : Edit Int) a' h3, e.run a h2 = .ok (a', h3) → abs h3 b = abs h2 b := by
  have : okAnd (rowConcat [df, df] h) (fun p => match p with
      | some p => okAnd (runPair [(true, .set .int b!"a" 0 (.int 7)), (false, .drop [b!"x"])] (df, p.1) p.2) fun _ => true
      | none => false) = true := by decide +kernel
  obtain ⟨p, e, hp⟩ := okAnd_iff.1 this
  cases p with
  | none => cases hp
  | some p =>
    obtain ⟨q, e2, _⟩ := okAnd_iff.1 hp
    exact ⟨p.1, p.2, q.1.1, q.1.2, q.2, e, e2, (C21_rowConcat_isolated (by simp [df_wf]) e df_wf e2).1⟩
-- C22, C23: the same columns twice
example : columnConcatView [df, df] h = .ok none := by
  refine (C22_concatView_errors (by simp [df_wf])).1 ?_
  intro hno
  have := List.rel_of_pairwise_cons hno.1 (a' := abs h df) (by simp) .int .int b!"a" (by decide)
  exact this (by decide)
example := C23_smartConcat (h := h) (d0 := df) (rest := [df]) (by simp [df_wf])
example := C58_concat_inherits (h := h) (h' := h) (r := df) (d0 := df) (rest := [df]) (by simp [df_wf])
-- C25
example : df.overwrite .int b!"a" [.int 1, .int 2] false h = .error .panic := C25_overwrite_short false (by decide)
-- C27
example : df.labelToInt h b!"a" = .error .panic := C27_labelToInt_panics (by decide)
-- C48
example := C48_groupIndexer (n := 10) (k := 3) (by decide) (by decide)
-- C49
example := C49_mask_size df_mwf
-- C50
example := C50_boolToFloats_partial df_wf (cols := [b!"b"]) (by decide) (by decide)
-- C51
example : (Edit.rename b!"none" b!"z" : Edit Int).run df h = .error .panic :=
  (C51_rename_panics df_wf df_sep _ _).2 (by intro k; cases k <;> decide)
example := C51_rename_same_deletes df_wf df_sep (x := b!"a") (k := .int) (by decide)
  (by intro k' hk; cases k' <;> first | exact absurd rfl hk | decide)
-- C52
example := C52_resetIndexView view3_row.wf
-- C53
example := C53_header_content df_wf b!"s"
-- C57
example : ∃ s h1 h2, df.vecDenseCopy h b!"x" = .ok (s, h1) ∧ h1.write s 1 (.float 7) = .ok h2 ∧ abs h2 df = abs h df := by
  have : okAnd (df.vecDenseCopy h b!"x") (fun p => okAnd (p.2.write p.1 1 (.float 7)) fun _ => true) = true := by decide +kernel
  obtain ⟨p, e, hp⟩ := okAnd_iff.1 this
  obtain ⟨q, e2, _⟩ := okAnd_iff.1 hp
  exact ⟨p.1, p.2, q, e, e2, C57_copy_private e e2 df df_wf⟩
-- C58
example := C58_new_inherits df_wf
-- C61, C62, C63
example := C61_drop df_wf df_sep [b!"a", b!"none"]
example := C62_alloc df_wf ⟨.int, b!"a", by decide⟩ .float [b!"n"]
example := C62_allocStrings df_wf ⟨.int, b!"a", by decide⟩ [b!"n"]
example := C63_unshare_shows_nothing df_wf df_sep [b!"a"]
-- C73
example := C73_printSummary id (fun _ => .refl _) df h df_wf 17
-- C75
example := C75_internals view3_row.wf (k := .int) (c := b!"a") (by decide +kernel) (i := 1) (by decide +kernel)
example := C75_write view3_row.wf (k := .int) (c := b!"a") (by decide +kernel) (i := 1) (by decide +kernel) (.int 5)
example := C75_no_column (df := df) (h := h) (k := .int) (c := b!"x") (by decide)
-- C80, C81
example := C80_made view3_row.wf .int b!"a"
example := C81_copyValues df_wf b!"s"
-- C46, C69
example : (⟨none, [], []⟩ : LinearRegressor Int).predict (fun _ _ => 0) df b!"p" [] h = .error .panic :=
  C46_predict_untrained_panics rfl

-- C28, C29
example := C28_iterator (R := Int) df_wf (cols := [b!"x", b!"b", b!"a"]) (kind := kindOf) (by decide +kernel) [.next, .scribble [7, 7, 7], .next]
  (by intro e he; simp at he; rcases he with rfl | rfl | rfl <;> simp [IterEv.Legal])
example := C28_loop (R := Int) df_wf (cols := [b!"x", b!"b", b!"a"]) (kind := kindOf) (by decide +kernel) 7
-- C71, C72
example (fm : Fmt Int) := C71_printHead fm id (fun _ => .refl _) df h df_wf df_typeOk 2 []
example (fm : Fmt Int) := C72_printRecords_format fm id (fun _ => .refl _) df h df_wf df_typeOk 2 [] []

end Verif.Demo
