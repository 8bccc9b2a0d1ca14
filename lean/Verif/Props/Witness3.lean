import Verif.Props.Witness2
import Verif.Props.Auto
import Verif.Props.AutoMore
import Verif.Props.Imputer
import Verif.Props.OneHot
import Verif.Props.Json
import Verif.Props.Evaluation
import Verif.Props.Float64Eval
import Verif.Props.Strconv
import Verif.Props.StrconvShortest
import Verif.Props.CSVWriting
import Verif.Props.CSVFiles

/-! Concrete cases for theorems about preprocessing, evaluation, JSON and CSV: see `Witness1`. -/

namespace Verif.Demo

theorem df_unaliased (cols : List GoStr) (hc : ∀ c ∈ cols, c = b!"x") : Unaliased h df cols := by
  intro c hc1 d hd hne
  rw [hc c hc1, hc d hd] at hne
  exact absurd rfl hne

-- C40
example := C40_fit (im := newFloatImputer .mean) df_wf df_fcols (by decide +kernel) (by decide +kernel) (order := [b!"x"])
  (by rw [df_floatNames])
example := C40_transform (im := ⟨[(b!"x", 4)], .mean⟩) df_wf (by decide) (by decide +kernel) (df_unaliased _ (by decide))
example : (⟨[(b!"none", 4)], .mean⟩ : FloatImputer Int).transformInplace df h = .error .panic :=
  C40_transform_panics df_wf (by decide) ⟨b!"none", by decide, by decide +kernel⟩
-- C41
example := C41_transform (sc := ⟨[(b!"x", 4)], [(b!"x", 2)], ⟨false, true, true⟩⟩) df_wf (by decide) (by decide +kernel) (by decide +kernel)
  (df_unaliased _ (by decide)) (Or.inr (by decide +kernel)) (by decide) (order := [b!"x"]) (by decide)
-- C45
example := C45_mae (h := h) (p := df) (t := view3) (c := b!"x") (c' := b!"x") (xs := [5, 3, 9, 1]) (ys := [9, 5, 9]) (by decide +kernel) (by decide +kernel)
example := C45_zero_iff (us := [1, 2]) (vs := [1, 3]) rfl
-- C60: the dataframe and a copy of it
example : ∃ c h', df.copy h = .ok (c, h') ∧ ∃ a b, (newFloatImputer .mean : FloatImputer Int).fit df [b!"x"] h = .ok a ∧
    (newFloatImputer .mean).fit c [b!"x"] h' = .ok b ∧ ∀ x, a.fallback.get x = b.fallback.get x := by
  obtain ⟨c, h', e, ha, wf, _⟩ := C15_copy_equal_compact df_wf
  have hd : okAnd (df.copy h) (fun p => decide (namesOf (p.2.tab p.1.tab) .float = [b!"x"] ∧ 0 < p.1.maxCPU)) = true := by decide +kernel
  obtain ⟨p, e2, hp⟩ := okAnd_iff.1 hd
  rw [e] at e2; cases e2
  have hp := of_decide_eq_true hp
  refine ⟨c, h', e, ?_⟩
  exact C60_imputer df_wf wf (by intro x; rw [ha]) df_fcols (by decide +kernel) hp.2 (by decide +kernel) (by rw [df_floatNames])
    (by rw [hp.1])
-- C77
example := C77_hash_partial (e := ⟨[b!"s", b!"t"]⟩) (by intro c hc; simp at hc; rcases hc with rfl | rfl <;> exact isText_ascii (by decide))

end Verif.Demo

namespace Verif.Float64

/-- Two columns of finite numbers. -/
def eops : List (BOp Float64) := [.add .float b!"p" [.float (dec 1 10), .float (dec 2 10), .float (dec (-1) 3)],
  .add .float b!"t" [.float (dec 1 10), .float (dec 1 7), .float (dec 2 3)]]
/-- The dataframe. -/
def edf : DF := match (build eops heap0).1.toDataFrame (build eops heap0).2 with | .ok p => p.1 | .error _ => Demo.df
/-- Its heap. -/
def eh : Heap Float64 := match (build eops heap0).1.toDataFrame (build eops heap0).2 with | .ok p => p.2 | .error _ => heap0
theorem edf_wf : edf.WF eh := DF.wf_of_check 3 (by decide +kernel)

def pcol : List Float64 := [dec 1 10, dec 2 10, dec (-1) 3]
def tcol : List Float64 := [dec 1 10, dec 1 7, dec 2 3]
theorem edf_p : (abs eh edf).floats b!"p" = some pcol := by decide +kernel
theorem edf_t : (abs eh edf).floats b!"t" = some tcol := by decide +kernel
theorem pcol_finite : AllFinite pcol := by
  have : ∀ x ∈ pcol, finite x = true := by decide +kernel
  exact fun x hx => (finite_iff64 x).1 (this x hx)
theorem tcol_finite : AllFinite tcol := by
  have : ∀ x ∈ tcol, finite x = true := by decide +kernel
  exact fun x hx => (finite_iff64 x).1 (this x hx)

-- C45
example := C45_float64_nonneg edf_p edf_t pcol_finite tcol_finite (by simp [pcol, tcol]) (by simp [pcol]) (by simp [pcol])
example := C45_float64_symmetric edf_p edf_t pcol_finite tcol_finite
example := C45_float64_equal edf_p edf_p pcol_finite (by simp [pcol]) (by simp [pcol])
example := C45_float64_mse edf_p edf_t pcol_finite tcol_finite (by simp [pcol, tcol]) (by simp [pcol]) (by simp [pcol])
example := C45_float64_mae edf_p edf_t pcol_finite tcol_finite (by simp [pcol, tcol]) (by simp [pcol]) (by simp [pcol])

-- C40
theorem edf_names : namesOf (eh.tab edf.tab) .float = [b!"p", b!"t"] := by decide +kernel
theorem edf_fcols : FloatCols (abs eh edf) (fun c => if c = b!"p" then pcol else tcol) := by
  intro c hc
  have := mem_namesOf_iff.2 hc
  rw [edf_names] at this
  simp at this
  rcases this with rfl | rfl <;> decide +kernel
example := C40_float64 (im := newFloatImputer .mean) edf_wf edf_fcols rfl (by decide +kernel) (by decide +kernel) (order := [b!"t", b!"p"])
  (by rw [edf_names]; decide)

-- C77: a scaler trained on the dataframe with Go's own floats can be saved
example : ∃ sc', (newScaler ⟨false, true, true⟩ : Scaler Float64).fit edf [b!"p", b!"t"] eh = .ok sc' ∧
    ∃ s sc2, marshal (Scaler.enc jsonFloat64) sc' = some s ∧ unmarshal (Scaler.dec jsonFloat64) s = some sc2 ∧
      SameMap sc'.shift sc2.shift := by
  obtain ⟨sc', e, hn⟩ := C77_trained_scaler (sc := newScaler ⟨false, true, true⟩) edf_fcols (Or.inr (by decide +kernel)) (by decide +kernel)
    (order := [b!"p", b!"t"]) (by rw [edf_names])
    (by
      intro c hc
      have := mem_namesOf_iff.2 hc
      rw [edf_names] at this
      simp at this
      rcases this with rfl | rfl <;> exact isText_ascii (by decide))
  have hd : okAnd ((newScaler ⟨false, true, true⟩ : Scaler Float64).fit edf [b!"p", b!"t"] eh) (fun sc =>
    sc.shift.all (fun e => finite e.2) && sc.scale.all (fun e => finite e.2)) = true := by decide +kernel
  obtain ⟨x, e2, hx⟩ := okAnd_iff.1 hd
  rw [e] at e2; cases e2
  simp only [Bool.and_eq_true, List.all_eq_true] at hx
  obtain ⟨s, sc2, h1, h2, h3, _⟩ := C77_scaler64_partial hn ⟨hx.1, hx.2⟩
  exact ⟨sc', e, s, sc2, h1, h2, h3⟩

end Verif.Float64
