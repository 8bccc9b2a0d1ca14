import Verif.Proofs.TrainedNamed
import Verif.Props.Auto
import Verif.Props.ExperimentDemo

/-! C77 for trained encoders and preprocessors: nothing has to be assumed about what they have learnt, except that the numbers are
finite. -/

namespace Verif
variable {F : Type}

/-- C77: a one-hot encoder that has been trained can be saved and restored, if the names of the int columns are texts (and Go's ints are
64-bit ints); the restored encoder does what the original does. -/
theorem C77_trained_oneHot [GoFloat F] {enc e : OneHotEncoder} {sch : OneHotSched} {df : DF} {h : Heap F} {ivals : GoStr → List Int}
    (hi : IntCols (abs h df) ivals) (ht : ∀ c, ((abs h df).col .int c).isSome → IsText c ∧ ∀ v ∈ ivals c, IsInt64 v)
    (e1 : enc.fit sch df h = .ok e) :
    ∃ s e', marshal OneHotEncoder.enc e = some s ∧ unmarshal OneHotEncoder.dec s = some e' ∧
      e'.transformedColumns = e.transformedColumns ∧ e'.newCols = e.newCols ∧ e'.options = e.options ∧
      ∀ (order : List GoStr) (d : DF) (g : Heap F), e'.transformView order d g = e.transformView order d g := by
  refine C77_oneHot_partial (oneHot_fit_named e1 (fun c hc => (ht c (mem_namesOf_int.1 hc)).1) ?_)
  intro c vals hv
  have hc := mem_namesOf_int.1 (intVals_col hv)
  rw [intVals_of_ints (hi c hc)] at hv
  cases hv
  exact (ht c hc).2

section
variable [GoFloat F] (j : JsonFloats F)

/-- C77: a preprocessor that has been trained on a dataframe whose names are texts is saved if and only if the numbers it has learnt are finite, and the restored one shows the same as the original on every dataframe the
original can transform. -/
theorem C77_trained_auto {o : AutoOptions} {df : DF} {h : Heap F} {fvals : GoStr → List F} {ivals : GoStr → List Int} (wf : df.WF h)
    (sep : df.toRaw.Sep) (hf : FloatCols (abs h df) fvals) (hi : IntCols (abs h df) ivals) (hcpu : 0 < df.maxCPU)
    (ready : AutoReady (abs h df)) (tx : (abs h df).Textual ivals) (sch : AutoSched) :
    ∃ p h1, (newAutoPreprocessor o).fit sch df h = .ok ((p, true), h1) ∧ (¬ p.Finite → marshal (AutoPreprocessor.enc j) p = none) ∧
      (p.Finite → ∃ s p', marshal (AutoPreprocessor.enc j) p = some s ∧ unmarshal (AutoPreprocessor.dec j) s = some p' ∧
        ∀ (d : DF) (g : Heap F) (fvals : GoStr → List F) (ivals : GoStr → List Int), AutoFits o (abs h df) (abs g d) → d.WF g →
          d.toRaw.Sep → FloatCols (abs g d) fvals → IntCols (abs g d) ivals → 0 < d.maxCPU → ∀ sch sch' : AutoSched,
            ∃ r h1 r' h2, p.transformView sch d g = .ok (some r, h1) ∧ p'.transformView sch' d g = .ok (some r', h2) ∧
              abs h2 r' = abs h1 r ∧ r'.WF h2) := by
  obtain ⟨p, T, d1, h1, trd, _, _, _, _, _, _, e⟩ := fit_prefix (o := o) wf sep hf hi hcpu ready sch
  have e' : (newAutoPreprocessor o).fitWith sch df false h = .ok ((p, some none), h1) := e false
  refine ⟨p, h1, by unfold AutoPreprocessor.fit; rw [e']; rfl, fun hx => ?_, fun hx => C77_auto_partial j trd ready
    (fitWith_named wf sep hf hi hcpu ready tx e') hx⟩
  have := (C77_marshal j).2.2.1 p
  rw [← this] at hx
  exact Option.not_isSome_iff_eq_none.1 hx

end

namespace FixDemo

attribute [local instance] fixFloat in
/-- C77 on the demo: a trained preprocessor, saved and restored. -/
example : ∃ p h1, (newAutoPreprocessor FixDemo.flags.options).fit FixDemo.sched.fit FixDemo.df FixDemo.h = .ok ((p, true), h1) ∧
    (p.Finite → ∃ s p', marshal (AutoPreprocessor.enc FixDemo.jf) p = some s ∧ unmarshal (AutoPreprocessor.dec FixDemo.jf) s = some p' ∧
      ∃ r h2 r' h3, p.transformView FixDemo.sched.fit FixDemo.df FixDemo.h = .ok (some r, h2) ∧
        p'.transformView FixDemo.sched.fit FixDemo.df FixDemo.h = .ok (some r', h3) ∧ abs h3 r' = abs h2 r) := by
  have r := FixDemo.ready
  obtain ⟨p, h1, e, _, hf⟩ := C77_trained_auto FixDemo.jf (o := FixDemo.flags.options) r.wf r.sep r.floats r.ints r.cpu r.ready FixDemo.textual FixDemo.sched.fit
  refine ⟨p, h1, e, fun hx => ?_⟩
  obtain ⟨s, p', m1, m2, m3⟩ := hf hx
  obtain ⟨a, b, c, d, x1, x2, x3, _⟩ := m3 FixDemo.df FixDemo.h _ _ r.ready.fits r.wf r.sep r.floats r.ints r.cpu FixDemo.sched.fit FixDemo.sched.fit
  exact ⟨s, p', m1, m2, a, b, c, d, x1, x2, x3⟩

end FixDemo

end Verif
