import Verif.Proofs.Programs
import Verif.Props.AutoMore
import Verif.Props.LinRegFit
import Verif.Props.Json
import Verif.Props.Evaluation

/-! Lemmas for C79: rows and settings kept by the preprocessing functions. -/

namespace Verif
variable {F : Type}

/-- `v` has the row positions and the CPU setting of `d`. -/
def Kept (d v : DF) : Prop := v.idx = d.idx ∧ v.maxCPU = d.maxCPU

theorem Kept.refl (d : DF) : Kept d d := ⟨rfl, rfl⟩
theorem Kept.trans {a b c : DF} (h1 : Kept a b) (h2 : Kept b c) : Kept a c := ⟨h2.1.trans h1.1, h2.2.trans h1.2⟩

theorem own_cpu (r : Raw) (h : Heap F) : (r.own h).1.maxCPU = r.maxCPU := by
  unfold Raw.own
  split <;> rfl

theorem unshare_cpu (r : Raw) (cols : List GoStr) (h : Heap F) : (r.unshare cols h).1.maxCPU = r.maxCPU := by
  unfold Raw.unshare
  split
  · rfl
  · exact own_cpu r h

theorem alloc_cpu [GoFloat F] (r : Raw) (k : Kind) (cols : List GoStr) (h : Heap F) : (r.alloc k cols h).1.maxCPU = r.maxCPU := by
  show (if cols = [] then (r, h) else r.own h).1.maxCPU = r.maxCPU
  split
  · rfl
  · exact own_cpu r h

theorem detachedView_kept (d : DF) (cols : List GoStr) (h : Heap F) : Kept d (d.detachedView cols h).1 :=
  ⟨rfl, unshare_cpu d.view.toRaw cols h⟩

theorem columnView_kept (d : DF) (cols : List GoStr) (h : Heap F) : Kept d (d.columnView cols h).1 := by
  unfold DF.columnView
  split
  · exact ⟨rfl, rfl⟩
  · exact ⟨rfl, rfl⟩

theorem hashStringsView_kept [GoFloat F] {d v : DF} {cols order : List GoStr} {h h' : Heap F}
    (e : d.hashStringsView cols order h = .ok (v, h')) : Kept d v := by
  unfold DF.hashStringsView at e
  split at e
  · cases e; exact ⟨rfl, rfl⟩
  · simp only at e
    split at e
    · cases e
    · cases e
      exact columnView_kept _ _ _

theorem oneHotView_kept [GoFloat F] {enc : OneHotEncoder} {order : List GoStr} {d v : DF} {h h' : Heap F}
    (e : enc.transformView order d h = .ok (some v, h')) : Kept d v := by
  unfold OneHotEncoder.transformView at e
  simp only at e
  split at e
  · cases e; exact ⟨rfl, rfl⟩
  · have k : Kept d (d.view.withRaw (d.view.toRaw.alloc .bool enc.newCols h)).1 := ⟨rfl, alloc_cpu d.view.toRaw .bool enc.newCols h⟩
    split at e
    · cases e
    · cases e
    · split at e <;> (cases e; exact k)

theorem transformView_kept [GoFloat F] {p : AutoPreprocessor F} {sch : AutoSched} {d v : DF} {h h' : Heap F}
    (e : p.transformView sch d h = .ok (some v, h')) : Kept d v := by
  unfold AutoPreprocessor.transformView at e
  simp only at e
  have k1 : Kept d (p.detach sch d h).1 := by
    unfold AutoPreprocessor.detach
    split
    · exact detachedView_kept ..
    · split
      · exact detachedView_kept ..
      · exact Kept.refl _
  split at e
  · cases e
  · split at e
    · cases e
    · split at e
      · cases e
      · rename_i d2 h2 e2
        have k2 : Kept d d2 := by
          unfold hashIf at e2
          split at e2
          · exact k1.trans (hashStringsView_kept e2)
          · cases e2; exact k1
        split at e
        · exact k2.trans (oneHotView_kept e)
        · cases e; exact k2

theorem runFloats_kept [GoFloat F] {p : AutoPreprocessor F} {sch : AutoSched} {cols : List GoStr} {d v : DF} {h h' : Heap F}
    (e : p.runFloats sch cols d h = .ok (v, h')) : Kept d v := by
  unfold AutoPreprocessor.runFloats at e
  simp only at e
  split at e
  · cases e
  · split at e
    · cases e
    · split at e
      · cases e
      · split at e
        · cases e
        · cases e; exact detachedView_kept ..

theorem fitHash_kept [GoFloat F] {p p' : AutoPreprocessor F} {sch : AutoSched} {d v : DF} {cat : List GoStr} {h h' : Heap F}
    (e : p.fitHash sch d h = .ok ((p', v, cat), h')) : Kept d v := by
  unfold AutoPreprocessor.fitHash at e
  split at e
  · simp only at e
    split at e
    · cases e
    · rename_i e1
      cases e
      exact hashStringsView_kept e1
  · cases e; exact Kept.refl _

theorem fitTransform_kept [GoFloat F] {p p' : AutoPreprocessor F} {sch : AutoSched} {d v : DF} {h h' : Heap F}
    (e : p.fitTransform sch d h = .ok ((p', some v), h')) : Kept d v := by
  unfold AutoPreprocessor.fitTransform at e
  split at e
  · cases e
  · cases e
  · rename_i p2 r2 h2 e2
    cases e
    unfold AutoPreprocessor.fitWith at e2
    simp only at e2
    split at e2
    · cases e2
    · split at e2
      · cases e2
      · rename_i d3 _ _ e3
        have k3 := fitHash_kept e3
        split at e2
        · cases e2
        · split at e2
          · split at e2
            · split at e2
              · cases e2
              · cases e2
              · rename_i e4
                split at e2
                · cases e2
                · rename_i e5
                  cases e2
                  exact k3.trans ((oneHotView_kept e4).trans (runFloats_kept e5))
            · split at e2
              · cases e2; exact k3
              · split at e2
                · cases e2
                · rename_i e5
                  cases e2
                  exact k3.trans (runFloats_kept e5)
          · cases e2

theorem fitTransform_stepOK [GoFloat F] {p p' : AutoPreprocessor F} {sch : AutoSched} {d v : DF} {h h' : Heap F}
    (wf : d.WF h) (mwf : d.MaskWF h) (sep : d.toRaw.Sep) (hc : (abs h d).hasColumn)
    (e : p.fitTransform sch d h = .ok ((p', some v), h')) : StepOK h d h' v := by
  unfold AutoPreprocessor.fitTransform at e
  split at e
  · cases e
  · cases e
  · rename_i e2
    cases e
    exact (autoFitWith_stepOK wf mwf sep hc e2).2 _ rfl

/-- `SliceView` of a view by indices cuts the indices and nothing else. -/
theorem sliceView_indexed {d : DF} {h : Heap F} (hv : d.indexViewed = true) (hl : d.idx.len ≤ d.idx.data.length) {a b : Nat}
    (hab : a ≤ b) (hb : b ≤ d.numRows) :
    ∃ v, d.sliceView a b h = .ok (v, h) ∧ v.rows = pick d.rows (rowRange a b) ∧ v.toRaw = { d.toRaw with sharedMaps := true } := by
  obtain ⟨x, e, hx, _⟩ := Idx.reslice_rows (x := d.idx) hl (a := (a : Int)) (b := (b : Int)) (by omega) (by omega) (by
    have : d.numRows = d.idx.rows.length := rfl
    omega)
  refine ⟨{ d.view with idx := x, indexViewed := true }, ?_, hx, rfl⟩
  unfold DF.sliceView
  simp only
  rw [if_neg (show ¬ (a : Int) < 0 by omega), if_neg (show ¬ (b : Int) < 0 by omega), if_neg (show ¬ (a : Int) > (b : Int) by omega)]
  unfold DF.cut
  simp only
  rw [if_pos (by rw [show d.view.indexViewed = true from hv]; rfl)]
  rw [show d.view.idx = d.idx from rfl, e]

end Verif
