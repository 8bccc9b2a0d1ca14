import Verif.Spec.Programs
import Verif.Proofs.Views
import Verif.Proofs.Preproc
import Verif.Proofs.OneHotRun
import Verif.Props.CSVFiles

/-! One-step lemmas for programs with preprocessors, regressors and CSV files: every call keeps every dataframe
consistent. -/

namespace Verif
variable {F : Type}

/-! ### in-place updates -/

theorem updFloats_quiet [GoFloat F] {f : F → Option F} {s : Slice} {is : List Nat} {h h' : Heap F}
    (e : updFloats f s is h = .ok h') : Quiet h h' := by
  induction is generalizing h with
  | nil => cases e; exact Quiet.refl _
  | cons i is ih =>
    simp only [updFloats] at e
    split at e
    · cases e
    · split at e
      · exact ih e
      · split at e
        · cases e
        · rename_i hw; exact (write_quiet hw).trans (ih e)

theorem updFloatCol_quiet [GoFloat F] {df : DF} {c : GoStr} {f : F → Option F} {h h' : Heap F}
    (e : df.updFloatCol c f h = .ok h') : Quiet h h' := by
  unfold DF.updFloatCol at e
  split at e
  · cases e
  · exact updFloats_quiet e

theorem imputeLoop_quiet [GoFloat F] {df : DF} {m : AMap GoStr F} {h h' : Heap F} (e : imputeLoop df m h = .ok h') : Quiet h h' := by
  induction m generalizing h with
  | nil => cases e; exact Quiet.refl _
  | cons x m ih =>
    obtain ⟨c, fb⟩ := x
    simp only [imputeLoop] at e
    split at e
    · cases e
    · rename_i hw; exact (updFloatCol_quiet hw).trans (ih e)

theorem scale_quiet [GoFloat F] {sc : Scaler F} {df : DF} {order : List GoStr} {h h' : Heap F}
    (e : sc.transformInplace df order h = .ok h') : Quiet h h' := by
  unfold Scaler.transformInplace at e
  simp only at e
  generalize (if sc.scale.length > sc.shift.length then sc.scale else sc.shift) = m at e
  by_cases hm : m.length = 0
  · rw [if_pos hm] at e; cases e; exact Quiet.refl _
  · rw [if_neg hm] at e
    exact runQueue_quiet (fun c g g' hq => updFloatCol_quiet hq) e

theorem hasColumn_safe {h h' : Heap F} {d : DF} (q : h'.tab = h.tab) (hc : (abs h d).hasColumn) : (abs h' d).hasColumn := by
  rw [hasColumn_iff] at hc ⊢
  rw [q]; exact hc

/-! ### one-hot encoding -/

/-- What the jobs of a queue keep. -/
theorem runQueue_keeps {σ : Type} {P : σ → Prop} {keys order : List GoStr} {n : Int} {job : GoStr → σ → Except Abort σ}
    (hj : ∀ c s s', P s → job c s = .ok s' → P s') {s s' : σ} (hs : P s) (e : runQueue keys order n job s = .ok s') : P s' := by
  unfold runQueue at e
  split at e
  · cases e; exact hs
  · split at e
    · cases e
    · clear * - e hj hs
      induction order generalizing s with
      | nil => cases e; exact hs
      | cons c cs ih =>
        rw [List.foldlM_cons] at e
        cases hc : job c s with
        | error x => rw [hc] at e; cases e
        | ok g => rw [hc] at e; exact ih (hj _ _ _ hs hc) e

theorem setTrue_quiet {r : DF} {n : GoStr} {i : Nat} {h h' : Heap F} (e : r.setTrue n i h = .ok h') : Quiet h h' := by
  unfold DF.setTrue at e
  split at e
  · cases e
  · exact write_quiet e

theorem oneHotLoop_quiet {enc : OneHotEncoder} {r : DF} {c : GoStr} {src : Slice} {is : List Nat} {s s' : Heap F × Bool}
    (e : oneHotLoop enc r c src is s = .ok s') : Quiet s.1 s'.1 := by
  induction is generalizing s with
  | nil => cases e; exact Quiet.refl _
  | cons i is ih =>
    simp only [oneHotLoop] at e
    split at e
    · cases e
    · split at e
      · cases e; exact Quiet.refl _
      · split at e
        · cases e
        · rename_i hw; exact (setTrue_quiet hw).trans (ih e)

theorem oneHotJob_quiet {enc : OneHotEncoder} {r : DF} {c : GoStr} {s s' : Heap F × Bool}
    (e : oneHotJob enc r c s = .ok s') : Quiet s.1 s'.1 ∧ (AMap.get (s.1.tab r.tab) (.int, c)).isSome := by
  unfold oneHotJob at e
  split at e
  · cases e
  · rename_i hg
    refine ⟨?_, by rw [hg]; rfl⟩
    split at e
    · split at e
      · exact oneHotLoop_quiet e
      · cases e
    · split at e
      · exact oneHotLoop_quiet e
      · cases e

/-- Without columns, allocating bool columns gives no int column. -/
theorem alloc_no_int [GoFloat F] {r : Raw} {h : Heap F} (wf : r.WF h) (hne : h.tab r.tab = []) (news : List GoStr) (c : GoStr) :
    AMap.get ((r.alloc .bool news h).2.tab (r.alloc .bool news h).1.tab) (.int, c) = none := by
  unfold Raw.alloc
  by_cases hn : news = []
  · subst hn
    show AMap.get (h.tab r.tab) _ = _
    rw [hne]; rfl
  · rw [if_neg hn]
    have sp := own_spec wf
    generalize r.own h = p at sp
    obtain ⟨r1, h1⟩ := p
    simp only at sp ⊢
    rw [(allocLoop_spec .bool _ r1.tab news h1).old _ (by simp), sp.tab, hne]
    rfl

theorem oneHotView_stepOK [GoFloat F] {enc : OneHotEncoder} {order : List GoStr} {d : DF} {h h' : Heap F} {o : Option DF}
    (wf : d.WF h) (mwf : d.MaskWF h) (sep : d.toRaw.Sep) (ho : order.Perm enc.catCols)
    (e : enc.transformView order d h = .ok (o, h')) : Safe h h' ∧ ∀ v, o = some v → StepOK h d h' v := by
  unfold OneHotEncoder.transformView at e
  simp only at e
  split at e
  · cases e
    exact ⟨Safe.refl _, fun v hv => by cases hv; exact view_step wf mwf⟩
  · rename_i hcat
    have s0 := view_step wf mwf
    -- there is a column, otherwise the first job panics
    have hcol : (abs h d.view).hasColumn := by
      rw [hasColumn_iff]
      intro h0
      cases hq : runQueue enc.catCols order d.maxCPU (oneHotJob enc (d.view.withRaw (d.view.toRaw.alloc .bool enc.newCols h)).1)
          ((d.view.withRaw (d.view.toRaw.alloc .bool enc.newCols h)).2, false) with
      | error x => rw [hq] at e; cases e
      | ok s =>
        unfold runQueue at hq
        rw [if_neg hcat] at hq
        split at hq
        · cases hq
        · cases horder : order with
          | nil => rw [horder] at ho; exact hcat ho.nil_eq.symm
          | cons c cs =>
            rw [horder, List.foldlM_cons] at hq
            cases hj : oneHotJob enc (d.view.withRaw (d.view.toRaw.alloc .bool enc.newCols h)).1 c
                ((d.view.withRaw (d.view.toRaw.alloc .bool enc.newCols h)).2, false) with
            | error x => rw [hj] at hq; cases hq
            | ok s1 =>
              have h1 := (oneHotJob_quiet hj).2
              have h2 := alloc_no_int s0.wf.toWF h0 enc.newCols c
              change (AMap.get ((d.view.toRaw.alloc .bool enc.newCols h).2.tab (d.view.toRaw.alloc .bool enc.newCols h).1.tab) (.int, c)).isSome at h1
              rw [h2] at h1; cases h1
    have s1 : StepOK h d (d.view.withRaw (d.view.toRaw.alloc .bool enc.newCols h)).2 (d.view.withRaw (d.view.toRaw.alloc .bool enc.newCols h)).1 :=
      s0.trans (Edit.stepOK (e := .alloc .bool enc.newCols) s0.wf s0.mwf (s0.sep sep) hcol rfl)
    generalize d.view.withRaw (d.view.toRaw.alloc .bool enc.newCols h) = p at e s1
    obtain ⟨r, h1⟩ := p
    simp only at e s1
    have q : ∀ s, runQueue enc.catCols order d.maxCPU (oneHotJob enc r) (h1, false) = .ok s → Quiet h1 s.1 := by
      intro s hq
      exact runQueue_keeps (P := fun s : Heap F × Bool => Quiet h1 s.1)
        (fun c s s' hs hj => hs.trans (oneHotJob_quiet hj).1) (Quiet.refl _) hq
    split at e
    · cases e
    · rename_i h2 hq
      cases e
      exact ⟨s1.safe.trans (q _ hq).safe, fun v hv => by cases hv⟩
    · rename_i h2 hq
      have s2 := s1.safe_right (q _ hq).safe
      split at e
      · cases e
        exact ⟨s2.safe, fun v hv => by cases hv; exact s2⟩
      · cases e
        have s3 := s2.trans (Edit.stepOK (e := .drop enc.catCols) s2.wf s2.mwf (s2.sep sep) trivial rfl)
        exact ⟨s3.safe, fun v hv => by cases hv; exact s3⟩

/-! ### the auto-preprocessor -/

theorem detach_stepOK {p : AutoPreprocessor F} {sch : AutoSched} {d : DF} {h : Heap F} (wf : d.WF h) (mwf : d.MaskWF h) :
    StepOK h d (p.detach sch d h).2 (p.detach sch d h).1 ∧
    ((abs h d).hasColumn → (abs (p.detach sch d h).2 (p.detach sch d h).1).hasColumn) := by
  have key : ∀ cols, StepOK h d (d.detachedView cols h).2 (d.detachedView cols h).1 ∧
      ((abs h d).hasColumn → (abs (d.detachedView cols h).2 (d.detachedView cols h).1).hasColumn) := by
    intro cols
    refine ⟨detachedView_stepOK wf mwf cols, fun hc => ?_⟩
    rw [(C14_detached_shows wf cols).1]; exact hc
  unfold AutoPreprocessor.detach
  split
  · exact key _
  · split
    · exact key _
    · exact ⟨⟨Safe.refl _, wf, mwf, fun i hi => Or.inl hi, fun i hi => Or.inl hi, fun s => s⟩, id⟩

theorem imputeIf_quiet [GoFloat F] {im : Option (FloatImputer F)} {d : DF} {h h' : Heap F} (e : imputeIf im d h = .ok h') : Quiet h h' := by
  unfold imputeIf at e
  split at e
  · exact imputeLoop_quiet e
  · cases e; exact Quiet.refl _

theorem scaleIf_quiet [GoFloat F] {sc : Option (Scaler F)} {sch : AutoSched} {d : DF} {h h' : Heap F}
    (e : scaleIf sc sch d h = .ok h') : Quiet h h' := by
  unfold scaleIf at e
  split at e
  · exact scale_quiet e
  · cases e; exact Quiet.refl _

theorem StepOK.self {d : DF} {h : Heap F} (wf : d.WF h) (mwf : d.MaskWF h) : StepOK h d h d :=
  ⟨Safe.refl _, wf, mwf, fun _ hi => Or.inl hi, fun _ hi => Or.inl hi, fun s => s⟩

theorem autoView_stepOK [GoFloat F] {p : AutoPreprocessor F} {sch : AutoSched} {d : DF} {h h' : Heap F} {o : Option DF}
    (wf : d.WF h) (mwf : d.MaskWF h) (sep : d.toRaw.Sep) (hc : p.stringToInt = none ∨ (abs h d).hasColumn)
    (e : p.transformView sch d h = .ok (o, h')) : Safe h h' ∧ ∀ v, o = some v → StepOK h d h' v := by
  unfold AutoPreprocessor.transformView at e
  simp only at e
  obtain ⟨s1, c1⟩ := detach_stepOK (p := p) (sch := sch) wf mwf
  generalize p.detach sch d h = x at e s1 c1
  obtain ⟨d1, h1⟩ := x
  simp only at e s1 c1
  split at e
  · cases e
  · rename_i h2 e2
    have q2 := imputeIf_quiet e2
    split at e
    · cases e
    · rename_i h3 e3
      have q3 := scaleIf_quiet e3
      have q := q2.trans q3
      have s3 := s1.safe_right q.safe
      split at e
      · cases e
      · rename_i d4 h4 e4
        have s4 : StepOK h d h4 d4 := by
          unfold hashIf at e4
          split at e4
          · rename_i enc henc
            have hcol : (abs h3 d1).hasColumn := by
              rcases hc with hc | hc
              · rw [hc] at henc; cases henc
              · exact hasColumn_safe q.tab (c1 hc)
            exact s3.trans (hashStringsView_stepOK s3.wf s3.mwf (s3.sep sep) (Or.inr hcol) e4)
          · cases e4; exact s3
        split at e
        · obtain ⟨s5, s6⟩ := oneHotView_stepOK s4.wf s4.mwf (s4.sep sep) (sch.oneHotRun_perm _) e
          exact ⟨s4.safe.trans s5, fun v hv => s4.trans (s6 v hv)⟩
        · cases e
          exact ⟨s4.safe, fun v hv => by cases hv; exact s4⟩

theorem fitFloats_safe [GoFloat F] {p p' : AutoPreprocessor F} {sch : AutoSched} {d : DF} {h h' : Heap F}
    (wf : d.WF h) (mwf : d.MaskWF h) (sep : d.toRaw.Sep) (e : p.fitFloats sch d h = .ok (p', h')) : Safe h h' := by
  unfold AutoPreprocessor.fitFloats at e
  split at e
  · simp only at e
    have s := (columnView_stepOK wf mwf sep (p.floatCols d h)).safe
    split at e
    · cases e
    · split at e
      · cases e
      · cases e; exact s
  · cases e; exact Safe.refl _

/-- `fitFloats` keeps the table of the dataframe. -/
theorem fitFloats_tab [GoFloat F] {p p' : AutoPreprocessor F} {sch : AutoSched} {d : DF} {h h' : Heap F}
    (wf : d.WF h) (sep : d.toRaw.Sep) (e : p.fitFloats sch d h = .ok (p', h')) : h'.tab d.tab = h.tab d.tab := by
  unfold AutoPreprocessor.fitFloats at e
  split at e
  · simp only at e
    have key : (d.columnView (p.floatCols d h) h).2.tab d.tab = h.tab d.tab := by
      by_cases hne : p.floatCols d h = []
      · rw [hne]; rfl
      · exact (columnView_spec wf sep hne).frame.tab _ wf.tab_lt id
    split at e
    · cases e
    · split at e
      · cases e
      · cases e; exact key
  · cases e; rfl

theorem fitHash_stepOK [GoFloat F] {p p' : AutoPreprocessor F} {sch : AutoSched} {d d' : DF} {cat : List GoStr} {h h' : Heap F}
    (wf : d.WF h) (mwf : d.MaskWF h) (sep : d.toRaw.Sep) (hc : (abs h d).hasColumn)
    (e : p.fitHash sch d h = .ok ((p', d', cat), h')) : StepOK h d h' d' := by
  unfold AutoPreprocessor.fitHash at e
  split at e
  · simp only at e
    split at e
    · cases e
    · rename_i e1
      cases e
      exact hashStringsView_stepOK wf mwf sep (Or.inr hc) e1
  · cases e; exact StepOK.self wf mwf

theorem fitOneHot_safe [GoFloat F] {p p' : AutoPreprocessor F} {sch : AutoSched} {d : DF} {cat : List GoStr} {h h' : Heap F}
    (wf : d.WF h) (mwf : d.MaskWF h) (sep : d.toRaw.Sep) (e : p.fitOneHot sch d cat h = .ok (p', h')) : Safe h h' := by
  unfold AutoPreprocessor.fitOneHot at e
  split at e
  · simp only at e
    have s := (columnView_stepOK wf mwf sep cat).safe
    split at e
    · cases e
    · cases e; exact s
  · cases e; exact Safe.refl _

theorem runFloats_stepOK [GoFloat F] {p : AutoPreprocessor F} {sch : AutoSched} {cols : List GoStr} {d d' : DF} {h h' : Heap F}
    (wf : d.WF h) (mwf : d.MaskWF h) (e : p.runFloats sch cols d h = .ok (d', h')) : StepOK h d h' d' := by
  unfold AutoPreprocessor.runFloats at e
  simp only at e
  have s := detachedView_stepOK wf mwf cols
  generalize d.detachedView cols h = x at e s
  obtain ⟨d1, h1⟩ := x
  simp only at e s
  split at e
  · cases e
  · split at e
    · cases e
    · rename_i e1
      split at e
      · cases e
      · split at e
        · cases e
        · rename_i e2
          cases e
          exact s.safe_right ((imputeLoop_quiet e1).trans (scale_quiet e2)).safe

theorem autoFitWith_stepOK [GoFloat F] {p p' : AutoPreprocessor F} {sch : AutoSched} {d : DF} {t : Bool} {h h' : Heap F}
    {o : Option (Option DF)} (wf : d.WF h) (mwf : d.MaskWF h) (sep : d.toRaw.Sep) (hc : (abs h d).hasColumn)
    (e : p.fitWith sch d t h = .ok ((p', o), h')) : Safe h h' ∧ ∀ v, o = some (some v) → StepOK h d h' v := by
  unfold AutoPreprocessor.fitWith at e
  simp only at e
  split at e
  · cases e
  · rename_i p1 h1 e1
    have s1 := fitFloats_safe wf mwf sep e1
    have t1 := fitFloats_tab wf sep e1
    have S1 := (StepOK.self wf mwf).safe_right s1
    split at e
    · cases e
    · rename_i p2 d2 cat h2 e2
      have hc1 : (abs h1 d).hasColumn := by
        rw [hasColumn_iff] at hc ⊢; rw [t1]; exact hc
      have S2 := S1.trans (fitHash_stepOK S1.wf S1.mwf (S1.sep sep) hc1 e2)
      split at e
      · cases e
      · rename_i p3 h3 e3
        have S3 := S2.safe_right (fitOneHot_safe S2.wf S2.mwf (S2.sep sep) e3)
        split at e
        · split at e
          · split at e
            · cases e
            · rename_i h4 e4
              cases e
              exact ⟨S3.safe.trans (oneHotView_stepOK S3.wf S3.mwf (S3.sep sep) (sch.oneHotRun_perm _) e4).1, fun v hv => by cases hv⟩
            · rename_i d4 h4 e4
              have S4 := S3.trans ((oneHotView_stepOK S3.wf S3.mwf (S3.sep sep) (sch.oneHotRun_perm _) e4).2 _ rfl)
              split at e
              · cases e
              · rename_i e5
                cases e
                have S5 := S4.trans (runFloats_stepOK S4.wf S4.mwf e5)
                exact ⟨S5.safe, fun v hv => by cases hv; exact S5⟩
          · split at e
            · cases e
              exact ⟨S3.safe, fun v hv => by cases hv; exact S3⟩
            · split at e
              · cases e
              · rename_i e5
                cases e
                have S5 := S3.trans (runFloats_stepOK S3.wf S3.mwf e5)
                exact ⟨S5.safe, fun v hv => by cases hv; exact S5⟩
        · cases e
          exact ⟨S3.safe, fun v hv => by cases hv⟩

/-! ### the linear regressor -/

theorem splitView_safe {d : DF} {b : Int} {vs : List DF} {h h' : Heap F} (wf : d.WF h)
    (e : d.splitView b h = .ok (vs, h')) : Safe h h' := Safe.ext (splitView_ext wf e)

theorem vecDense_ext {d : DF} {c : GoStr} {s : Slice} {h h' : Heap F} (e : d.vecDense h c = .ok (s, h')) : Heap.Ext h h' := by
  unfold DF.vecDense at e
  split at e
  · cases e
  · split at e
    · split at e
      · cases e
      · cases e; exact Heap.Ext.refl _
    · unfold DF.vecDenseCopy at e
      split at e
      · cases e
      · split at e
        · cases e
        · split at e
          · cases e
          · have e := Except.ok.inj e
            rw [← show (h.newArr _).2 = h' from congrArg Prod.snd e]
            exact Heap.newArr_ext ..

theorem fitBatches_ext [GoFloat F] {bl : Blas F} {p : LinRegTrainParams F} {bs : List DF} {s s' : FitState F} {h h' : Heap F}
    (e : fitBatches bl p bs s h = .ok (s', h')) : Heap.Ext h h' := by
  induction bs generalizing s h with
  | nil => cases e; exact Heap.Ext.refl _
  | cons b bs ih =>
    simp only [fitBatches] at e
    split at e
    · cases e
    · rename_i s1 h1 e1
      refine Heap.Ext.trans ?_ (ih e)
      unfold fitBatch at e1
      split at e1
      · cases e1
      · split at e1
        · cases e1
        · rename_i hv
          have x := vecDense_ext hv
          split at e1
          · cases e1
          · split at e1
            · cases e1
            · simp only at e1
              split at e1
              · cases e1; exact x
              · cases e1

theorem fitEpoch_safe [GoFloat F] {bl : Blas F} {p : LinRegTrainParams F} {perm : List Nat} {d : DF} {s s' : FitState F} {h h' : Heap F}
    (wf : d.WF h) (mwf : d.MaskWF h) (e : fitEpoch bl p perm d s h = .ok (s', h')) : Safe h h' := by
  unfold fitEpoch at e
  split at e
  · cases e
  · rename_i d1 h1 e1
    have s1 : Safe h h1 ∧ d1.WF h1 := by
      unfold fitShuffled at e1
      split at e1
      · cases e1
      · rename_i d2 h2 e2
        have S := (indexView_stepOK wf mwf e2).1
        split at e1
        · cases e1; exact ⟨S.safe, S.wf⟩
        · obtain ⟨c', h3, e', sp⟩ := copy_spec S.wf
          rw [e1] at e'; cases e'
          exact ⟨S.safe.trans (Safe.ext sp.ext), sp.wf⟩
    split at e
    · cases e
    · rename_i e2
      exact s1.1.trans ((splitView_safe s1.2 e2).trans (Safe.ext (fitBatches_ext e)))

theorem fitEpochs_safe [GoFloat F] {bl : Blas F} {p : LinRegTrainParams F} {sch : FitSched F} {d : DF} {es : List Int} {s s' : FitState F}
    {h h' : Heap F} (wf : d.WF h) (mwf : d.MaskWF h) (e : fitEpochs bl p sch d es s h = .ok (s', h')) : Safe h h' := by
  induction es generalizing s h with
  | nil => cases e; exact Safe.refl _
  | cons n es ih =>
    simp only [fitEpochs] at e
    split at e
    · cases e
    · rename_i e1
      have s1 := fitEpoch_safe wf mwf e1
      exact s1.trans (ih (wf.safe s1) (mwf.safe s1) e)

theorem fitPrepare_stepOK [GoFloat F] {names : List GoStr} {d d' : DF} {target : GoStr} {sc : Scaler F} {h h' : Heap F}
    (wf : d.WF h) (mwf : d.MaskWF h) (sep : d.toRaw.Sep) (e : fitPrepare names d target h = .ok (d', sc, h')) : StepOK h d h' d' := by
  unfold fitPrepare at e
  simp only at e
  have s1 := columnView_stepOK wf mwf sep names
  generalize d.columnView names h = x at e s1
  obtain ⟨d1, h1⟩ := x
  simp only at e s1
  have s2 := s1.trans (detachedView_stepOK s1.wf s1.mwf [target])
  generalize d1.detachedView [target] h1 = x at e s2
  obtain ⟨d2, h2⟩ := x
  simp only at e s2
  split at e
  · cases e
  · rename_i raw h3 e3
    have s3 : StepOK h d h3 { d2 with toRaw := raw } := s2.trans (Edit.stepOK (e := .rename target b!"_target") s2.wf s2.mwf (s2.sep sep) trivial (by
      simp only [Edit.run, e3]; rfl))
    have s4 := columnView_stepOK s3.wf s3.mwf (s3.sep sep) [b!"_target"]
    split at e
    · cases e
    · split at e
      · cases e
      · rename_i e5
        cases e
        exact s3.safe_right (s4.safe.trans (scale_quiet e5).safe)

theorem linRegFit_safe [GoFloat F] {bl : Blas F} {sch : FitSched F} {d : DF} {target : GoStr} {p : LinRegTrainParams F} {reg : LinearRegressor F}
    {h h' : Heap F} (wf : d.WF h) (mwf : d.MaskWF h) (sep : d.toRaw.Sep) (e : linRegFit bl sch d target p h = .ok (reg, h')) : Safe h h' := by
  unfold linRegFit at e
  simp only at e
  split at e
  · cases e
  · rename_i d1 sc h1 e1
    have s := fitPrepare_stepOK wf mwf sep e1
    unfold fitTrain at e
    split at e
    · cases e
    · split at e
      · cases e
      · split at e
        · cases e
        · rename_i e2
          cases e
          exact s.safe.trans (fitEpochs_safe s.wf s.mwf e2)

theorem predict_stepOK [GoFloat F] {reg : LinearRegressor F} {dot : List F → List F → F} {d d' : DF} {out : GoStr} {order : List GoStr}
    {h h' : Heap F} (wf : d.WF h) (mwf : d.MaskWF h) (sep : d.toRaw.Sep) (hc : (abs h d).hasColumn)
    (e : reg.predict dot d out order h = .ok (d', h')) : StepOK h d h' d' := by
  unfold LinearRegressor.predict at e
  simp only at e
  have s1 := resetIndexView_stepOK wf mwf
  split at e
  · cases e
  · split at e
    · cases e
    · rename_i bs h1 e1
      have x1 := splitView_ext s1.wf e1
      have s2 := s1.safe_right (Safe.ext x1)
      split at e
      · cases e
      · split at e
        · cases e
        · rename_i d3 h3 e3
          have s2v := s2.trans (view_step s2.wf s2.mwf)
          have hc2 : (abs h1 d.resetIndexView.view).hasColumn := by
            rw [hasColumn_iff] at hc ⊢
            rw [show h1.tab d.resetIndexView.view.tab = h.tab d.tab from x1.tab _ wf.tab_lt]
            exact hc
          have s3 := s2v.trans (Edit.stepOK (e := .overwrite .float b!"_target" _ false) s2v.wf s2v.mwf (s2v.sep sep) hc2 e3)
          split at e
          · cases e
          · split at e
            · cases e
            · rename_i e4
              have s4 := s3.safe_right (scale_quiet e4).safe
              split at e
              · cases e
              · rename_i e5
                cases e
                exact s4.trans (Edit.stepOK (e := .rename b!"_target" out) s4.wf s4.mwf (s4.sep sep) trivial (by
                  simp only [Edit.run, e5]; rfl))

/-! ### structures read from files or merged -/

/-- A structure that did not exist in `h0`: nothing of it but memory it may share with other new structures. -/
structure RawNew (h0 h : Heap F) (r : Raw) : Prop where
  ext : Heap.Ext h0 h
  wf : r.WF h
  str : ∀ i, r.strHdr = some i → h0.next ≤ i

theorem RawNew.later {h0 h h1 : Heap F} {r : Raw} (n : RawNew h0 h r) (e : Heap.Ext h h1) : RawNew h0 h1 r :=
  ⟨n.ext.trans e, n.wf.ext e, n.str⟩

theorem toDataFrame_joins {w : World F} {h : Heap F} {r : Raw} (n : RawNew w.h h r) {v : DF} {h' : Heap F}
    (e : r.toDataFrame h = .ok (v, h')) : Joins w h' v := by
  have b := n.wf
  have hsh : v.shared = none := by
    unfold Raw.toDataFrame at e
    simp only at e
    split at e
    · cases e; rfl
    · cases e
  have key : Heap.Ext h h' ∧ v.WF h' ∧ v.MaskWF h' ∧ v.strHdr = r.strHdr := by
    by_cases hne : h.tab r.tab = []
    · obtain ⟨v', h2, e', h3, h4, h5, _, _, h6, _⟩ := toDataFrame_nil b hne
      rw [e] at e'; cases e'; exact ⟨h5, h3, h4, h6⟩
    · obtain ⟨x, hx⟩ := List.exists_mem_of_ne_nil _ hne
      obtain ⟨k0, s0⟩ := x
      have g0 := AMap.get_of_mem b.keys hx
      have hN : ∀ k s, AMap.get (h.tab r.tab) k = some s → s.len = s0.len := by
        intro k s hk
        refine Classical.byContradiction fun hx => ?_
        rw [toDataFrame_err b hk g0 hx] at e; cases e
      obtain ⟨v', h2, e', h3, h4, h5, _, _, _, h6, _⟩ := toDataFrame_ok b hN hne
      rw [e] at e'; cases e'; exact ⟨h5, h3, h4, h6⟩
  obtain ⟨h5, h3, h4, h6⟩ := key
  refine Joins.fresh (Safe.ext (n.ext.trans h5)) h3 h4 ?_ (fun i hi => by rw [hsh] at hi; cases hi)
  rintro i (hi | hi)
  · rw [hsh] at hi; cases hi
  · rw [h6] at hi; exact n.str i hi

theorem mergeColumns_new {h0 h : Heap F} {l : List Raw} (hx : Heap.Ext h0 h) (wf : ∀ d ∈ l, d.WF h) :
    RawNew h0 (mergeRawDataColumns l h).2 (mergeRawDataColumns l h).1 := by
  have m := (mergeRawDataColumns_inv wf).1
  refine ⟨hx.trans m.ext, (C56_columns wf).2.2.2.2.2, fun i hi => ?_⟩
  have := (m.newSt i hi).1
  have := hx.next_le
  omega

theorem mergeRows_new [GoFloat F] {h0 h : Heap F} {l : List Raw} (hx : Heap.Ext h0 h) (wf : ∀ d ∈ l, d.WF h) :
    RawNew h0 (mergeRawDataRows l h).2 (mergeRawDataRows l h).1 := by
  obtain ⟨m, e, _⟩ := mergeRawDataRows_spec wf
  refine ⟨hx.trans m.ext, m.toWF, fun i hi => ?_⟩
  rw [e] at hi; cases hi

theorem buildAll_new [GoFloat F] (opss : List (List (BOp F))) (h : Heap F) :
    Heap.Ext h (buildAll opss h).2 ∧ ∀ d ∈ (buildAll opss h).1, d.WF (buildAll opss h).2 := by
  induction opss generalizing h with
  | nil => exact ⟨Heap.Ext.refl _, fun d hd => by cases hd⟩
  | cons ops l ih =>
    have n := build_new ops h
    have b := (buildInv_build ops h).toWF
    obtain ⟨i1, i2⟩ := ih (build ops h).2
    refine ⟨n.ext.trans i1, fun d hd => ?_⟩
    simp only [buildAll] at hd ⊢
    rcases List.mem_cons.1 hd with rfl | hd
    · exact b.ext i1
    · exact i2 d hd

theorem colCells_length {records : List (List GoStr)} {j : Int} {cells : List GoStr} (e : colCells records j = .ok cells) :
    cells.length = records.length := by
  induction records generalizing cells with
  | nil => cases e; rfl
  | cons r rs ih =>
    unfold colCells at e
    split at e
    · cases e
    · split at e
      · cases e
      · rename_i e'
        cases e
        simp [ih e']

/-- The cells of a column, if it could be read. -/
def cellsRead (records : List (List GoStr)) (header : List GoStr) (c : GoStr) : List GoStr :=
  match colCells records (indexOfString c header 0) with
  | .ok v => v
  | .error _ => []

theorem csv_loop_inv [GoFloat F] {pf : GoStr → Option F} {spec : CSVReadingSpec} {records : List (List GoStr)}
    {header : List GoStr} {W : Nat} {who : GoStr → Nat} {h0 : Heap F} (order : List GoStr) :
    ∀ {h h' : Heap F} {done : List GoStr} {ws ws' : List CsvWorker},
    CsvInv pf spec (cellsRead records header) records.length W who h0 done ws h → (done ++ order).Nodup →
    order.foldlM (fun s c => csvJob pf spec records header who c s) (ws, h) = .ok (ws', h') →
    CsvInv pf spec (cellsRead records header) records.length W who h0 (done ++ order) ws' h' := by
  induction order with
  | nil => intro h h' done ws ws' inv _ e; cases e; simpa using inv
  | cons c cs ih =>
    intro h h' done ws ws' inv nd e
    have hnew : c ∉ done := by
      intro hx
      rw [List.nodup_append] at nd
      exact nd.2.2 c hx c (by simp) rfl
    rw [List.foldlM_cons] at e
    cases hj : csvJob pf spec records header who c (ws, h) with
    | error x => rw [hj] at e; cases e
    | ok g =>
      rw [hj] at e
      have hW : 0 < W := by
        refine Nat.pos_of_ne_zero fun h0 => ?_
        have : ws = [] := List.eq_nil_of_length_eq_zero (by rw [inv.num, h0])
        subst this
        simp [csvJob] at hj
      have hc : ∃ cells, colCells records (indexOfString c header 0) = .ok cells := by
        cases hcc : colCells records (indexOfString c header 0) with
        | ok v => exact ⟨v, rfl⟩
        | error x =>
          unfold csvJob at hj
          simp only at hj
          split at hj
          · cases hj
          · unfold csvColumn at hj
            rw [hcc] at hj
            cases hj
      obtain ⟨cells, hc⟩ := hc
      have hcr : cellsRead records header c = cells := by simp [cellsRead, hc]
      obtain ⟨ws1, h1, e1, inv1⟩ := inv.step hW hnew (by rw [hcr]; exact hc) (by rw [hcr]; exact colCells_length hc)
      rw [hj] at e1
      cases e1
      have := ih inv1 (by simpa using nd) e
      simpa using this

theorem fromCSV_new [GoFloat F] {pf : GoStr → Option F} {jobs : List GoStr → List GoStr} (hp : ∀ l, (jobs l).Perm l)
    {who : GoStr → Nat} {inp : CsvInput} {spec : CSVReadingSpec} {h h' : Heap F} {o : Option Raw}
    (e : fromCSV pf jobs who inp spec h = .ok (o, h')) : Heap.Ext h h' ∧ ∀ r, o = some r → RawNew h h' r := by
  unfold fromCSV at e
  split at e
  · cases e; exact ⟨Heap.Ext.refl _, fun r hr => by cases hr⟩
  · rename_i header records hr
    simp only at e
    obtain ⟨cols, hcols⟩ : ∃ cols, cols = csvColumns header spec.exclude := ⟨_, rfl⟩
    obtain ⟨cpu, hcpu⟩ : ∃ cpu, cpu = clampCPU h.rt.numCPU spec.maxCPU := ⟨_, rfl⟩
    rw [← hcols, ← hcpu] at e
    generalize (queueWorkers cols cpu).toNat = W at e
    have inv0 := csvWorkers_inv pf spec (cellsRead records header) records.length W who h
    generalize csvWorkers records.length W h = p at inv0 e
    obtain ⟨ws0, h1⟩ := p
    dsimp only at inv0 e
    split at e
    · cases e
    · rename_i ws h2 hq
      have key : ∃ done, CsvInv pf spec (cellsRead records header) records.length W who h done ws h2 := by
        unfold runQueue at hq
        split at hq
        · cases hq; exact ⟨_, inv0⟩
        · split at hq
          · cases hq
          · refine ⟨_, csv_loop_inv (jobs cols) inv0 ?_ hq⟩
            simp only [List.nil_append]
            rw [(hp cols).nodup_iff, hcols]
            exact nodup_csvColumns _ _
      obtain ⟨done, inv⟩ := key
      have n := mergeColumns_new (l := ws.map (·.data)) inv.ext (fun d hd => by
        obtain ⟨w, hw, rfl⟩ := List.mem_map.1 hd
        obtain ⟨i, hi⟩ := List.mem_iff_getElem?.1 hw
        exact inv.wf i w hi)
      cases e
      refine ⟨n.ext, fun r hr => ?_⟩
      cases hr
      exact ⟨n.ext, ⟨n.wf.tab_lt, n.wf.shared_lt, n.wf.str_lt, n.wf.keys, n.wf.slices⟩, n.str⟩

theorem fromCSVFile_new [GoFloat F] {pf : GoStr → Option F} {jobs : List GoStr → List GoStr} (hp : ∀ l, (jobs l).Perm l)
    {who : GoStr → Nat} {files : GoStr → Option CsvInput} {path : GoStr} {spec : CSVReadingSpec} {h h' : Heap F} {o : Option Raw}
    (e : fromCSVFile pf jobs who files path spec h = .ok (o, h')) : Heap.Ext h h' ∧ ∀ r, o = some r → RawNew h h' r := by
  unfold fromCSVFile at e
  split at e
  · cases e; exact ⟨Heap.Ext.refl _, fun r hr => by cases hr⟩
  · exact fromCSV_new hp e

theorem collectResults_mem {l : List (GoStr × Option Raw)} {rs : List Raw} (e : collectResults l = some rs) :
    ∀ r ∈ rs, ∃ p, (p, some r) ∈ l := by
  induction l generalizing rs with
  | nil => cases e; intro r hr; cases hr
  | cons x l ih =>
    obtain ⟨p, o⟩ := x
    cases o with
    | none => cases e
    | some r0 =>
      simp only [collectResults, Option.map_eq_some_iff] at e
      obtain ⟨rs', e', rfl⟩ := e
      intro r hr
      rcases List.mem_cons.1 hr with rfl | hr
      · exact ⟨p, by simp⟩
      · obtain ⟨q, hq⟩ := ih e' r hr
        exact ⟨q, by simp [hq]⟩

theorem fromFiles_new [GoFloat F] {pf : GoStr → Option F} {sch : FilesSched} {found : Option (List (GoStr × Option Bool))}
    {files : GoStr → Option CsvInput} {spec : CSVReadingSpec} {h h' : Heap F} {o : Option (Option Raw)}
    (e : fromCSVFilePattern pf sch found files spec h = .ok (o, h')) :
    Heap.Ext h h' ∧ ∀ r, o.join = some r → RawNew h h' r := by
  unfold fromCSVFilePattern at e
  split at e
  · cases e; exact ⟨Heap.Ext.refl _, fun r hr => by cases hr⟩
  · cases e; exact ⟨Heap.Ext.refl _, fun r hr => by cases hr⟩
  · split at e
    · cases e
    · rename_i p _ r0 h1 e1
      cases e
      obtain ⟨x, n⟩ := fromCSVFile_new (sch.jobs_perm _) e1
      refine ⟨x, fun r hr => n r ?_⟩
      cases r0 with
      | none => cases hr
      | some q => exact hr
  · simp only at e
    split at e
    · cases e
    · rename_i results h1 hq
      have key := runQueue_keeps (P := fun s : List (GoStr × Option Raw) × Heap F =>
          Heap.Ext h s.2 ∧ ∀ p r, (p, some r) ∈ s.1 → r.WF s.2) (by
        rintro c ⟨l, g⟩ ⟨l', g'⟩ ⟨hx, hw⟩ hj
        unfold fileJob at hj
        split at hj
        · cases hj
        · rename_i r0 g1 e1
          cases hj
          obtain ⟨x, n⟩ := fromCSVFile_new (sch.jobs_perm _) e1
          refine ⟨hx.trans x, fun p r hr => ?_⟩
          rcases List.mem_append.1 hr with hr | hr
          · exact (hw p r hr).ext x
          · simp only [List.mem_singleton, Prod.mk.injEq] at hr
            exact (n r hr.2.symm).wf) ⟨Heap.Ext.refl _, fun p r hr => by cases hr⟩ hq
      obtain ⟨hx, hw⟩ := key
      split at e
      · cases e; exact ⟨hx, fun r hr => by cases hr⟩
      · rename_i rs hc
        have n := mergeRows_new (l := rs) hx (fun d hd => by
          obtain ⟨p, hp⟩ := collectResults_mem hc d hd
          exact hw p d ((sch.arrive_perm _).mem_iff.1 hp))
        generalize mergeRawDataRows rs h1 = y at n e
        obtain ⟨r1, h2⟩ := y
        simp only at e n
        cases e
        refine ⟨n.ext, fun r hr => ?_⟩
        cases hr
        exact n

/-! ### all calls -/

theorem exceptMap_ok {α β : Type} {x : Except Abort α} {f : α → β} {b : β} (e : x.map f = .ok b) : ∃ a, x = .ok a ∧ f a = b := by
  cases x with
  | error x => cases e
  | ok a => exact ⟨a, rfl, by cases e; rfl⟩

theorem setHeap_good {w w' : World F} (g : w.Good) {x : Except Abort (Heap F)} (e : w.setHeap x = .ok w')
    (hx : ∀ h', x = .ok h' → Safe w.h h') : w'.Good := by
  unfold World.setHeap at e
  split at e
  · cases e
  · cases e; exact g.safe (hx _ rfl)

theorem addOpt_good {w w' : World F} (g : w.Good) {x : Except Abort (Option DF × Heap F)} (e : w.addOpt x = .ok w')
    (hx : ∀ o h', x = .ok (o, h') → Safe w.h h' ∧ ∀ v, o = some v → Joins w h' v) : w'.Good := by
  unfold World.addOpt at e
  split at e
  · cases e
  · cases e; exact g.safe (hx _ _ rfl).1
  · cases e; exact g.push ((hx _ _ rfl).2 _ rfl)

theorem addRaw_good {w w' : World F} (g : w.Good) {x : Except Abort (Option Raw × Heap F)} (e : w.addRaw x = .ok w')
    (hx : ∀ o h', x = .ok (o, h') → Heap.Ext w.h h' ∧ ∀ r, o = some r → RawNew w.h h' r) : w'.Good := by
  unfold World.addRaw at e
  split at e
  · cases e
  · cases e; exact g.safe (Safe.ext (hx _ _ rfl).1)
  · exact add1_good g e (fun d h' he => toDataFrame_joins ((hx _ _ rfl).2 _ rfl) he)

/-- A legal call that returns keeps everything consistent. -/
theorem Step.good [GoFloat F] {w w' : World F} {c : Step F} (g : w.Good) (lg : c.Legal w) (e : c.run w = .ok w') : w'.Good := by
  have opt : ∀ (i : Nat) (f : DF → Except Abort (Option DF × Heap F)), w.on i (fun d => w.addOpt (f d)) = .ok w' →
      (∀ d, w.dfs[i]? = some d → d ∈ w.dfs → ∀ o h', f d = .ok (o, h') → Safe w.h h' ∧ ∀ v, o = some v → StepOK w.h d h' v) → w'.Good := by
    intro i f e hf
    exact on_good g e (fun d hd hm w2 e2 => addOpt_good g e2 (fun o h' he =>
      ⟨(hf d hd hm o h' he).1, fun v hv => ((hf d hd hm o h' he).2 v hv).joins g hm⟩))
  have heap : ∀ (i : Nat) (f : DF → Except Abort (Heap F)), w.on i (fun d => w.setHeap (f d)) = .ok w' →
      (∀ d, w.dfs[i]? = some d → d ∈ w.dfs → ∀ h', f d = .ok h' → Safe w.h h') → w'.Good := by
    intro i f e hf
    exact on_good g e (fun d hd hm w2 e2 => setHeap_good g e2 (hf d hd hm))
  cases c with
  | call c => exact Call.good g lg e
  | impute i im => exact heap i _ e (fun d hd hm h' he => (imputeLoop_quiet he).safe)
  | scale i sc o => exact heap i _ e (fun d hd hm h' he => (scale_quiet he).safe)
  | unscale i sc o => exact heap i _ e (fun d hd hm h' he => (scale_quiet (sc := sc.reverse) he).safe)
  | hashEncode i enc o =>
    exact on_good g e (fun d hd hm w2 e2 => add1_good g e2 (fun v h' he =>
      (hashStringsView_stepOK (g.wf d hm) (g.mwf d hm) (g.sep d hm d hm) (lg.imp id (fun x => x d hd)) he).joins g hm))
  | oneHotEncode i enc o =>
    exact opt i _ e (fun d hd hm o h' he => oneHotView_stepOK (g.wf d hm) (g.mwf d hm) (g.sep d hm d hm) lg he)
  | autoTransform i p sch =>
    exact opt i _ e (fun d hd hm o h' he =>
      autoView_stepOK (g.wf d hm) (g.mwf d hm) (g.sep d hm d hm) (lg.imp id (fun x => x d hd)) he)
  | autoFit i p sch =>
    refine heap i _ e (fun d hd hm h' he => ?_)
    obtain ⟨⟨x, h1⟩, hx, rfl⟩ := exceptMap_ok he
    unfold AutoPreprocessor.fit at hx
    split at hx
    · cases hx
    · rename_i hw
      cases hx
      exact (autoFitWith_stepOK (g.wf d hm) (g.mwf d hm) (g.sep d hm d hm) (lg d hd) hw).1
  | autoFitTransform i p sch =>
    refine opt i _ e (fun d hd hm o h' he => ?_)
    obtain ⟨⟨⟨x, y⟩, h1⟩, hx, he⟩ := exceptMap_ok he
    cases he
    unfold AutoPreprocessor.fitTransform at hx
    split at hx
    · cases hx
    · cases hx
    · rename_i hw
      cases hx
      obtain ⟨s1, s2⟩ := autoFitWith_stepOK (g.wf d hm) (g.mwf d hm) (g.sep d hm d hm) (lg d hd) hw
      exact ⟨s1, fun v hv => s2 v (congrArg some hv)⟩
  | linRegFit i bl sch t p =>
    refine heap i _ e (fun d hd hm h' he => ?_)
    obtain ⟨⟨x, h1⟩, hx, rfl⟩ := exceptMap_ok he
    exact linRegFit_safe (g.wf d hm) (g.mwf d hm) (g.sep d hm d hm) hx
  | predict i reg dot out o =>
    exact on_good g e (fun d hd hm w2 e2 => add1_good g e2 (fun v h' he =>
      (predict_stepOK (g.wf d hm) (g.mwf d hm) (g.sep d hm d hm) (lg d hd) he).joins g hm))
  | fromCSV pf jobs who inp spec => exact addRaw_good g e (fun o h' he => fromCSV_new lg he)
  | fromFiles pf sch found files spec =>
    refine addRaw_good g e (fun o h' he => ?_)
    obtain ⟨⟨x, h1⟩, hx, he⟩ := exceptMap_ok he
    cases he
    exact fromFiles_new hx
  | merge byRows opss =>
    obtain ⟨hb, hd⟩ := buildAll_new opss w.h
    cases byRows with
    | true =>
      have n := mergeRows_new hb hd
      exact addRaw_good (x := .ok (some (mergeRawDataRows (buildAll opss w.h).1 (buildAll opss w.h).2).1,
        (mergeRawDataRows (buildAll opss w.h).1 (buildAll opss w.h).2).2)) g e
        (fun o h' he => by cases he; exact ⟨n.ext, fun r hr => by cases hr; exact n⟩)
    | false =>
      have n := mergeColumns_new hb hd
      exact addRaw_good (x := .ok (some (mergeRawDataColumns (buildAll opss w.h).1 (buildAll opss w.h).2).1,
        (mergeRawDataColumns (buildAll opss w.h).1 (buildAll opss w.h).2).2)) g e
        (fun o h' he => by cases he; exact ⟨n.ext, fun r hr => by cases hr; exact n⟩)

theorem Prog.good [GoFloat F] {w w' : World F} {cs : List (Step F)} (p : Prog w cs w') (g : w.Good) : w'.Good := by
  induction p with
  | nil w => exact g
  | cons lg e _ ih => exact ih (Step.good g lg e)

/-! ### calls that only make new dataframes -/

theorem toDataFrame_ext {r : Raw} {h h' : Heap F} {v : DF} (e : r.toDataFrame h = .ok (v, h')) : Heap.Ext h h' := by
  unfold Raw.toDataFrame at e
  simp only at e
  split at e
  · cases e
    exact Heap.newMsk_ext _ _
  · cases e

theorem addRaw_grew {w w' : World F} {x : Except Abort (Option Raw × Heap F)} (e : w.addRaw x = .ok w')
    (hx : ∀ o h', x = .ok (o, h') → Heap.Ext w.h h') : Grew w w' := by
  unfold World.addRaw at e
  split at e
  · cases e
  · cases e; exact ⟨⟨[], by simp⟩, Still.ext (hx _ _ rfl)⟩
  · exact add1_grew e (fun d h' he => Still.ext ((hx _ _ rfl).trans (toDataFrame_ext he)))

theorem Step.grew [GoFloat F] {w w' : World F} {c : Step F} (g : w.Good) (hv : c.IsView w) (e : c.run w = .ok w') : Grew w w' := by
  cases c with
  | call c => exact Call.grew g hv e
  | hashEncode i enc o => exact Call.grew (c := .hashStringsView i enc.categoricalColumns o) g hv e
  | fromCSV pf jobs who inp spec => exact addRaw_grew e (fun o h' he => (fromCSV_new hv he).1)
  | fromFiles pf sch found files spec =>
    refine addRaw_grew e (fun o h' he => ?_)
    obtain ⟨⟨x, h1⟩, hx, he⟩ := exceptMap_ok he
    cases he
    exact (fromFiles_new hx).1
  | merge byRows opss =>
    obtain ⟨hb, hd⟩ := buildAll_new opss w.h
    cases byRows with
    | true =>
      exact addRaw_grew (x := .ok (some (mergeRawDataRows (buildAll opss w.h).1 (buildAll opss w.h).2).1,
        (mergeRawDataRows (buildAll opss w.h).1 (buildAll opss w.h).2).2)) e
        (fun o h' he => by cases he; exact (mergeRows_new hb hd).ext)
    | false =>
      exact addRaw_grew (x := .ok (some (mergeRawDataColumns (buildAll opss w.h).1 (buildAll opss w.h).2).1,
        (mergeRawDataColumns (buildAll opss w.h).1 (buildAll opss w.h).2).2)) e
        (fun o h' he => by cases he; exact (mergeColumns_new hb hd).ext)
  | _ => exact hv.elim

end Verif
