import Verif.Model.Experiment

/-! Which functions keep the flag for altered indices and the number of CPUs of a dataframe. -/

namespace Verif
variable {F : Type}

/-- Same answers of `AreIndicesAltered` and `ActualMaxCPU`. -/
def SameFlags (d v : DF) : Prop := v.indexViewed = d.indexViewed ∧ v.maxCPU = d.maxCPU

theorem SameFlags.trans {a b c : DF} (h1 : SameFlags a b) (h2 : SameFlags b c) : SameFlags a c :=
  ⟨h2.1.trans h1.1, h2.2.trans h1.2⟩

theorem own_maxCPU (r : Raw) (h : Heap F) : (r.own h).1.maxCPU = r.maxCPU := by
  unfold Raw.own
  split <;> rfl

theorem alloc_maxCPU [GoFloat F] (r : Raw) (k : Kind) (cols : List GoStr) (h : Heap F) : (r.alloc k cols h).1.maxCPU = r.maxCPU := by
  unfold Raw.alloc
  by_cases hc : cols = []
  · simp only [if_pos hc]
  · simp only [if_neg hc]
    exact own_maxCPU r h

theorem unshare_maxCPU (r : Raw) (cols : List GoStr) (h : Heap F) : (r.unshare cols h).1.maxCPU = r.maxCPU := by
  unfold Raw.unshare
  split
  · rfl
  · exact own_maxCPU r h

theorem rename_maxCPU {r r' : Raw} {a b : GoStr} {h h' : Heap F} (e : r.rename a b h = .ok (r', h')) : r'.maxCPU = r.maxCPU := by
  have ho := own_maxCPU r h
  unfold Raw.rename at e
  generalize r.own h = p at e ho
  obtain ⟨d, h1⟩ := p
  simp only at e ho
  cases hk : renameKind (h1.tab d.tab) a with
  | none => rw [hk] at e; cases e
  | some k =>
    rw [hk] at e
    simp only at e
    cases hg : AMap.get (h1.tab d.tab) (k, a) with
    | none => rw [hg] at e; cases e
    | some s =>
      rw [hg] at e
      simp only at e
      split at e
      all_goals
        split at e
        all_goals cases e; exact ho

theorem detachedView_flags (d : DF) (cols : List GoStr) (h : Heap F) : SameFlags d (d.detachedView cols h).1 :=
  ⟨rfl, unshare_maxCPU d.view.toRaw cols h⟩

theorem columnView_flags (d : DF) (cols : List GoStr) (h : Heap F) : SameFlags d (d.columnView cols h).1 := by
  unfold DF.columnView
  split
  · exact ⟨rfl, rfl⟩
  · exact ⟨rfl, rfl⟩

theorem hashStringsView_flags [GoFloat F] {d v : DF} {cols order : List GoStr} {h h' : Heap F}
    (e : d.hashStringsView cols order h = .ok (v, h')) : SameFlags d v := by
  unfold DF.hashStringsView at e
  split at e
  · cases e; exact ⟨rfl, rfl⟩
  · simp only at e
    split at e
    · cases e
    · cases e
      exact columnView_flags ..

theorem oneHot_flags [GoFloat F] {enc : OneHotEncoder} {d v : DF} {order : List GoStr} {h h' : Heap F}
    (e : enc.transformView order d h = .ok (some v, h')) : SameFlags d v := by
  unfold OneHotEncoder.transformView at e
  split at e
  · cases e; exact ⟨rfl, rfl⟩
  · simp only at e
    split at e
    · cases e
    · cases e
    · have : SameFlags d (d.view.withRaw (d.view.toRaw.alloc .bool enc.newCols h)).1 :=
        ⟨rfl, alloc_maxCPU d.view.toRaw .bool enc.newCols h⟩
      split at e
      · cases e; exact this
      · cases e; exact this

theorem transformView_flags [GoFloat F] {p : AutoPreprocessor F} {sch : AutoSched} {d v : DF} {h h' : Heap F}
    (e : p.transformView sch d h = .ok (some v, h')) : SameFlags d v := by
  unfold AutoPreprocessor.transformView at e
  have h0 : SameFlags d (p.detach sch d h).1 := by
    unfold AutoPreprocessor.detach
    split
    · exact detachedView_flags ..
    · split
      · exact detachedView_flags ..
      · exact ⟨rfl, rfl⟩
  generalize p.detach sch d h = q at e h0
  obtain ⟨d1, h1⟩ := q
  simp only at e h0
  split at e
  · cases e
  · split at e
    · cases e
    · split at e
      · cases e
      · rename_i _ d2 h4 he
        have h2 : SameFlags d1 d2 := by
          unfold hashIf at he
          split at he
          · exact hashStringsView_flags he
          · cases he; exact ⟨rfl, rfl⟩
        split at e
        · exact (h0.trans h2).trans (oneHot_flags e)
        · cases e; exact h0.trans h2

theorem overwrite_flags [GoFloat F] {d v : DF} {k : Kind} {c : GoStr} {vals : List (Val F)} {h h' : Heap F}
    (e : d.overwrite k c vals false h = .ok (v, h')) : SameFlags d v := by
  unfold DF.overwrite at e
  simp only [Bool.false_eq_true, and_false, if_false] at e
  have h0 : SameFlags d (if (tabCol (h.tab d.tab) (k, c)).len = 0 then d.withRaw (d.toRaw.alloc k [c] h) else (d, h)).1 := by
    split
    · exact ⟨rfl, alloc_maxCPU d.toRaw k [c] h⟩
    · exact ⟨rfl, rfl⟩
  generalize (if (tabCol (h.tab d.tab) (k, c)).len = 0 then d.withRaw (d.toRaw.alloc k [c] h) else (d, h)) = q at e h0
  obtain ⟨d1, h1⟩ := q
  simp only at e h0
  split at e
  · cases e
  · cases e; exact h0

theorem predict_flags [GoFloat F] {reg : LinearRegressor F} {dot : List F → List F → F} {d v : DF} {c : GoStr} {order : List GoStr}
    {h h' : Heap F} (e : reg.predict dot d c order h = .ok (v, h')) : SameFlags d v := by
  unfold LinearRegressor.predict at e
  simp only at e
  split at e
  · cases e
  · split at e
    · cases e
    · split at e
      · cases e
      · split at e
        · cases e
        · rename_i _ _ ho
          have h1 : SameFlags d _ := SameFlags.trans (b := d.resetIndexView.view) ⟨rfl, rfl⟩ (overwrite_flags ho)
          split at e
          · cases e
          · split at e
            · cases e
            · split at e
              · cases e
              · rename_i hr
                cases e
                exact ⟨h1.1, (rename_maxCPU hr).trans h1.2⟩

theorem experimentTest_flags [GoFloat F] {j : JsonFloats F} {bl : Blas F} {sch : ExperimentSched F} {fl : ExperimentFlags F}
    {t : TrainedExperiment F} {r : ExperimentResult F} {h h' : Heap F} (e : experimentTest j bl sch fl t h = .ok (r, h')) :
    SameFlags t.test r.test := by
  unfold experimentTest at e
  split at e
  · cases e
  · split at e
    · cases e
    · split at e
      · cases e
      · cases e
      · rename_i he
        split at e
        · cases e
        · rename_i hp
          split at e
          · cases e
          · split at e
            · cases e
            · split at e
              · cases e
              · cases e
                exact (transformView_flags he).trans (predict_flags hp)

theorem cut_flags {d v : DF} {a b : Int} {h h' : Heap F} (hv : d.indexViewed = true) (e : d.cut a b h = .ok (v, h')) : SameFlags d v := by
  unfold DF.cut at e
  simp only [hv, Bool.true_or, if_true] at e
  split at e
  · cases e
  · cases e; exact ⟨hv.symm, rfl⟩

theorem sliceView_flags {d v : DF} {a b : Int} {h h' : Heap F} (hv : d.indexViewed = true) (e : d.sliceView a b h = .ok (v, h')) :
    SameFlags d v := by
  unfold DF.sliceView at e
  simp only at e
  by_cases hc : (if a < 0 then a + ((d.numRows : Int) + 1) else a) > (if b < 0 then b + ((d.numRows : Int) + 1) else b)
  · rw [if_pos hc] at e
    exact SameFlags.trans (b := d.reverseView.view) ⟨hv.symm, rfl⟩ (cut_flags rfl e)
  · rw [if_neg hc] at e
    exact SameFlags.trans (b := d.view) ⟨rfl, rfl⟩ (cut_flags hv e)

theorem indexView_flags {d v : DF} {is : List Int} {h h' : Heap F} (e : d.indexView is h = .ok (v, h')) :
    v.indexViewed = true ∧ v.maxCPU = d.maxCPU := by
  unfold DF.indexView at e
  split at e
  · cases e
  · simp only at e
    split at e
    · cases e; exact ⟨rfl, rfl⟩
    · cases e; exact ⟨rfl, rfl⟩

theorem experimentTrain_flags [GoFloat F] {bl : Blas F} {sch : ExperimentSched F} {fl : ExperimentFlags F} {d : DF}
    {t : TrainedExperiment F} {h h' : Heap F} (e : experimentTrain bl sch fl d h = .ok (t, h')) :
    t.test.indexViewed = true ∧ t.test.maxCPU = d.maxCPU := by
  unfold experimentTrain at e
  split at e
  · cases e
  · rename_i hs
    obtain ⟨f1, f2⟩ := indexView_flags hs
    split at e
    · cases e
    · rename_i hp
      unfold DF.splitTrainTestViews at hp
      split at hp
      · cases hp
      · simp only at hp
        split at hp
        · cases hp
        · split at hp
          · cases hp
          · rename_i hsl
            cases hp
            have sf := sliceView_flags f1 hsl
            split at e
            · cases e
            · cases e
            · split at e
              · cases e
              · cases e
                exact ⟨sf.1.trans f1, sf.2.trans f2⟩

/-- The final dataframe of the experiment has altered indices. -/
theorem experiment_flags [GoFloat F] {j : JsonFloats F} {bl : Blas F} {sch : ExperimentSched F} {fl : ExperimentFlags F} {d : DF}
    {t : TrainedExperiment F} {r : ExperimentResult F} {h h' : Heap F} (e : experiment j bl sch fl d h = .ok ((t, r), h')) :
    r.test.indexViewed = true ∧ r.test.maxCPU = d.maxCPU := by
  unfold experiment at e
  split at e
  · cases e
  · rename_i h1
    split at e
    · cases e
    · rename_i h2
      cases e
      have a := experimentTrain_flags h1
      have b := experimentTest_flags h2
      exact ⟨b.1.trans a.1, b.2.trans a.2⟩

end Verif
