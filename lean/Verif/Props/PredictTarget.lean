import Verif.Props.Predict

/-! C46 when the dataframe has a float column "_target": exactly what `Predict` does to it. -/

namespace Verif
variable {F : Type}

theorem get_ext {h h' : Heap F} (x : Heap.Ext h h') {d : DF} (wf : d.WF h) (k : Kind) (c : GoStr) (j : Nat) (v : Val F) :
    d.get h' k c j = .ok v ↔ d.get h k c j = .ok v := by
  rw [get_iff_abs, get_iff_abs, abs_ext x wf.toWF]

theorem rename_own {r : Raw} {h : Heap F} (wf : r.WF h) (old new : GoStr) : r.rename old new h = (r.own h).1.rename old new (r.own h).2 := by
  have sp := own_spec wf
  have ho : (r.own h).1.own (r.own h).2 = r.own h := by
    generalize r.own h = p at sp ⊢
    unfold Raw.own
    rw [sp.notShared]; rfl
  unfold Raw.rename
  rw [ho]

section
variable [GoFloat F] {reg : LinearRegressor F} {dot : List F → List F → F} {kind : GoStr → Kind} {df : DF} {h : Heap F} {out : GoStr}

/-- **C46** for a dataframe that has a float column "_target" (the case `C46_predict_partial` leaves out), for every name of the result column. The predictions
are written over that column: afterwards `df` itself shows, in each of its rows, the prediction for that row; the result shows the rows of `df` with "_target"
renamed to `out` (when `out` is "_target" itself, there is no result column). Nothing else changes: a cell of any dataframe that is not one of
the visible cells of the column "_target" of `df` has the value it had. -/
theorem C46_target_exists (wf : df.WF h) (hn : 0 < df.numRows) (hf : reg.features ≠ [])
    (hw : reg.weights.length = reg.features.length) (hk : ∀ c ∈ reg.features, (abs h df).numKind c = some (kind c))
    (ht : ((abs h df).col .float b!"_target").isSome) (hcpu : 0 < df.maxCPU)
    {s k : F} {o : ScalerOptions} (hsc : reg.scaler = some ⟨[(b!"_target", s)], [(b!"_target", k)], o⟩) :
    ∃ (res : DF) (h' : Heap F) (is : List Nat), reg.predict dot df out [b!"_target"] h = .ok (res, h') ∧ df.BackingOrder is ∧
      (∀ r : Nat, r < df.numRows → ∃ row, IsRowOf kind reg.features h df r row ∧ df.get h' .float b!"_target" r =
        .ok (.float (times (df.repeats r) (fun y => GoFloat.mul (GoFloat.add y (GoFloat.mul (GoFloat.neg s) k)) (GoFloat.div GoFloat.one k))
          (dot row reg.weights)))) ∧
      abs h' res = ((abs h' df).select is).renameCol .float b!"_target" out ∧ res.WF h' ∧
      ∀ d : DF, d.WF h → d.WF h' ∧ locs h' d = locs h d ∧ ∀ (k' : Kind) (c : GoStr) (j : Nat) (v : Val F),
        (∀ r : Nat, r < df.numRows → cellOf h d k' c j ≠ cellOf h df .float b!"_target" r) → (d.get h' k' c j = .ok v ↔ d.get h k' c j = .ok v) := by
  obtain ⟨is, hbo, hrow, _⟩ := C52_resetIndexView wf
  have hperm := hbo.1
  obtain ⟨is', hbo', hpick⟩ := exists_backingOrder df
  rw [backingOrder_unique hbo' hbo] at hpick
  clear hbo' is'
  have hrows : df.resetIndexView.rows = sortNat df.rows := by simp [DF.resetIndexView, DF.rows]
  have hnW : df.resetIndexView.numRows = df.numRows := by
    have := (sortNat_perm df.rows).length_eq
    show df.resetIndexView.rows.length = df.rows.length
    rw [hrows, this]
  have his : is.length = df.numRows := by rw [hperm.length_eq, List.length_range]
  have hcpuW : df.resetIndexView.maxCPU = df.maxCPU := rfl
  have htabW : df.resetIndexView.tab = df.tab := rfl
  have hviewW : df.resetIndexView.view = df.resetIndexView := rfl
  have hshW : df.resetIndexView.sharedMaps = true := rfl
  have hselW : ∀ h3 : Heap F, df.WF h3 → abs h3 df.resetIndexView = (abs h3 df).select is := by
    intro h3 w3
    obtain ⟨is2, hbo2, hrow2, _⟩ := C52_resetIndexView w3
    rw [hrow2.shows, backingOrder_unique hbo2 hbo]
  unfold LinearRegressor.predict
  simp only
  obtain ⟨W, hW⟩ : ∃ W, W = df.resetIndexView := ⟨_, rfl⟩
  rw [← hW] at hrow hrows hnW hcpuW htabW hselW hviewW hshW ⊢
  have hlw : reg.weights.length ≠ 0 := by rw [hw]; exact fun h0 => hf (List.length_eq_zero_iff.1 h0)
  rw [if_neg hlw]
  have hkW : ∀ c ∈ reg.features, (abs h W).numKind c = some (kind c) := by
    intro c hc; rw [hrow.shows, numKind_select]; exact hk c hc
  obtain ⟨vs, h1, e1, x1, e2⟩ := predictLoop_all (dot := dot) hrow.wf hf hw hkW (by omega) (predictBatchSize_pos reg.weights.length)
  rw [e1]
  simp only
  rw [e2]
  simp only
  obtain ⟨pred, hpred⟩ : ∃ p, p = (List.range W.numRows).map fun r => dot (featRow kind reg.features (abs h W) r) reg.weights := ⟨_, rfl⟩
  rw [← hpred, hviewW]
  have hpl : pred.length = W.numRows := by rw [hpred]; simp
  have wfV : W.WF h1 := hrow.wf.ext x1
  have habsV : abs h1 W = abs h W := abs_ext x1 hrow.wf.toWF
  have htV : ((abs h1 W).col .float b!"_target").isSome := by
    rw [habsV, hrow.shows]; simpa [ADF.select] using ht
  obtain ⟨h2, e3, eset, hlastV, hother⟩ := C25_overwrite_existing (vals := pred.map .float) wfV false htV (by omega)
    (by simp [hpl])
  have q2 : Quiet h1 h2 := setRows_quiet eset
  rw [e3]
  simp only [hsc]
  obtain ⟨sc, hsc'⟩ : ∃ sc : Scaler F, sc = ⟨[(b!"_target", s)], [(b!"_target", k)], o⟩ := ⟨_, rfl⟩
  rw [← hsc']
  have hcols : sc.reverse.transformedColumns = [b!"_target"] := by rw [hsc']; rfl
  have wfR : W.WF h2 := q2.wf wfV
  obtain ⟨h3, e4, q3, a4⟩ := updFloatCol_spec wfR (by rw [q2.has]; exact htV) (fun x => some (scaleVal sc.reverse b!"_target" x))
  have e4' : sc.inverseTransformInplace W [b!"_target"] h2 = .ok h3 := by
    show sc.reverse.transformInplace W [b!"_target"] h2 = _
    rw [scaler_run (Or.inr (by rw [hcpuW]; exact hcpu)) (by rw [hcols]; decide) (by rw [hcols])]
    simp only [List.foldlM_cons, List.foldlM_nil]
    rw [e4]; rfl
  rw [e4']
  simp only
  have wf3 : W.WF h3 := q3.wf wfR
  -- the renaming
  have sp := own_spec wf3.toWF
  obtain ⟨oa, _, ow⟩ := own_abs wf3
  rw [rename_own wf3.toWF]
  obtain ⟨p, hp⟩ : ∃ p, p = W.toRaw.own h3 := ⟨_, rfl⟩
  rw [← hp] at sp oa ow ⊢
  have owned : p.1.Owned h3 := ⟨sp.notShared, (sp.fresh hshW).1, (sp.fresh hshW).2.1⟩
  have hcolP : (AMap.get (p.2.tab p.1.tab) (.float, b!"_target")).isSome := by
    rw [sp.tab]
    have : ((abs h3 W).col .float b!"_target").isSome := by rw [q3.has, q2.has]; exact htV
    simpa [abs] using this
  have sep : ∀ i, p.1.shared = some i → p.1.strHdr ≠ some i := by
    intro i hi hst
    have h1' := owned.shared i hi
    rw [sp.str] at hst
    have := wf3.str_lt i hst
    omega
  obtain ⟨sl, hsl⟩ := Option.isSome_iff_exists.1 hcolP
  obtain ⟨r', h4, e6, a6, _, w6, _⟩ := rename_abs (d := { W with toRaw := p.1 }) ow b!"_target" out sep (k := .float) (by
    show renameKind (p.2.tab p.1.tab) b!"_target" = some .float
    unfold renameKind; simp [hsl])
  have e6' : p.1.rename b!"_target" out p.2 = .ok (r', h4) := e6
  rw [e6']
  obtain ⟨x4, _⟩ := renameFloat_ext owned sp.ext hcolP e6'
  have wd3 : ∀ d : DF, d.WF h → d.WF h3 := fun d wd => q3.wf (q2.wf (wd.ext x1))
  have wf3d := wd3 df wf
  have habs4 : abs h4 df = abs h3 df := abs_ext x4 wf3d.toWF
  -- the cells of the column are those of df
  have hcell : ∀ i r : Nat, is[i]? = some r → cellOf h1 W .float b!"_target" i = cellOf h df .float b!"_target" r := by
    intro i r hir
    have hi : i < df.numRows := by rw [← his]; exact (List.getElem?_eq_some_iff.1 hir).1
    have hr : r < df.numRows := by
      have := (hperm.mem_iff).1 (List.mem_of_getElem? hir); simpa using this
    obtain ⟨sd, hsd⟩ := col_isSome.1 ht
    have hsW : AMap.get (h1.tab W.tab) (.float, b!"_target") = some sd := by
      rw [htabW, x1.tab _ wf.tab_lt]; exact hsd
    have hiW : i < W.rows.length := by show i < W.numRows; omega
    rw [cellOf_eq wfV hsW hiW, cellOf_eq wf hsd hr]
    have h1' : W.rows[i]? = df.rows[r]? := by
      rw [hrows, hpick]
      unfold pick
      have hr' : r < df.rows.length := hr
      rw [List.getElem?_map, hir]
      simp [List.getD_eq_getElem?_getD, List.getElem?_eq_getElem hr']
    rw [List.getElem?_eq_getElem hiW, List.getElem?_eq_getElem (show r < df.rows.length from hr)] at h1'
    simp only [Option.some.injEq] at h1'
    rw [h1']
    rfl
  -- the predictions
  have hget : ∀ i (hi : i < df.numRows), W.get h3 .float b!"_target" i =
      .ok (.float (times (W.repeats i) (scaleVal sc.reverse b!"_target") (pred[i]'(by rw [hpl, hnW]; exact hi)))) := by
    intro i hi
    have hlen : W.rows.length = df.numRows := hnW
    obtain ⟨b, hb, hbe, hbl⟩ := exists_last (l := W.rows) (i := i) (by omega)
    have hg2 := hlastV i b (by omega) hb hbe hbl
    simp only [List.getElem_map] at hg2
    have hpb : pred[b]'(by rw [hpl, hnW, ← hlen]; exact hb) = pred[i]'(by rw [hpl, hnW]; exact hi) := by
      have : featRow kind reg.features (abs h W) b = featRow kind reg.features (abs h W) i := by
        unfold featRow
        apply List.map_congr_left
        intro c _
        rw [cell_same_row]
        have hiW : i < W.rows.length := by omega
        rw [List.getElem?_eq_getElem hb, List.getElem?_eq_getElem hiW]
        exact congrArg some hbe
      simp only [hpred, List.getElem_map, List.getElem_range, this]
    rw [hpb] at hg2
    obtain ⟨l, hl1, hl2⟩ := (get_of_cellOf _ _ _ _).1 hg2
    refine (get_of_cellOf _ _ _ _).2 ⟨l, by rw [q3.cellOf]; exact hl1, ?_⟩
    rw [a4, hl2, count_cells wfR hl1, Option.map_some, iterate_updVal]
  refine ⟨_, h4, is, rfl, hbo, ?_, ?_, w6, ?_⟩
  · intro r hr
    have hmem : r ∈ is := (hperm.mem_iff).2 (by simpa using hr)
    obtain ⟨i, hir⟩ := List.getElem?_of_mem hmem
    have hi : i < df.numRows := by rw [← his]; exact (List.getElem?_eq_some_iff.1 hir).1
    refine ⟨featRow kind reg.features (abs h df) r, isRowOf_featRow ?_, ?_⟩
    · intro c hc
      have h1' := numKind_isSome (hk c hc)
      obtain ⟨l, hl⟩ := Option.isSome_iff_exists.1 h1'
      obtain ⟨g1, g2⟩ := wf.cells hl
      have g1' : l.length = df.numRows := g1
      unfold ADF.cell
      rw [hl]
      simp only [Option.bind_some]
      have hlt : r < l.length := by omega
      rw [List.getElem?_eq_getElem hlt]
      cases hx : l[r] with
      | none => exact absurd (hx ▸ List.getElem_mem hlt) g2
      | some v => rfl
    · have hp' : pred[i]'(by rw [hpl, hnW]; exact hi) = dot (featRow kind reg.features (abs h df) r) reg.weights := by
        simp only [hpred, List.getElem_map, List.getElem_range]
        rw [hrow.shows, featRow_select _ _ hir]
      have hrep : W.repeats i = df.repeats r := by
        have h1' : W.rows[i]? = df.rows[r]? := by
          rw [hrows, hpick]
          unfold pick
          have hr' : r < df.rows.length := hr
          rw [List.getElem?_map, hir]
          simp [List.getD_eq_getElem?_getD, List.getElem?_eq_getElem hr']
        unfold DF.repeats
        rw [h1', hrows]
        cases df.rows[r]? with
        | none => rfl
        | some x => exact (sortNat_perm df.rows).count_eq x
      have hg := hget i hi
      rw [hp', hrep, hsc'] at hg
      refine (get_ext x4 wf3d _ _ _ _).2 ?_
      obtain ⟨l, hl1, hl2⟩ := (get_of_cellOf _ _ _ _).1 hg
      refine (get_of_cellOf _ _ _ _).2 ⟨l, ?_, hl2⟩
      rw [q3.cellOf, q2.cellOf, hcell i r hir] at hl1
      rw [q3.cellOf, q2.cellOf, ← hl1]
      unfold cellOf
      rw [locs_ext x1 wf.toWF]
  · have : abs h4 { W with toRaw := r' } = (abs p.2 { W with toRaw := p.1 }).renameCol .float b!"_target" out := a6
    show abs h4 { W with toRaw := r' } = _
    rw [this, oa, hselW h3 wf3d, habs4]
  · intro d wd
    have wd1 := wd.ext x1
    refine ⟨(wd3 d wd).ext x4, ?_, ?_⟩
    · rw [locs_ext x4 (wd3 d wd).toWF, q3.locs, q2.locs, locs_ext x1 wd.toWF]
    · intro k' c j v hno
      have hno1 : ∀ n, n < W.numRows → cellOf h1 d k' c j ≠ cellOf h1 W .float b!"_target" n := by
        intro n hnlt
        have hn' : n < is.length := by omega
        have hir : is[n]? = some is[n] := List.getElem?_eq_getElem hn'
        have hr : is[n] < df.numRows := by
          have := (hperm.mem_iff).1 (List.getElem_mem hn'); simpa using this
        rw [hcell n _ hir]
        have : cellOf h1 d k' c j = cellOf h d k' c j := by unfold cellOf; rw [locs_ext x1 wd.toWF]
        rw [this]
        exact hno _ hr
      rw [get_ext x4 (wd3 d wd)]
      have h32 : d.get h3 k' c j = .ok v ↔ d.get h2 k' c j = .ok v := by
        rw [get_of_cellOf, get_of_cellOf, q3.cellOf]
        refine exists_congr fun l => and_congr_right fun hl => ?_
        have h0 : (fcolLocs h2 W b!"_target").count l = 0 := by
          rw [List.count_eq_zero, mem_fcolLocs wfR]
          rintro ⟨n, hnl⟩
          have hnlt : n < W.numRows := by
            rcases Nat.lt_or_ge n W.numRows with h' | h'
            · exact h'
            · exfalso
              unfold cellOf locs at hnl
              cases hg : AMap.get (h2.tab W.tab) (.float, b!"_target") with
              | none => simp [hg] at hnl
              | some sl' =>
                have : W.rows[n]? = none := List.getElem?_eq_none h'
                simp [hg, this] at hnl
          refine hno1 n hnlt ?_
          rw [← q2.cellOf d, ← q2.cellOf W, hl, hnl]
        rw [a4, h0]
        simp
      rw [h32, (hother d).2 k' c j hno1, get_ext x1 wd]

end

open scoped Demo in
/-- Three rows, a float column "_target" that holds 1, 2, 3: the result "y" and the column "_target" of the dataframe both show the predictions. -/
example : ∃ res h' is, Demo.lreg.predict Demo.idot Demo.tdf b!"y" [b!"_target"] Demo.th = .ok (res, h') ∧
    abs h' res = ((abs h' Demo.tdf).select is).renameCol .float b!"_target" b!"y" ∧ Demo.tdf.floatVals Demo.th b!"_target" = .ok [1, 2, 3] := by
  obtain ⟨res, h', is, e, -, -, hs, -, -⟩ := C46_target_exists (reg := Demo.lreg) (dot := Demo.idot) (kind := Demo.lkind) (df := Demo.tdf) (h := Demo.th) (out := b!"y")
    (DF.wf_of_check 3 (by decide +kernel)) (by decide +kernel) (by decide) (by decide) (by decide +kernel) (by decide +kernel) (by decide +kernel) rfl
  exact ⟨res, h', is, e, hs, by decide +kernel⟩

end Verif
