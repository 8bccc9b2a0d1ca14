import Verif.Proofs.LinReg
import Verif.Props.ScalerIdeal
import Verif.Proofs.AutoFloats

/-! C46: `LinearRegressor.Predict`. -/

namespace Verif
variable {F : Type}

theorem predictBatchSize_pos (n : Nat) : 0 < predictBatchSize n := by
  unfold predictBatchSize; simp only; split <;> omega

theorem sortNat_eq_self {df : DF} (hs : df.rows.Pairwise (· ≤ ·)) : df.resetIndexView.rows = df.rows := by
  have : df.resetIndexView.rows = sortNat df.rows := by simp [DF.resetIndexView, DF.rows]
  rw [this, sortNat_of_sorted hs]

/-- The predictions before they are unscaled. -/
theorem predictLoop_all [GoFloat F] {dot : List F → List F → F} {kind : GoStr → Kind} {cols : List GoStr} {h : Heap F} {df : DF} (wf : df.WF h)
    {w : List F} (hne : cols ≠ []) (hw : w.length = cols.length) (hk : ∀ c ∈ cols, (abs h df).numKind c = some (kind c)) (hn : 0 < df.numRows)
    {b : Nat} (hb : 0 < b) :
    ∃ vs h', df.splitView b h = .ok (vs, h') ∧ Heap.Ext h h' ∧
      predictLoop dot w b h' vs 0 (newDense64Batching cols) (List.replicate df.numRows GoFloat.zero) =
        .ok ((List.range df.numRows).map fun r => dot (featRow kind cols (abs h df) r) w) := by
  obtain ⟨vs, h', parts, e, hp, hfl, hdrop, hlast, hlen⟩ := C09_splitView wf (b := (b : Int)) (by omega)
  simp only [Int.toNat_natCast] at hdrop hlast
  refine ⟨vs, h', e, splitView_heapExt wf (by omega) e, ?_⟩
  have hpne : parts ≠ [] := by
    intro h0; rw [h0] at hfl
    have := congrArg List.length hfl
    simp at this; omega
  obtain ⟨p0, ps, rfl⟩ := List.exists_cons_of_ne_nil hpne
  have hall : ∀ p ∈ p0 :: ps, 0 < p.length ∧ p.length ≤ p0.length := by
    intro p hpm
    have hl : ∀ q ∈ (p0 :: ps).getLast?, q.length ≤ b ∧ 1 ≤ q.length := fun q hq => ⟨(hlast q hq).1, (hlast q hq).2 hn⟩
    cases ps with
    | nil =>
      simp only [List.mem_singleton] at hpm
      subst hpm
      have := hl p (by simp)
      omega
    | cons q qs =>
      have h0 : p0.length = b := hdrop p0 (by rw [List.dropLast_cons_of_ne_nil (by simp)]; simp)
      have hsplit : p ∈ (p0 :: q :: qs).dropLast ∨ p ∈ (p0 :: q :: qs).getLast? := by
        have := List.dropLast_concat_getLast (l := p0 :: q :: qs) (by simp)
        rw [← this] at hpm
        rcases List.mem_append.1 hpm with h1 | h1
        · exact Or.inl h1
        · right
          rw [List.getLast?_eq_some_getLast (by simp)]
          simp at h1; simp [h1]
      rcases hsplit with h1 | h1
      · have := hdrop p h1; omega
      · have := hl p h1; omega
  have := predictLoop_eq (dot := dot) (n1 := p0.length) (w := w) (i := 0) (bat := newDense64Batching cols)
    (pred := List.replicate df.numRows GoFloat.zero) hne hw hk hp (Or.inl rfl) (fun _ p hp => by simp at hp; rw [hp]) hall hdrop
    (Or.inl (by rw [hfl]; simp))
  rw [this, hfl]
  simp

/-- The last of the equal entries. -/
theorem exists_last {l : List Nat} {i : Nat} (hi : i < l.length) :
    ∃ b, ∃ hb : b < l.length, l[b] = l[i] ∧ ∀ n (hn : n < l.length), b < n → l[n] ≠ l[i] := by
  have key : ∀ m i, ∀ hi : i < l.length, l.length - i = m →
      ∃ b, ∃ hb : b < l.length, l[b] = l[i] ∧ ∀ n (hn : n < l.length), b < n → l[n] ≠ l[i] := by
    intro m
    induction m using Nat.strong_induction_on with
    | _ m ih =>
      intro i hi hm
      by_cases h : ∃ n, ∃ hn : n < l.length, i < n ∧ l[n] = l[i]
      · obtain ⟨n, hn, hin, he⟩ := h
        obtain ⟨b, hb, h1, h2⟩ := ih (l.length - n) (by omega) n hn rfl
        exact ⟨b, hb, h1.trans he, fun n' hn' hlt => by rw [← he]; exact h2 n' hn' hlt⟩
      · exact ⟨i, hi, rfl, fun n hn hlt he => h ⟨n, hn, hlt, he⟩⟩
  exact key _ i hi rfl

/-- Rows that show the same underlying row show the same values. -/
theorem cell_same_row {h : Heap F} {df : DF} {i j : Nat} (e : df.rows[i]? = df.rows[j]?) (k : Kind) (c : GoStr) :
    (abs h df).cell k c i = (abs h df).cell k c j := by
  unfold ADF.cell abs
  simp only
  cases AMap.get (h.tab df.tab) (k, c) with
  | none => rfl
  | some s => simp [List.getElem?_map, e]

section
variable [GoFloat F] {reg : LinearRegressor F} {dot : List F → List F → F} {kind : GoStr → Kind} {df : DF} {h : Heap F} {out : GoStr}

/-- C46 for every name of the result column, `_target` included: what is returned is the dataframe with the predictions as the column "_target", renamed to
`out`; when `out` is "_target", that leaves no column of predictions. -/
theorem C46_predict_named (wf : df.WF h) (hn : 0 < df.numRows) (hf : reg.features ≠ [])
    (hw : reg.weights.length = reg.features.length) (hk : ∀ c ∈ reg.features, (abs h df).numKind c = some (kind c))
    (ht : (abs h df).col .float b!"_target" = none) (hcpu : 0 < df.maxCPU)
    {s k : F} {o : ScalerOptions} (hsc : reg.scaler = some ⟨[(b!"_target", s)], [(b!"_target", k)], o⟩) :
    ∃ (res : DF) (h' : Heap F) (is : List Nat) (ys : List F), reg.predict dot df out [b!"_target"] h = .ok (res, h') ∧ df.BackingOrder is ∧
      (df.rows.Pairwise (· ≤ ·) → is = List.range df.numRows) ∧
      abs h' res = (((abs h df).select is).withCol .float b!"_target" (ys.map .float)).renameCol .float b!"_target" out ∧ ys.length = is.length ∧
      (∀ (i r : Nat), is[i]? = some r → ∃ row, IsRowOf kind reg.features h df r row ∧
        ys[i]? = some (times (df.repeats r) (fun y => GoFloat.mul (GoFloat.add y (GoFloat.mul (GoFloat.neg s) k)) (GoFloat.div GoFloat.one k))
          (dot row reg.weights))) ∧
      res.WF h' ∧ res.rows = pick df.rows is ∧ ∀ d : DF, d.WF h → abs h' d = abs h d ∧ locs h' d = locs h d ∧ d.WF h' := by
  obtain ⟨is, hbo, hrow, _⟩ := C52_resetIndexView wf
  have hperm := hbo.1
  have hsorted : df.rows.Pairwise (· ≤ ·) → is = List.range df.numRows := fun hs => backingOrder_unique hbo (backingOrder_sorted hs)
  obtain ⟨is', hbo', hpick⟩ := exists_backingOrder df
  rw [backingOrder_unique hbo' hbo] at hpick
  clear hbo' is'
  have hrows : df.resetIndexView.rows = sortNat df.rows := by simp [DF.resetIndexView, DF.rows]
  have hnW : df.resetIndexView.numRows = df.numRows := by
    have := (sortNat_perm df.rows).length_eq
    show df.resetIndexView.rows.length = df.rows.length
    rw [hrows, this]
  have his : is.length = df.numRows := by rw [hperm.length_eq, List.length_range]
  have hsh : df.resetIndexView.sharedMaps = true := rfl
  have hcpuW : df.resetIndexView.maxCPU = df.maxCPU := rfl
  have htabW : df.resetIndexView.tab = df.tab := rfl
  have hstrW : df.resetIndexView.strHdr = df.strHdr := rfl
  unfold LinearRegressor.predict
  simp only
  obtain ⟨W, hW⟩ : ∃ W, W = df.resetIndexView := ⟨_, rfl⟩
  rw [← hW] at hrow hrows hnW hsh hcpuW htabW hstrW ⊢
  have hlw : reg.weights.length ≠ 0 := by rw [hw]; exact fun h0 => hf (List.length_eq_zero_iff.1 h0)
  rw [if_neg hlw]
  have hkW : ∀ c ∈ reg.features, (abs h W).numKind c = some (kind c) := by
    intro c hc; rw [hrow.shows, numKind_select]; exact hk c hc
  obtain ⟨vs, h1, e1, x1, e2⟩ := predictLoop_all (dot := dot) hrow.wf hf hw hkW (by omega) (predictBatchSize_pos reg.weights.length)
  rw [e1]
  simp only
  rw [e2]
  simp only
  obtain ⟨pred, hpred⟩ : ∃ p, p = (List.range W.numRows).map fun r => dot (featRow kind reg.features (abs h W) r) reg.weights := ⟨_, rfl⟩
  rw [← hpred]
  have hpl : pred.length = W.numRows := by rw [hpred]; simp
  have wfV : W.view.WF h1 := (view_wf hrow.wf).ext x1
  have habsV : abs h1 W.view = abs h W := abs_ext x1 (view_wf hrow.wf).toWF
  have htV : (abs h1 W.view).col .float b!"_target" = none := by
    rw [habsV, hrow.shows]; simp [ADF.select, ht]
  have hneV : ∃ k' c', ((abs h1 W.view).col k' c').isSome := by
    obtain ⟨c, hc⟩ := List.exists_mem_of_ne_nil _ hf
    exact ⟨kind c, c, by rw [habsV]; exact numKind_isSome (hkW c hc)⟩
  obtain ⟨R, h2, e3, hR1, hR2, _, hR4, _, _, wfR⟩ := C25_overwrite_creates (vals := pred.map .float) wfV false htV hneV
    (by simp [hpl]; exact Nat.le_refl _)
  rw [e3]
  obtain ⟨x2, ow, ⟨sl, hsl, hslf⟩, hstrR, hcpuR, hidxR, hencR, hold⟩ := overwriteFloat_owned wfV rfl htV e3
  simp only [hsc]
  -- unscaling
  obtain ⟨sc, hsc'⟩ : ∃ sc : Scaler F, sc = ⟨[(b!"_target", s)], [(b!"_target", k)], o⟩ := ⟨_, rfl⟩
  rw [← hsc']
  have hcols : sc.reverse.transformedColumns = [b!"_target"] := by rw [hsc']; rfl
  obtain ⟨h3, e4, q3, a4⟩ := updFloatCol_spec wfR hR2 (fun x => some (scaleVal sc.reverse b!"_target" x))
  have e4' : sc.inverseTransformInplace R [b!"_target"] h2 = .ok h3 := by
    show sc.reverse.transformInplace R [b!"_target"] h2 = _
    rw [scaler_run (Or.inr (by rw [hcpuR]; show 0 < W.maxCPU; rw [hcpuW]; exact hcpu)) (by rw [hcols]; decide) (by rw [hcols])]
    simp only [List.foldlM_cons, List.foldlM_nil]
    rw [e4]; rfl
  rw [e4']
  simp only
  -- the new objects only
  have x3 : Heap.Ext h1 h3 := by
    refine x2.of_quiet q3 ?_
    intro x hx
    have h0 : (fcolLocs h2 R b!"_target").count x = 0 := by
      rw [List.count_eq_zero]
      unfold fcolLocs
      rw [hsl]
      simp only [sliceLocs, List.mem_map, not_exists, not_and]
      intro i _ hxe
      rw [← hxe] at hx
      simp only at hx; omega
    rw [a4, h0]
    simp
  have wfR3 : R.WF h3 := q3.wf wfR
  have hsl3 : AMap.get (h3.tab R.tab) (.float, b!"_target") = some sl := by rw [q3.tab]; exact hsl
  have sep : ∀ i, R.shared = some i → R.strHdr ≠ some i := by
    intro i hi hst
    have h1' := ow.shared i hi
    rw [hstrR] at hst
    have := wfV.str_lt i hst
    omega
  obtain ⟨r', h4, e6, a6, l6, w6, _⟩ := rename_abs wfR3 b!"_target" out sep (k := .float) (by unfold renameKind; simp [hsl3])
  rw [e6]
  obtain ⟨x4, _⟩ := renameFloat_ext ow x3 (by rw [hsl3]; rfl) e6
  have x04 : Heap.Ext h h4 := x1.trans x4
  -- the other columns
  have hother : ∀ kk c, (kk, c) ≠ (Kind.float, b!"_target") → (abs h3 R).col kk c = (abs h W).col kk c := by
    intro kk c hne
    have hV3 : abs h3 W.view = abs h W := (abs_ext x3 wfV.toWF).trans habsV
    rw [← hV3]
    simp only [abs]
    have h31 : h3.tab W.view.tab = h1.tab W.view.tab := x3.tab _ wfV.tab_lt
    rw [q3.tab, hold _ hne, ← q3.tab, h31]
    have : R.rows = W.view.rows := hR1
    rw [this]
  -- the predictions
  have hrepR : R.repeats = W.repeats := by
    funext i; unfold DF.repeats; rw [hR1]; rfl
  have hget : ∀ i (hi : i < df.numRows), R.get h3 .float b!"_target" i =
      .ok (.float (times (W.repeats i) (scaleVal sc.reverse b!"_target") (pred[i]'(by rw [hpl, hnW]; exact hi)))) := by
    intro i hi
    have hlen : W.view.rows.length = df.numRows := hnW
    obtain ⟨b, hb, hbe, hbl⟩ := exists_last (l := W.view.rows) (i := i) (by omega)
    have hg2 := hR4 i b (by omega) hb hbe hbl
    simp only [List.getElem_map] at hg2
    have hpb : pred[b]'(by rw [hpl, hnW, ← hlen]; exact hb) = pred[i]'(by rw [hpl, hnW]; exact hi) := by
      have : featRow kind reg.features (abs h W) b = featRow kind reg.features (abs h W) i := by
        unfold featRow
        apply List.map_congr_left
        intro c _
        rw [cell_same_row]
        have hbW : b < W.rows.length := hb
        have hiW : i < W.rows.length := by show i < W.numRows; omega
        rw [List.getElem?_eq_getElem hbW, List.getElem?_eq_getElem hiW]
        exact congrArg some hbe
      simp only [hpred, List.getElem_map, List.getElem_range, this]
    rw [hpb] at hg2
    obtain ⟨l, hl1, hl2⟩ := (get_of_cellOf _ _ _ _).1 hg2
    refine (get_of_cellOf _ _ _ _).2 ⟨l, by rw [q3.cellOf]; exact hl1, ?_⟩
    rw [a4, hl2, count_cells wfR hl1, Option.map_some, iterate_updVal, hrepR]
  obtain ⟨zs, hzs⟩ : ∃ zs : List F, zs = pred.mapIdx fun i y => times (W.repeats i) (scaleVal sc.reverse b!"_target") y := ⟨_, rfl⟩
  have hzl : zs.length = df.numRows := by rw [hzs, List.length_mapIdx, hpl, hnW]
  have hcolT : (abs h3 R).col .float b!"_target" = some ((zs.map fun y => some (.float y))) := by
    have hsome : ((abs h3 R).col .float b!"_target").isSome := by rw [q3.has]; exact hR2
    obtain ⟨l, hl⟩ := Option.isSome_iff_exists.1 hsome
    rw [hl]
    congr 1
    have hll := (wfR3.cells hl).1
    have hnr : (abs h3 R).nRows = df.numRows := by
      show R.rows.length = _
      rw [hR1]; exact hnW
    apply List.ext_getElem?
    intro i
    by_cases hi : i < df.numRows
    · obtain ⟨_, l', hl', hv⟩ := (get_iff_abs ..).1 (hget i hi)
      rw [hl] at hl'; cases hl'
      simp only [Int.toNat_natCast] at hv
      rw [hv, List.getElem?_map, hzs, List.getElem?_mapIdx, List.getElem?_eq_getElem (by rw [hpl, hnW]; exact hi)]
      rfl
    · rw [List.getElem?_eq_none (by omega), List.getElem?_eq_none (by simp [hzl]; omega)]
  refine ⟨_, h4, is, zs, rfl, hbo, hsorted, ?_, by rw [hzl, his], ?_, w6, by rw [← hpick, ← hrows]; exact hR1, ?_⟩
  · rw [a6]
    have hnr : (abs h3 R).nRows = is.length := by
      show R.rows.length = _
      rw [hR1, his]; exact hnW
    have hstr : (abs h3 R).isStr = (abs h df).isStr := by
      have e0 : (abs h3 W.view).isStr = (abs h df).isStr := by
        rw [abs_ext x3 wfV.toWF, habsV, hrow.shows]; rfl
      rw [← e0]
      simp only [abs, hstrR]
    have henc : (abs h3 R).enc = (abs h df).enc := by
      have : (abs h W).enc = (abs h df).enc := by rw [hrow.shows]; rfl
      exact hencR.trans this
    unfold ADF.renameCol ADF.withCol
    simp only [reduceCtorEq, false_and, if_false]
    have hcol : (fun k' c => if k' = Kind.float ∧ c = b!"_target" then none
        else if k' = Kind.float ∧ c = out then (abs h3 R).col Kind.float b!"_target" else (abs h3 R).col k' c) =
        fun k' c => if k' = Kind.float ∧ c = b!"_target" then none
        else if k' = Kind.float ∧ c = out then some (List.map some (List.map Val.float zs))
        else if k' = Kind.float ∧ c = b!"_target" then some (List.map some (List.map Val.float zs)) else ((abs h df).select is).col k' c := by
      funext k' c'
      by_cases h1' : k' = .float ∧ c' = b!"_target"
      · rw [if_pos h1', if_pos h1']
      · rw [if_neg h1', if_neg h1', if_neg h1']
        by_cases h2' : k' = .float ∧ c' = out
        · rw [if_pos h2', if_pos h2', hcolT]
          simp [Function.comp_def]
        · rw [if_neg h2', if_neg h2', hother k' c' (fun hx => h1' (by cases hx; exact ⟨rfl, rfl⟩)), hrow.shows]
    simp only [and_self, if_true]
    rw [hcol]
    show (⟨(abs h3 R).nRows, _, (abs h3 R).isStr, (abs h3 R).enc⟩ : ADF (Val F)) = ⟨is.length, _, (abs h df).isStr, (abs h df).enc⟩
    rw [hnr, hstr, henc]
  · intro i r hir
    have hi : i < df.numRows := by rw [← his]; exact (List.getElem?_eq_some_iff.1 hir).1
    have hr : r < df.numRows := by
      have := (hperm.mem_iff).1 (List.mem_of_getElem? hir); simpa using this
    refine ⟨featRow kind reg.features (abs h df) r, isRowOf_featRow ?_, ?_⟩
    · intro c hc
      have h1' := numKind_isSome (hk c hc)
      obtain ⟨l, hl⟩ := Option.isSome_iff_exists.1 h1'
      obtain ⟨g1, g2⟩ := wf.cells hl
      have g1' : l.length = df.numRows := g1
      unfold ADF.cell
      rw [hl]
      simp only [Option.bind_some]
      have hlt : r < l.length := by omega
      rw [List.getElem?_eq_getElem hlt]
      cases hx : l[r] with
      | none => exact absurd (hx ▸ List.getElem_mem hlt) g2
      | some v => rfl
    · have : pred[i]? = some (dot (featRow kind reg.features (abs h df) r) reg.weights) := by
        rw [hpred, List.getElem?_map, List.getElem?_range (by rw [hnW]; exact hi)]
        simp only [Option.map_some, Option.some.injEq]
        rw [hrow.shows, featRow_select _ _ hir]
      rw [hzs, List.getElem?_mapIdx, this]
      have hrep : W.repeats i = df.repeats r := by
        have h1' : W.rows[i]? = df.rows[r]? := by
          rw [hrows, hpick]
          unfold pick
          have hr' : r < df.rows.length := hr
          rw [List.getElem?_map, hir]
          simp [List.getD_eq_getElem?_getD, List.getElem?_eq_getElem hr']
        unfold DF.repeats
        rw [h1', hrows]
        cases df.rows[r]? with
        | none => rfl
        | some x => exact (sortNat_perm df.rows).count_eq x
      rw [hrep, hsc']
      rfl
  · intro d wd
    exact ⟨abs_ext x04 wd.toWF, locs_ext x04 wd.toWF, wd.ext x04⟩

/-- C46, partial. Let `reg` be a regressor whose target scaler has the shift `s` and the scale `k`, with as many weights
as features, at least one; let `df` be a consistent dataframe with at least one row, the features as numeric columns, and no
float column "_target". Then `Predict(df, out)` returns a dataframe with the rows of `df` in backing order (`is`; the order of
`df` if its rows are in that order already), the columns of `df` and the float column `out`, whose value in each row is the
unscaled product of the features of that same row and the weights, whatever the batches (if a view shows an underlying row `n`
times, the product is unscaled `n` times); every dataframe that existed is as before.
Missing: the order of the rows of `df` (see `C46_reorders_rows`), unscaling repeated rows only once (`C46_repeated_rows`), an
existing column "_target" (`C46_target_column_overwritten`), the result column "_target" (`C46_result_named_target`). -/
theorem C46_predict_partial (wf : df.WF h) (hn : 0 < df.numRows) (hf : reg.features ≠ [])
    (hw : reg.weights.length = reg.features.length) (hk : ∀ c ∈ reg.features, (abs h df).numKind c = some (kind c))
    (ht : (abs h df).col .float b!"_target" = none) (hout : out ≠ b!"_target") (hcpu : 0 < df.maxCPU)
    {s k : F} {o : ScalerOptions} (hsc : reg.scaler = some ⟨[(b!"_target", s)], [(b!"_target", k)], o⟩) :
    ∃ (res : DF) (h' : Heap F) (is : List Nat) (ys : List F), reg.predict dot df out [b!"_target"] h = .ok (res, h') ∧ df.BackingOrder is ∧
      (df.rows.Pairwise (· ≤ ·) → is = List.range df.numRows) ∧
      abs h' res = ((abs h df).select is).withCol .float out (ys.map .float) ∧ ys.length = is.length ∧
      (∀ (i r : Nat), is[i]? = some r → ∃ row, IsRowOf kind reg.features h df r row ∧
        ys[i]? = some (times (df.repeats r) (fun y => GoFloat.mul (GoFloat.add y (GoFloat.mul (GoFloat.neg s) k)) (GoFloat.div GoFloat.one k))
          (dot row reg.weights))) ∧
      res.WF h' ∧ res.rows = pick df.rows is ∧ ∀ d : DF, d.WF h → abs h' d = abs h d ∧ locs h' d = locs h d ∧ d.WF h' := by
  obtain ⟨res, h', is, ys, e, hbo, hsr, hs, hl, hv, wr, hr, ho⟩ := C46_predict_named (dot := dot) (out := out) wf hn hf hw hk ht hcpu hsc
  refine ⟨res, h', is, ys, e, hbo, hsr, ?_, hl, hv, wr, hr, ho⟩
  rw [hs]
  unfold ADF.renameCol ADF.withCol
  simp only [reduceCtorEq, false_and, if_false, and_self, if_true]
  congr 1
  funext k' c'
  by_cases h1' : k' = .float ∧ c' = b!"_target"
  · obtain ⟨rfl, rfl⟩ := h1'
    rw [if_pos ⟨rfl, rfl⟩, if_neg (fun hx => hout hx.2.symm)]
    simp [ADF.select, ht]
  · rw [if_neg h1', if_neg h1']

end

/-! ### Panics -/

/-- C46: `Predict` panics (division by zero) without weights, and whenever the regressor was never fitted. -/
theorem C46_predict_untrained_panics [GoFloat F] {reg : LinearRegressor F} {dot : List F → List F → F} {df : DF} {h : Heap F} {out : GoStr}
    {order : List GoStr} (hw : reg.weights = []) : reg.predict dot df out order h = .error .panic := by
  unfold LinearRegressor.predict; simp [hw]

/-- C46: `Predict` panics on a dataframe without rows. -/
theorem C46_predict_empty_panics [GoFloat F] {reg : LinearRegressor F} {dot : List F → List F → F} {df : DF} {h : Heap F} {out : GoStr}
    {order : List GoStr} (hk : ∀ c ∈ reg.features, ((abs h df).numKind c).isSome) (hn : df.numRows = 0) :
    reg.predict dot df out order h = .error .panic := by
  have hrows : df.rows = [] := List.length_eq_zero_iff.1 hn
  have hr : df.resetIndexView.rows = [] := by
    have : df.resetIndexView.rows = sortNat df.rows := by simp [DF.resetIndexView, DF.rows]
    rw [this, hrows]; rfl
  have hnr : df.resetIndexView.numRows = 0 := by show df.resetIndexView.rows.length = 0; rw [hr]; rfl
  unfold LinearRegressor.predict
  simp only
  split
  · rfl
  · have hb := predictBatchSize_pos reg.weights.length
    have hsv : df.resetIndexView.splitView (predictBatchSize reg.weights.length) h = .ok ([df.resetIndexView.view], h) := by
      unfold DF.splitView
      rw [if_neg (by omega)]
      simp [hnr]
    rw [hsv]
    simp only [predictLoop]
    have hd : (newDense64Batching reg.features : Dense64Batching F).denseMatrix df.resetIndexView.view h = .error .panic := by
      have hv : df.resetIndexView.view.numRows = 0 := hnr
      have hvr : df.resetIndexView.view.rows = [] := hr
      unfold Dense64Batching.denseMatrix
      split
      · rename_i e he
        obtain ⟨b, ei, _, _⟩ := initialize_spec (t := h.tab df.resetIndexView.view.tab) (kind := fun c => ((abs h df).numKind c).getD .float)
          (b := (newDense64Batching reg.features : Dense64Batching F).toFloatBatching) (cols := reg.features)
          (fun c hc => by
            rw [show df.resetIndexView.view.tab = df.tab from rfl, ← numKind_abs]
            obtain ⟨k, hk'⟩ := Option.isSome_iff_exists.1 (hk c hc)
            rw [hk']; rfl) rfl
        have he' : (newDense64Batching reg.features : Dense64Batching F).toFloatBatching.initialize (h.tab df.resetIndexView.view.tab) reg.features = .error e := he
        rw [ei] at he'; cases he'
      · rename_i b hb'
        simp only [hv, Nat.zero_mul, Nat.zero_le, if_true, or_true]
        have hp : ∀ (x : Except Abort (List F)), (∀ e, x = .error e → e = .panic) → ∀ (f : List F → Except Abort (Matrix F × Dense64Batching F)),
            (∀ d, f d = .error .panic) → (match x with | .error e => Except.error e | .ok d => f d) = .error .panic := by
          intro x hx f hf
          cases x with
          | error e => rw [hx e rfl]
          | ok d => exact hf d
        have hkk : ∀ kk len cs (data : List F), ∀ e, denseKind h b df.resetIndexView.view kk len cs data = .error e → e = .panic := by
          intro kk len cs
          induction cs with
          | nil => intro data e he; simp [denseKind] at he
          | cons c cs ih =>
            intro data e he
            simp only [denseKind] at he
            split at he
            · rename_i e' he'
              cases he
              unfold denseCol at he'
              simp only [hv, Nat.zero_mul, Nat.not_lt_zero, if_false] at he'
              split at he'
              · rename_i hnm
                cases he'
                unfold FloatBatching.name at hnm
                split at hnm
                · cases hnm
                · cases hnm; rfl
              · split at he'
                · cases he'
                · rw [hvr] at he'; simp [denseLoop] at he'
            · exact ih _ e he
        apply hp _ (hkk _ _ _ _)
        intro d
        apply hp _ (hkk _ _ _ _)
        intro d
        apply hp _ (hkk _ _ _ _)
        intro d
        rfl
    rw [hd]

/-! ### In idealised arithmetic -/

/-- The dot product. -/
noncomputable def dotReal (xs ws : List ℝ) : ℝ := (List.zipWith (· * ·) xs ws).sum

/-- C46 in idealised arithmetic: what one prediction is, when the features of the row are the numbers `xs`, the weights
the numbers `ws`, gonum computes dot products, and the target was scaled by `y ↦ (y + s) * k`: the number whose
scaled value is the dot product. -/
theorem C46_unscaled {dot : List Ideal → List Ideal → Ideal} (hdot : ∀ xs ws : List ℝ, dot (xs.map .real) (ws.map .real) = .real (dotReal xs ws))
    (xs ws : List ℝ) {s k : ℝ} (hk : k ≠ 0) :
    ∃ y : ℝ, (GoFloat.mul (GoFloat.add (dot (xs.map .real) (ws.map .real)) (GoFloat.mul (GoFloat.neg (.real s)) (.real k)))
        (GoFloat.div GoFloat.one (.real k)) : Ideal) = .real y ∧ (y + s) * k = dotReal xs ws := by
  rw [hdot, ideal_neg, ideal_mul, ideal_add, ideal_one, ideal_div _ _ hk, ideal_mul]
  refine ⟨_, rfl, ?_⟩
  field_simp
  ring

/-! ### Examples and refutations -/

open scoped Demo
namespace Demo

/-- Integer dot product. -/
def idot (xs ws : List Int) : Int := (List.zipWith (· * ·) xs ws).foldl (· + ·) 0

def lops : List (BOp Int) :=
  [.add .float b!"x" [.float 5, .float 3, .float 9], .add .bool b!"b" [.bool true, .bool false, .bool true], .add .int b!"a" [.int 10, .int 20, .int 30]]

def lres : Except Abort (DF × Heap Int) := (build lops heap0).1.toDataFrame (build lops heap0).2

def ldf : DF := match lres with | .ok p => p.1 | .error _ => ⟨⟨0, none, false, none, 0, none⟩, ⟨[], 0⟩, ⟨0,0,0,0⟩, false, false⟩

def lh : Heap Int := match lres with | .ok p => p.2 | .error _ => heap0

theorem ldf_wf : ldf.WF lh := DF.wf_of_check 3 (by decide +kernel)

/-- Weights 2 for x and 1000 for b; the target was shifted by -7 and not scaled. -/
def lreg : LinearRegressor Int := ⟨some ⟨[(b!"_target", -7)], [(b!"_target", 1)], ⟨false, true, true⟩⟩, [2, 1000], [b!"x", b!"b"]⟩

def lkind (c : GoStr) : Kind := if c = b!"x" then .float else .bool

/-- The hypotheses of `C46_predict_partial` hold of `ldf`. -/
example : ∃ (res : DF) (h' : Heap Int) (is : List Nat) (ys : List Int), lreg.predict idot ldf b!"y" [b!"_target"] lh = .ok (res, h') ∧
    is = [0, 1, 2] ∧ abs h' res = ((abs lh ldf).select is).withCol .float b!"y" (ys.map .float) := by
  obtain ⟨res, h', is, ys, e, _, h2, h3, _⟩ := C46_predict_partial (reg := lreg) (dot := idot) (kind := lkind) (df := ldf) (h := lh) (out := b!"y")
    ldf_wf (by decide +kernel) (by decide) rfl (by
      intro c hc
      simp [lreg] at hc
      rcases hc with rfl | rfl <;> rfl) rfl (by decide) (by decide +kernel) rfl
  have hr : ldf.rows = [0, 1, 2] := by decide +kernel
  have hn : ldf.numRows = 3 := by decide +kernel
  refine ⟨res, h', is, ys, e, ?_, h3⟩
  rw [h2 (by rw [hr]; decide), hn]; rfl

end Demo

/-- Shows that a call succeeded and what a float column of its result is. -/
def showsFloats (r : Except Abort (DF × Heap Int)) (c : GoStr) (vals : List Int) : Bool :=
  match r with
  | .ok (d, h) => match d.floatVals h c with | .ok l => decide (l = vals) | .error _ => false
  | .error _ => false

/-- The predictions of the example. -/
theorem C46_example : showsFloats (Demo.lreg.predict Demo.idot Demo.ldf b!"y" [b!"_target"] Demo.lh) b!"y" [1017, 13, 1025] = true := by
  decide +kernel

/-- Against C46 (order): the rows 2, 0 of a dataframe are predicted as the rows 0, 2: the first prediction
belongs to the second row of the dataframe that was passed. -/
theorem C46_reorders_rows : ∃ v h1, Demo.ldf.indexView [2, 0] Demo.lh = .ok (v, h1) ∧ v.floatVals h1 b!"x" = .ok [9, 5] ∧
    showsFloats (Demo.lreg.predict Demo.idot v b!"y" [b!"_target"] h1) b!"y" [1017, 1025] = true ∧
    showsFloats (Demo.lreg.predict Demo.idot v b!"y" [b!"_target"] h1) b!"x" [5, 9] = true :=
  ⟨_, _, rfl, by decide +kernel, by decide +kernel, by decide +kernel⟩

/-- Against C46 (repeated rows): row 1 is predicted 13 when it is shown once and 20 when it is shown twice: the inverse
scaling is applied once per time the row is shown. -/
theorem C46_repeated_rows : ∃ v h1, Demo.ldf.indexView [1, 1] Demo.lh = .ok (v, h1) ∧
    showsFloats (Demo.lreg.predict Demo.idot v b!"y" [b!"_target"] h1) b!"y" [20, 20] = true :=
  ⟨_, _, rfl, by decide +kernel⟩

namespace Demo

def tops : List (BOp Int) := [.add .float b!"x" [.float 5, .float 3, .float 9], .add .bool b!"b" [.bool true, .bool false, .bool true],
  .add .float b!"_target" [.float 1, .float 2, .float 3]]

def tres : Except Abort (DF × Heap Int) := (build tops heap0).1.toDataFrame (build tops heap0).2

def tdf : DF := match tres with | .ok p => p.1 | .error _ => ⟨⟨0, none, false, none, 0, none⟩, ⟨[], 0⟩, ⟨0,0,0,0⟩, false, false⟩

def th : Heap Int := match tres with | .ok p => p.2 | .error _ => heap0

end Demo

/-- Against C46 (the dataframe is unchanged): a column "_target" of the dataframe that is passed is overwritten with
the predictions, although the result column has another name. -/
theorem C46_target_column_overwritten : Demo.tdf.WF Demo.th ∧ Demo.tdf.floatVals Demo.th b!"_target" = .ok [1, 2, 3] ∧
    (match Demo.lreg.predict Demo.idot Demo.tdf b!"y" [b!"_target"] Demo.th with
      | .ok (_, h') => decide (Demo.tdf.floatVals h' b!"_target" = .ok [1017, 13, 1025])
      | .error _ => false) = true :=
  ⟨DF.wf_of_check 3 (by decide +kernel), by decide +kernel, by decide +kernel⟩

/-- Against C46, for all dataframes without a float column "_target": `Predict(df, "_target")` returns the rows of `df` in backing order without any column of
predictions. -/
theorem C46_result_named_target_lost [GoFloat F] {reg : LinearRegressor F} {dot : List F → List F → F} {kind : GoStr → Kind} {df : DF} {h : Heap F}
    (wf : df.WF h) (hn : 0 < df.numRows) (hf : reg.features ≠ [])
    (hw : reg.weights.length = reg.features.length) (hk : ∀ c ∈ reg.features, (abs h df).numKind c = some (kind c))
    (ht : (abs h df).col .float b!"_target" = none) (hcpu : 0 < df.maxCPU)
    {s k : F} {o : ScalerOptions} (hsc : reg.scaler = some ⟨[(b!"_target", s)], [(b!"_target", k)], o⟩) :
    ∃ (res : DF) (h' : Heap F) (is : List Nat), reg.predict dot df b!"_target" [b!"_target"] h = .ok (res, h') ∧ df.BackingOrder is ∧
      abs h' res = (abs h df).select is := by
  obtain ⟨res, h', is, ys, e, hbo, -, hs, -⟩ := C46_predict_named (dot := dot) (out := b!"_target") wf hn hf hw hk ht hcpu hsc
  refine ⟨res, h', is, e, hbo, ?_⟩
  rw [hs]
  unfold ADF.renameCol ADF.withCol
  simp only [reduceCtorEq, false_and, if_false, and_self, if_true]
  show _ = (⟨_, ((abs h df).select is).col, _, _⟩ : ADF (Val F))
  congr 1
  funext k' c'
  by_cases h1' : k' = .float ∧ c' = b!"_target"
  · rw [if_pos h1', h1'.1, h1'.2]
    simp [ADF.select, ht]
  · rw [if_neg h1', if_neg h1', if_neg h1']

/-- Against C46: `Predict(df, "_target")` returns a dataframe without the result column. -/
theorem C46_result_named_target : (match Demo.lreg.predict Demo.idot Demo.ldf b!"_target" [b!"_target"] Demo.lh with
      | .ok (d, h') => decide (d.floatVals h' b!"_target" = .error .panic)
      | .error _ => false) = true := by
  decide +kernel

open scoped Demo in
/-- The demo dataframe has no column "_target". -/
example := C46_result_named_target_lost (reg := Demo.lreg) (dot := Demo.idot) (kind := Demo.lkind) (df := Demo.ldf) (h := Demo.lh)
  Demo.ldf_wf (by decide +kernel) (by decide) rfl (by
    intro c hc
    simp [Demo.lreg] at hc
    rcases hc with rfl | rfl <;> rfl) rfl (by decide +kernel) rfl

end Verif
