import Verif.Proofs.FitPrepare
import Verif.Proofs.CSVParsing
import Verif.Proofs.OneHotFit

/-! C69: `LinearRegressor.Fit`. -/

namespace Verif
variable {F : Type}

/-- With both options, the scaler always finds a shift and a scale. -/
theorem scalerFitCol_both [GoFloat F] (ys : List F) : ∃ s k, scalerFitCol ⟨false, true, true⟩ ys = (some s, some k) := by
  unfold scalerFitCol
  simp only [Bool.false_eq_true, if_false, Bool.or_self, if_true]
  split <;> exact ⟨_, _, rfl⟩

theorem nodup_sremove {s cs : List GoStr} (h : s.Nodup) : (sremove s cs).Nodup := by
  unfold sremove; exact h.filter _

section
variable [GoFloat F] {bl : Blas F} {sch : FitSched F} {df : DF} {h : Heap F} {target : GoStr} {p : LinRegTrainParams F} {ys : List F}

omit [GoFloat F] in
/-- The names of the float and boolean columns. -/
theorem mem_floatsAndBools {c : GoStr} :
    c ∈ sinsertAll (namesOf (h.tab df.tab) .float) (namesOf (h.tab df.tab) .bool) ↔
      ((abs h df).col .float c).isSome ∨ ((abs h df).col .bool c).isSome := by
  rw [mem_sinsertAll, mem_namesOf_int, mem_namesOf_int]

/-- C69, partial. Let `df` be a consistent dataframe with at least one row, `target` a float column
with the values `ys`, at least one other float or boolean column, and no float or boolean column named "_target"; let
`BatchSize` be positive and `Epochs` not negative. Then `Fit(df, target, params)` succeeds, and
* the features are the float and boolean columns except the target, each once;
* the target scaler is the one `Scaler.Fit` finds for `ys`, with the shift `s` and the scale `k`;
* the weights are those of gradient descent from the random initial weights, over every epoch's batches, on the rows
  (features of the row, `(y + s) * k`; the scaling is applied `n` times to the target of an underlying row that `df` shows `n`
  times): every epoch goes through all rows exactly once, in the order of its shuffle,
  in batches of `BatchSize` rows (fewer in the last one), whatever `LowMemory` is;
* every dataframe that existed is as before (the target is scaled in a copy).
Missing: scaling the target of a repeated row only once (`C69_repeated_rows`), an existing column "_target" (`C69_target_column`), other types of targets
(`C69_int_target_panics`, `C69_bool_target_panics`), the defaults (`C69_no_default_batch_size`, `C69_no_default_epochs`); the last point
excludes dataframes whose string header is the list of shared columns of `df` (never the case for dataframes made by
the API, see C13). -/
theorem C69_fit_partial (wf : df.WF h) (sep : df.toRaw.Sep) (hft : FloatTyped (abs h df))
    (hy : (abs h df).col .float target = some (ys.map fun y => some (.float y)))
    (hnf : (abs h df).col .float b!"_target" = none) (hnb : (abs h df).col .bool b!"_target" = none)
    (hfeat : ∃ c, c ≠ target ∧ (((abs h df).col .float c).isSome ∨ ((abs h df).col .bool c).isSome))
    (hn : 0 < df.numRows) (hcpu : 0 < df.maxCPU) (hb : 0 < p.batchSize) (he : 0 ≤ p.epochs) :
    ∃ (reg : LinearRegressor F) (h' : Heap F) (s k : F) (kind : GoStr → Kind) (data : Nat → List F × F) (pss : List (List (List Nat))),
      linRegFit bl sch df target p h = .ok (reg, h') ∧
      reg.features.Nodup ∧
      (∀ c, c ∈ reg.features ↔ c ≠ target ∧ (((abs h df).col .float c).isSome ∨ ((abs h df).col .bool c).isSome)) ∧
      (∀ c ∈ reg.features, kind c = if ((abs h df).col .float c).isSome then .float else .bool) ∧
      scalerFitCol ⟨false, true, true⟩ ys = (some s, some k) ∧
      reg.scaler = some ⟨[(b!"_target", s)], [(b!"_target", k)], ⟨false, true, true⟩⟩ ∧
      (∀ (r : Nat) (y : F), ys[r]? = some y →
        IsRowOf kind reg.features h df r (data r).1 ∧ (data r).2 = times (df.repeats r) (fun x => GoFloat.mul (GoFloat.add x s) k) y) ∧
      (pss.length : Int) = p.epochs ∧
      (∀ (e : Nat) (parts : List (List Nat)), pss[e]? = some parts → IsBatches (sch.shuffle (e + 1) df.numRows) p.batchSize.toNat parts) ∧
      reg.weights.length = reg.features.length ∧
      reg.weights = (sgd bl p data pss.flatten
        ((List.range reg.features.length).map (fun i => GoFloat.mul (sch.norm i)
          (GoFloat.sqrt (GoFloat.div (GoFloat.ofInt 2) (GoFloat.ofInt (reg.features.length : Int))))),
          List.replicate reg.features.length GoFloat.zero)).1 ∧
      (∀ d : DF, d.WF h → (∀ i, df.shared = some i → d.strHdr ≠ some i) → abs h' d = abs h d ∧ locs h' d = locs h d ∧ d.WF h') := by
  obtain ⟨L, hL⟩ : ∃ L, L = sinsertAll (namesOf (h.tab df.tab) .float) (namesOf (h.tab df.tab) .bool) := ⟨_, rfl⟩
  have hmL : ∀ c, c ∈ L ↔ ((abs h df).col .float c).isSome ∨ ((abs h df).col .bool c).isSome := by
    intro c; rw [hL]; exact mem_floatsAndBools
  have ndL : L.Nodup := by rw [hL]; exact nodup_sinsertAll (nodup_namesOf_kind wf.keys _) _
  have hmN : ∀ c, c ∈ sch.names L ↔ c ∈ L := fun c => (sch.names_perm L).mem_iff
  obtain ⟨s, k, hsk⟩ := scalerFitCol_both ys
  have htm : target ∈ sch.names L := by rw [hmN, hmL, hy]; exact Or.inl rfl
  have hnot : b!"_target" ∉ sch.names L := by rw [hmN, hmL, hnf, hnb]; simp
  have htne : target ≠ b!"_target" := fun h0 => hnot (h0 ▸ htm)
  obtain ⟨D, h1, e1, pp⟩ := fitPrepare_spec wf sep hft hy htm hnot hcpu hsk
  obtain ⟨fs, hfs⟩ : ∃ fs, fs = sch.features (sremove L [target]) := ⟨_, rfl⟩
  have hmf : ∀ c, c ∈ fs ↔ c ≠ target ∧ (((abs h df).col .float c).isSome ∨ ((abs h df).col .bool c).isSome) := by
    intro c
    rw [hfs, (sch.features_perm _).mem_iff, mem_sremove, hmL]
    simp [and_comm]
  have ndf : fs.Nodup := by rw [hfs]; exact (sch.features_perm _).nodup_iff.2 (nodup_sremove ndL)
  have hne : fs ≠ [] := by
    obtain ⟨c, hc⟩ := hfeat
    intro h0
    have := (hmf c).2 hc
    rw [h0] at this; cases this
  obtain ⟨kind, hkind⟩ : ∃ kind : GoStr → Kind, kind = fun c => if ((abs h df).col .float c).isSome then .float else .bool := ⟨_, rfl⟩
  have hcolD : ∀ c ∈ fs, ∀ kk, (abs h1 D).col kk c = (abs h df).col kk c := by
    intro c hc kk
    have hc' := (hmf c).1 hc
    have hcN : c ∈ sch.names L := by rw [hmN, hmL]; exact hc'.2
    rw [pp.col kk c (fun h0 => hnot (by cases h0; exact hcN)) (fun h0 => hc'.1 (by cases h0; rfl)), if_pos hcN]
  have hkD : ∀ c ∈ fs, (abs h1 D).numKind c = some (kind c) := by
    intro c hc
    have hc' := ((hmf c).1 hc).2
    unfold ADF.numKind
    rw [hcolD c hc, hcolD c hc, hkind]
    simp only
    split
    · rfl
    · rename_i h0
      rcases hc' with h1' | h1'
      · exact absurd h1' h0
      · rw [if_pos h1']
  have hnD : D.numRows = df.numRows := by show D.rows.length = _; rw [pp.rows]; rfl
  have hlen : ys.length = df.numRows := by
    have := (wf.cells hy).1
    rw [List.length_map] at this; exact this
  -- the loop
  obtain ⟨es, hes, hesm⟩ := C47_makeRange_partial (a := 1) (b := p.epochs + 1) (s := 1) (by omega) (by omega) ⟨p.epochs, by omega⟩
  obtain ⟨st, h2, pss, e2, k2, f2, ag⟩ := fitEpochs_spec (bl := bl) (p := p) (sch := sch) (kind := kind) (cols := fs) (df := D) hne (by omega) hb es h1
    ⟨newDense64Batching fs, fitInit sch fs.length, List.replicate fs.length GoFloat.zero⟩
    (fitInit sch fs.length, List.replicate fs.length GoFloat.zero) pp.wf hkD (by rw [pp.target]; rfl) (Or.inl rfl)
    ⟨rfl, fun _ => rfl, by simp [fitInit], by simp⟩
  have hel : (es.length : Int) = p.epochs := by
    have h1' : ∀ i : Nat, i < es.length ↔ (1 + (i : Int) * 1) < p.epochs + 1 := by
      intro i
      constructor
      · intro hi
        have := (hesm i es[i]).1 (List.getElem?_eq_getElem hi)
        omega
      · intro hi
        have := (hesm i (1 + (i : Int) * 1)).2 ⟨rfl, hi⟩
        exact (List.getElem?_eq_some_iff.1 this).1
    have h2' := h1' es.length
    have h3' := h1' (es.length - 1)
    omega
  refine ⟨⟨some ⟨[(b!"_target", s)], [(b!"_target", k)], ⟨false, true, true⟩⟩, st.weights, fs⟩, h2, s, k, kind,
    trainRow kind fs (abs h1 D), pss, ?_, ndf, hmf, ?_, hsk, rfl, ?_, ?_, ?_, ag.lw, ?_, ?_⟩
  · unfold linRegFit
    simp only
    rw [← hL, e1]
    simp only
    rw [← hfs]
    unfold fitTrain
    rw [if_neg (by
      rintro (h0 | h0)
      · exact hne (List.length_eq_zero_iff.1 h0)
      · omega), hes]
    simp only
    rw [e2]
  · intro c _; rw [hkind]
  · intro r y hr
    have hrn : r < df.numRows := by rw [← hlen]; exact (List.getElem?_eq_some_iff.1 hr).1
    have hfr : (trainRow kind fs (abs h1 D) r).1 = featRow kind fs (abs h df) r := by
      unfold trainRow featRow
      simp only
      apply List.map_congr_left
      intro c hc
      unfold ADF.cell
      rw [hcolD c hc]
    constructor
    · rw [hfr]
      apply isRowOf_featRow
      intro c hc
      have hsome : ((abs h df).col (kind c) c).isSome := by
        rw [← hcolD c hc]; exact numKind_isSome (hkD c hc)
      obtain ⟨l, hl⟩ := Option.isSome_iff_exists.1 hsome
      obtain ⟨q1, q2⟩ := wf.cells hl
      have q1' : l.length = df.numRows := q1
      unfold ADF.cell
      rw [hl]
      simp only [Option.bind_some]
      have hlt : r < l.length := by omega
      rw [List.getElem?_eq_getElem hlt]
      cases hx : l[r] with
      | none => exact absurd (hx ▸ List.getElem_mem hlt) q2
      | some v => rfl
    · unfold trainRow ADF.cell
      simp only
      rw [pp.target]
      simp only [Option.bind_some, List.getElem?_mapIdx, hr, Option.map_some, Option.join_some, asFloat, Option.getD_some]
  · rw [← f2.length_eq]; exact hel
  · intro e parts hp
    obtain ⟨hlt, hpe⟩ := List.getElem?_eq_some_iff.1 hp
    have hlt' : e < es.length := by rw [f2.length_eq]; exact hlt
    have := f2.get hlt' hlt
    simp only [List.get_eq_getElem] at this
    rw [hpe] at this
    have hee := ((hesm e es[e]).1 (List.getElem?_eq_getElem hlt')).1
    rw [hee, hnD] at this
    rw [show (1 + (e : Int) * 1).toNat = e + 1 by omega] at this
    exact this
  · exact ag.w
  · intro d wd hd
    obtain ⟨b1, b2, b3⟩ := pp.others d wd hd
    obtain ⟨c1, c2, c3⟩ := k2 d b3
    exact ⟨c1.trans b1, c2.trans b2, c3⟩

/-! ### Panics -/

/-- C69: with a positive number of epochs, `Fit` panics when `BatchSize` is 0: there is no default value, against the
documentation. -/
theorem C69_no_default_batch_size (hb : p.batchSize ≤ 0) (he : 0 < p.epochs) (reg : LinearRegressor F) (h' : Heap F) :
    linRegFit bl sch df target p h ≠ .ok (reg, h') := by
  intro e
  unfold linRegFit at e
  simp only at e
  split at e
  · cases e
  · rename_i D sc h1 _
    unfold fitTrain at e
    split at e
    · cases e
    · split at e
      · cases e
      · rename_i es hes
        obtain ⟨es', hes', hm⟩ := C47_makeRange_partial (a := 1) (b := p.epochs + 1) (s := 1) (by omega) (by omega) ⟨p.epochs, by omega⟩
        rw [hes] at hes'; cases hes'
        have h0 := (hm 0 1).2 ⟨by omega, by omega⟩
        cases es with
        | nil => simp at h0
        | cons x xs =>
          simp only [fitEpochs] at e
          split at e
          · cases e
          · rename_i y hx
            split at hx
            · cases hx
            · rename_i s1 h2 hep
              unfold fitEpoch at hep
              split at hep
              · cases hep
              · rw [C09_splitView_panics _ _ hb] at hep
                cases hep

/-- C69: a negative number of epochs panics, or the call panics before. -/
theorem C69_negative_epochs (he : p.epochs < 0) (reg : LinearRegressor F) (h' : Heap F) :
    linRegFit bl sch df target p h ≠ .ok (reg, h') := by
  intro e
  unfold linRegFit at e
  simp only at e
  split at e
  · cases e
  · unfold fitTrain at e
    split at e
    · cases e
    · have : makeRange 1 (p.epochs + 1) 1 = .error .panic := by
        unfold makeRange
        rw [if_neg (by omega), if_pos (by rw [Int.tdiv_one]; omega)]
      rw [this] at e; cases e

/-- C69: `Fit` panics when the target is neither a float nor a boolean column, for example an integer column (there
must be some float or boolean column). -/
theorem C69_int_target_panics (wf : df.WF h) (sep : df.toRaw.Sep) (hf : (abs h df).col .float target = none) (hb : (abs h df).col .bool target = none)
    (hc : ∃ c, ((abs h df).col .float c).isSome ∨ ((abs h df).col .bool c).isSome) :
    linRegFit bl sch df target p h = .error .panic := by
  obtain ⟨L, hL⟩ : ∃ L, L = sinsertAll (namesOf (h.tab df.tab) .float) (namesOf (h.tab df.tab) .bool) := ⟨_, rfl⟩
  have hmN : ∀ c, c ∈ sch.names L ↔ ((abs h df).col .float c).isSome ∨ ((abs h df).col .bool c).isSome := by
    intro c; rw [(sch.names_perm L).mem_iff, hL]; exact mem_floatsAndBools
  have hne : sch.names L ≠ [] := by
    obtain ⟨c, hc⟩ := hc
    intro h0
    have := (hmN c).2 hc
    rw [h0] at this; cases this
  have hnot : target ∉ sch.names L := by rw [hmN, hf, hb]; simp
  unfold linRegFit
  simp only
  rw [← hL]
  unfold fitPrepare
  have c18 := C18_columnView wf sep hne (v := (df.columnView (sch.names L) h).1) (h' := (df.columnView (sch.names L) h).2) rfl
  generalize df.columnView (sch.names L) h = V1 at c18 ⊢
  obtain ⟨V, h1⟩ := V1
  simp only at c18 ⊢
  obtain ⟨aV, _, wV, _⟩ := c18
  obtain ⟨aD, wD, _⟩ := C14_detached_shows wV [target]
  obtain ⟨_, _, d3, _⟩ := detached_rest wV [target]
  generalize V.detachedView [target] h1 = D1 at aD wD d3 ⊢
  obtain ⟨D, h2⟩ := D1
  simp only at aD wD d3 ⊢
  have := (C51_rename_panics wD d3 target b!"_target").2 (by
    intro kk
    rw [aD, aV]
    simp only [ADF.project, if_neg hnot])
  simp only [Edit.run] at this
  cases hr : D.toRaw.rename target b!"_target" h2 with
  | error e => rw [hr] at this; simp only at this; cases this; rfl
  | ok x => rw [hr] at this; cases this

/-- C69: with `Epochs` left to 0 (the documentation promises a default value), nothing is learnt: the weights are the
random initial ones. -/
theorem C69_no_default_epochs (wf : df.WF h) (sep : df.toRaw.Sep) (hft : FloatTyped (abs h df))
    (hy : (abs h df).col .float target = some (ys.map fun y => some (.float y)))
    (hnf : (abs h df).col .float b!"_target" = none) (hnb : (abs h df).col .bool b!"_target" = none)
    (hfeat : ∃ c, c ≠ target ∧ (((abs h df).col .float c).isSome ∨ ((abs h df).col .bool c).isSome))
    (hn : 0 < df.numRows) (hcpu : 0 < df.maxCPU) (hb : 0 < p.batchSize) (he : p.epochs = 0) :
    ∃ (reg : LinearRegressor F) (h' : Heap F), linRegFit bl sch df target p h = .ok (reg, h') ∧
      reg.weights = (List.range reg.features.length).map (fun i => GoFloat.mul (sch.norm i)
          (GoFloat.sqrt (GoFloat.div (GoFloat.ofInt 2) (GoFloat.ofInt (reg.features.length : Int))))) := by
  obtain ⟨reg, h', s, k, kind, data, pss, e, _, _, _, _, _, _, hl, _, _, hw, _⟩ :=
    C69_fit_partial (bl := bl) (sch := sch) wf sep hft hy hnf hnb hfeat hn hcpu hb (by omega)
  rw [he] at hl
  have : pss = [] := List.length_eq_zero_iff.1 (by omega)
  rw [this] at hw
  exact ⟨reg, h', e, hw⟩

/-! ### Fit, then Predict (C70) -/

/-- C70, partial. Under the conditions of `C69_fit_partial` (and a result column that is not "_target"), a `Fit` followed
by `Predict` on the same dataframe succeeds: the result has the rows of the dataframe in backing order (`is`), all
its columns and the result column, whose value in each row is the unscaled product of the features of that row and the
trained weights (unscaled as often as the row is shown); the dataframe is as before, the target included. -/
theorem C70_fit_predict_partial (wf : df.WF h) (sep : df.toRaw.Sep) (hft : FloatTyped (abs h df))
    (hy : (abs h df).col .float target = some (ys.map fun y => some (.float y)))
    (hnf : (abs h df).col .float b!"_target" = none) (hnb : (abs h df).col .bool b!"_target" = none)
    (hfeat : ∃ c, c ≠ target ∧ (((abs h df).col .float c).isSome ∨ ((abs h df).col .bool c).isSome))
    (hn : 0 < df.numRows) (hcpu : 0 < df.maxCPU) (hb : 0 < p.batchSize) (he : 0 ≤ p.epochs)
    {out : GoStr} (hout : out ≠ b!"_target") :
    ∃ (reg : LinearRegressor F) (h1 : Heap F) (s k : F) (kind : GoStr → Kind) (res : DF) (h2 : Heap F) (is : List Nat) (zs : List F),
      linRegFit bl sch df target p h = .ok (reg, h1) ∧ reg.predict bl.dot df out [b!"_target"] h1 = .ok (res, h2) ∧
      scalerFitCol ⟨false, true, true⟩ ys = (some s, some k) ∧
      df.BackingOrder is ∧ (df.rows.Pairwise (· ≤ ·) → is = List.range df.numRows) ∧
      abs h2 res = ((abs h df).select is).withCol .float out (zs.map .float) ∧
      (∀ (i r : Nat), is[i]? = some r → ∃ row, IsRowOf kind reg.features h df r row ∧
        zs[i]? = some (times (df.repeats r) (fun y => GoFloat.mul (GoFloat.add y (GoFloat.mul (GoFloat.neg s) k)) (GoFloat.div GoFloat.one k))
          (bl.dot row reg.weights))) ∧
      abs h2 df = abs h df := by
  obtain ⟨reg, h1, s, k, kind, data, pss, e, nf, mf, hk, hsk, hsc, _, hl, _, hwl, hw, oth⟩ :=
    C69_fit_partial (bl := bl) (sch := sch) wf sep hft hy hnf hnb hfeat hn hcpu hb he
  obtain ⟨b1, b2, b3⟩ := oth df wf sep
  obtain ⟨res, h2, is, zs, e2, p1, p2, p3, _, p5, _, _, p7⟩ := C46_predict_partial (reg := reg) (dot := bl.dot) (kind := kind) (out := out) b3 hn
    (by
      obtain ⟨c, hc⟩ := hfeat
      intro h0
      have := (mf c).2 hc
      rw [h0] at this; cases this) hwl
    (by
      intro c hc
      rw [b1, hk c hc]
      have := (mf c).1 hc
      unfold ADF.numKind
      split
      · rfl
      · rename_i h0
        rcases this.2 with h1' | h1'
        · exact absurd h1' h0
        · rw [if_pos h1'])
    (by rw [b1]; exact hnf) hout hcpu hsc
  refine ⟨reg, h1, s, k, kind, res, h2, is, zs, e, e2, hsk, p1, p2, by rw [p3, b1], ?_, by rw [(p7 df b3).1, b1]⟩
  intro i r hir
  obtain ⟨row, hr1, hr2⟩ := p5 i r hir
  refine ⟨row, ?_, hr2⟩
  unfold IsRowOf at hr1 ⊢
  rw [b1] at hr1
  exact hr1

end

/-! ### Examples and refutations -/

open scoped Demo
namespace Demo

def ibl : Blas Int := ⟨idot, idot, fun a al b => a + al * b⟩

/-- Nothing is reordered, except that every second epoch goes through the rows backwards. -/
def fsched : FitSched Int where
  names l := l
  features l := l
  norm i := (i : Int) + 1
  shuffle e n := if e % 2 = 0 then List.range n else (List.range n).reverse
  names_perm l := List.Perm.refl l
  features_perm l := List.Perm.refl l
  shuffle_perm e n := by
    split
    · exact List.Perm.refl _
    · exact List.reverse_perm _

def trops : List (BOp Int) :=
  [.add .float b!"x" [.float 2, .float 3, .float 1], .add .bool b!"b" [.bool true, .bool false, .bool true], .add .float b!"y" [.float 1, .float 2, .float 1],
    .add .int b!"a" [.int 10, .int 20, .int 30]]

def trres : Except Abort (DF × Heap Int) := (build trops heap0).1.toDataFrame (build trops heap0).2

def trdf : DF := match trres with | .ok p => p.1 | .error _ => ⟨⟨0, none, false, none, 0, none⟩, ⟨[], 0⟩, ⟨0,0,0,0⟩, false, false⟩

def trh : Heap Int := match trres with | .ok p => p.2 | .error _ => heap0

theorem trdf_wf : trdf.WF trh := DF.wf_of_check 3 (by decide +kernel)

/-- Two epochs, batches of 2 rows, learning rate 1, momentum 1. -/
def trpar : LinRegTrainParams Int := ⟨2, 1, 2, 0, 1, true⟩

/-- The weights that a `Fit` gives. -/
def fitWeights (r : Except Abort (LinearRegressor Int × Heap Int)) : Option (List GoStr × List Int) :=
  match r with | .ok (reg, _) => some (reg.features, reg.weights) | .error _ => none

end Demo

/-- The hypotheses of `C69_fit_partial` and `C70_fit_predict_partial` hold of `trdf`. -/
example : ∃ (reg : LinearRegressor Int) (h1 : Heap Int) (res : DF) (h2 : Heap Int),
    linRegFit Demo.ibl Demo.fsched Demo.trdf b!"y" Demo.trpar Demo.trh = .ok (reg, h1) ∧
    reg.predict Demo.ibl.dot Demo.trdf b!"z" [b!"_target"] h1 = .ok (res, h2) := by
  obtain ⟨reg, h1, _, _, _, res, h2, _, _, e1, e2, _⟩ := C70_fit_predict_partial (bl := Demo.ibl) (sch := Demo.fsched) (df := Demo.trdf) (h := Demo.trh)
    (target := b!"y") (p := Demo.trpar) (ys := [1, 2, 1]) (out := b!"z") Demo.trdf_wf
    (by intro i hi; have : Demo.trdf.shared = none := by decide +kernel
        rw [this] at hi; cases hi)
    (FloatCols.typed (vals := fun c => if c = b!"x" then [2, 3, 1] else [1, 2, 1]) (by
      intro c hc
      have : c ∈ [b!"x", b!"y"] := by
        have h1 := mem_namesOf_iff.2 hc
        have h2 : namesOf (Demo.trh.tab Demo.trdf.tab) .float = [b!"x", b!"y"] := by decide +kernel
        rwa [h2] at h1
      simp only [List.mem_cons, List.not_mem_nil, or_false] at this
      rcases this with rfl | rfl <;> decide +kernel))
    (by decide +kernel) (by decide +kernel) (by decide +kernel) ⟨b!"x", by decide, Or.inl (by decide +kernel)⟩ (by decide +kernel)
    (by decide +kernel) (by decide) (by decide) (by decide)
  exact ⟨reg, h1, res, h2, e1, e2⟩

/-- What the example learns. -/
theorem C69_example : Demo.fitWeights (linRegFit Demo.ibl Demo.fsched Demo.trdf b!"y" Demo.trpar Demo.trh) = some ([b!"x", b!"b"], [-43, 37]) := by
  decide +kernel

/-- A boolean target panics (as soon as there is an epoch). -/
theorem C69_bool_target_panics : (match linRegFit Demo.ibl Demo.fsched Demo.trdf b!"b" Demo.trpar Demo.trh with
    | .error .panic => true | _ => false) = true := by
  decide +kernel

/-- Against C69 (repeated rows): a view that shows row 0 twice and its copy show the same values, but are not
learnt from in the same way: in the view, the target of the repeated row is scaled twice. -/
theorem C69_repeated_rows : ∃ v h1 c h2, Demo.trdf.indexView [0, 1, 2, 0] Demo.trh = .ok (v, h1) ∧ v.copy h1 = .ok (c, h2) ∧
    Demo.fitWeights (linRegFit Demo.ibl Demo.fsched v b!"y" Demo.trpar h2) ≠ Demo.fitWeights (linRegFit Demo.ibl Demo.fsched c b!"y" Demo.trpar h2) :=
  ⟨_, _, _, _, rfl, rfl, by decide +kernel⟩

/-- Against C69 (an existing column "_target"): the target itself becomes a feature, under the name "_target", instead of
the column of that name. The regressor is the same whatever that column holds. -/
theorem C69_target_column :
    (Demo.fitWeights (linRegFit Demo.ibl Demo.fsched Demo.tdf b!"x" Demo.trpar Demo.th)).map (·.1) = some [b!"_target", b!"b"] ∧
    ∃ h1, Demo.tdf.set Demo.th .float b!"_target" 0 (.float 77) = .ok h1 ∧
      Demo.fitWeights (linRegFit Demo.ibl Demo.fsched Demo.tdf b!"x" Demo.trpar h1) =
      Demo.fitWeights (linRegFit Demo.ibl Demo.fsched Demo.tdf b!"x" Demo.trpar Demo.th) :=
  ⟨by decide +kernel, _, rfl, by decide +kernel⟩

/-- A dataframe without rows panics (as soon as there is an epoch). -/
theorem C69_no_rows_panics : ∃ v h1, Demo.trdf.indexView [] Demo.trh = .ok (v, h1) ∧
    (match linRegFit Demo.ibl Demo.fsched v b!"y" Demo.trpar h1 with | .error .panic => true | _ => false) = true :=
  ⟨_, _, rfl, by decide +kernel⟩

end Verif
