import Verif.Proofs.ExperimentSplit
import Verif.Proofs.TrainedNamed

/-! C79: the experiment of examples/linreg.go, end to end. -/

namespace Verif
variable {F : Type}

section
variable [GoFloat F] {j : JsonFloats F} {bl : Blas F} {sch : ExperimentSched F} {fl : ExperimentFlags F} {df : DF} {h : Heap F}
  {fvals : GoStr → List F} {ivals : GoStr → List Int}

omit [GoFloat F] in
theorem takeRows_takeRows {α : Type} {l : List α} {is js : List Nat} (hi : ∀ i ∈ is, i < l.length) :
    takeRows (takeRows l is) js = takeRows l (takeRows is js) := by
  unfold takeRows
  rw [List.filterMap_filterMap]
  congr 1
  funext i
  cases e : is[i]? with
  | none =>
    have := takeRows_length (l := l) hi
    unfold takeRows at this
    rw [List.getElem?_eq_none_iff] at e
    simp only [Option.bind_none]
    rw [List.getElem?_eq_none_iff, this]; exact e
  | some r =>
    simp only [Option.bind_some]
    have key : ∀ (is : List Nat) (i r : Nat), (∀ i ∈ is, i < l.length) → is[i]? = some r → (is.filterMap fun i => l[i]?)[i]? = l[r]? := by
      intro is
      induction is with
      | nil => intro i r _ e; simp at e
      | cons x is ih =>
        intro i r hi e
        rw [List.filterMap_cons, List.getElem?_eq_getElem (hi x (by simp))]
        simp only
        cases i with
        | zero =>
          simp only [List.getElem?_cons_zero, Option.some.injEq] at e
          subst e
          simp [List.getElem?_eq_getElem (hi x (by simp))]
        | succ i => simpa using ih i r (fun y hy => hi y (by simp [hy])) (by simpa using e)
    exact key is i r hi e

theorem featuresOf_select {kind : GoStr → Kind} {cols : List GoStr} {a : ADF (Val F)} {is : List Nat} {i r : Nat} {xs : List F}
    (hi : is[i]? = some r) : FeaturesOf kind cols (a.select is) i xs ↔ FeaturesOf kind cols a r xs := by
  unfold FeaturesOf
  simp only [cell_select a is _ _ hi]

omit [GoFloat F] in
theorem pick_eq_takeRows {l is : List Nat} (hi : ∀ i ∈ is, i < l.length) : pick l is = takeRows l is := by
  unfold pick takeRows
  induction is with
  | nil => rfl
  | cons i is ih =>
    rw [List.filterMap_cons, List.getElem?_eq_getElem (hi i (by simp)), List.map_cons, ih fun x hx => hi x (by simp [hx])]
    simp [List.getD_eq_getElem?_getD, List.getElem?_eq_getElem (hi i (by simp))]

/-- What the experiment requires of the dataframe and of the flags. `t` is the number of test rows. -/
structure ExperimentReady (fl : ExperimentFlags F) (perm : List Nat) (df : DF) (h : Heap F) (fvals : GoStr → List F) (ivals : GoStr → List Int)
    (t : Nat) : Prop where
  wf : df.WF h
  mwf : df.MaskWF h
  sep : df.toRaw.Sep
  cpu : 0 < df.maxCPU
  perm : perm.Perm (List.range df.numRows)
  ratio : GoFloat.lt fl.split (GoFloat.zero : F) = false ∧ GoFloat.lt (GoFloat.one : F) fl.split = false
  count : GoFloat.trunc (GoFloat.mul (GoFloat.ofInt df.numRows) fl.split : F) = t
  some_test : 0 < t
  some_train : t < df.numRows
  floats : FloatCols (abs h df) fvals
  ints : IntCols (abs h df) ivals
  ready : AutoReady (abs h df)
  target : ((abs h df).col .float fl.target).isSome
  other : ∃ d, d ≠ fl.target ∧ ((abs h df).col .float d).isSome
  reserved : (abs h df).col .float b!"_target" = none ∧ (abs h df).col .bool b!"_target" = none
  output : fl.target ≠ b!"y_pred"
  batch : 0 < fl.params.batchSize
  epochs : 0 ≤ fl.params.epochs

/-- The combinations of `-imputing` and `-scaling` with which `FitTransform` works (C44): both, or none of them when there is
nothing to encode. -/
def WorkingOptions (fl : ExperimentFlags F) (a : ADF (Val F)) : Prop :=
  (fl.imputing = true ∧ fl.scaling = true) ∨ (fl.imputing = false ∧ fl.scaling = false ∧ ∀ c, ¬ Categorical a c)

/-- The first half of the experiment. -/
theorem experimentTrain_ok {t : Nat} (r : ExperimentReady fl sch.perm df h fvals ivals t) (ho : WorkingOptions fl (abs h df)) :
    ∃ (x : TrainedExperiment F) (h' : Heap F) (T : Code) (kind : GoStr → Kind) (s k : F),
      experimentTrain bl sch fl df h = .ok (x, h') ∧
      AutoTrained fl.options ((abs h df).select (sch.perm.take (df.numRows - t))) (fun c => takeRows (fvals c) (sch.perm.take (df.numRows - t)))
        (catVals ((abs h df).select (sch.perm.take (df.numRows - t))) (fun c => takeRows (ivals c) (sch.perm.take (df.numRows - t)))) T x.preproc ∧
      abs h' x.train = x.preproc.shown T (df.repeatsIn (sch.perm.take (df.numRows - t))) ((abs h df).select (sch.perm.take (df.numRows - t))) ∧
      RegressorTrained bl sch.train fl.params fl.target
        (x.preproc.shown T (df.repeatsIn (sch.perm.take (df.numRows - t))) ((abs h df).select (sch.perm.take (df.numRows - t))))
        (df.repeatsIn (sch.perm.take (df.numRows - t))) (takeRows (fvals fl.target) (sch.perm.take (df.numRows - t))) kind s k x.model ∧
      abs h' x.test = (abs h df).select (sch.perm.drop (df.numRows - t)) ∧
      x.test.WF h' ∧ x.test.MaskWF h' ∧ x.test.toRaw = { df.toRaw with sharedMaps := true } ∧
      x.test.rows = pick df.rows (sch.perm.drop (df.numRows - t)) ∧
      ∀ d : DF, d.WF h → (∀ i, df.shared = some i → d.strHdr ≠ some i) → abs h' d = abs h d ∧ locs h' d = locs h d ∧ d.WF h' := by
  obtain ⟨v, tr, te, h1, e1, e2, ha, hb⟩ := shuffleSplit r.wf r.mwf r.perm r.ratio t r.count (Nat.le_of_lt r.some_train)
  have hlenP : sch.perm.length = df.numRows := by rw [r.perm.length_eq, List.length_range]
  obtain ⟨I, hI⟩ : ∃ I, I = sch.perm.take (df.numRows - t) := ⟨_, rfl⟩
  obtain ⟨J, hJ⟩ : ∃ J, J = sch.perm.drop (df.numRows - t) := ⟨_, rfl⟩
  rw [← hI] at ha ⊢
  rw [← hJ] at hb ⊢
  have lI : 0 < I.length := by rw [hI, List.length_take]; have := r.some_train; omega
  have hshared : tr.toRaw.shared = df.toRaw.shared := by rw [ha.raw]
  have sepT : tr.toRaw.Sep := by rw [ha.raw]; exact r.sep
  have cpuT : 0 < tr.maxCPU := by show 0 < tr.toRaw.maxCPU; rw [ha.raw]; exact r.cpu
  have hfl : ∀ c, ((abs h df).col .float c).isSome → (fvals c).length = df.numRows := by
    intro c hc
    have := abs_col_length (floats_some.1 (r.floats c hc))
    simpa using this
  have hil : ∀ c, ((abs h df).col .int c).isSome → (ivals c).length = df.numRows := by
    intro c hc
    have := abs_col_length (r.ints c hc)
    simpa using this
  have hfI : FloatCols ((abs h df).select I) (fun c => takeRows (fvals c) I) :=
    r.floats.select fun c hc i hi => by rw [hfl c hc]; exact ha.inRange i hi
  have hiI : IntCols ((abs h df).select I) (fun c => takeRows (ivals c) I) :=
    r.ints.select fun c hc i hi => by rw [hil c hc]; exact ha.inRange i hi
  have hcol : (abs h1 tr).hasColumn := by
    rw [ha.rv.shows]
    exact ⟨.float, fl.target, by rw [select_isSome]; exact r.target⟩
  obtain ⟨p, T, hx, h2, R, _, e3, trd, aR, wR, oth, _⟩ := C44_fitTransform_partial (o := fl.options) (df := tr) (h := h1) ha.rv.wf sepT
    (by rw [ha.rv.shows]; exact hfI) (by rw [ha.rv.shows]; exact hiI) cpuT (by rw [ha.rv.shows]; exact r.ready.select lI) sch.fit
    (ho.imp id fun h0 => ⟨h0.1, h0.2.1, fun c hc => h0.2.2 c (by rw [ha.rv.shows] at hc; exact (categorical_select ..).1 hc)⟩)
  rw [ha.rv.shows] at trd aR
  have sR := fitTransform_stepOK ha.rv.wf ha.step.mwf sepT hcol e3
  have kR := fitTransform_kept e3
  have rowsR : R.rows = tr.rows := by simp only [DF.rows, kR.1]
  have repT : tr.repeats = df.repeatsIn I := repeats_pick ha.rows
  have repR : R.repeats = df.repeatsIn I := by
    rw [← repT]; funext j; unfold DF.repeats; rw [rowsR]
  have nT : tr.numRows = I.length := ha.rv.numRows
  have aR' : abs h2 R = p.shown T (df.repeatsIn I) ((abs h df).select I) := by rw [aR, repT]
  -- the columns the regressor uses
  have hncat : ¬ Categorical ((abs h df).select I) fl.target := by
    intro hc
    have := r.ready.kinds _ ((categorical_select ..).1 hc)
    have h2 := r.target
    rw [this] at h2; cases h2
  obtain ⟨d, hd1, hd2⟩ := r.other
  have hdx : d ∉ fl.options.exclude := by simpa [ExperimentFlags.options] using hd1
  have htarget : ∀ (rep : Nat → Nat) (b : ADF (Val F)), (p.shown T rep b).col .float fl.target = b.col .float fl.target := fun rep b =>
    C65_excluded_float_partial trd rep (d := d) (by simp [ExperimentFlags.options]) (by rw [select_isSome]; exact hd2) hdx hncat
  have hyI : ((abs h df).select I).col .float fl.target = some ((takeRows (fvals fl.target) I).map fun y => some (.float y)) := by
    have := floats_some.1 (hfI fl.target (by rw [select_isSome]; exact r.target))
    rw [this, List.map_map]; rfl
  have hd3 : ((p.shown T (df.repeatsIn I) ((abs h df).select I)).col .float d).isSome := by
    rw [shown_base p T _ _ .float d]
    exact chosen_survives trd (r.ready.select lI) ⟨by rw [select_isSome]; exact hd2, Or.inl hdx⟩
  have nR : R.numRows = I.length := by rw [← nT]; exact congrArg List.length rowsR
  obtain ⟨reg, h3, s, k, kind, data, pss, e4, q1, q2, q3, q4, q5, q6, q7, q8, q9, q10, oth3⟩ :=
    C69_fit_partial (bl := bl) (sch := sch.train) (df := R) (h := h2) (target := fl.target) (p := fl.params) (ys := takeRows (fvals fl.target) I)
      wR (sR.sep sepT) (by rw [aR']; exact hfI.typed.shown p T _) (by rw [aR', htarget]; exact hyI)
      (by rw [aR']; exact shown_target trd _ (by decide) ((select_isNone ..).2 r.reserved.1))
      (by rw [aR']; exact shown_target trd _ (by decide) ((select_isNone ..).2 r.reserved.2))
      ⟨d, hd1, Or.inl (by rw [aR']; exact hd3)⟩ (by rw [nR]; exact lI) (by rw [kR.2]; exact cpuT) r.batch r.epochs
  have sF := linRegFit_safe wR sR.mwf (sR.sep sepT) e4
  -- what is left alone
  have shR : ∀ (d2 : DF), d2.WF h1 → (∀ i, df.shared = some i → d2.strHdr ≠ some i) → ∀ i, R.shared = some i → d2.strHdr ≠ some i := by
    intro d2 w2 hs i hi
    rcases sR.sh i hi with h5 | h5
    · exact hs i (by rw [← hshared]; exact h5)
    · intro h6
      have := w2.str_lt i h6
      omega
  have all : ∀ d2 : DF, d2.WF h1 → (∀ i, df.shared = some i → d2.strHdr ≠ some i) → abs h3 d2 = abs h1 d2 ∧ locs h3 d2 = locs h1 d2 ∧ d2.WF h3 := by
    intro d2 w2 hs
    obtain ⟨a1, a2, a3⟩ := oth d2 w2 (fun i hi => hs i (by rw [← hshared]; exact hi))
    obtain ⟨b1, b2, b3⟩ := oth3 d2 a3 (shR d2 w2 hs)
    exact ⟨b1.trans a1, b2.trans a2, b3⟩
  obtain ⟨t1, _, t3⟩ := all te hb.rv.wf (by rw [hb.raw]; exact r.sep)
  obtain ⟨u1, _, u3⟩ := oth3 R wR (sR.sep sepT)
  have e5 : experimentTrain bl sch fl df h = .ok (⟨R, te, p, reg⟩, h3) := by
    unfold experimentTrain
    rw [e1]
    simp only
    rw [e2]
    simp only
    rw [e3]
    simp only
    rw [e4]
  rw [aR'] at q2 q3
  rw [repR] at q6
  refine ⟨⟨R, te, p, reg⟩, h3, T, kind, s, k, e5, trd, by rw [u1]; exact aR', ⟨q1, q2, q3, q4, q5, data, pss, ?_, q7, ?_, q9, q10⟩, by rw [t1]; exact hb.rv.shows, t3,
    (hb.step.safe_right (sR.safe.trans sF)).mwf, hb.raw, hb.rows, ?_⟩
  · intro i y hy
    obtain ⟨z1, z2⟩ := q6 i y hy
    refine ⟨?_, z2⟩
    rw [← aR']
    exact z1
  · intro e parts hp
    have := q8 e parts hp
    have hl : (takeRows (fvals fl.target) I).length = R.numRows := by
      rw [nR]
      exact takeRows_length fun i hi => by rw [hfl _ r.target]; exact ha.inRange i hi
    rw [hl]
    exact this
  · intro d2 w2 hs
    obtain ⟨a1, a2, a3⟩ := ha.rv.others d2 w2
    obtain ⟨b1, b2, b3⟩ := all d2 a3 hs
    exact ⟨b1.trans a1, b2.trans a2, b3⟩

/-- What was learnt can be written as JSON and read back: the names are texts, the numbers are finite. -/
structure TrainedExperiment.Storable (x : TrainedExperiment F) : Prop where
  model_named : x.model.Named
  model_finite : x.model.Finite
  preproc_named : x.preproc.Named
  preproc_finite : x.preproc.Finite

/-- The learnt numbers are finite. -/
structure TrainedExperiment.Finite (x : TrainedExperiment F) : Prop where
  model : x.model.Finite
  preproc : x.preproc.Finite

theorem TrainedExperiment.Storable.finite {x : TrainedExperiment F} (s : x.Storable) : x.Finite := ⟨s.model_finite, s.preproc_finite⟩

/-- What is learnt from a dataframe with ordinary names and ints can be saved if the numbers are finite. -/
theorem experimentTrain_storable {t : Nat} (r : ExperimentReady fl sch.perm df h fvals ivals t) (ho : WorkingOptions fl (abs h df))
    (tx : (abs h df).Textual ivals) {x : TrainedExperiment F} {h' : Heap F} (e : experimentTrain bl sch fl df h = .ok (x, h')) (hf : x.Finite) :
    x.Storable := by
  obtain ⟨x', h1', T, kind, s, k, e', trd, _, reg, _⟩ := experimentTrain_ok (bl := bl) r ho
  rw [e] at e'; cases e'
  obtain ⟨v, tr, te, h1, e1, e2, ha, hb⟩ := shuffleSplit r.wf r.mwf r.perm r.ratio t r.count (Nat.le_of_lt r.some_train)
  have hlenP : sch.perm.length = df.numRows := by rw [r.perm.length_eq, List.length_range]
  obtain ⟨I, hI⟩ : ∃ I, I = sch.perm.take (df.numRows - t) := ⟨_, rfl⟩
  rw [← hI] at ha trd reg
  have lI : 0 < I.length := by rw [hI, List.length_take]; have := r.some_train; omega
  have hfl : ∀ c, ((abs h df).col .float c).isSome → (fvals c).length = df.numRows := by
    intro c hc
    have := abs_col_length (floats_some.1 (r.floats c hc))
    simpa using this
  have hil : ∀ c, ((abs h df).col .int c).isSome → (ivals c).length = df.numRows := by
    intro c hc
    have := abs_col_length (r.ints c hc)
    simpa using this
  have hfI : FloatCols ((abs h df).select I) (fun c => takeRows (fvals c) I) :=
    r.floats.select fun c hc i hi => by rw [hfl c hc]; exact ha.inRange i hi
  have hiI : IntCols ((abs h df).select I) (fun c => takeRows (ivals c) I) :=
    r.ints.select fun c hc i hi => by rw [hil c hc]; exact ha.inRange i hi
  have txI : ((abs h df).select I).Textual (fun c => takeRows (ivals c) I) := by
    refine ⟨fun k c hc => tx.names k c (by rwa [select_isSome] at hc), fun c hc v hv => tx.ints c (by rwa [select_isSome] at hc) v ?_⟩
    obtain ⟨i, _, hi⟩ := List.mem_filterMap.1 hv
    exact List.mem_of_getElem? hi
  have hnamed : x.preproc.Named := by
    unfold experimentTrain at e
    rw [e1] at e
    simp only at e
    rw [e2] at e
    simp only at e
    cases e3 : (newAutoPreprocessor fl.options : AutoPreprocessor F).fitTransform sch.fit tr h1 with
    | error y => rw [e3] at e; cases e
    | ok y =>
      obtain ⟨⟨p, d⟩, h2⟩ := y
      have hp : p.Named := by
        unfold AutoPreprocessor.fitTransform at e3
        split at e3
        · cases e3
        · cases e3
        · rename_i e4
          cases e3
          exact fitWith_named ha.rv.wf (by rw [ha.raw]; exact r.sep) (by rw [ha.rv.shows]; exact hfI) (by rw [ha.rv.shows]; exact hiI)
            (by show 0 < tr.toRaw.maxCPU; rw [ha.raw]; exact r.cpu) (by rw [ha.rv.shows]; exact r.ready.select lI) (by rw [ha.rv.shows]; exact txI) e4
      rw [e3] at e
      cases d with
      | none => cases e
      | some d =>
        simp only at e
        split at e
        · cases e
        · cases e; exact hp
  refine ⟨⟨?_, ?_⟩, hf.model, hnamed, hf.preproc⟩
  · intro sc hsc
    rw [reg.scaler] at hsc
    cases hsc
    have ht : IsText b!"_target" := isText_ascii (by decide)
    refine ⟨⟨by simp [KeysOnce], ?_⟩, ⟨by simp [KeysOnce], ?_⟩⟩ <;> intro y hy <;> simp only [List.mem_cons, List.not_mem_nil, or_false] at hy <;>
      subst hy <;> exact ht
  · intro c hc
    have key : ∀ k, ((x.preproc.shown T (df.repeatsIn I) ((abs h df).select I)).col k c).isSome → IsText c := by
      intro k hk
      rcases shown_cols trd _ hk with ⟨k', h5⟩ | ⟨d, w, hd, rfl⟩
      · exact txI.names k' c h5
      · have hdt : IsText d := by
          rcases hd with h6 | h6
          · exact txI.names .obj d ((r.ready.select lI).strings d h6)
          · exact txI.names .int d h6.2
        exact hdt.append (isText_word w)
    rcases ((reg.features c).1 hc).2 with h5 | h5
    · exact key _ h5
    · exact key _ h5

/-- C79, partial. Under `ExperimentReady` the experiment ends, whatever the shuffles, map orders and schedules, and
* the preprocessor has learnt from the training rows (the first `NumRows - t` of the shuffle) and from no other row;
* the regressor has been trained on the preprocessed training rows, with the target as it is in the dataframe;
* the final dataframe shows the `t` other rows (`js`: in the order of the underlying rows, not of the shuffle), preprocessed by what was learnt from the training
  rows (no test row has any influence), with the column "y_pred";
* "y_pred" holds in each row the prediction of the trained regressor for the features of that same row;
* the target column of the final dataframe holds the values of the dataframe for these rows, and the reported error is the
  mean of the absolute differences with "y_pred", row by row;
* the dataframe the experiment started from is as before, like every other dataframe.
(If the dataframe is a view with repeated rows, the scalings are applied to a row as often as its half shows it: see
`C79_once_partial` for the other dataframes.)
Missing: what `ExperimentReady` excludes, see the properties of the functions (a target that is not a float column, a column
"_target"), the other combinations of `-imputing` and `-scaling`, with which the experiment panics
(`C79_options_panic`), column names that are not UTF-8, and learnt numbers that JSON cannot store, with which it panics too
(`C79_not_finite`). -/
theorem C79_experiment_partial {t : Nat} (r : ExperimentReady fl sch.perm df h fvals ivals t) (ho : WorkingOptions fl (abs h df))
    (tx : (abs h df).Textual ivals) (hs : ∀ x h', experimentTrain bl sch fl df h = .ok (x, h') → x.Finite) :
    ∃ (x : TrainedExperiment F) (res : ExperimentResult F) (h' : Heap F) (T : Code) (kind : GoStr → Kind) (s k : F) (js : List Nat) (ys : List F),
      experiment j bl sch fl df h = .ok ((x, res), h') ∧
      AutoTrained fl.options ((abs h df).select (sch.perm.take (df.numRows - t))) (fun c => takeRows (fvals c) (sch.perm.take (df.numRows - t)))
        (catVals ((abs h df).select (sch.perm.take (df.numRows - t))) (fun c => takeRows (ivals c) (sch.perm.take (df.numRows - t)))) T x.preproc ∧
      RegressorTrained bl sch.train fl.params fl.target
        (x.preproc.shown T (df.repeatsIn (sch.perm.take (df.numRows - t))) ((abs h df).select (sch.perm.take (df.numRows - t))))
        (df.repeatsIn (sch.perm.take (df.numRows - t))) (takeRows (fvals fl.target) (sch.perm.take (df.numRows - t))) kind s k x.model ∧
      js.Perm (sch.perm.drop (df.numRows - t)) ∧ js.Pairwise (fun r s => df.rows.getD r 0 ≤ df.rows.getD s 0) ∧
      abs h' res.test = (x.preproc.shown T (df.repeatsIn js) ((abs h df).select js)).withCol .float b!"y_pred" (ys.map .float) ∧
      ys.length = js.length ∧
      (∀ (i : Nat) (y : F), ys[i]? = some y → ∃ row, FeaturesOf kind x.model.features (x.preproc.shown T (df.repeatsIn js) ((abs h df).select js)) i row ∧
        y = times (df.repeatsIn js i) (fun y => GoFloat.mul (GoFloat.add y (GoFloat.mul (GoFloat.neg s) k)) (GoFloat.div GoFloat.one k))
          (bl.dot row x.model.weights)) ∧
      (abs h' res.test).floats fl.target = some (takeRows (fvals fl.target) js) ∧
      res.mae = GoFloat.div (fsum (List.zipWith (fun y p => GoFloat.abs (GoFloat.sub y p)) (takeRows (fvals fl.target) js) ys)) (GoFloat.ofInt (t : Int)) ∧
      res.test.WF h' ∧ res.test.rows = pick df.rows js ∧
      ∀ d : DF, d.WF h → (∀ i, df.shared = some i → d.strHdr ≠ some i) → abs h' d = abs h d ∧ locs h' d = locs h d ∧ d.WF h' := by
  obtain ⟨x, h1, T, kind, s, k, e1, trd, _, reg, at1, wt1, mt1, rawt, rowst, oth⟩ := experimentTrain_ok (bl := bl) r ho
  have st := experimentTrain_storable r ho tx e1 (hs x h1 e1)
  have hlenP : sch.perm.length = df.numRows := by rw [r.perm.length_eq, List.length_range]
  have hinP : ∀ i ∈ sch.perm, i < df.numRows := fun i hi => by simpa using r.perm.mem_iff.1 hi
  obtain ⟨I, hI⟩ : ∃ I, I = sch.perm.take (df.numRows - t) := ⟨_, rfl⟩
  obtain ⟨J, hJ⟩ : ∃ J, J = sch.perm.drop (df.numRows - t) := ⟨_, rfl⟩
  rw [← hI] at trd reg ⊢
  rw [← hJ] at at1 rowst ⊢
  have lI : 0 < I.length := by rw [hI, List.length_take]; have := r.some_train; omega
  have lJ : J.length = t := by rw [hJ, List.length_drop]; have := r.some_train; omega
  have inJ : ∀ i ∈ J, i < df.numRows := fun i hi => hinP i (by rw [hJ] at hi; exact List.mem_of_mem_drop hi)
  have hfl : ∀ c, ((abs h df).col .float c).isSome → (fvals c).length = df.numRows := by
    intro c hc
    have := abs_col_length (floats_some.1 (r.floats c hc))
    simpa using this
  have hil : ∀ c, ((abs h df).col .int c).isSome → (ivals c).length = df.numRows := by
    intro c hc
    have := abs_col_length (r.ints c hc)
    simpa using this
  have hfJ : FloatCols ((abs h df).select J) (fun c => takeRows (fvals c) J) :=
    r.floats.select fun c hc i hi => by rw [hfl c hc]; exact inJ i hi
  have hiJ : IntCols ((abs h df).select J) (fun c => takeRows (ivals c) J) :=
    r.ints.select fun c hc i hi => by rw [hil c hc]; exact inJ i hi
  -- JSON
  obtain ⟨s1, m', j1, j2, _, _, j5⟩ := C77_linreg_partial j st.model_named st.model_finite
  obtain ⟨w, hw⟩ := Option.isSome_iff_exists.1 ((auto_isSome j x.preproc).2 st.preproc_finite)
  obtain ⟨p', j3, ss⟩ := (codec_auto j).roundtrip st.preproc_named (s := w.text) (by simp [marshal, hw])
  -- the test rows, preprocessed
  have sepT : x.test.toRaw.Sep := by rw [rawt]; exact r.sep
  have cpuT : 0 < x.test.maxCPU := by show 0 < x.test.toRaw.maxCPU; rw [rawt]; exact r.cpu
  obtain ⟨V, h2, e2, aV, wV, othV⟩ := C44_transformView (auto_trained trd st.preproc_named ss) (r.ready.select lI) (df := x.test) (h := h1)
    (by rw [at1]; exact r.ready.fits_select I J) wt1 sepT (by rw [at1]; exact hfJ) (by rw [at1]; exact hiJ) cpuT sch.run
  have e2' : p'.transformView sch.run x.test h1 = .ok (some V, h2) := e2
  have kV := transformView_kept e2'
  have nt : x.test.numRows = J.length := by
    have := congrArg ADF.nRows at1
    exact this
  have aV' : abs h2 V = x.preproc.shown T (df.repeatsIn J) ((abs h df).select J) := by
    rw [aV]
    show p'.shown T x.test.repeats (abs h1 x.test) = _
    rw [auto_shown st.preproc_named ss, at1, repeats_pick rowst]
  have rowsV : V.rows = x.test.rows := by simp only [DF.rows, kV.1]
  have repV : V.repeats = df.repeatsIn J := by
    rw [← repeats_pick rowst]; funext j; unfold DF.repeats; rw [rowsV]
  have nV : V.numRows = t := by
    rw [← lJ, ← nt]; exact congrArg List.length rowsV
  -- columns
  have hsame : SameCols (x.preproc.shown T (df.repeatsIn J) ((abs h df).select J)) (x.preproc.shown T (df.repeatsIn I) ((abs h df).select I)) :=
    shown_sameCols _ _ _ _ fun k c => by rw [select_isSome, select_isSome]
  have hncat : ¬ Categorical ((abs h df).select I) fl.target := by
    intro hc
    have := r.ready.kinds _ ((categorical_select ..).1 hc)
    have h2 := r.target
    rw [this] at h2; cases h2
  obtain ⟨d, hd1, hd2⟩ := r.other
  have hdx : d ∉ fl.options.exclude := by simpa [ExperimentFlags.options] using hd1
  have htarget : ∀ (rep : Nat → Nat) (b : ADF (Val F)), (x.preproc.shown T rep b).col .float fl.target = b.col .float fl.target := fun rep b =>
    C65_excluded_float_partial trd rep (d := d) (by simp [ExperimentFlags.options]) (by rw [select_isSome]; exact hd2) hdx hncat
  have hd3 : ((x.preproc.shown T (df.repeatsIn I) ((abs h df).select I)).col .float d).isSome := by
    rw [shown_base x.preproc T _ _ .float d]
    exact chosen_survives trd (r.ready.select lI) ⟨by rw [select_isSome]; exact hd2, Or.inl hdx⟩
  have hkinds : ∀ c ∈ x.model.features, (abs h2 V).numKind c = some (kind c) := by
    intro c hc
    rw [aV', hsame.numKind c, reg.kinds c hc]
    unfold ADF.numKind
    rcases ((reg.features c).1 hc).2 with h5 | h5
    · rw [if_pos h5, if_pos h5]
    · split
      · rfl
      · rfl
  obtain ⟨data, pss, _, _, _, hwl, _⟩ := reg.weights
  obtain ⟨res, h3, is, ys, e3, hbo, _, ares, hyl, hrow, wres, rowsRes, oth3⟩ := C46_predict_partial (dot := bl.dot) (out := b!"y_pred") wV (by rw [nV]; exact r.some_test)
    (List.ne_nil_of_mem ((reg.features d).2 ⟨hd1, Or.inl hd3⟩)) hwl hkinds
    (by rw [aV']; exact shown_target trd _ (by decide) ((select_isNone ..).2 r.reserved.1)) (by decide) (by rw [kV.2]; exact cpuT) reg.scaler
  have hperm := hbo.1
  have inIs : ∀ i ∈ is, i < J.length := fun i hi => by
    have := hperm.mem_iff.1 hi
    rw [nV] at this
    rw [lJ]; simpa using this
  have hjs : pick J is = takeRows J is := pick_eq_takeRows inIs
  have hpermJ : is.Perm (List.range J.length) := by rw [lJ, ← nV]; exact hperm
  have repJs : ∀ i, i < is.length → df.repeatsIn J (is.getD i 0) = df.repeatsIn (takeRows J is) i := by
    intro i hi
    rw [← hjs]
    exact repeatsIn_pick df hpermJ hi
  have shownJs : (abs h2 V).select is = x.preproc.shown T (df.repeatsIn (takeRows J is)) ((abs h df).select (takeRows J is)) := by
    rw [aV', select_shown _ _ _ _ (by intro i hi; exact inIs i hi), select_select _ _ _ inIs, hjs]
    refine shown_rep x.preproc T (n := is.length) ?_ repJs
    intro c l e
    rw [← hjs] at e
    simp only [ADF.select] at e
    obtain ⟨l0, _, rfl⟩ := Option.map_eq_some_iff.1 e
    simp [pick]
  rw [shownJs] at ares
  have hlis : is.length = t := by rw [hperm.length_eq, List.length_range, nV]
  have hljs : (takeRows J is).length = t := by rw [takeRows_length inIs, hlis]
  have inJs : ∀ i ∈ takeRows J is, i < df.numRows := by
    intro i hi
    rw [← hjs] at hi
    exact inJ i (pick_mem inIs hi)
  have htf : (abs h3 res).floats fl.target = some (takeRows (fvals fl.target) (takeRows J is)) := by
    rw [floats_some, ares]
    simp only [ADF.withCol]
    rw [if_neg (fun h0 => r.output h0.2), htarget, ← takeRows_map]
    exact select_col_some (floats_some.1 (r.floats _ r.target)) (by intro i hi; rw [List.length_map, hfl _ r.target]; exact inJs i hi)
  have hyf : (abs h3 res).floats b!"y_pred" = some ys := by
    rw [floats_some, ares]
    simp [ADF.withCol]
  obtain ⟨a, b, e4, e5, e6⟩ := C45_mae (p := res) (t := res) htf hyf
  have hlt : (takeRows (fvals fl.target) (takeRows J is)).length = t := by
    rw [takeRows_length (by intro i hi; rw [hfl _ r.target]; exact inJs i hi), hljs]
  rw [if_pos (by rw [hlt, hyl, hlis]), hlt] at e6
  refine ⟨x, ⟨res, _⟩, h3, T, kind, s, k, takeRows J is, ys, ?_, trd, reg, ?_, ?_, ares, by rw [hyl, hlis, hljs], ?_, htf, rfl, wres, by rw [rowsRes, rowsV, rowst, pick_pick _ _ _ inIs, hjs], ?_⟩
  · unfold experiment
    rw [e1]
    simp only
    unfold experimentTest saveAndRestore
    rw [j1]
    simp only
    rw [show marshal (AutoPreprocessor.enc j) x.preproc = some w.text by simp [marshal, hw]]
    simp only [j2, j3, Option.getD_some]
    rw [e2']
    simp only
    rw [j5, e3]
    simp only
    rw [e4]
    simp only
    rw [e5]
    simp only
    rw [e6]
  · rw [← hjs]
    have hpk : (pick J is).Perm (pick J (List.range J.length)) := by
      unfold pick
      rw [lJ, ← nV]
      exact hperm.map _
    rw [pick_range] at hpk
    exact hpk
  · rw [← hjs]
    unfold pick
    rw [List.pairwise_map]
    refine hbo.2.imp_of_mem ?_
    intro a b ha hb hab
    have hget : ∀ a, a < J.length → V.rows.getD a 0 = df.rows.getD (J.getD a 0) 0 := by
      intro a ha
      rw [rowsV, rowst]
      unfold pick
      simp [List.getD_eq_getElem?_getD, List.getElem?_eq_getElem ha]
    rw [hget a (inIs a ha), hget b (inIs b hb)] at hab
    omega
  · intro i y hy
    have hi : i < is.length := by
      rw [← hyl]
      exact (List.getElem?_eq_some_iff.1 hy).1
    obtain ⟨row, hr1, hr2⟩ := hrow i is[i] (List.getElem?_eq_getElem hi)
    rw [hy] at hr2
    refine ⟨row, ?_, ?_⟩
    rotate_left
    · rw [Option.some.inj hr2, repV, ← repJs i hi]
      simp [List.getD_eq_getElem?_getD, List.getElem?_eq_getElem hi]
    rw [← shownJs, featuresOf_select (List.getElem?_eq_getElem hi)]
    exact hr1
  · intro d2 w2 hsd
    obtain ⟨a1, a2, a3⟩ := oth d2 w2 hsd
    obtain ⟨b1, b2, b3⟩ := othV d2 a3 (by rw [rawt]; exact hsd)
    obtain ⟨c1, c2, c3⟩ := oth3 d2 b3
    exact ⟨c1.trans (b1.trans a1), c2.trans (b2.trans a2), c3⟩

theorem RegressorTrained.congr_rep {p : LinRegTrainParams F} {target : GoStr} {a : ADF (Val F)} {rep rep' : Nat → Nat} {ys : List F} {kind : GoStr → Kind}
    {s k : F} {reg : LinearRegressor F} {tr : FitSched F} (x : RegressorTrained bl tr p target a rep ys kind s k reg) (hr : ∀ r, r < ys.length → rep r = rep' r) :
    RegressorTrained bl tr p target a rep' ys kind s k reg := by
  obtain ⟨x1, x2, x3, x4, x5, data, pss, y1, y2⟩ := x
  refine ⟨x1, x2, x3, x4, x5, data, pss, fun r y hy => ⟨(y1 r y hy).1, ?_⟩, y2⟩
  rw [(y1 r y hy).2, hr r (List.getElem?_eq_some_iff.1 hy).1]

/-- C79, for dataframes that repeat no row (such as those read from CSV files), partial: see `C79_experiment_partial`. Every
number is scaled and unscaled exactly once, and the rows of the result come in the order of the underlying rows: in the order of the
file if the dataframe comes from a file. -/
theorem C79_once_partial {t : Nat} (r : ExperimentReady fl sch.perm df h fvals ivals t) (nd : df.rows.Nodup) (ho : WorkingOptions fl (abs h df))
    (tx : (abs h df).Textual ivals) (hs : ∀ x h', experimentTrain bl sch fl df h = .ok (x, h') → x.Finite) :
    ∃ (x : TrainedExperiment F) (res : ExperimentResult F) (h' : Heap F) (T : Code) (kind : GoStr → Kind) (s k : F) (js : List Nat) (ys : List F),
      experiment j bl sch fl df h = .ok ((x, res), h') ∧
      AutoTrained fl.options ((abs h df).select (sch.perm.take (df.numRows - t))) (fun c => takeRows (fvals c) (sch.perm.take (df.numRows - t)))
        (catVals ((abs h df).select (sch.perm.take (df.numRows - t))) (fun c => takeRows (ivals c) (sch.perm.take (df.numRows - t)))) T x.preproc ∧
      RegressorTrained bl sch.train fl.params fl.target
        (x.preproc.shown T (fun _ => 1) ((abs h df).select (sch.perm.take (df.numRows - t))))
        (fun _ => 1) (takeRows (fvals fl.target) (sch.perm.take (df.numRows - t))) kind s k x.model ∧
      js.Perm (sch.perm.drop (df.numRows - t)) ∧ js.Pairwise (fun r s => df.rows.getD r 0 < df.rows.getD s 0) ∧
      abs h' res.test = (x.preproc.shown T (fun _ => 1) ((abs h df).select js)).withCol .float b!"y_pred" (ys.map .float) ∧
      ys.length = js.length ∧
      (∀ (i : Nat) (y : F), ys[i]? = some y → ∃ row, FeaturesOf kind x.model.features (x.preproc.shown T (fun _ => 1) ((abs h df).select js)) i row ∧
        y = GoFloat.mul (GoFloat.add (bl.dot row x.model.weights) (GoFloat.mul (GoFloat.neg s) k)) (GoFloat.div GoFloat.one k)) ∧
      (abs h' res.test).floats fl.target = some (takeRows (fvals fl.target) js) ∧
      res.mae = GoFloat.div (fsum (List.zipWith (fun y p => GoFloat.abs (GoFloat.sub y p)) (takeRows (fvals fl.target) js) ys)) (GoFloat.ofInt (t : Int)) ∧
      res.test.WF h' ∧ res.test.rows = pick df.rows js ∧
      ∀ d : DF, d.WF h → (∀ i, df.shared = some i → d.strHdr ≠ some i) → abs h' d = abs h d ∧ locs h' d = locs h d ∧ d.WF h' := by
  obtain ⟨x, res, h', T, kind, s, k, js, ys, e, trd, reg, hp, hpw, hsh, hl, hrow, hy, hm, hwf, hrows, oth⟩ := C79_experiment_partial (j := j) (bl := bl) r ho tx hs
  obtain ⟨I, hI⟩ : ∃ I, I = sch.perm.take (df.numRows - t) := ⟨_, rfl⟩
  obtain ⟨J, hJ⟩ : ∃ J, J = sch.perm.drop (df.numRows - t) := ⟨_, rfl⟩
  have hndP : sch.perm.Nodup := r.perm.nodup_iff.2 List.nodup_range
  have hinP : ∀ i ∈ sch.perm, i < df.numRows := fun i hi => by simpa using r.perm.mem_iff.1 hi
  have ndI : I.Nodup := by rw [hI]; exact hndP.sublist (List.take_sublist ..)
  have inI : ∀ i ∈ I, i < df.numRows := fun i hi => hinP i (by rw [hI] at hi; exact List.mem_of_mem_take hi)
  rw [← hI] at trd reg ⊢
  rw [← hJ] at hp ⊢
  have ndJ : js.Nodup := hp.nodup_iff.2 (by rw [hJ]; exact hndP.sublist (List.drop_sublist ..))
  have inJ : ∀ i ∈ js, i < df.numRows := fun i hi => hinP i (by
    have := hp.mem_iff.1 hi; rw [hJ] at this; exact List.mem_of_mem_drop this)
  have hlen : ∀ (is : List Nat) (c : GoStr) (l : List (Option (Val F))), ((abs h df).select is).col .float c = some l → l.length ≤ is.length := by
    intro is c l e
    simp only [ADF.select] at e
    obtain ⟨l0, _, rfl⟩ := Option.map_eq_some_iff.1 e
    simp
  have eI : x.preproc.shown T (df.repeatsIn I) ((abs h df).select I) = x.preproc.shown T (fun _ => 1) ((abs h df).select I) :=
    shown_rep _ _ (hlen I) fun i hi => repeatsIn_one nd ndI inI hi
  have eJ : x.preproc.shown T (df.repeatsIn js) ((abs h df).select js) = x.preproc.shown T (fun _ => 1) ((abs h df).select js) :=
    shown_rep _ _ (hlen js) fun i hi => repeatsIn_one nd ndJ inJ hi
  rw [eI] at reg
  rw [eJ] at hsh hrow
  have hfl : (fvals fl.target).length = df.numRows := by
    have := abs_col_length (floats_some.1 (r.floats _ r.target))
    simpa using this
  refine ⟨x, res, h', T, kind, s, k, js, ys, e, trd, reg.congr_rep ?_, hp, ?_, hsh, hl, ?_, hy, hm, hwf, hrows, oth⟩
  · intro i hi
    rw [takeRows_length (by intro i hi; rw [hfl]; exact inI i hi)] at hi
    exact repeatsIn_one nd ndI inI hi
  · refine (hpw.and ndJ).imp_of_mem ?_
    intro a b ha hb ⟨h1, h2⟩
    have ha' : a < df.rows.length := inJ a ha
    have hb' : b < df.rows.length := inJ b hb
    refine Nat.lt_of_le_of_ne h1 fun h3 => h2 ?_
    rw [List.getD_eq_getElem?_getD, List.getD_eq_getElem?_getD, List.getElem?_eq_getElem ha', List.getElem?_eq_getElem hb'] at h3
    exact (List.Nodup.getElem_inj_iff nd).1 h3
  · intro i y hy
    obtain ⟨row, h1, h2⟩ := hrow i y hy
    refine ⟨row, h1, ?_⟩
    have hi : i < js.length := by rw [← hl]; exact (List.getElem?_eq_some_iff.1 hy).1
    rw [h2, repeatsIn_one nd ndJ inJ hi]
    rfl

/-- C79: with the other combinations of `-imputing` and `-scaling` the experiment panics. -/
theorem C79_options_panic {t : Nat} (r : ExperimentReady fl sch.perm df h fvals ivals t) (ho : ¬ WorkingOptions fl (abs h df)) :
    experiment j bl sch fl df h = .error .panic := by
  obtain ⟨v, tr, te, h1, e1, e2, ha, hb⟩ := shuffleSplit r.wf r.mwf r.perm r.ratio t r.count (Nat.le_of_lt r.some_train)
  have hlenP : sch.perm.length = df.numRows := by rw [r.perm.length_eq, List.length_range]
  obtain ⟨I, hI⟩ : ∃ I, I = sch.perm.take (df.numRows - t) := ⟨_, rfl⟩
  rw [← hI] at ha
  have lI : 0 < I.length := by rw [hI, List.length_take]; have := r.some_train; omega
  have hfl : ∀ c, ((abs h df).col .float c).isSome → (fvals c).length = df.numRows := by
    intro c hc
    have := abs_col_length (floats_some.1 (r.floats c hc))
    simpa using this
  have hil : ∀ c, ((abs h df).col .int c).isSome → (ivals c).length = df.numRows := by
    intro c hc
    have := abs_col_length (r.ints c hc)
    simpa using this
  have hfI : FloatCols ((abs h df).select I) (fun c => takeRows (fvals c) I) :=
    r.floats.select fun c hc i hi => by rw [hfl c hc]; exact ha.inRange i hi
  have hiI : IntCols ((abs h df).select I) (fun c => takeRows (ivals c) I) :=
    r.ints.select fun c hc i hi => by rw [hil c hc]; exact ha.inRange i hi
  have e3 : (newAutoPreprocessor fl.options : AutoPreprocessor F).fitTransform sch.fit tr h1 = .error .panic := by
    refine C44_fitTransform_panics ha.rv.wf (by rw [ha.raw]; exact r.sep) (by rw [ha.rv.shows]; exact hfI) (by rw [ha.rv.shows]; exact hiI)
      (by show 0 < tr.toRaw.maxCPU; rw [ha.raw]; exact r.cpu) (by rw [ha.rv.shows]; exact r.ready.select lI) sch.fit ?_ ?_
    · show fl.imputing = false ∨ fl.scaling = false
      by_contra hx
      push Not at hx
      exact ho (Or.inl ⟨by simpa using hx.1, by simpa using hx.2⟩)
    · show fl.imputing = true ∨ fl.scaling = true ∨ _
      by_contra hx
      push Not at hx
      exact ho (Or.inr ⟨by simpa using hx.1, by simpa using hx.2.1, fun c hc => hx.2.2 c (by rw [ha.rv.shows]; exact (categorical_select ..).2 hc)⟩)
  unfold experiment experimentTrain
  rw [e1]
  simp only
  rw [e2]
  simp only
  rw [e3]

/-- C79: an experiment in which a weight, a mean or a scale is not a finite number (a column that only has missing values in
the training rows, weights that diverged) does not go on with a wrong model: it panics when it saves the model. -/
theorem C79_not_finite {x : TrainedExperiment F} {h' : Heap F} (e : experimentTrain bl sch fl df h = .ok (x, h'))
    (hf : ¬ (x.model.Finite ∧ x.preproc.Finite)) : experiment j bl sch fl df h = .error .panic := by
  unfold experiment
  rw [e]
  simp only
  unfold experimentTest saveAndRestore
  by_cases hm : x.model.Finite
  · have hp : ¬ x.preproc.Finite := fun h0 => hf ⟨hm, h0⟩
    rw [← auto_isSome j] at hp
    obtain ⟨v, hv⟩ := Option.isSome_iff_exists.1 ((linreg_isSome j x.model).2 hm)
    simp only [marshal, hv, Option.map_some, Option.not_isSome_iff_eq_none.1 hp, Option.map_none]
  · rw [← linreg_isSome j] at hm
    simp only [marshal, Option.not_isSome_iff_eq_none.1 hm, Option.map_none]

/-- C79: under `ExperimentReady`, with working options, texts as names and ints as ints, the experiment ends without a panic exactly if the numbers it
learns are finite. -/
theorem C79_ends_iff {t : Nat} (r : ExperimentReady fl sch.perm df h fvals ivals t) (ho : WorkingOptions fl (abs h df))
    (tx : (abs h df).Textual ivals) :
    ∃ (x : TrainedExperiment F) (h1 : Heap F), experimentTrain bl sch fl df h = .ok (x, h1) ∧
      (x.Finite → ∃ res h', experiment j bl sch fl df h = .ok ((x, res), h')) ∧
      (¬ x.Finite → experiment j bl sch fl df h = .error .panic) := by
  obtain ⟨x, h1, T, kind, s, k, e1, _⟩ := experimentTrain_ok (bl := bl) r ho
  refine ⟨x, h1, e1, fun hf => ?_, fun hf => C79_not_finite e1 fun h0 => hf ⟨h0.1, h0.2⟩⟩
  obtain ⟨x', res, h', _, _, _, _, _, _, e, _⟩ := C79_experiment_partial (j := j) (bl := bl) r ho tx fun x' h1' e' => by
    rw [e1] at e'; cases e'; exact hf
  have : x' = x := by
    unfold experiment at e
    rw [e1] at e
    simp only at e
    split at e
    · cases e
    · cases e; rfl
  rw [this] at e
  exact ⟨res, h', e⟩

/-- C79: a `-testratio` outside [0, 1] panics. -/
theorem C79_ratio_panics (wf : df.WF h) (hp : sch.perm.Perm (List.range df.numRows))
    (hr : GoFloat.lt fl.split (GoFloat.zero : F) = true ∨ GoFloat.lt (GoFloat.one : F) fl.split = true) :
    experiment j bl sch fl df h = .error .panic := by
  obtain ⟨v, h1, e1, _⟩ := C06_shuffleView wf hp
  unfold experiment experimentTrain
  rw [e1]
  simp only
  have : v.splitTrainTestViews fl.split h1 = .error .panic := by
    unfold DF.splitTrainTestViews
    rw [if_pos (by rcases hr with h0 | h0 <;> simp [h0])]
  rw [this]

end

end Verif
