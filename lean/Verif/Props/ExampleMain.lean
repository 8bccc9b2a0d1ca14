import Verif.Proofs.ExampleMain
import Verif.Proofs.Runtime

/-! C82: the whole example program, from the text of its CSV file to the files it writes and reads again. -/

namespace Verif
variable {F : Type} [GoFloat F]

/-- What the program needs, apart from `-imputing` and `-scaling`: two arguments and a separator; a CSV file with a header and records of
the same number of fields; no column with an empty name; a target column of numbers and another column of numbers; no column of
numbers that is named "_target", a target that is not named "y_pred"; no text column that has the name of a one-hot column of another
one; a ratio that leaves `t` records for testing (at least one) and at least one for training; reasonable training
parameters. (`perm` is the shuffle of the records.) -/
structure ExampleData (pf : GoStr → Option F) (perm : List Nat) (disk : GoStr → Option GoStr) (a : ExampleArgs F) (target : GoStr)
    (exclude : List GoStr) (comma : Nat) (hdr : List GoStr) (rec : List (List GoStr)) (t : Nat) : Prop where
  file : ∃ path text, a.parsed = some (path, target, exclude, comma) ∧ disk path = some text ∧
    csvRead (exampleText comma) text = ⟨hdr :: rec, false⟩
  fields : ∀ r ∈ rec, r.length = hdr.length
  named : [] ∈ hdr → [] ∈ exclude
  number : ReadColumn hdr exclude target ∧ NumberColumn pf hdr rec target
  other : ∃ d, d ≠ target ∧ ReadColumn hdr exclude d ∧ NumberColumn pf hdr rec d
  reserved : ReadColumn hdr exclude b!"_target" → ¬ NumberColumn pf hdr rec b!"_target"
  output : target ≠ b!"y_pred"
  texts : ∀ c d, ReadColumn hdr exclude c → ReadColumn hdr exclude d → ¬ NumberColumn pf hdr rec c → ¬ NumberColumn pf hdr rec d →
    (∀ i, c ≠ onehotName d i) ∧ c ≠ missingName d
  perm : perm.Perm (List.range rec.length)
  ratio : GoFloat.lt a.split (GoFloat.zero : F) = false ∧ GoFloat.lt (GoFloat.one : F) a.split = false
  count : GoFloat.trunc (GoFloat.mul (GoFloat.ofInt rec.length) a.split : F) = t
  some_test : 0 < t
  some_train : t < rec.length
  batch : 0 < a.params.batchSize
  epochs : 0 ≤ a.params.epochs

/-- `-imputing` and `-scaling` together, or none of them if there are only numbers. -/
def ExampleOptions (pf : GoStr → Option F) (a : ExampleArgs F) (exclude hdr : List GoStr) (rec : List (List GoStr)) : Prop :=
  (a.imputing = true ∧ a.scaling = true) ∨
    (a.imputing = false ∧ a.scaling = false ∧ ∀ c, ReadColumn hdr exclude c → NumberColumn pf hdr rec c)

/-- All that the program needs. -/
structure ExampleReady (pf : GoStr → Option F) (perm : List Nat) (disk : GoStr → Option GoStr) (a : ExampleArgs F) (target : GoStr)
    (exclude : List GoStr) (comma : Nat) (hdr : List GoStr) (rec : List (List GoStr)) (t : Nat) : Prop
    extends ExampleData pf perm disk a target exclude comma hdr rec t where
  options : ExampleOptions pf a exclude hdr rec
  utf8 : ∀ c, ReadColumn hdr exclude c → IsText c

/-- A dataframe that shows the file is good for the experiment. -/
theorem ExampleData.experiment {pf : GoStr → Option F} {perm : List Nat} {disk : GoStr → Option GoStr} {a : ExampleArgs F} {target : GoStr}
    {exclude : List GoStr} {comma : Nat} {hdr : List GoStr} {rec : List (List GoStr)} {t : Nat}
    (r : ExampleData pf perm disk a target exclude comma hdr rec t) {df : DF} {h : Heap F} {fvals : GoStr → List F} (wf : df.WF h) (mwf : df.MaskWF h)
    (hsh : df.shared = none) (hrows : df.rows = List.range rec.length) (hcpu : 0 < df.maxCPU) (sf : ShowsFile pf exclude hdr rec fvals (abs h df)) :
    ExperimentReady (a.flags target) perm df h fvals (fun _ => []) t ∧
      (WorkingOptions (a.flags target) (abs h df) ↔ ExampleOptions pf a exclude hdr rec) := by
  have hn : df.numRows = rec.length := by
    show df.rows.length = _
    rw [hrows, List.length_range]
  have hnoint : ∀ c, (abs h df).col .int c = none := by
    intro c
    cases e : (abs h df).col .int c with
    | none => rfl
    | some l =>
      have := (sf.only .int c (by rw [e]; rfl)).2
      simp at this
  have hcat : ∀ c, Categorical (abs h df) c ↔ ReadColumn hdr exclude c ∧ ¬ NumberColumn pf hdr rec c := by
    intro c
    unfold Categorical
    rw [sf.marks, hnoint]
    simp
  have hfloat : ∀ c, ReadColumn hdr exclude c → NumberColumn pf hdr rec c → ((abs h df).col .float c).isSome := by
    intro c h1 h2
    rw [floats_some.1 (sf.numbers c h1 h2).1]; rfl
  have hfloat' : ∀ c, ((abs h df).col .float c).isSome → ReadColumn hdr exclude c ∧ NumberColumn pf hdr rec c := by
    intro c hc
    have := sf.only .float c hc
    simp at this
    exact this
  have hempty : ∀ c, ReadColumn hdr exclude c → c ≠ [] := by
    rintro c ⟨h1, h2⟩ rfl
    exact h2 (r.named h1)
  have hnone : ∀ c, ¬ (ReadColumn hdr exclude c ∧ NumberColumn pf hdr rec c) → (abs h df).col .float c = none := by
    intro c hc
    cases e : (abs h df).col .float c with
    | none => rfl
    | some l => exact absurd (hfloat' c (by rw [e]; rfl)) hc
  refine ⟨⟨wf, mwf, ?_, hcpu, by rw [hn]; exact r.perm, r.ratio, by rw [hn]; exact r.count, r.some_test, by rw [hn]; exact r.some_train, ?_, ?_, ?_,
    hfloat _ r.number.1 r.number.2, ?_, ?_, r.output, r.batch, r.epochs⟩, ?_⟩
  · intro i hi
    rw [hsh] at hi; cases hi
  · intro c hc
    obtain ⟨h1, h2⟩ := hfloat' c hc
    exact (sf.numbers c h1 h2).1
  · intro c hc
    rw [hnoint] at hc; cases hc
  · constructor
    · intro c hc
      obtain ⟨h1, h2⟩ := (sf.marks c).1 hc
      obtain ⟨vs, h3, _⟩ := sf.texts c h1 h2
      rw [h3]; rfl
    · intro _
      refine ⟨.float, target, ?_, hfloat _ r.number.1 r.number.2⟩
      by_contra hx
      exact ((sf.marks target).1 (by simpa using hx)).2 r.number.2
    · refine ⟨hnone _ fun hx => hempty _ hx.1 rfl, fun hx => hempty _ ((hcat _).1 hx).1 rfl⟩
    · intro _
      rw [sf.rows]
      have := r.some_train
      omega
    · intro c d hc hd
      obtain ⟨c1, c2⟩ := (hcat c).1 hc
      obtain ⟨d1, d2⟩ := (hcat d).1 hd
      exact r.texts c d c1 d1 c2 d2
    · intro c hc
      exact hnone _ fun hx => ((hcat c).1 hc).2 hx.2
  · obtain ⟨d, h1, h2, h3⟩ := r.other
    exact ⟨d, h1, hfloat d h2 h3⟩
  · refine ⟨hnone _ fun hx => r.reserved hx.1 hx.2, ?_⟩
    cases e : (abs h df).col .bool b!"_target" with
    | none => rfl
    | some l =>
      have := (sf.only .bool _ (by rw [e]; rfl)).2
      simp at this
  · unfold WorkingOptions ExampleOptions
    refine or_congr Iff.rfl (and_congr Iff.rfl (and_congr Iff.rfl ?_))
    constructor
    · intro h3 c hc
      by_contra hx
      exact h3 c ((hcat c).2 ⟨hc, hx⟩)
    · intro h3 c hc
      exact ((hcat c).1 hc).2 (h3 c ((hcat c).1 hc).1)

/-- After the preprocessing no column is marked as string. -/
theorem shown_noStr {o : AutoOptions} {a : ADF (Val F)} {fvals : GoStr → List F} {cvals : GoStr → List Int} {T : Code} {p : AutoPreprocessor F}
    (trd : AutoTrained o a fvals cvals T p) (rep : Nat → Nat) {b : ADF (Val F)} (hb : ∀ c, b.isStr c = true → a.isStr c = true) (c : GoStr) :
    (p.shown T rep b).isStr c = false := by
  unfold AutoPreprocessor.shown
  rw [scale_impute_isStr]
  have hh : (b.hashWith p.stringToInt).isStr c = true → a.isStr c = true := by
    intro h
    apply hb
    unfold ADF.hashWith at h
    cases e : p.stringToInt with
    | none => rw [e] at h; exact h
    | some st =>
      rw [e] at h
      simp only [ADF.hashed, Bool.and_eq_true] at h
      exact h.2.2
  by_cases hc : ∃ c, Categorical a c
  · obtain ⟨enc, e, _, _, hcats, _⟩ := trd.codes hc
    rw [e]
    simp only [ADF.encodeWith, ADF.oneHot, Bool.false_or, Bool.and_eq_false_iff, Bool.not_eq_false', decide_eq_true_eq]
    by_cases h1 : c ∈ enc.catCols
    · exact Or.inl h1
    · refine Or.inr ?_
      by_contra hx
      exact h1 ((hcats c).2 (Or.inl (hh (by simpa using hx))))
  · rw [trd.no_codes fun c h => hc ⟨c, h⟩]
    simp only [ADF.encodeWith]
    by_contra hx
    exact hc ⟨c, Or.inl (hh (by simpa using hx))⟩

theorem comma_ok {comma : Nat} {text : GoStr} {rs : List (List GoStr)} (hr : csvRead (exampleText comma) text = ⟨rs, false⟩) :
    validDelim (if comma ≠ 0 then comma else 44) = true := by
  by_contra hx
  rw [C74_bad_separator (t := exampleText comma) (Or.inr (Or.inl (Bool.eq_false_iff.2 hx)))] at hr
  cases hr

section
variable {pf : GoStr → Option F} {ff : F → GoStr} {j : JsonFloats F} {bl : Blas F} {sch : ExampleSched F} {disk : GoStr → Option GoStr}
  {a : ExampleArgs F} {target : GoStr} {exclude : List GoStr} {comma : Nat} {hdr : List GoStr} {rec : List (List GoStr)} {t : Nat}

/-- What the program has made when it has written its files (the arguments as in `C82_run_partial`). -/
structure ExampleDone (pf : GoStr → Option F) (ff : F → GoStr) (bl : Blas F) (sch : ExampleSched F) (a : ExampleArgs F) (target : GoStr)
    (exclude : List GoStr) (comma : Nat) (hdr : List GoStr) (rec : List (List GoStr)) (t : Nat) (numCPU : Nat) (run : ExampleRun F) (h' : Heap F)
    (A : ADF (Val F)) (fvals : GoStr → List F) (T : Code) (kind : GoStr → Kind) (s k : F) (js : List Nat) (ys : List F) (parts : List (List Nat))
    (text : Kind → GoStr → GoStr) : Prop where
  /-- the dataframe read from the file is as the file, to the end -/
  read : ShowsFile pf exclude hdr rec fvals A ∧ abs h' run.df = A ∧ run.df.WF h'
  /-- the preprocessor has learnt from the training records -/
  preproc : AutoTrained (a.flags target).options (A.select (sch.experiment.perm.take (rec.length - t)))
    (fun c => takeRows (fvals c) (sch.experiment.perm.take (rec.length - t)))
    (catVals (A.select (sch.experiment.perm.take (rec.length - t))) fun _ => []) T run.trained.preproc
  /-- so has the model -/
  model : RegressorTrained bl sch.experiment.train a.params target
    (run.trained.preproc.shown T (fun _ => 1) (A.select (sch.experiment.perm.take (rec.length - t)))) (fun _ => 1)
    (takeRows (fvals target) (sch.experiment.perm.take (rec.length - t))) kind s k run.trained.model
  /-- the test records are the other ones, in the order of the file -/
  tested : js.Perm (sch.experiment.perm.drop (rec.length - t)) ∧ js.Pairwise (· < ·)
  /-- the test dataframe shows the preprocessed test records and the predictions -/
  shown : abs h' run.result.test =
    (run.trained.preproc.shown T (fun _ => 1) (A.select js)).withCol .float b!"y_pred" (ys.map .float) ∧ run.result.test.WF h'
  predictions : ys.length = js.length ∧ ∀ (i : Nat) (y : F), ys[i]? = some y →
    ∃ row, FeaturesOf kind run.trained.model.features (run.trained.preproc.shown T (fun _ => 1) (A.select js)) i row ∧
      y = GoFloat.mul (GoFloat.add (bl.dot row run.trained.model.weights) (GoFloat.mul (GoFloat.neg s) k)) (GoFloat.div GoFloat.one k)
  /-- the error is that of the predictions against the target as it is in the file -/
  error : (abs h' run.result.test).floats target = some (takeRows (fvals target) js) ∧
    run.result.mae = GoFloat.div (fsum (List.zipWith (fun y p => GoFloat.abs (GoFloat.sub y p)) (takeRows (fvals target) js) ys)) (GoFloat.ofInt (t : Int))
  /-- the number of files, and their names -/
  files : (run.files.length : Int) = min (clampCPU numCPU a.maxCPU) (1 + t / 512) ∧ 1 ≤ run.files.length ∧ (run.files.map (·.1)).Nodup ∧
    ∀ f ∈ run.files, b!"outdir/file" <+: f.1 ∧ b!".csv" <:+ f.1
  /-- all the records of all the files are the same -/
  alike : parts.flatten = List.range t ∧ parts.length ≤ run.files.length ∧
    EvenParts t run.files.length parts ∧
    ∀ (i : Nat) (f : GoStr × GoStr), run.files[i]? = some f →
      ∃ out, f.2 = csvText comma false out ∧ AlikeFile (abs h' run.result.test) text parts i out
  /-- they are the first test record if this is the first record of the file -/
  first : js.head? = some 0 → ∀ k c v s, (abs h' run.result.test).cell k c 0 = some v → cellText ff [] k v = .ok s → text k c = s

/-- C82, partial. The example program (examples/linreg.go) on a file that it can work with (`ExampleReady`), whatever the
shuffles, map orders and schedules: it reads the file, trains on some of its records, tests on the others, and writes files. What is missing of the
property: the files should hold the test records with the predictions, but all records of all files are the same. -/
theorem C82_run_partial (r : ExampleReady pf sch.experiment.perm disk a target exclude comma hdr rec t) (h : Heap F)
    (hs : ∀ path df h1 x h2, a.parsed = some (path, target, exclude, comma) →
      exampleRead pf sch disk a.maxCPU path exclude comma h = .ok (df, h1) →
      experimentTrain bl sch.experiment (a.flags target) df h1 = .ok (x, h2) → x.Finite) :
    ∃ run h' A fvals T kind s k js ys parts text, exampleBody pf ff j bl sch disk true a h = .ok (run, h') ∧
      ExampleDone pf ff bl sch a target exclude comma hdr rec t h.rt.numCPU run h' A fvals T kind s k js ys parts text ∧
      h'.rt = h.rt ∧ ∀ d : DF, d.WF h → abs h' d = abs h d ∧ locs h' d = locs h d ∧ d.WF h' := by
  obtain ⟨path, text, hp, hd, hr⟩ := r.file
  obtain ⟨df, h1, e1, wf1, mwf1, sh1, rows1, cpu1, sf, ext1⟩ := exampleRead_ok (sch := sch) (maxCPU := a.maxCPU) hd hr r.fields r.named
    ⟨target, r.number.1⟩ h
  have rt1 := exampleRead_rt e1
  have hcpu : 0 < df.maxCPU := by rw [cpu1]; exact clampCPU_pos h1.rt.numCPU_pos _
  obtain ⟨er, ho⟩ := r.experiment wf1 mwf1 sh1 rows1 hcpu sf
  have ho := ho.2 r.options
  have nd : df.rows.Nodup := by rw [rows1]; exact List.nodup_range
  have hn : df.numRows = rec.length := by
    show df.rows.length = _
    rw [rows1, List.length_range]
  obtain ⟨x, res, h2, T, kind, s, k, js, ys, e2, trd, reg, hjs, hpw, hsh, hl, hrow, hy, hm, wfr, rowsr, oth⟩ :=
    C79_once_partial (j := j) (bl := bl) er nd ho ⟨fun k c hc => r.utf8 c (sf.only k c hc).1, fun _ _ _ hv => by cases hv⟩ fun x h2 e => hs path df h1 x h2 hp e1 e
  rw [hn] at trd reg hjs
  have rt2 := experiment_rt e2
  obtain ⟨fl1, fl2⟩ := experiment_flags e2
  have inJ : ∀ i ∈ js, i < rec.length := by
    intro i hi
    have := hjs.mem_iff.1 hi
    have := r.perm.mem_iff.1 (List.mem_of_mem_drop this)
    simpa using this
  have ljs : js.length = t := by
    rw [hjs.length_eq, List.length_drop, r.perm.length_eq, List.length_range]
    have := r.some_train
    omega
  have hrange : ∀ i, i < rec.length → df.rows.getD i 0 = i := by
    intro i hi
    rw [rows1]
    simp [List.getD_eq_getElem?_getD, List.getElem?_range hi]
  have hnr : (abs h2 res.test).nRows = t := by
    show res.test.rows.length = t
    rw [rowsr, pick_length, ljs]
  have noStr : ∀ c, (abs h2 res.test).isStr c = false := by
    intro c
    rw [hsh]
    show (x.preproc.shown T _ ((abs h1 df).select js)).isStr c = false
    exact shown_noStr trd _ (b := (abs h1 df).select js) (fun c hc => hc) c
  have hdel : (⟨[], 0, false, comma⟩ : CSVWritingSpec).DelimOk := by
    have := comma_ok hr
    by_cases h0 : comma = 0
    · exact Or.inl h0
    · rw [if_pos h0] at this
      exact Or.inr this
  obtain ⟨paths, sinks, h3, parts, text', e3, f1, f2, f3, f4, f5, f6, f7, f8, f9, f10, f11⟩ :=
    C55_alike (ff := ff) (opt := ⟨[], 0, false, comma⟩) wfr fl1 rfl noStr sch.order_perm hdel (by rw [fl2]; exact hcpu) b!"outdir/file" sch.full
  rw [hnr] at f1 f6 f8
  have ew : exampleWrite ff sch true comma res.test h2 = .ok (paths.zip (sinks.map fun w => csvText comma false w.written), h3) := by
    unfold exampleWrite
    simp only [if_true]
    rw [e3]
  have lz : (paths.zip (sinks.map fun w => csvText comma false w.written)).length = paths.length := by
    simp [f5]
  have mz : (paths.zip (sinks.map fun w => csvText comma false w.written)).map (·.1) = paths := by
    rw [List.map_fst_zip]; simp [f5]
  have hres := f11 res.test wfr
  have hdf := oth df wf1 (by rw [sh1]; intro i hi; cases hi)
  have hdf3 := f11 df hdf.2.2
  refine ⟨⟨df, x, res, paths.zip (sinks.map fun w => csvText comma false w.written)⟩, h3, abs h1 df, fileFloats pf hdr rec, T, kind, s, k, js, ys, parts, text', ?_, ?_, ?_, ?_⟩
  · unfold exampleBody
    rw [hp]
    simp only
    rw [e1]
    simp only
    rw [e2]
    simp only
    rw [ew]
  · refine ⟨⟨sf, hdf3.1.trans hdf.1, hdf3.2.2⟩, ?_, reg, ⟨hjs, ?_⟩, ⟨hres.1.trans hsh, hres.2.2⟩, ⟨hl, hrow⟩, ⟨by rw [hres.1]; exact hy, hm⟩, ⟨?_, ?_, ?_, ?_⟩,
      ⟨f6, by rw [lz]; exact f7, by rw [lz]; exact f8, ?_⟩, ?_⟩
    · have e0 : (fun c : GoStr => takeRows ((fun _ => []) c : List Int) (sch.experiment.perm.take (rec.length - t))) = fun _ => [] := by
        funext c; simp [takeRows]
      rw [e0] at trd
      exact trd
    · refine hpw.imp_of_mem ?_
      intro i i' hi hi' hlt
      rwa [hrange i (inJ i hi), hrange i' (inJ i' hi')] at hlt
    · rw [lz, f1, fl2, cpu1, rt1]
      rfl
    · rw [lz]; exact f2
    · rw [mz]; exact f3
    · intro f hf
      refine f4 f.1 ?_
      rw [← mz]
      exact List.mem_map_of_mem hf
    · intro i f hf
      rw [List.getElem?_zip_eq_some] at hf
      obtain ⟨_, hf2⟩ := hf
      rw [List.getElem?_map] at hf2
      obtain ⟨w, hw, hw2⟩ := Option.map_eq_some_iff.1 hf2
      exact ⟨w.written, hw2.symm, by rw [hres.1]; exact f9 i w hw⟩
    · intro h0 k c v s' hv hs'
      rw [hres.1] at hv
      refine f10 res.test 0 k c v rfl ?_ hv s' hs'
      rw [rowsr]
      unfold pick
      cases js with
      | nil => cases h0
      | cons i js =>
        simp only [List.head?_cons, Option.some.injEq] at h0
        subst h0
        simp only [List.map_cons, List.getElem?_cons_zero, Option.some.injEq]
        exact hrange 0 (inJ 0 (by simp))
  · rw [exampleWrite_rt ew, rt2, rt1]
  · intro d wd
    have d1 := nothingChanges ext1 d wd
    have d2 := oth d d1.2.2 (by rw [sh1]; intro i hi; cases hi)
    have d3 := f11 d d2.2.2
    exact ⟨d3.1.trans (d2.1.trans d1.1), d3.2.1.trans (d2.2.1.trans d1.2.1), d3.2.2⟩

end

end Verif
