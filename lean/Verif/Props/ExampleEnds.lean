import Verif.Proofs.ExampleEnds

/-! C82: how the example program ends. -/

namespace Verif
variable {F : Type} [GoFloat F]
variable {pf : GoStr → Option F} {ff : F → GoStr} {j : JsonFloats F} {bl : Blas F} {sch : ExampleSched F} {disk : GoStr → Option GoStr}
  {a : ExampleArgs F} {target : GoStr} {exclude : List GoStr} {comma : Nat} {hdr : List GoStr} {rec : List (List GoStr)} {t : Nat}

/-- The files of the example program: every one has a header with the same columns and a record that is repeated, unless there
are more than 512 of them. -/
theorem ExampleDone.repeats {numCPU : Nat} {run : ExampleRun F} {h' : Heap F} {A : ADF (Val F)} {fvals : GoStr → List F} {T : Code}
    {kind : GoStr → Kind} {s k : F} {js : List Nat} {ys : List F} {parts : List (List Nat)} {text : Kind → GoStr → GoStr}
    (d : ExampleDone pf ff bl sch a target exclude comma hdr rec t numCPU run h' A fvals T kind s k js ys parts text) (ht : 0 < t)
    (hn : run.files.length ≤ 512) :
    ∀ f ∈ run.files, ∃ header n, Repeats (abs h' run.result.test).Written text comma header n f.2 := by
  intro f hf
  obtain ⟨i, hi⟩ := List.mem_iff_getElem?.1 hf
  obtain ⟨hp, hpl, hps, ha⟩ := d.alike
  obtain ⟨out, ho, hal⟩ := ha i f hi
  obtain ⟨N, hN⟩ : ∃ N, N = run.files.length := ⟨_, rfl⟩
  rw [← hN] at hpl hps hn
  have hiN : i < N := by rw [hN]; exact (List.getElem?_eq_some_iff.1 hi).1
  have hNt : 512 * (N - 1) ≤ t := by
    have h1 := d.files.1
    rw [← hN] at h1
    have h2 : (N : Int) ≤ 1 + t / 512 := by rw [h1]; exact min_le_right _ _
    have h3 : N ≤ 1 + t / 512 := by exact_mod_cast h2
    omega
  obtain ⟨q, hq⟩ : ∃ q, q = (t + N - 1) / N := ⟨_, rfl⟩
  replace hps := hps.le
  rw [← hq] at hps
  have hqN : q * N ≤ t + N - 1 := by rw [hq]; exact Nat.div_mul_le_self _ _
  -- a part that is missing or empty leaves no room for the rows
  have key : ∀ l : List (List Nat), (∀ p ∈ l, p.length ≤ q) → l.flatten.length ≤ l.length * q := by
    intro l
    induction l with
    | nil => intro _; simp
    | cons p l ih =>
      intro hl
      have h1 := hl p (by simp)
      have h2 := ih fun p hp => hl p (by simp [hp])
      simp only [List.flatten_cons, List.length_append, List.length_cons, Nat.add_mul, Nat.one_mul]
      omega
  have tight : ¬ t ≤ (N - 1) * q := by
    intro hx
    obtain ⟨M, rfl⟩ : ∃ M, N = M + 1 := ⟨N - 1, by omega⟩
    simp only [Nat.add_sub_cancel] at hx hNt
    have e1 : M * q * (M + 1) = M * (q * (M + 1)) := by rw [Nat.mul_assoc]
    have e2 : M * (q * (M + 1)) ≤ M * (t + M) := Nat.mul_le_mul_left _ (by omega)
    have e3 : t * (M + 1) ≤ M * q * (M + 1) := Nat.mul_le_mul_right _ hx
    have e4 : t * (M + 1) = M * t + t := by ring
    have e5 : M * (t + M) = M * t + M * M := by ring
    have e6 : t ≤ M * M := by omega
    have e7 : M * M ≤ 511 * M := Nat.mul_le_mul_right _ (by omega)
    omega
  have hpart : ∃ is, parts[i]? = some is ∧ 0 < is.length := by
    cases e : parts[i]? with
    | none =>
      exfalso
      have hl := key parts hps
      rw [hp, List.length_range] at hl
      have : parts.length ≤ N - 1 := by have := List.getElem?_eq_none_iff.1 e; omega
      exact tight (Nat.le_trans hl (Nat.mul_le_mul_right _ this))
    | some is =>
      refine ⟨is, rfl, ?_⟩
      by_contra h0
      have h0 : is = [] := by
        cases is with
        | nil => rfl
        | cons x l => simp at h0
      subst h0
      have hl := key (parts.eraseIdx i) (fun p hp => hps p (List.mem_of_mem_eraseIdx hp))
      have hlen : (parts.eraseIdx i).length = parts.length - 1 := List.length_eraseIdx_of_lt (List.getElem?_eq_some_iff.1 e).1
      have hfl : (parts.eraseIdx i).flatten = parts.flatten := by
        rw [List.eraseIdx_eq_take_drop_succ]
        obtain ⟨hi', he⟩ := List.getElem?_eq_some_iff.1 e
        conv_rhs => rw [← List.take_append_drop i parts, List.drop_eq_getElem_cons hi', he]
        simp
      rw [hfl, hp, List.length_range, hlen] at hl
      exact tight (Nat.le_trans hl (Nat.mul_le_mul_right _ (by omega)))
  obtain ⟨is, e, hpos⟩ := hpart
  unfold AlikeFile at hal
  rw [e] at hal
  obtain ⟨header, c1, c2, c3, c4⟩ := hal
  exact ⟨header, is.length, c1, c2, c3, hpos, by rw [ho, c4]⟩

/-- **C82**, partial. The whole example program (examples/linreg.go) on a file that it can work with, whatever the shuffles, map orders and
schedules: it ends without a panic, the records of the file are read, the model is trained on some of them and tested on the others,
and files are written, and read again. This holds if one file is written, or if there are not more than 512 of them and not so few of them that the
reading hangs (`C82_hangs`). What is missing of the property: the files should hold the test records with the predictions, but all records of
all files are the same. -/
theorem C82_main_partial (r : ExampleReady pf sch.experiment.perm disk a target exclude comma hdr rec t) (h : Heap F)
    (hs : ∀ path df h1 x h2, a.parsed = some (path, target, exclude, comma) →
      exampleRead pf sch disk a.maxCPU path exclude comma h = .ok (df, h1) →
      experimentTrain bl sch.experiment (a.flags target) df h1 = .ok (x, h2) → x.Finite)
    {n : Nat} (hn : (n : Int) = min (clampCPU h.rt.numCPU a.maxCPU) (1 + t / 512))
    (hw : n = 1 ∨ (∀ c ∈ hdr, 13 ∉ c) ∧ n ≤ 512 ∧ (if a.maxCPU ≤ 0 then (h.rt.numCPU : Int) else a.maxCPU) < n * (n + 1)) :
    ∃ run h' A fvals T kind s k js ys parts text, exampleMain pf ff j bl sch disk true a h = .ok (run, h') ∧
      ExampleDone pf ff bl sch a target exclude comma hdr rec t h.rt.numCPU run h' A fvals T kind s k js ys parts text ∧
      NothingChanges h h' := by
  obtain ⟨run, h', A, fvals, T, kind, s, k, js, ys, parts, text, e, d, rt, nc⟩ := C82_run_partial (ff := ff) (j := j) r h hs
  obtain ⟨path, txt, hp, _, hr⟩ := r.file
  have hlen : run.files.length = n := by
    have := d.files.1
    rw [← hn] at this
    exact_mod_cast this
  have hrp := d.repeats r.some_test (by rw [hlen]; rcases hw with rfl | hw <;> omega)
  have hwr : ∀ k c, (abs h' run.result.test).Written k c → ((abs h' run.result.test).col k c).isSome := by
    intro k c hk
    unfold ADF.Written at hk
    split at hk
    · exfalso
      rw [d.shown.1] at hk
      have := shown_noStr d.preproc (fun _ => 1) (b := A.select js) (fun c hc => hc) c
      rw [show ((run.trained.preproc.shown T (fun _ => 1) (A.select js)).withCol .float b!"y_pred" (ys.map .float)).isStr c =
        (run.trained.preproc.shown T (fun _ => 1) (A.select js)).isStr c from rfl, this] at hk
      cases hk
    · exact hk
  have hread : ∀ c, ReadColumn hdr exclude c → c ≠ [] := by
    rintro c ⟨h1, h2⟩ rfl
    exact h2 (r.named h1)
  -- the names of the written columns
  have hnames : ∀ k c, (abs h' run.result.test).Written k c →
      c = b!"y_pred" ∨ ∃ d, ReadColumn hdr exclude d ∧ (c = d ∨ ∃ w, c = Word.name w d) := by
    intro k c hk
    have h1 := hwr k c hk
    rw [d.shown.1] at h1
    simp only [ADF.withCol] at h1
    split at h1
    · rename_i hx
      exact Or.inl hx.2
    · right
      rcases shown_cols d.preproc (fun _ => 1) h1 with ⟨k', h2⟩ | ⟨x, w, hx, hc⟩
      · simp only [ADF.select, Option.isSome_map] at h2
        exact ⟨c, (d.read.1.only k' c h2).1, Or.inl rfl⟩
      · refine ⟨x, ?_, Or.inr ⟨w, hc⟩⟩
        rcases hx with hx | hx
        · exact ((d.read.1.marks x).1 hx).1
        · simp only [ADF.select, Option.isSome_map] at hx
          exact (d.read.1.only _ x hx.2).1
  have hne : ∀ k, ¬ (abs h' run.result.test).Written k [] := by
    intro k hk
    rcases hnames k [] hk with h1 | ⟨x, hx, h1 | ⟨w, h1⟩⟩
    · cases h1
    · exact hread x hx h1.symm
    · simp [Word.name] at h1
  have hcr : (∀ c ∈ hdr, 13 ∉ c) → ∀ k c, (abs h' run.result.test).Written k c → 13 ∉ c := by
    intro hc k c hk
    have hword : ∀ w : Word, 13 ∉ w.bytes := by
      intro w
      cases w with
      | cat i =>
        simp only [Word.bytes, List.mem_append, not_or]
        refine ⟨by decide, ?_⟩
        intro hx
        have := natDec_digits i _ hx
        revert this
        decide
      | missing => decide
      | unk => decide
    rcases hnames k c hk with h1 | ⟨x, hx, h1 | ⟨w, h1⟩⟩
    · rw [h1]; decide
    · rw [h1]; exact hc x hx.1
    · rw [h1]
      unfold Word.name
      simp only [List.mem_append, List.mem_cons, not_or]
      exact ⟨hc x hx.1, by decide, hword w⟩
  have htwo : ∃ k c k' c', (abs h' run.result.test).Written k c ∧ (abs h' run.result.test).Written k' c' ∧ (k, c) ≠ (k', c') := by
    refine ⟨.float, target, .float, b!"y_pred", ?_, ?_, ?_⟩
    · unfold ADF.Written
      rw [if_neg (by decide), floats_some.1 d.error.1]; rfl
    · unfold ADF.Written
      rw [if_neg (by decide), d.shown.1]
      simp [ADF.withCol]
    · intro hx
      exact r.output (Prod.mk.inj hx).2
  have hworkers : n = 1 ∨ (∀ k c, (abs h' run.result.test).Written k c → 13 ∉ c) ∧ 0 < filePatternWorkers h'.rt.numCPU a.maxCPU n := by
    by_cases h1 : n = 1
    · exact Or.inl h1
    · obtain ⟨w1, w2, w3⟩ := hw.resolve_left h1
      refine Or.inr ⟨hcr w1, ?_⟩
      by_contra hx
      have h2 : 2 ≤ n := by have := d.files.2.1; omega
      have := (C36_filePattern_hangs_iff h'.rt.numCPU a.maxCPU n h2 h'.rt.numCPU_pos).1 (by omega)
      rw [rt] at this
      omega
  have hpref : [] ∉ run.files.map (·.1) := by
    intro hx
    obtain ⟨f, hf, hf2⟩ := List.mem_map.1 hx
    have := (d.files.2.2.2 f hf).1
    rw [hf2] at this
    simp at this
  rw [← hlen] at hworkers
  obtain ⟨dd, h2, e2, ext⟩ := exampleReread_ok (pf := pf) sch d.files.2.2.1 hpref d.files.2.1 hrp (comma_ok hr) htwo hne a.maxCPU exclude h' hworkers
  have nc2 := nothingChanges ext
  have t1 := nc2 run.result.test d.shown.2
  have t2 := nc2 run.df d.read.2.2
  refine ⟨run, h2, A, fvals, T, kind, s, k, js, ys, parts, text, ?_, ?_, ?_⟩
  · unfold exampleMain
    rw [e, hp]
    simp only
    rw [e2]
  · obtain ⟨⟨c1, c2, c3⟩, c4, c5, c6, ⟨c7, c8⟩, c9, c10, c11, c12, c13⟩ := d
    rw [← t1.1] at c7 c10 c12 c13
    exact ⟨⟨c1, t2.1.trans c2, t2.2.2⟩, c4, c5, c6, ⟨c7, t1.2.2⟩, c9, c10, c11, c12, c13⟩
  · intro x hx
    have x1 := nc x hx
    have x2 := nc2 x x1.2.2
    exact ⟨x2.1.trans x1.1, x2.2.1.trans x1.2.1, x2.2.2⟩

/-- C82: the example program may hang, after it has written its files, when it writes several files and there are many CPUs. -/
theorem C82_hangs (r : ExampleReady pf sch.experiment.perm disk a target exclude comma hdr rec t) (h : Heap F)
    (hs : ∀ path df h1 x h2, a.parsed = some (path, target, exclude, comma) →
      exampleRead pf sch disk a.maxCPU path exclude comma h = .ok (df, h1) →
      experimentTrain bl sch.experiment (a.flags target) df h1 = .ok (x, h2) → x.Finite)
    {n : Nat} (hn : (n : Int) = min (clampCPU h.rt.numCPU a.maxCPU) (1 + t / 512)) (h2 : 2 ≤ n)
    (hc : (n : Int) * (n + 1) ≤ if a.maxCPU ≤ 0 then (h.rt.numCPU : Int) else a.maxCPU) :
    exampleMain pf ff j bl sch disk true a h = .error .hang := by
  obtain ⟨run, h', A, fvals, T, kind, s, k, js, ys, parts, text, e, d, rt, nc⟩ := C82_run_partial (ff := ff) (j := j) r h hs
  obtain ⟨path, txt, hp, _, hr⟩ := r.file
  have hlen : run.files.length = n := by
    have := d.files.1
    rw [← hn] at this
    exact_mod_cast this
  unfold exampleMain
  rw [e, hp]
  simp only
  unfold exampleReread
  rw [C68_hangs pf sch.again (found := run.files.map fun f => (f.1, some true)) (paths := run.files.map (·.1)) ?_ (by simpa [hlen] using h2)]
  · rw [List.length_map, hlen, rt]
    exact hc
  · constructor
    · intro x hx
      obtain ⟨f, _, rfl⟩ := List.mem_map.1 hx
      rfl
    · rw [List.filter_eq_self.2]
      · rw [List.map_map]; rfl
      · intro x hx
        obtain ⟨f, _, rfl⟩ := List.mem_map.1 hx
        rfl

/-- With the default flags, 6 CPUs or more, and from 512 to 1023 test records, it always hangs. -/
theorem C82_hangs_default (r : ExampleReady pf sch.experiment.perm disk a target exclude comma hdr rec t) (h : Heap F)
    (hs : ∀ path df h1 x h2, a.parsed = some (path, target, exclude, comma) →
      exampleRead pf sch disk a.maxCPU path exclude comma h = .ok (df, h1) →
      experimentTrain bl sch.experiment (a.flags target) df h1 = .ok (x, h2) → x.Finite)
    (hm : a.maxCPU ≤ 0) (hc : 6 ≤ h.rt.numCPU) (h1 : 512 ≤ t) (h2 : t < 1024) :
    exampleMain pf ff j bl sch disk true a h = .error .hang := by
  refine C82_hangs r h hs (n := 2) ?_ (by omega) ?_
  · unfold clampCPU
    rw [if_pos (Or.inl hm)]
    have : (t : Int) / 512 = 1 := by omega
    rw [this]
    omega
  · rw [if_pos hm]
    omega

/-- C82: with less than two arguments, or without a separator, the program panics. -/
theorem C82_arguments (h1 : a.rest.length < 2 ∨ a.sep = []) (w : Bool) (h : Heap F) :
    exampleMain pf ff j bl sch disk w a h = .error .panic := by
  have : a.parsed = none := by
    unfold ExampleArgs.parsed
    rcases h1 with h1 | h1
    · match a.rest, h1 with
      | [], _ => rfl
      | [_], _ => rfl
    · rw [h1]
      cases a.rest with
      | nil => rfl
      | cons _ l => cases l <;> rfl
  unfold exampleMain exampleBody
  rw [this]

/-- C82: with a file that cannot be opened, a separator that is a quote or a line end, or a file that is not a CSV table (a syntax error, records of different lengths, no record at
all) the program panics. -/
theorem C82_bad_file {path : GoStr} (hp : a.parsed = some (path, target, exclude, comma))
    (hb : disk path = none ∨ comma = 34 ∨ comma = 13 ∨ comma = 10 ∨ ∃ text, disk path = some text ∧ ((csvRead (exampleText comma) text).fails = true ∨
      (∃ x ∈ (csvRead (exampleText comma) text).records, ∃ y ∈ (csvRead (exampleText comma) text).records, x.length ≠ y.length) ∨
      (csvRead (exampleText comma) text).records = [])) (w : Bool) (h : Heap F) :
    exampleMain pf ff j bl sch disk w a h = .error .panic := by
  have hbad : FileBad (exampleSpec a.maxCPU exclude) (fun p => (disk p).map (csvRead (exampleText comma))) path := by
    have hsep : comma = 34 ∨ comma = 13 ∨ comma = 10 → FileBad (exampleSpec a.maxCPU exclude) (fun p => (disk p).map (csvRead (exampleText comma))) path := by
      intro hc
      cases e : disk path with
      | none => left; simp [e]
      | some text =>
        right
        refine ⟨csvRead (exampleText comma) text, by simp [e], Or.inl ?_⟩
        rw [C74_bad_separator (t := exampleText comma) (Or.inr (Or.inl ?_))]
        rcases hc with rfl | rfl | rfl <;> decide
    rcases hb with h1 | h1 | h1 | h1 | ⟨text, h1, h2⟩
    · left; simp [h1]
    · exact hsep (Or.inl h1)
    · exact hsep (Or.inr (Or.inl h1))
    · exact hsep (Or.inr (Or.inr h1))
    · right
      refine ⟨csvRead (exampleText comma) text, by simp [h1], ?_⟩
      rcases h2 with h2 | h2 | h2
      · exact Or.inl h2
      · exact Or.inr (Or.inl h2)
      · exact Or.inr (Or.inr ⟨rfl, h2⟩)
  unfold exampleMain exampleBody
  rw [hp]
  simp only
  unfold exampleRead
  rw [fromCSVFile_bad pf _ _ hbad]

/-- C82: with a column that has no name (and is not excluded) the program hangs. -/
theorem C82_empty_name {path text : GoStr} (hp : a.parsed = some (path, target, exclude, comma)) (hd : disk path = some text)
    (hr : csvRead (exampleText comma) text = ⟨hdr :: rec, false⟩) (hf : ∀ r ∈ rec, r.length = hdr.length) (hn : [] ∈ hdr) (hx : [] ∉ exclude)
    (w : Bool) (h : Heap F) : exampleMain pf ff j bl sch disk w a h = .error .hang := by
  have hh : Holds (exampleSpec a.maxCPU exclude) (csvRead (exampleText comma) text) hdr rec := ⟨Or.inl ⟨rfl, hr⟩, hf⟩
  unfold exampleMain exampleBody
  rw [hp]
  simp only
  unfold exampleRead fromCSVFile
  simp only [hd, Option.map_some]
  rw [C30_empty_name_hangs pf sch.jobs sch.who hh hn hx h]

/-- C82: with one of `-imputing` and `-scaling` only, or with none of them and a text column, the program panics. -/
theorem C82_options (r : ExampleData pf sch.experiment.perm disk a target exclude comma hdr rec t) (ho : ¬ ExampleOptions pf a exclude hdr rec)
    (w : Bool) (h : Heap F) : exampleMain pf ff j bl sch disk w a h = .error .panic := by
  obtain ⟨path, text, hp, hd, hr⟩ := r.file
  obtain ⟨df, h1, e1, wf1, mwf1, sh1, rows1, cpu1, sf, ext1⟩ := exampleRead_ok (sch := sch) (maxCPU := a.maxCPU) hd hr r.fields r.named
    ⟨target, r.number.1⟩ h
  have hcpu : 0 < df.maxCPU := by rw [cpu1]; exact clampCPU_pos h1.rt.numCPU_pos _
  obtain ⟨er, hw⟩ := r.experiment wf1 mwf1 sh1 rows1 hcpu sf
  unfold exampleMain exampleBody
  rw [hp]
  simp only
  rw [e1]
  simp only
  rw [C79_options_panic er fun hx => ho (hw.1 hx)]

/-- C82: when the output files cannot be created the program panics. -/
theorem C82_unwritable (r : ExampleReady pf sch.experiment.perm disk a target exclude comma hdr rec t) (h : Heap F)
    (hs : ∀ path df h1 x h2, a.parsed = some (path, target, exclude, comma) →
      exampleRead pf sch disk a.maxCPU path exclude comma h = .ok (df, h1) →
      experimentTrain bl sch.experiment (a.flags target) df h1 = .ok (x, h2) → x.Finite) :
    exampleMain pf ff j bl sch disk false a h = .error .panic := by
  obtain ⟨run, h', A, fvals, T, kind, s, k, js, ys, parts, text, e, d, rt, nc⟩ := C82_run_partial (ff := ff) (j := j) r h hs
  obtain ⟨path, txt, hp, _, hr⟩ := r.file
  have hne : run.files ≠ [] := by
    have := d.files.2.1
    intro hx
    rw [hx] at this
    simp at this
  unfold exampleBody at e
  rw [hp] at e
  simp only at e
  cases e1 : exampleRead pf sch disk a.maxCPU path exclude comma h with
  | error x => rw [e1] at e; cases e
  | ok v =>
    obtain ⟨df, h1⟩ := v
    rw [e1] at e
    simp only at e
    cases e2 : experiment j bl sch.experiment (a.flags target) df h1 with
    | error x => rw [e2] at e; cases e
    | ok v =>
      obtain ⟨⟨x, res⟩, h2⟩ := v
      rw [e2] at e
      simp only at e
      have ew : exampleWrite ff sch false comma res.test h2 = .ok ([], h2) := by
        cases ew : exampleWrite ff sch true comma res.test h2 with
        | error x => rw [ew] at e; cases e
        | ok v =>
          obtain ⟨fs, h3⟩ := v
          rw [ew] at e
          cases e
          unfold exampleWrite DF.toCSVDir DF.toCSVFiles at ew ⊢
          cases ep : csvPaths b!"outdir/file" (csvNumFiles res.test.numRows 0 res.test.actualMaxCPU) with
          | error x => simp only [ep] at ew; cases ew
          | ok paths =>
            simp only [ep] at ew ⊢
            cases paths with
            | nil =>
              exfalso
              revert ew
              simp only [List.mapM_nil, Option.pure_def]
              cases DF.toCSVs ff sch.order res.test [] ⟨[], 0, false, comma⟩ h2 with
              | error x => intro ew; cases ew
              | ok v =>
                simp only [List.zip_nil_left]
                intro ew
                cases ew
                exact hne rfl
            | cons p ps =>
              simp
      unfold exampleMain exampleBody
      rw [hp]
      simp only
      rw [e1]
      simp only
      rw [e2]
      simp only
      rw [ew]
      simp only
      unfold exampleReread
      rw [List.map_nil, C68_no_file pf sch.again (found := []) (by simp)]

end Verif
