import Verif.Proofs.AutoFit

/-! C44: `AutoPreprocessor`. -/

namespace Verif
variable {F : Type}

theorem Learnt.total {k : Bool} {col : GoStr} {vals : List Int} {T : Int → Option GoStr}
    (l : Learnt ⟨.separateIfSeen, .sharedSeparate, k⟩ col vals T) (v : Int) :
    T v = some (missingName col) ∨ ∃ i, T v = some (onehotName col i) := by
  have hm : T (-1) = some (missingName col) ∨ ∃ i, T (-1) = some (onehotName col i) := by
    have := l.missing
    simp only at this
    split at this
    · exact Or.inl this
    · obtain ⟨w, h1, h2⟩ := this
      obtain ⟨i, hi⟩ := l.seen w h1.1 h1.2.1
      exact Or.inr ⟨i, h2.trans hi⟩
  by_cases h1 : v = -1
  · rw [h1]; exact hm
  · by_cases h2 : v ∈ vals
    · exact Or.inr (l.seen v h2 h1)
    · have := l.unknown v h1 h2
      simp only at this
      rw [this]; exact hm

theorem FloatTyped.hashed {a : ADF (Val F)} (h : FloatTyped a) (S : List GoStr) : FloatTyped (a.hashed S) := by
  intro c l hl
  simp only [ADF.hashed] at hl
  split at hl
  · simp at hl
  · exact h c l hl

theorem FloatTyped.oneHot {a : ADF (Val F)} (h : FloatTyped a) (cats news : List GoStr) (T : Code) (k : Bool) :
    FloatTyped (a.oneHot cats news T k) := by
  intro c l hl
  simp only [ADF.oneHot] at hl
  split at hl
  · cases hl
  · simp only [reduceCtorEq, false_and, if_false] at hl
    exact h c l hl

section
variable [GoFloat F] {o : AutoOptions} {df : DF} {h : Heap F} {fvals : GoStr → List F} {ivals : GoStr → List Int}

/-- Training, up to the point where `FitTransform` starts to transform. -/
theorem fit_prefix (wf : df.WF h) (sep : df.toRaw.Sep) (hf : FloatCols (abs h df) fvals) (hi : IntCols (abs h df) ivals)
    (hcpu : 0 < df.maxCPU) (ready : AutoReady (abs h df)) (sch : AutoSched) :
    ∃ (p : AutoPreprocessor F) (T : Code) (d1 : DF) (h1 : Heap F), AutoTrained o (abs h df) fvals (catVals (abs h df) ivals) T p ∧
      Grows df h h1 ∧ d1.WF h1 ∧ d1.idx = df.idx ∧ d1.maxCPU = df.maxCPU ∧ abs h1 d1 = (abs h df).hashWith p.stringToInt ∧
      (∃ iv, IntCols (abs h1 d1) iv) ∧
      ∀ transform : Bool, (newAutoPreprocessor o).fitWith sch df transform h =
        if transform then
          match p.intToBool with
          | some enc =>
            match enc.transformView (sch.oneHotRun enc.catCols) d1 h1 with
            | .error e => .error e
            | .ok (none, h) => .ok ((p, none), h)
            | .ok (some df', h') =>
              match p.runFloats sch ((newAutoPreprocessor (F := F) o).floatCols df h) df' h' with
              | .error e => .error e
              | .ok (df, h) => .ok ((p, some (some df)), h)
          | none =>
            if !p.options.imputing && !p.options.scaling then .ok ((p, some (some d1)), h1)
            else
              match p.runFloats sch ((newAutoPreprocessor (F := F) o).floatCols df h) d1 h1 with
              | .error e => .error e
              | .ok (df, h) => .ok ((p, some (some df)), h)
        else .ok ((p, some none), h1) := by
  obtain ⟨p1, h1, e1, g1, o1, s1, t1, i0, i1, c0, c1⟩ := fitFloats_run wf sep hf hcpu ready.named.1 (newAutoPreprocessor o) sch
  have hsep : ∀ i, df.shared = some i → df.strHdr ≠ some i := sep
  obtain ⟨a1, _, w1⟩ := g1.abs wf hsep
  obtain ⟨d2, cats, h2, g2, w2, sep2, sh2, idx2, cpu2, nd2, hm2, hcase⟩ := fitHash_run w1 sep hcpu
    (fun c hc => by rw [a1] at hc ⊢; exact ready.strings c hc)
    (by rw [a1]
        by_contra hx
        exact ready.named.2 (Or.inl (by simpa using hx)))
    (by rw [a1]; exact ready.other) p1 sch
  rw [a1] at hm2 hcase
  have G2 : Grows df h h2 := g1.trans g2 (fun i hi => Or.inl hi)
  have SH2 : ∀ i, d2.shared = some i → df.shared = some i ∨ h.next ≤ i := by
    intro i hi
    rcases sh2 i hi with h0 | h0
    · exact Or.inl h0
    · exact Or.inr (Nat.le_trans g1.next_le h0)
  -- what the rest sees
  obtain ⟨p2, e2, p2o, p2t, p2i, p2c, p2s0, p2s1, p2a, iv, hiv, hivc, hcint⟩ : ∃ p2 : AutoPreprocessor F, p1.fitHash sch df h1 = .ok ((p2, d2, cats), h2) ∧
      p2.options = o ∧ p2.intToBool = none ∧ p2.imputer = p1.imputer ∧ p2.scaler = p1.scaler ∧
      ((∀ c, (abs h df).isStr c = false) → p2.stringToInt = none) ∧
      ((∃ c, (abs h df).isStr c = true) → p2.stringToInt = some ⟨cats⟩) ∧
      abs h2 d2 = (abs h df).hashWith p2.stringToInt ∧ ∃ iv, IntCols (abs h2 d2) iv ∧
        (∀ c ∈ cats, iv c = catVals (abs h df) ivals c) ∧ ∀ c ∈ cats, ((abs h2 d2).col .int c).isSome := by
    rcases hcase with ⟨hno, e, ha⟩ | ⟨hex, e, hfit, ha⟩
    · refine ⟨p1, e, o1, t1, rfl, rfl, fun _ => s1, fun ⟨c, hc⟩ => (by rw [hno c] at hc; cases hc), ?_, ivals, by rw [ha]; exact hi, ?_, ?_⟩
      · rw [ha, s1]; rfl
      · intro c _; simp [catVals, hno c]
      · intro c hc
        rw [ha]
        rcases (hm2 c).1 hc with h0 | h0
        · rw [hno c] at h0; cases h0
        · exact h0.2
    · have hS : ∀ c, c ∈ cats ↔ (abs h df).isStr c = true := by
        intro c
        rw [hm2]
        refine ⟨?_, Or.inl⟩
        rintro (h0 | h0)
        · exact h0
        · obtain ⟨c', hc'⟩ := hex
          rw [h0.1 c'] at hc'; cases hc'
      refine ⟨_, e, o1, t1, rfl, rfl, fun hno => ?_, fun _ => rfl, ha, hashVals (abs h df) cats ivals, ha ▸ hashed_ints wf hi cats, ?_, ?_⟩
      · obtain ⟨c', hc'⟩ := hex
        rw [hno c'] at hc'; cases hc'
      · intro c hc
        simp only [hashVals, if_pos hc, catVals, (hS c).1 hc, if_true]
        rfl
      · intro c hc
        rw [ha]
        simp only [ADF.hashed, if_pos hc, if_true, Option.isSome_map]
        exact hfit.has c hc
  have trained_base : ∀ (p3 : AutoPreprocessor F) (T : Code), p3.options = o → p3.imputer = p1.imputer → p3.scaler = p1.scaler →
      p3.stringToInt = p2.stringToInt →
      ((∀ c, ¬ Categorical (abs h df) c) → p3.intToBool = none) →
      ((∃ c, Categorical (abs h df) c) → ∃ enc, p3.intToBool = some enc ∧ enc.options = ⟨.separateIfSeen, .sharedSeparate, false⟩ ∧
        enc.catCols.Nodup ∧ (∀ c, c ∈ enc.catCols ↔ Categorical (abs h df) c) ∧
        (∀ c, Categorical (abs h df) c → Learnt ⟨.separateIfSeen, .sharedSeparate, false⟩ c (catVals (abs h df) ivals c) (T c)) ∧
        (enc.newCols.Nodup ∧ ∀ n, n ∈ enc.newCols ↔ ∃ c, Categorical (abs h df) c ∧ ∃ v, T c v = some n) ∧ Encodes (F := F) enc T) →
      AutoTrained o (abs h df) fvals (catVals (abs h df) ivals) T p3 := by
    intro p3 T ho him hsc hst h0 h1
    refine ⟨ho, fun hx => by rw [him, i0 hx]; rfl, fun hx => by rw [him]; exact i1 hx, fun hx => by rw [hsc, c0 hx]; rfl,
      fun hx => by rw [hsc]; exact c1 hx, fun hx => by rw [hst, p2s0 hx], fun hx => ⟨⟨cats⟩, by rw [hst, p2s1 hx], nd2, ?_⟩, h0, h1⟩
    intro c
    show c ∈ cats ↔ _
    rw [hm2]
    refine ⟨?_, Or.inl⟩
    rintro (h0 | h0)
    · exact h0
    · obtain ⟨c', hc'⟩ := hx
      rw [h0.1 c'] at hc'; cases hc'
  have start : ∀ transform : Bool, (newAutoPreprocessor o).fitWith sch df transform h =
      match p2.fitOneHot sch d2 cats h2 with
      | .error e => .error e
      | .ok (p, h1) =>
        if transform then
          match p.intToBool with
          | some enc =>
            match enc.transformView (sch.oneHotRun enc.catCols) d2 h1 with
            | .error e => .error e
            | .ok (none, h) => .ok ((p, none), h)
            | .ok (some df', h') =>
              match p.runFloats sch ((newAutoPreprocessor (F := F) o).floatCols df h) df' h' with
              | .error e => .error e
              | .ok (df, h) => .ok ((p, some (some df)), h)
          | none =>
            if !p.options.imputing && !p.options.scaling then .ok ((p, some (some d2)), h1)
            else
              match p.runFloats sch ((newAutoPreprocessor (F := F) o).floatCols df h) d2 h1 with
              | .error e => .error e
              | .ok (df, h) => .ok ((p, some (some df)), h)
        else .ok ((p, some none), h1) := by
    intro transform
    unfold AutoPreprocessor.fitWith
    simp only [e1, e2]
    rfl
  by_cases hne : cats = []
  · have hno : ∀ c, ¬ Categorical (abs h df) c := by
      intro c hc
      have := (hm2 c).2 hc
      rw [hne] at this; cases this
    have e3 : p2.fitOneHot sch d2 cats h2 = .ok (p2, h2) := by
      unfold AutoPreprocessor.fitOneHot
      rw [if_neg (by rw [hne]; decide)]
    refine ⟨p2, fun _ _ => none, d2, h2, trained_base p2 _ p2o p2i p2c rfl (fun _ => p2t) (fun ⟨c, hc⟩ => absurd hc (hno c)),
      G2, w2, idx2, cpu2, p2a, ⟨iv, hiv⟩, ?_⟩
    intro transform
    rw [start, e3]
  · have hex : ∃ c, Categorical (abs h df) c := by
      obtain ⟨c, hc⟩ := List.exists_mem_of_ne_nil _ hne
      exact ⟨c, (hm2 c).1 hc⟩
    have hrows : 0 < (abs h2 d2).nRows := by
      have : (abs h2 d2).nRows = (abs h df).nRows := by
        rw [p2a]; cases p2.stringToInt <;> rfl
      rw [this]; exact ready.rows hex
    obtain ⟨enc, T, h3, e3, g3, eo, end_, em, el, en, ee⟩ := fitOneHot_run w2 sep2 (by rw [cpu2]; exact hcpu) hiv hcint
      (fun hx => ready.named.2 ((hm2 []).1 hx)) hrows hne p2 sch
    obtain ⟨a3, _, w3⟩ := g3.abs w2 sep2
    refine ⟨{ p2 with intToBool := some enc }, T, d2, h3, trained_base _ _ p2o p2i p2c rfl (fun hx => ?_) (fun _ => ⟨enc, rfl, eo, end_, ?_, ?_, ⟨en.1, ?_⟩, ee⟩),
      G2.trans g3 SH2, w3, idx2, cpu2, by rw [a3]; exact p2a, ⟨iv, by rw [a3]; exact hiv⟩, ?_⟩
    · obtain ⟨c, hc⟩ := hex; exact absurd hc (hx c)
    · intro c; rw [em, hm2]
    · intro c hc
      have := el c ((hm2 c).2 hc)
      rw [hivc c ((hm2 c).2 hc)] at this
      exact this
    · intro n
      rw [en.2 n]
      exact ⟨fun ⟨c, x1, x2⟩ => ⟨c, (hm2 c).1 x1, x2⟩, fun ⟨c, x1, x2⟩ => ⟨c, (hm2 c).2 x1, x2⟩⟩
    · intro transform
      rw [start, e3]

/-- What the transformation needs, for a preprocessor trained on a dataframe showing `a`. -/
theorem AutoTrained.encFit {a b : ADF (Val F)} {cvals : GoStr → List Int} {T : Code} {p : AutoPreprocessor F} (tr : AutoTrained o a fvals cvals T p)
    (ready : AutoReady a) (fits : AutoFits o a b) {enc : OneHotEncoder} (he : p.intToBool = some enc) :
    EncFit (b.hashWith p.stringToInt) enc T ∧ enc.options.keep = false := by
  have hex : ∃ c, Categorical a c := by
    by_contra hx
    have := tr.no_codes (fun c hc => hx ⟨c, hc⟩)
    rw [he] at this; cases this
  obtain ⟨enc', h1, h2, h3, h4, h5, h6, h7⟩ := tr.codes hex
  rw [he] at h1; cases h1
  have hword : ∀ n ∈ enc.newCols, ∃ d, Categorical a d ∧ (n = missingName d ∨ ∃ i, n = onehotName d i) := by
    intro n hn
    obtain ⟨d, hd, v, hv⟩ := (h6.2 n).1 hn
    rcases (h5 d hd).total v with h0 | ⟨i, h0⟩
    · rw [hv] at h0; cases h0; exact ⟨d, hd, Or.inl rfl⟩
    · rw [hv] at h0; cases h0; exact ⟨d, hd, Or.inr ⟨i, rfl⟩⟩
  have hnot : ∀ c ∈ enc.catCols, c ∉ enc.newCols := by
    intro c hc hn
    obtain ⟨d, hd, h0⟩ := hword c hn
    obtain ⟨x1, x2⟩ := ready.names c d ((h4 c).1 hc) hd
    rcases h0 with h0 | ⟨i, h0⟩
    · exact x2 h0
    · exact x1 i h0
  refine ⟨⟨h7, ?_, ?_, Or.inr fun c hc => ⟨?_, hnot c hc⟩, Or.inr (Or.inl ?_)⟩, by rw [h2]⟩
  · intro c hc v h0
    rcases (h5 c ((h4 c).1 hc)).total v with h8 | ⟨i, h8⟩ <;> rw [h0] at h8 <;> cases h8
  · intro c hc
    by_cases hs : ∃ c, a.isStr c = true
    · obtain ⟨st, e, _, hm⟩ := tr.hash hs
      rw [e]
      have hstr : a.isStr c = true := by
        rcases (h4 c).1 hc with h0 | h0
        · exact h0
        · obtain ⟨c', hc'⟩ := hs; rw [h0.1 c'] at hc'; cases hc'
      simp only [ADF.hashWith, ADF.hashed, (hm c).2 hstr, if_true, Option.isSome_map]
      exact fits.strings c hstr
    · have hno : ∀ c, a.isStr c = false := fun c => by by_contra hx; exact hs ⟨c, by simpa using hx⟩
      rw [tr.no_hash hno]
      rcases (h4 c).1 hc with h0 | h0
      · rw [hno c] at h0; cases h0
      · exact (fits.ints hno c h0.2).1
  · by_cases hs : ∃ c, a.isStr c = true
    · obtain ⟨st, e, _, hm⟩ := tr.hash hs
      rw [e]
      have hstr : a.isStr c = true := by
        rcases (h4 c).1 hc with h0 | h0
        · exact h0
        · obtain ⟨c', hc'⟩ := hs; rw [h0.1 c'] at hc'; cases hc'
      simp [ADF.hashWith, ADF.hashed, (hm c).2 hstr]
    · have hno : ∀ c, a.isStr c = false := fun c => by by_contra hx; exact hs ⟨c, by simpa using hx⟩
      rw [tr.no_hash hno]
      rcases (h4 c).1 hc with h0 | h0
      · rw [hno c] at h0; cases h0
      · exact (fits.ints hno c h0.2).2
  · obtain ⟨c, hc⟩ := hex
    rcases (h5 c hc).total 0 with h8 | ⟨i, h8⟩
    · exact List.ne_nil_of_mem ((h6.2 _).2 ⟨c, hc, 0, h8⟩)
    · exact List.ne_nil_of_mem ((h6.2 _).2 ⟨c, hc, 0, h8⟩)

/-- C44: `TransformView`, by a preprocessor trained on a dataframe that shows `a`, of any dataframe with these columns:
it returns a view that shows the imputed, scaled, hashed and one-hot encoded columns, and no dataframe changes (in
particular not the one it is given; as in C18, a dataframe must not use the argument's list of shared columns as its
list of string columns). For every option combination, map order and job order. -/
theorem C44_transformView {a : ADF (Val F)} {cvals : GoStr → List Int} {T : Code} {p : AutoPreprocessor F} {tvals : GoStr → List F}
    (tr : AutoTrained o a tvals cvals T p)
    (ready : AutoReady a) (fits : AutoFits o a (abs h df)) (wf : df.WF h) (sep : df.toRaw.Sep) (hf : FloatCols (abs h df) fvals)
    (hi : IntCols (abs h df) ivals) (hcpu : 0 < df.maxCPU) (sch : AutoSched) :
    ∃ r h', p.transformView sch df h = .ok (some r, h') ∧ abs h' r = p.shown T df.repeats (abs h df) ∧ r.WF h' ∧
      ∀ d2 : DF, d2.WF h → (∀ i, df.shared = some i → d2.strHdr ≠ some i) →
        abs h' d2 = abs h d2 ∧ locs h' d2 = locs h d2 ∧ d2.WF h' := by
  have himp : ∀ im, p.imputer = some im → im.transformedColumns.Nodup ∧ ∀ c, c ∈ im.transformedColumns ↔ Chosen o a c := by
    intro im e
    cases ho : o.imputing with
    | false => rw [tr.no_imputer ho] at e; cases e
    | true =>
      obtain ⟨im', h1, h2, h3, _⟩ := tr.imputer ho
      rw [e] at h1; cases h1; exact ⟨h2, h3⟩
  have hsca : ∀ sc, p.scaler = some sc → sc.transformedColumns.Nodup ∧ ∀ c, c ∈ sc.transformedColumns ↔ Chosen o a c := by
    intro sc e
    cases ho : o.scaling with
    | false => rw [tr.no_scaler ho] at e; cases e
    | true =>
      obtain ⟨sc', h1, h2, h3, _⟩ := tr.scaler ho
      rw [e] at h1; cases h1; exact ⟨h2, h3⟩
  have hhash : ∀ st, p.stringToInt = some st → HashFit (abs h df) st := by
    intro st e
    have hex : ∃ c, a.isStr c = true := by
      by_contra hx
      have := tr.no_hash (fun c => by by_contra hc; exact hx ⟨c, by simpa using hc⟩)
      rw [e] at this; cases this
    obtain ⟨st', h1, _, h3⟩ := tr.hash hex
    rw [e] at h1; cases h1
    refine ⟨?_, ?_, fun c hc => fits.strings c ((h3 c).1 hc), ?_⟩
    · obtain ⟨c, hc⟩ := hex; exact List.ne_nil_of_mem ((h3 c).2 hc)
    · intro hx; exact ready.named.2 (Or.inl ((h3 []).1 hx))
    · obtain ⟨k, c, x1, x2⟩ := fits.other hex
      exact ⟨k, c, fun hx => (by rw [(h3 c).1 hx] at x1; cases x1), x2⟩
  have hempty : ∀ c, Chosen o a c → c ≠ [] := by
    rintro c hc rfl
    have := hc.1
    rw [ready.named.1] at this; cases this
  obtain ⟨L, hL⟩ : ∃ L : List GoStr, (∀ im, p.imputer = some im → L = im.transformedColumns) ∧
      (∀ sc, p.imputer = none → p.scaler = some sc → L = sc.transformedColumns) := by
    cases p.imputer with
    | some im => exact ⟨im.transformedColumns, fun _ h0 => by cases h0; rfl, fun _ h0 => by cases h0⟩
    | none =>
      cases p.scaler with
      | some sc => exact ⟨sc.transformedColumns, fun _ h0 => (by cases h0), fun _ _ h0 => by cases h0; rfl⟩
      | none => exact ⟨[], fun _ h0 => (by cases h0), fun _ _ h0 => by cases h0⟩
  have ff : FloatsFit (abs h df) p.imputer p.scaler L := by
    refine ⟨fun im e => (himp im e).1, fun im e c hc => ⟨by rw [hL.1 im e]; exact hc, fits.floats c (((himp im e).2 c).1 hc)⟩,
      fun sc e => (hsca sc e).1, fun sc e c hc => ⟨?_, fits.floats c (((hsca sc e).2 c).1 hc)⟩,
      fun sc e hx => hempty [] (((hsca sc e).2 []).1 hx) rfl⟩
    cases hi' : p.imputer with
    | some im => rw [hL.1 im hi']; exact ((himp im hi').2 c).2 (((hsca sc e).2 c).1 hc)
    | none => rw [hL.2 sc hi' e]; exact hc
  obtain ⟨r0, r1⟩ := auto_run wf sep hf.typed hi hcpu ff (fun im e c hc => Or.inr (by rw [hL.1 im e] at hc; exact hc))
    (fun sc e e' c hc => Or.inr (by rw [hL.2 sc e e'] at hc; exact hc)) hhash sch
  cases hb : p.intToBool with
  | none =>
    obtain ⟨r, h', e, ha, hw, g⟩ := r0 hb
    refine ⟨r, h', e, ?_, hw, fun d2 w2 hs => g.abs w2 hs⟩
    rw [ha]; unfold AutoPreprocessor.shown; rw [hb]; rfl
  | some enc =>
    obtain ⟨ef, hk⟩ := tr.encFit ready fits hb
    obtain ⟨r, h', e, ha, hw, g⟩ := r1 enc T hb ef
    refine ⟨r, h', e, ?_, hw, fun d2 w2 hs => g.abs w2 hs⟩
    rw [ha, hk]; unfold AutoPreprocessor.shown; rw [hb]; rfl

omit [GoFloat F] in
theorem AutoReady.fits {a : ADF (Val F)} (r : AutoReady a) : AutoFits o a a := by
  refine ⟨fun c hc => hc.1, r.strings, r.other, fun hno c hc => ⟨hc, hno c⟩⟩

/-- C44: `Fit` returns no error, and learns from the dataframe: means, shifts and scales for the chosen float columns,
the list of string columns, a one-hot code for the categorical columns. No dataframe changes. -/
theorem C44_fit (wf : df.WF h) (sep : df.toRaw.Sep) (hf : FloatCols (abs h df) fvals) (hi : IntCols (abs h df) ivals)
    (hcpu : 0 < df.maxCPU) (ready : AutoReady (abs h df)) (sch : AutoSched) :
    ∃ (p : AutoPreprocessor F) (T : Code) (h' : Heap F), (newAutoPreprocessor o).fit sch df h = .ok ((p, true), h') ∧
      AutoTrained o (abs h df) fvals (catVals (abs h df) ivals) T p ∧
      ∀ d2 : DF, d2.WF h → (∀ i, df.shared = some i → d2.strHdr ≠ some i) →
        abs h' d2 = abs h d2 ∧ locs h' d2 = locs h d2 ∧ d2.WF h' := by
  obtain ⟨p, T, d1, h1, tr, g, _, _, _, _, _, hfit⟩ := fit_prefix (o := o) wf sep hf hi hcpu ready sch
  refine ⟨p, T, h1, ?_, tr, fun d2 w2 hs => g.abs w2 hs⟩
  unfold AutoPreprocessor.fit
  rw [hfit false]
  rfl

/-- The steps of `FitTransform` on what is shown. -/
theorem chosen_survives {a : ADF (Val F)} {cvals : GoStr → List Int} {T : Code} {p : AutoPreprocessor F} (tr : AutoTrained o a fvals cvals T p)
    (ready : AutoReady a) {c : GoStr} (hc : Chosen o a c) :
    (((a.hashWith p.stringToInt).encodeWith T p.intToBool).col .float c).isSome := by
  have hncat : ¬ Categorical a c := fun hx => by
    have := hc.1; rw [ready.kinds c hx] at this; cases this
  have h1 : ((a.hashWith p.stringToInt).col .float c).isSome := by
    cases hst : p.stringToInt with
    | none => exact hc.1
    | some st =>
      have hex : ∃ c, a.isStr c = true := by
        by_contra hx
        have := tr.no_hash (fun c => by by_contra hc; exact hx ⟨c, by simpa using hc⟩)
        rw [hst] at this; cases this
      obtain ⟨st', h1, _, h3⟩ := tr.hash hex
      rw [hst] at h1; cases h1
      have : c ∉ st.categoricalColumns := fun hx => hncat (Or.inl ((h3 c).1 hx))
      simp only [ADF.hashWith, ADF.hashed, this, if_false]
      exact hc.1
  cases hb : p.intToBool with
  | none => exact h1
  | some enc =>
    have hex : ∃ c, Categorical a c := by
      by_contra hx
      have := tr.no_codes (fun c hc => hx ⟨c, hc⟩)
      rw [hb] at this; cases this
    obtain ⟨enc', e1, _, _, h4, _⟩ := tr.codes hex
    rw [hb] at e1; cases e1
    have : c ∉ enc.catCols := fun hx => hncat ((h4 c).1 hx)
    simp only [ADF.encodeWith, ADF.oneHot, this, and_false, if_false, reduceCtorEq, false_and]
    exact h1

/-- C44, where the code does what the property says: with both `Imputing` and `Scaling`, or with neither when there is
nothing to encode, `FitTransform` does not panic, leaves the same preprocessor as `Fit`, returns a dataframe that shows
the same as `TransformView` by that preprocessor, and changes no dataframe. What is missing: the other option
combinations, for which `FitTransform` panics (`C44_fitTransform_panics`). -/
theorem C44_fitTransform_partial (wf : df.WF h) (sep : df.toRaw.Sep) (hf : FloatCols (abs h df) fvals) (hi : IntCols (abs h df) ivals)
    (hcpu : 0 < df.maxCPU) (ready : AutoReady (abs h df)) (sch : AutoSched)
    (ho : (o.imputing = true ∧ o.scaling = true) ∨
      (o.imputing = false ∧ o.scaling = false ∧ ∀ c, ¬ Categorical (abs h df) c)) :
    ∃ (p : AutoPreprocessor F) (T : Code) (h1 h2 : Heap F) (r : DF),
      (newAutoPreprocessor o).fit sch df h = .ok ((p, true), h1) ∧
      (newAutoPreprocessor o).fitTransform sch df h = .ok ((p, some r), h2) ∧
      AutoTrained o (abs h df) fvals (catVals (abs h df) ivals) T p ∧
      abs h2 r = p.shown T df.repeats (abs h df) ∧ r.WF h2 ∧
      (∀ d2 : DF, d2.WF h → (∀ i, df.shared = some i → d2.strHdr ≠ some i) →
        abs h2 d2 = abs h d2 ∧ locs h2 d2 = locs h d2 ∧ d2.WF h2) ∧
      ∀ sch' : AutoSched, ∃ r' h3, p.transformView sch' df h1 = .ok (some r', h3) ∧ abs h3 r' = abs h2 r ∧
        abs h3 df = abs h df := by
  obtain ⟨p, T, d1, h1, tr, g, w1, idx1, cpu1, a1, ⟨iv, hiv⟩, hfit⟩ := fit_prefix (o := o) wf sep hf hi hcpu ready sch
  obtain ⟨ad, _, wd⟩ := g.abs wf sep
  have hT : ∀ sch' : AutoSched, ∃ r' h3, p.transformView sch' df h1 = .ok (some r', h3) ∧
      abs h3 r' = p.shown T df.repeats (abs h df) ∧ abs h3 df = abs h df := by
    intro sch'
    obtain ⟨r', h3, e, x1, _, x3⟩ := C44_transformView tr ready (by rw [ad]; exact ready.fits) wd sep (by rw [ad]; exact hf)
      (by rw [ad]; exact hi) hcpu sch'
    exact ⟨r', h3, e, by rw [x1, ad], by rw [(x3 df wd sep).1, ad]⟩
  have e1 : (newAutoPreprocessor o).fit sch df h = .ok ((p, true), h1) := by
    unfold AutoPreprocessor.fit; rw [hfit false]; rfl
  suffices hres : ∃ r h2, (newAutoPreprocessor o).fitTransform sch df h = .ok ((p, some r), h2) ∧
      abs h2 r = p.shown T df.repeats (abs h df) ∧ r.WF h2 ∧ Grows df h h2 by
    obtain ⟨r, h2, e2, ar, wr, gr⟩ := hres
    refine ⟨p, T, h1, h2, r, e1, e2, tr, ar, wr, fun d2 w2 hs => gr.abs w2 hs, fun sch' => ?_⟩
    obtain ⟨r', h3, e3, x1, x2⟩ := hT sch'
    exact ⟨r', h3, e3, by rw [x1, ar], x2⟩
  have est : (newAutoPreprocessor o).fitTransform sch df h = match (newAutoPreprocessor o).fitWith sch df true h with
      | .error e => .error e
      | .ok ((_, none), _) => .error .panic
      | .ok ((p, some r), h) => .ok ((p, r), h) := rfl
  have hrep : d1.repeats = df.repeats := by funext j; simp only [DF.repeats, DF.rows, idx1]
  rcases ho with ⟨hi1, hs1⟩ | ⟨hi0, hs0, hnc⟩
  · -- both
    obtain ⟨im, e_im, nd_im, m_im, _⟩ := tr.imputer hi1
    obtain ⟨sc, e_sc, nd_sc, m_sc, _⟩ := tr.scaler hs1
    have hrun : ∀ (d : DF) (hh : Heap F), d.WF hh → Heap.Ext h1 hh → d.idx = df.idx → d.maxCPU = df.maxCPU →
        abs hh d = ((abs h df).hashWith p.stringToInt).encodeWith T p.intToBool →
        ∃ r h2, p.runFloats sch ((newAutoPreprocessor (F := F) o).floatCols df h) d hh = .ok (r, h2) ∧
          abs h2 r = p.shown T df.repeats (abs h df) ∧ r.WF h2 ∧ Grows df h h2 := by
      intro d hh wd ext di dc da
      have ft : FloatTyped (abs hh d) := by
        rw [da]
        have ft1 : FloatTyped ((abs h df).hashWith p.stringToInt) := by
          cases p.stringToInt with
          | none => exact hf.typed
          | some st => exact hf.typed.hashed _
        cases p.intToBool with
        | none => exact ft1
        | some enc => exact ft1.oneHot _ _ _ _
      have hdet : ∀ c ∈ im.transformedColumns, Detached ((newAutoPreprocessor (F := F) o).floatCols df h) c := by
        intro c hc
        obtain ⟨x1, x2⟩ := (m_im c).1 hc
        have hmem : ∀ c, c ∈ (newAutoPreprocessor (F := F) o).floatCols df h ↔ ((abs h df).col .float c).isSome ∧ c ∉ o.exclude := by
          intro c
          simp only [AutoPreprocessor.floatCols, List.mem_filter, mem_namesOf_iff, decide_eq_true_eq]
          rfl
        rcases x2 with x2 | x2
        · exact Or.inr ((hmem c).2 ⟨x1, x2⟩)
        · left
          apply List.eq_nil_iff_forall_not_mem.2
          intro c' hc'
          obtain ⟨y1, y2⟩ := (hmem c').1 hc'
          exact y2 (x2 c' y1)
      have ff : FloatsFit (abs hh d) (some im) (some sc) im.transformedColumns := by
        refine ⟨fun _ e => (by cases e; exact nd_im), fun _ e c hc => ?_, fun _ e => (by cases e; exact nd_sc), fun _ e c hc => ?_, fun _ e hx => ?_⟩
        · cases e
          exact ⟨hc, by rw [da]; exact chosen_survives tr ready ((m_im c).1 hc)⟩
        · cases e
          exact ⟨(m_im c).2 ((m_sc c).1 hc), by rw [da]; exact chosen_survives tr ready ((m_sc c).1 hc)⟩
        · cases e
          have := ((m_sc []).1 hx).1
          rw [ready.named.1] at this; cases this
      obtain ⟨h2, h3, x2, x3, ext3, w3, a3⟩ := floats_run wd hdet ft ff (by rw [dc]; exact hcpu) sch
      have x2' : im.transformInplace (d.detachedView ((newAutoPreprocessor (F := F) o).floatCols df h) hh).1
          (d.detachedView ((newAutoPreprocessor (F := F) o).floatCols df h) hh).2 = .ok h2 := x2
      have x3' : sc.transformInplace (d.detachedView ((newAutoPreprocessor (F := F) o).floatCols df h) hh).1
          (sch.run sc.transformedColumns) h2 = .ok h3 := x3
      refine ⟨(d.detachedView ((newAutoPreprocessor (F := F) o).floatCols df h) hh).1, h3, ?_, ?_, w3, (g.ext ext).ext ext3⟩
      · unfold AutoPreprocessor.runFloats
        simp only [e_im, e_sc, x2', x3']
      · rw [a3, da]
        unfold AutoPreprocessor.shown
        rw [e_im, e_sc]
        have : d.repeats = df.repeats := by funext j; simp only [DF.repeats, DF.rows, di]
        rw [this]
    rw [est, hfit true, if_pos rfl]
    cases hb : p.intToBool with
    | none =>
      obtain ⟨r, h2, x1, x2, x3, x4⟩ := hrun d1 h1 w1 (Heap.Ext.refl h1) idx1 cpu1 (by rw [a1, hb]; rfl)
      refine ⟨r, h2, ?_, x2, x3, x4⟩
      simp only
      rw [if_neg (by rw [tr.options, hi1]; simp), x1]
    | some enc =>
      obtain ⟨ef, hk⟩ := tr.encFit ready ready.fits hb
      obtain ⟨r1, h2, y1, y2, y3, y4, y5, y6⟩ := enc_run w1 hiv (by rw [cpu1]; exact hcpu) (by rw [a1]; exact ef) (sch.oneHotRun_perm enc.catCols)
      obtain ⟨r, h3, x1, x2, x3, x4⟩ := hrun r1 h2 y3 y4 (y5.trans idx1) (y6.trans cpu1) (by rw [y2, a1, hb, hk]; rfl)
      refine ⟨r, h3, ?_, x2, x3, x4⟩
      simp only [y1, x1]
  · -- nothing to do
    have hb := tr.no_codes hnc
    rw [est, hfit true, if_pos rfl, hb]
    simp only
    rw [if_pos (by rw [tr.options, hi0, hs0]; rfl)]
    refine ⟨d1, h1, rfl, ?_, w1, g⟩
    rw [a1]
    unfold AutoPreprocessor.shown
    rw [hb, tr.no_imputer hi0, tr.no_scaler hs0]
    rfl

/-- C44 is false of the other option combinations: `FitTransform` panics (on a nil `Imputer` or `Scaler`), although `Fit`
and `TransformView` work (`C44_fit`, `C44_transformView`). -/
theorem C44_fitTransform_panics (wf : df.WF h) (sep : df.toRaw.Sep) (hf : FloatCols (abs h df) fvals) (hi : IntCols (abs h df) ivals)
    (hcpu : 0 < df.maxCPU) (ready : AutoReady (abs h df)) (sch : AutoSched) (ho : o.imputing = false ∨ o.scaling = false)
    (hsome : o.imputing = true ∨ o.scaling = true ∨ ∃ c, Categorical (abs h df) c) :
    (newAutoPreprocessor o : AutoPreprocessor F).fitTransform sch df h = .error .panic := by
  obtain ⟨p, T, d1, h1, tr, g, w1, idx1, cpu1, a1, ⟨iv, hiv⟩, hfit⟩ := fit_prefix (o := o) wf sep hf hi hcpu ready sch
  have est : (newAutoPreprocessor o : AutoPreprocessor F).fitTransform sch df h = match (newAutoPreprocessor o).fitWith sch df true h with
      | .error e => .error e
      | .ok ((_, none), _) => .error .panic
      | .ok ((p, some r), h) => .ok ((p, r), h) := rfl
  have hrun : ∀ (d : DF) (hh : Heap F), d.WF hh → d.maxCPU = df.maxCPU → FloatTyped (abs hh d) →
      (∀ c, Chosen o (abs h df) c → ((abs hh d).col .float c).isSome) →
      p.runFloats sch ((newAutoPreprocessor (F := F) o).floatCols df h) d hh = .error .panic := by
    intro d hh wd dc ft hfl
    unfold AutoPreprocessor.runFloats
    simp only
    cases hi1 : o.imputing with
    | false => rw [tr.no_imputer hi1]
    | true =>
      have hs0 : o.scaling = false := by rcases ho with h0 | h0; · rw [hi1] at h0; cases h0
                                         · exact h0
      obtain ⟨im, e_im, nd_im, m_im, _⟩ := tr.imputer hi1
      have hdet : ∀ c ∈ im.transformedColumns, Detached ((newAutoPreprocessor (F := F) o).floatCols df h) c := by
        intro c hc
        obtain ⟨x1, x2⟩ := (m_im c).1 hc
        have hmem : ∀ c, c ∈ (newAutoPreprocessor (F := F) o).floatCols df h ↔ ((abs h df).col .float c).isSome ∧ c ∉ o.exclude := by
          intro c
          simp only [AutoPreprocessor.floatCols, List.mem_filter, mem_namesOf_iff, decide_eq_true_eq]
          rfl
        rcases x2 with x2 | x2
        · exact Or.inr ((hmem c).2 ⟨x1, x2⟩)
        · left
          apply List.eq_nil_iff_forall_not_mem.2
          intro c' hc'
          obtain ⟨y1, y2⟩ := (hmem c').1 hc'
          exact y2 (x2 c' y1)
      have ff : FloatsFit (abs hh d) (some im) none im.transformedColumns :=
        ⟨fun _ e => (by cases e; exact nd_im), fun _ e c hc => (by cases e; exact ⟨hc, hfl c ((m_im c).1 hc)⟩),
          fun _ e => (by cases e), fun _ e => (by cases e), fun _ e => (by cases e)⟩
      obtain ⟨h2, h3, x2, _⟩ := floats_run wd hdet ft ff (by rw [dc]; exact hcpu) sch
      have x2' : im.transformInplace (d.detachedView ((newAutoPreprocessor (F := F) o).floatCols df h) hh).1
          (d.detachedView ((newAutoPreprocessor (F := F) o).floatCols df h) hh).2 = .ok h2 := x2
      rw [e_im, tr.no_scaler hs0]
      simp only [x2']
  have ft1 : FloatTyped ((abs h df).hashWith p.stringToInt) := by
    cases p.stringToInt with
    | none => exact hf.typed
    | some st => exact hf.typed.hashed _
  rw [est, hfit true, if_pos rfl]
  cases hb : p.intToBool with
  | none =>
    simp only
    rw [if_neg, hrun d1 h1 w1 cpu1 (by rw [a1]; exact ft1)]
    · intro c hc
      have := chosen_survives tr ready hc
      rw [hb] at this
      rw [a1]; exact this
    · rw [tr.options]
      rcases hsome with h0 | h0 | h0
      · rw [h0]; simp
      · rw [h0]; simp
      · obtain ⟨enc, e, _⟩ := tr.codes h0
        rw [hb] at e; cases e
  | some enc =>
    obtain ⟨ef, hk⟩ := tr.encFit ready ready.fits hb
    obtain ⟨r1, h2, y1, y2, y3, y4, y5, y6⟩ := enc_run w1 hiv (by rw [cpu1]; exact hcpu) (by rw [a1]; exact ef) (sch.oneHotRun_perm enc.catCols)
    simp only [y1]
    rw [hrun r1 h2 y3 (y6.trans cpu1) (by rw [y2, a1]; exact ft1.oneHot _ _ _ _)]
    intro c hc
    have := chosen_survives tr ready hc
    rw [hb] at this
    rw [y2, a1, hk]; exact this

end

/-! ### Demo -/

namespace Demo

/-- Every order is the insertion order. -/
def autoSched : AutoSched := ⟨id, id, id, id, sched0, id, fun _ => .refl _, fun _ => .refl _, fun _ => .refl _, fun _ => .refl _, fun _ => .refl _⟩

def dvals (c : GoStr) : List Int := if c = b!"x" then [5, 3, 9, 1] else []
def divals (c : GoStr) : List Int := if c = b!"a" then [10, 20, 30, 40] else []

theorem df_floatNames : namesOf (h.tab df.tab) .float = [b!"x"] := by decide +kernel
theorem df_intNames : namesOf (h.tab df.tab) .int = [b!"a"] := by decide +kernel

theorem df_fcols : FloatCols (abs h df) dvals := by
  intro c hc
  have := mem_namesOf_iff.2 hc
  rw [df_floatNames] at this
  simp at this
  subst this; decide +kernel

theorem df_icols : IntCols (abs h df) divals := by
  intro c hc
  have := mem_namesOf_int.2 hc
  rw [df_intNames] at this
  simp at this
  subst this; decide +kernel

theorem df_strings (c : GoStr) : (abs h df).isStr c = true ↔ c = b!"s" := by
  have : hdrList h df.strHdr = [b!"s"] := by decide +kernel
  simp [abs, this]

theorem df_categorical (c : GoStr) : Categorical (abs h df) c ↔ c = b!"s" := by
  constructor
  · rintro (h0 | ⟨h0, _⟩)
    · exact (df_strings c).1 h0
    · have := h0 b!"s"
      rw [(df_strings _).2 rfl] at this; cases this
  · rintro rfl; exact Or.inl ((df_strings _).2 rfl)

/-- The demo dataframe (an int, a float, a bool and a string column) can be preprocessed. -/
theorem df_ready : AutoReady (abs h df) := by
  refine ⟨?_, fun _ => ⟨.int, b!"a", ?_, by decide +kernel⟩, ⟨by decide +kernel, ?_⟩, fun _ => by decide +kernel, ?_, ?_⟩
  · intro c hc; rw [(df_strings c).1 hc]; decide +kernel
  · by_contra hx
    have := (df_strings b!"a").1 (by simpa using hx)
    exact absurd this (by decide)
  · intro hx; exact absurd ((df_categorical _).1 hx) (by decide)
  · intro c d hc hd
    rw [(df_categorical c).1 hc, (df_categorical d).1 hd]
    constructor
    · intro i hx
      have := congrArg List.length hx
      simp [onehotName] at this
    · decide
  · intro c hc; rw [(df_categorical c).1 hc]; decide +kernel

/-- `Fit` and `TransformView` on the demo: column `s` is replaced by bool columns, `x` is imputed. -/
example : ∃ (p : AutoPreprocessor Int) (T : Code) (h1 h2 : Heap Int) (r : DF),
    (newAutoPreprocessor ⟨true, false, []⟩).fit autoSched df h = .ok ((p, true), h1) ∧
    p.transformView autoSched df h1 = .ok (some r, h2) ∧ abs h2 r = p.shown T df.repeats (abs h df) ∧ abs h2 df = abs h df ∧
    p.imputer.isSome ∧ p.scaler = none ∧ p.stringToInt.isSome ∧ p.intToBool.isSome ∧
    (newAutoPreprocessor (F := Int) ⟨true, false, []⟩).fitTransform autoSched df h = .error .panic := by
  obtain ⟨p, T, h1, e, tr, k⟩ := C44_fit (o := ⟨true, false, []⟩) df_wf df_sep df_fcols df_icols (by decide +kernel) df_ready autoSched
  obtain ⟨ad, _, wd⟩ := k df df_wf df_sep
  obtain ⟨r, h2, e2, x, _, k2⟩ := C44_transformView (df := df) (h := h1) tr df_ready (by rw [ad]; exact df_ready.fits) wd df_sep
    (by rw [ad]; exact df_fcols) (by rw [ad]; exact df_icols) (by decide +kernel) autoSched
  obtain ⟨im, hi, _⟩ := tr.imputer rfl
  obtain ⟨st, hs, _⟩ := tr.hash ⟨b!"s", (df_strings _).2 rfl⟩
  obtain ⟨enc, he, _⟩ := tr.codes ⟨b!"s", (df_categorical _).2 rfl⟩
  refine ⟨p, T, h1, h2, r, e, e2, by rw [x, ad], by rw [(k2 df wd df_sep).1, ad], by rw [hi]; rfl, tr.no_scaler rfl,
    by rw [hs]; rfl, by rw [he]; rfl, ?_⟩
  exact C44_fitTransform_panics df_wf df_sep df_fcols df_icols (by decide +kernel) df_ready autoSched (Or.inr rfl) (Or.inl rfl)

/-- `FitTransform` with imputing and scaling. -/
example : ∃ (p : AutoPreprocessor Int) (T : Code) (h2 : Heap Int) (r : DF),
    (newAutoPreprocessor ⟨true, true, []⟩).fitTransform autoSched df h = .ok ((p, some r), h2) ∧
    abs h2 r = p.shown T df.repeats (abs h df) ∧ abs h2 df = abs h df := by
  obtain ⟨p, T, h1, h2, r, _, e2, _, x, _, k, _⟩ := C44_fitTransform_partial (o := ⟨true, true, []⟩) df_wf df_sep df_fcols df_icols
    (by decide +kernel) df_ready autoSched (Or.inl ⟨rfl, rfl⟩)
  exact ⟨p, T, h2, r, e2, x, (k df df_wf df_sep).1⟩

end Demo

end Verif
