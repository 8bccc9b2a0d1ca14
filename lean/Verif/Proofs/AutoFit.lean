import Verif.Proofs.Auto
import Verif.Proofs.CSVParsing

/-! Training an `AutoPreprocessor`. -/

namespace Verif
variable {F : Type}

section
variable [GoFloat F]

theorem scalerSquares_eq (m : F) (vals : List F) : scalerSquares m vals =
    fsum ((present vals).map fun v => GoFloat.mul (GoFloat.sub v m) (GoFloat.sub v m)) := by
  unfold scalerSquares fsum present
  generalize (GoFloat.zero : F) = z
  induction vals generalizing z with
  | nil => rfl
  | cons v vals ih =>
    simp only [List.foldl_cons, List.filter_cons]
    cases hn : GoFloat.isNaN v with
    | true => simp only [if_true, Bool.not_true, Bool.false_eq_true, if_false]; exact ih z
    | false => simp only [Bool.false_eq_true, if_false, Bool.not_false, if_true, List.map_cons, List.foldl_cons]; exact ih _

theorem scalerFitCol_standard (vals : List F) :
    scalerFitCol ⟨false, true, true⟩ vals = (some (GoFloat.neg (fmean vals)), some (fscale vals)) := by
  have h1 : scalerMean vals = (fmean vals, (present vals).length) := by
    simp only [scalerMean, imputerSum_eq, fmean]
  simp only [scalerFitCol, h1, scalerSquares_eq]
  unfold fscale
  simp only [Bool.false_eq_true, if_false, Bool.or_self, if_true]
  split
  · rename_i h; simp only [fsquares, h, if_true]
  · rename_i h; simp only [fsquares, h]; rfl

omit [GoFloat F] in
/-- The view on which imputer and scaler are trained. -/
theorem floatsOnly_spec {df : DF} {h : Heap F} (wf : df.WF h) (sep : df.toRaw.Sep) (p : AutoPreprocessor F) :
    Grows df h (df.columnView (p.floatCols df h) h).2 ∧
    (df.columnView (p.floatCols df h) h).1.WF (df.columnView (p.floatCols df h) h).2 ∧
    (df.columnView (p.floatCols df h) h).1.maxCPU = df.maxCPU ∧
    (∀ c, ((abs (df.columnView (p.floatCols df h) h).2 (df.columnView (p.floatCols df h) h).1).col .float c).isSome ↔
      Chosen p.options (abs h df) c) ∧
    (∀ c, Chosen p.options (abs h df) c →
      (abs (df.columnView (p.floatCols df h) h).2 (df.columnView (p.floatCols df h) h).1).col .float c = (abs h df).col .float c) := by
  have hmem : ∀ c, c ∈ p.floatCols df h ↔ ((abs h df).col .float c).isSome ∧ c ∉ p.options.exclude := by
    intro c
    simp only [AutoPreprocessor.floatCols, List.mem_filter, mem_namesOf_iff, decide_eq_true_eq]
  by_cases hL : p.floatCols df h = []
  · rw [hL]
    have e : df.columnView [] h = (df.view, h) := rfl
    rw [e]
    have hall : ∀ d, ((abs h df).col .float d).isSome → d ∈ p.options.exclude := by
      intro d hd
      by_contra hx
      have := (hmem d).2 ⟨hd, hx⟩
      rw [hL] at this; cases this
    refine ⟨(Heap.Ext.refl h).toFrame, view_wf wf, rfl, ?_, fun _ _ => rfl⟩
    intro c
    exact ⟨fun hc => ⟨hc, Or.inr hall⟩, fun hc => hc.1⟩
  · have sp := columnView_spec wf sep hL
    obtain ⟨c18, _, cw, _⟩ := C18_columnView wf sep hL (v := (df.columnView (p.floatCols df h) h).1)
      (h' := (df.columnView (p.floatCols df h) h).2) rfl
    obtain ⟨c0, hc0⟩ := List.exists_mem_of_ne_nil _ hL
    have hch : ∀ c, c ∈ p.floatCols df h ↔ Chosen p.options (abs h df) c := by
      intro c
      rw [hmem]
      refine and_congr_right fun _ => ⟨Or.inl, ?_⟩
      rintro (h0 | h0)
      · exact h0
      · have := (hmem c0).1 hc0
        exact absurd (h0 c0 this.1) this.2
    refine ⟨sp.frame, cw, sp.rest.2.2.2.2.2.1, ?_, ?_⟩
    · intro c
      rw [c18, ← hch, hmem]
      simp only [ADF.project, hmem]
      split
      · rename_i hx; simp [hx]
      · rename_i hx; simp only [Option.isSome_none, Bool.false_eq_true, false_iff]; exact hx
    · intro c hc
      rw [c18]
      simp only [ADF.project, (hch c).2 hc, if_true]

/-- Training the imputer and the scaler. -/
theorem fitFloats_run {df : DF} {h : Heap F} (wf : df.WF h) (sep : df.toRaw.Sep) {fvals : GoStr → List F}
    (hv : FloatCols (abs h df) fvals) (hcpu : 0 < df.maxCPU) (hemp : (abs h df).col .float [] = none)
    (p : AutoPreprocessor F) (sch : AutoSched) :
    ∃ p1 h1, p.fitFloats sch df h = .ok (p1, h1) ∧ Grows df h h1 ∧ p1.options = p.options ∧ p1.stringToInt = p.stringToInt ∧
      p1.intToBool = p.intToBool ∧ (p.options.imputing = false → p1.imputer = p.imputer) ∧
      (p.options.imputing = true → ∃ im, p1.imputer = some im ∧ im.transformedColumns.Nodup ∧
        (∀ c, c ∈ im.transformedColumns ↔ Chosen p.options (abs h df) c) ∧
        ∀ c, Chosen p.options (abs h df) c → AMap.get im.fallback c = some (fmean (fvals c))) ∧
      (p.options.scaling = false → p1.scaler = p.scaler) ∧
      (p.options.scaling = true → ∃ sc, p1.scaler = some sc ∧ sc.transformedColumns.Nodup ∧
        (∀ c, c ∈ sc.transformedColumns ↔ Chosen p.options (abs h df) c) ∧ ∀ c, Chosen p.options (abs h df) c →
          AMap.get sc.shift c = some (GoFloat.neg (fmean (fvals c))) ∧ AMap.get sc.scale c = some (fscale (fvals c))) := by
  unfold AutoPreprocessor.fitFloats
  by_cases hopt : p.options.imputing || p.options.scaling
  · rw [if_pos hopt]
    obtain ⟨g, w, cpu, hcol, hsame⟩ := floatsOnly_spec wf sep p
    simp only
    generalize df.columnView (p.floatCols df h) h = q at *
    obtain ⟨v, h1⟩ := q
    simp only at *
    have hv' : FloatCols (abs h1 v) fvals := by
      intro c hc
      have := hv c ((hcol c).1 hc).1
      unfold ADF.floats at this ⊢
      rw [hsame c ((hcol c).1 hc)]; exact this
    have hemp' : (abs h1 v).col .float [] = none := by
      by_contra hx
      have := (hcol []).1 (Option.isSome_iff_ne_none.2 hx)
      rw [Chosen, hemp] at this; simp at this
    have hcpu' : 0 < v.maxCPU := by rw [cpu]; exact hcpu
    obtain ⟨p1, e1, o1, s1, t1, c1, i0, i1⟩ : ∃ p1, p.fitImputer sch v h1 = .ok p1 ∧ p1.options = p.options ∧
        p1.stringToInt = p.stringToInt ∧ p1.intToBool = p.intToBool ∧ p1.scaler = p.scaler ∧
        (p.options.imputing = false → p1.imputer = p.imputer) ∧
        (p.options.imputing = true → ∃ im, p1.imputer = some im ∧ im.transformedColumns.Nodup ∧
          (∀ c, c ∈ im.transformedColumns ↔ Chosen p.options (abs h df) c) ∧
          ∀ c, Chosen p.options (abs h df) c → AMap.get im.fallback c = some (fmean (fvals c))) := by
      unfold AutoPreprocessor.fitImputer
      cases hi : p.options.imputing with
      | false => exact ⟨p, rfl, rfl, rfl, rfl, rfl, fun _ => rfl, fun hx => (by cases hx)⟩
      | true =>
        obtain ⟨im, e, _, nd, hm, hg⟩ := C40_fit (im := newFloatImputer .mean) w hv' hcpu' hemp' (sch.jobs_perm _)
        rw [if_pos rfl, e]
        refine ⟨_, rfl, rfl, rfl, rfl, rfl, fun hx => (by cases hx), fun _ => ⟨im, rfl, nd, fun c => (hm c).trans (hcol c), ?_⟩⟩
        intro c hc
        rw [hg, if_pos ((hcol c).2 hc)]; rfl
    rw [e1]
    simp only
    obtain ⟨p2, e2, o2, s2, t2, c2, j0, j1⟩ : ∃ p2, p1.fitScaler sch v h1 = .ok p2 ∧ p2.options = p1.options ∧
        p2.stringToInt = p1.stringToInt ∧ p2.intToBool = p1.intToBool ∧ p2.imputer = p1.imputer ∧
        (p.options.scaling = false → p2.scaler = p1.scaler) ∧
        (p.options.scaling = true → ∃ sc, p2.scaler = some sc ∧ sc.transformedColumns.Nodup ∧
          (∀ c, c ∈ sc.transformedColumns ↔ Chosen p.options (abs h df) c) ∧ ∀ c, Chosen p.options (abs h df) c →
          AMap.get sc.shift c = some (GoFloat.neg (fmean (fvals c))) ∧ AMap.get sc.scale c = some (fscale (fvals c))) := by
      unfold AutoPreprocessor.fitScaler
      rw [show p1.options.scaling = p.options.scaling from by rw [o1]]
      cases hi : p.options.scaling with
      | false => exact ⟨p1, rfl, rfl, rfl, rfl, rfl, fun _ => rfl, fun hx => (by cases hx)⟩
      | true =>
        obtain ⟨sc, e, _, _, _, g1, g2⟩ := scaler_fit (sc := newScaler ⟨false, true, true⟩) hv' (Or.inr hcpu') hemp' (sch.jobs_perm _)
        obtain ⟨sc', e', nd, hm⟩ := C41_fit_columns (sc := newScaler ⟨false, true, true⟩) hv' (Or.inr hcpu') hemp' (sch.jobs_perm _)
        rw [e] at e'; cases e'
        rw [if_pos rfl, e]
        refine ⟨_, rfl, rfl, rfl, rfl, rfl, fun hx => (by cases hx), fun _ => ⟨sc, rfl, nd, ?_, ?_⟩⟩
        · intro c
          rw [hm, hcol]
          simp [newScaler]
        · intro c hc
          rw [g1, g2, if_pos ((hcol c).2 hc), if_pos ((hcol c).2 hc)]
          simp only [newScaler, scalerFitCol_standard, and_self]
    rw [e2]
    refine ⟨p2, h1, rfl, g, o2.trans o1, s2.trans s1, t2.trans t1, fun hx => by rw [c2, i0 hx], fun hx => ?_, fun hx => by rw [j0 hx, c1], j1⟩
    rw [c2]; exact i1 hx
  · rw [if_neg hopt]
    rw [Bool.or_eq_true, not_or] at hopt
    exact ⟨p, h, rfl, (Heap.Ext.refl h).toFrame, rfl, rfl, rfl, fun _ => rfl, fun hx => absurd hx hopt.1, fun _ => rfl,
      fun hx => absurd hx hopt.2⟩

/-- Training and running the hash encoder. -/
theorem fitHash_run {df : DF} {h : Heap F} (wf : df.WF h) (sep : df.toRaw.Sep) (hcpu : 0 < df.maxCPU)
    (hstr : ∀ c, (abs h df).isStr c = true → ((abs h df).col .obj c).isSome) (hemp : (abs h df).isStr [] = false)
    (hoth : (∃ c, (abs h df).isStr c = true) → ∃ k c, (abs h df).isStr c = false ∧ ((abs h df).col k c).isSome)
    (p : AutoPreprocessor F) (sch : AutoSched) :
    ∃ d1 cats h1, Grows df h h1 ∧ d1.WF h1 ∧ d1.toRaw.Sep ∧ (∀ i, d1.shared = some i → df.shared = some i ∨ h.next ≤ i) ∧
      d1.idx = df.idx ∧ d1.maxCPU = df.maxCPU ∧ cats.Nodup ∧ (∀ c, c ∈ cats ↔ Categorical (abs h df) c) ∧
      (((∀ c, (abs h df).isStr c = false) ∧ p.fitHash sch df h = .ok ((p, d1, cats), h1) ∧ abs h1 d1 = abs h df) ∨
       ((∃ c, (abs h df).isStr c = true) ∧ p.fitHash sch df h = .ok (({ p with stringToInt := some ⟨cats⟩ }, d1, cats), h1) ∧
          HashFit (abs h df) ⟨cats⟩ ∧ abs h1 d1 = (abs h df).hashed cats)) := by
  have hm : ∀ c, c ∈ df.stringNames h ↔ (abs h df).isStr c = true := by
    intro c; simp [DF.stringNames, mem_sinsertAll, abs]
  unfold AutoPreprocessor.fitHash
  by_cases hs : (df.stringNames h).length > 0
  · rw [if_pos hs]
    obtain ⟨cats, hcats⟩ : ∃ cats, cats = sch.names (df.stringNames h) := ⟨_, rfl⟩
    have hp := sch.names_perm (df.stringNames h)
    rw [← hcats] at hp
    have hmc : ∀ c, c ∈ cats ↔ (abs h df).isStr c = true := fun c => by rw [hp.mem_iff, hm]
    have hex : ∃ c, (abs h df).isStr c = true := by
      obtain ⟨c, hc⟩ := List.exists_mem_of_length_pos hs
      exact ⟨c, (hm c).1 hc⟩
    have hf : HashFit (abs h df) ⟨cats⟩ := by
      refine ⟨?_, ?_, fun c hc => hstr c ((hmc c).1 hc), ?_⟩
      · obtain ⟨c, hc⟩ := hex
        exact List.ne_nil_of_mem ((hmc c).2 hc)
      · intro hx; have := (hmc []).1 hx; rw [hemp] at this; cases this
      · obtain ⟨k, c, x1, x2⟩ := hoth hex
        exact ⟨k, c, fun hx => by have := (hmc c).1 hx; rw [x1] at this; exact absurd this (by decide), x2⟩
    obtain ⟨r, h', e, ha, hw, fr, hsep, hsh, hidx, hc⟩ := hash_run (order := sch.hash cats) wf sep hf.ne hf.emp hcpu hf.has hf.other
      (sch.hash_perm _)
    have e' : (HashEncoder.fit ⟨[]⟩ sch.names df h).transformView (sch.hash (HashEncoder.fit ⟨[]⟩ sch.names df h).categoricalColumns) df h =
        .ok (r, h') := by
      simp only [HashEncoder.fit, HashEncoder.transformView, ← hcats]; exact e
    simp only [e']
    refine ⟨r, cats, h', fr, hw, hsep, hsh, hidx, hc, (hp.nodup_iff).2 (nodup_sinsertAll List.nodup_nil _), ?_, Or.inr ⟨hex, ?_, hf, ha⟩⟩
    · intro c
      rw [hmc]
      refine ⟨Or.inl, ?_⟩
      rintro (h0 | h0)
      · exact h0
      · obtain ⟨c', hc'⟩ := hex
        rw [h0.1 c'] at hc'; cases hc'
    · simp only [HashEncoder.fit, HashEncoder.transformedColumns, ← hcats]
  · rw [if_neg hs]
    have hno : ∀ c, (abs h df).isStr c = false := by
      intro c
      by_contra hx
      have := (hm c).2 (by simpa using hx)
      exact hs (List.length_pos_of_mem this)
    refine ⟨df, namesOf (h.tab df.tab) .int, h, (Heap.Ext.refl h).toFrame, wf, sep, fun i hi => Or.inl hi, rfl, rfl,
      nodup_namesOf_kind wf.keys _, ?_, Or.inl ⟨hno, rfl, rfl⟩⟩
    intro c
    rw [mem_namesOf_int]
    exact ⟨fun hc => Or.inr ⟨hno, hc⟩, fun hc => by
      rcases hc with h0 | h0
      · rw [hno c] at h0; cases h0
      · exact h0.2⟩

/-- Training the one-hot encoder. -/
theorem fitOneHot_run {df : DF} {h : Heap F} (wf : df.WF h) (sep : df.toRaw.Sep) (hcpu : 0 < df.maxCPU)
    {ivals : GoStr → List Int} (hv : IntCols (abs h df) ivals) {cats : List GoStr} (hint : ∀ c ∈ cats, ((abs h df).col .int c).isSome)
    (hemp : [] ∉ cats) (hrows : 0 < (abs h df).nRows) (hne : cats ≠ []) (p : AutoPreprocessor F) (sch : AutoSched) :
    ∃ enc T h1, p.fitOneHot sch df cats h = .ok ({ p with intToBool := some enc }, h1) ∧ Grows df h h1 ∧
      enc.options = ⟨.separateIfSeen, .sharedSeparate, false⟩ ∧ enc.catCols.Nodup ∧ (∀ c, c ∈ enc.catCols ↔ c ∈ cats) ∧
      (∀ c ∈ cats, Learnt ⟨.separateIfSeen, .sharedSeparate, false⟩ c (ivals c) (T c)) ∧
      (enc.newCols.Nodup ∧ ∀ n, n ∈ enc.newCols ↔ ∃ c ∈ cats, ∃ v, T c v = some n) ∧ Encodes (F := F) enc T := by
  unfold AutoPreprocessor.fitOneHot
  rw [if_pos (List.length_pos_iff.2 hne)]
  have sp := columnView_spec wf sep hne
  obtain ⟨c18, _, cw, _⟩ := C18_columnView wf sep hne (v := (df.columnView cats h).1) (h' := (df.columnView cats h).2) rfl
  simp only
  generalize df.columnView cats h = q at *
  obtain ⟨v, h1⟩ := q
  simp only at *
  have hcol : ∀ c, ((abs h1 v).col .int c).isSome ↔ c ∈ cats := by
    intro c
    rw [c18]
    simp only [ADF.project]
    split
    · rename_i hc; simp [hc, hint c hc]
    · rename_i hc; simp [hc]
  have hv' : IntCols (abs h1 v) ivals := by
    intro c hc
    have hcc := (hcol c).1 hc
    rw [c18]
    simp only [ADF.project, hcc, if_true]
    exact hv c (hint c hcc)
  have hempt : (abs h1 v).col .int [] = none := by
    by_contra hx
    exact hemp ((hcol []).1 (Option.isSome_iff_ne_none.2 hx))
  have hcan : ∀ c, ((abs h1 v).col .int c).isSome → CanFit (newOneHotEncoder ⟨.separateIfSeen, .sharedSeparate, false⟩).options (ivals c) := by
    intro c hc
    have hcc := (hcol c).1 hc
    have hnil : ivals c ≠ [] := by
      intro h0
      have h2 := hv c (hint c hcc)
      have := (wf.cells h2).1
      rw [h0] at this
      simp only [List.map_nil, List.length_nil] at this
      omega
    have hmiss : (-1 : Int) ∉ ivals c → ∃ v ∈ ivals c, v ≠ -1 := by
      intro hx
      obtain ⟨v, hv⟩ := List.exists_mem_of_ne_nil _ hnil
      exact ⟨v, hv, fun h0 => hx (h0 ▸ hv)⟩
    refine ⟨by decide, by decide, ?_, ?_, fun _ => by decide⟩
    · rintro (h0 | h0)
      · exact absurd h0 (by decide)
      · exact hmiss h0.2
    · intro h0; exact absurd h0 (by decide)
  obtain ⟨enc, T, e, ho, ⟨nd, hm⟩, hl, hn, hen⟩ := C38_fit_transform (enc := newOneHotEncoder ⟨.separateIfSeen, .sharedSeparate, false⟩)
    (sch := sch.oneHot) hv' cw (by rw [sp.rest.2.2.2.2.2.1]; exact hcpu) hempt hcan
  rw [e]
  have hm' : ∀ c, c ∈ enc.catCols ↔ c ∈ cats := fun c => (hm c).trans (hcol c)
  refine ⟨enc, T, h1, rfl, sp.frame, by rw [ho]; rfl, nd, hm', fun c hc => hl c ((hm' c).2 hc), ⟨hn.1, fun n => ?_⟩, hen⟩
  rw [hn.2 n]
  exact ⟨fun ⟨c, h1, h2⟩ => ⟨c, (hm' c).1 h1, h2⟩, fun ⟨c, h1, h2⟩ => ⟨c, (hm' c).2 h1, h2⟩⟩

end

end Verif
