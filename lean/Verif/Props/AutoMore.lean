import Verif.Props.Auto

/-! C65, C66, C67: excluded columns, training again, and the list of transformed columns of an `AutoPreprocessor`. -/

namespace Verif
variable {F : Type}

section
variable [GoFloat F] {o : AutoOptions} {a b : ADF (Val F)} {fvals : GoStr → List F} {cvals : GoStr → List Int} {T : Code}
  {p : AutoPreprocessor F}

theorem imputeWith_col_other {im : Option (FloatImputer F)} {k : Kind} {c : GoStr}
    (h : k ≠ .float ∨ ∀ i, im = some i → c ∉ i.transformedColumns) : (a.imputeWith im).col k c = a.col k c := by
  cases im with
  | none => rfl
  | some i =>
    simp only [ADF.imputeWith, ADF.mapFloats]
    rw [if_neg]
    rintro ⟨h1, h2⟩
    rcases h with h | h
    · exact h h1
    · exact h i rfl h2

theorem scaleWith_col_other {sc : Option (Scaler F)} {rep : Nat → Nat} {k : Kind} {c : GoStr}
    (h : k ≠ .float ∨ ∀ i, sc = some i → c ∉ i.transformedColumns) : (a.scaleWith rep sc).col k c = a.col k c := by
  cases sc with
  | none => rfl
  | some i =>
    simp only [ADF.scaleWith, ADF.mapFloats]
    rw [if_neg]
    rintro ⟨h1, h2⟩
    rcases h with h | h
    · exact h h1
    · exact h i rfl h2

/-- C65, where the code does what the property says: a float column that is excluded (while some float column is not)
or that was not there when training, and that is not categorical, is shown as it is. What is missing: excluded string
columns (`C65_strings_ignore_exclude`), and the case in which every float column is excluded (`C65_all_excluded`). -/
theorem C65_excluded_floats_partial (tr : AutoTrained o a fvals cvals T p) (rep : Nat → Nat) {c : GoStr}
    (hc : ¬ Chosen o a c) (hcat : ¬ Categorical a c) :
    (p.shown T rep b).col .float c = b.col .float c := by
  have him : ∀ i, p.imputer = some i → c ∉ i.transformedColumns := by
    intro i hi hx
    cases ho : o.imputing with
    | false => rw [tr.no_imputer ho] at hi; cases hi
    | true =>
      obtain ⟨im, h1, _, h3, _⟩ := tr.imputer ho
      rw [hi] at h1; cases h1
      exact hc ((h3 c).1 hx)
  have hsc : ∀ i, p.scaler = some i → c ∉ i.transformedColumns := by
    intro i hi hx
    cases ho : o.scaling with
    | false => rw [tr.no_scaler ho] at hi; cases hi
    | true =>
      obtain ⟨im, h1, _, h3, _⟩ := tr.scaler ho
      rw [hi] at h1; cases h1
      exact hc ((h3 c).1 hx)
  unfold AutoPreprocessor.shown
  rw [scaleWith_col_other (Or.inr hsc), imputeWith_col_other (Or.inr him)]
  have h1 : ((b.hashWith p.stringToInt).encodeWith T p.intToBool).col .float c = (b.hashWith p.stringToInt).col .float c := by
    cases hb : p.intToBool with
    | none => rfl
    | some enc =>
      by_cases hex : ∃ d, Categorical a d
      · obtain ⟨enc', e1, _, _, h4, _⟩ := tr.codes hex
        rw [hb] at e1; cases e1
        have : c ∉ enc.catCols := fun hx => hcat ((h4 c).1 hx)
        simp [ADF.encodeWith, ADF.oneHot, this]
      · rw [tr.no_codes (fun d hd => hex ⟨d, hd⟩)] at hb; cases hb
  rw [h1]
  by_cases hs : ∃ c, a.isStr c = true
  · obtain ⟨st, e, _, hm⟩ := tr.hash hs
    rw [e]
    have : c ∉ st.categoricalColumns := fun hx => hcat (Or.inl ((hm c).1 hx))
    simp [ADF.hashWith, ADF.hashed, this]
  · rw [tr.no_hash (fun c => by by_contra hx; exact hs ⟨c, by simpa using hx⟩)]; rfl

/-- In particular: an excluded float column, when some other float column is not excluded. -/
theorem C65_excluded_float_partial (tr : AutoTrained o a fvals cvals T p) (rep : Nat → Nat) {c d : GoStr}
    (hc : c ∈ o.exclude) (hd : (a.col .float d).isSome) (hd' : d ∉ o.exclude) (hcat : ¬ Categorical a c) :
    (p.shown T rep b).col .float c = b.col .float c :=
  C65_excluded_floats_partial tr rep (fun h => h.2.elim (fun h => h hc) (fun h => hd' (h d hd))) hcat

/-- C65 is false of string columns: they are replaced whether they are excluded or not. -/
theorem C65_strings_ignore_exclude (tr : AutoTrained o a fvals cvals T p) (rep : Nat → Nat) {c : GoStr}
    (hc : a.isStr c = true) : (p.shown T rep b).col .obj c = none := by
  unfold AutoPreprocessor.shown
  rw [scaleWith_col_other (Or.inl (by decide)), imputeWith_col_other (Or.inl (by decide))]
  obtain ⟨st, e, _, hm⟩ := tr.hash ⟨c, hc⟩
  have h1 : (b.hashWith p.stringToInt).col .obj c = none := by
    rw [e]
    simp [ADF.hashWith, ADF.hashed, (hm c).2 hc]
  cases p.intToBool with
  | none => exact h1
  | some enc =>
    simp only [ADF.encodeWith, ADF.oneHot, reduceCtorEq, false_and, if_false]
    split
    · rfl
    · exact h1

/-- C65 is false when every float column is excluded: then they are all transformed, as if none were excluded. -/
theorem C65_all_excluded (tr : AutoTrained o a fvals cvals T p)
    (hall : ∀ d, (a.col .float d).isSome → d ∈ o.exclude) {c : GoStr} (hc : (a.col .float c).isSome) :
    (o.imputing = true → ∃ im, p.imputer = some im ∧ c ∈ im.transformedColumns ∧ AMap.get im.fallback c = some (fmean (fvals c))) ∧
    (o.scaling = true → ∃ sc, p.scaler = some sc ∧ c ∈ sc.transformedColumns ∧ AMap.get sc.scale c = some (fscale (fvals c))) := by
  have hch : Chosen o a c := ⟨hc, Or.inr hall⟩
  constructor
  · intro ho
    obtain ⟨im, h1, _, h3, h4⟩ := tr.imputer ho
    exact ⟨im, h1, (h3 c).2 hch, h4 c hch⟩
  · intro ho
    obtain ⟨im, h1, _, h3, h4⟩ := tr.scaler ho
    exact ⟨im, h1, (h3 c).2 hch, (h4 c hch).2⟩

/-- C67: after training, `TransformedColumns` lists the chosen float columns and the string columns; if there was no
imputing, or no string column, it panics. -/
theorem C67_transformedColumns (tr : AutoTrained o a fvals cvals T p) :
    (o.imputing = true ∧ (∃ c, a.isStr c = true) → ∃ L, p.transformedColumns = .ok L ∧
      ∀ c, c ∈ L ↔ Chosen o a c ∨ a.isStr c = true) ∧
    (¬ (o.imputing = true ∧ ∃ c, a.isStr c = true) → p.transformedColumns = .error .panic) := by
  constructor
  · rintro ⟨ho, hs⟩
    obtain ⟨im, h1, _, h3, _⟩ := tr.imputer ho
    obtain ⟨st, e, _, hm⟩ := tr.hash hs
    refine ⟨im.transformedColumns ++ st.categoricalColumns, by simp [AutoPreprocessor.transformedColumns, h1, e, HashEncoder.transformedColumns], ?_⟩
    intro c
    rw [List.mem_append, h3, hm]
  · intro h
    unfold AutoPreprocessor.transformedColumns
    cases ho : o.imputing with
    | false => rw [tr.no_imputer ho]
    | true =>
      have hs : ¬ ∃ c, a.isStr c = true := fun hs => h ⟨ho, hs⟩
      rw [tr.no_hash (fun c => by by_contra hx; exact hs ⟨c, by simpa using hx⟩)]
      cases p.imputer <;> rfl

/-- The components of `q`, and those of `p` where `q` has none. -/
def AutoPreprocessor.over (q p : AutoPreprocessor F) : AutoPreprocessor F :=
  { imputer := q.imputer.or p.imputer, scaler := q.scaler.or p.scaler, stringToInt := q.stringToInt.or p.stringToInt,
    intToBool := q.intToBool.or p.intToBool, options := p.options }

theorem fitImputer_over (p q : AutoPreprocessor F) (hq : q.options = p.options) (sch : AutoSched) (v : DF) (h : Heap F) :
    (q.over p).fitImputer sch v h = match q.fitImputer sch v h with
      | .error e => .error e
      | .ok q' => .ok (q'.over p) := by
  unfold AutoPreprocessor.fitImputer
  rw [show (q.over p).options = p.options from rfl, hq]
  by_cases hi : p.options.imputing = true
  · rw [if_pos hi, if_pos hi]
    generalize (newFloatImputer (F := F) .mean).fit v (sch.jobs (namesOf (h.tab v.tab) .float)) h = r
    cases r <;> rfl
  · rw [if_neg hi, if_neg hi]

theorem fitScaler_over (p q : AutoPreprocessor F) (hq : q.options = p.options) (sch : AutoSched) (v : DF) (h : Heap F) :
    (q.over p).fitScaler sch v h = match q.fitScaler sch v h with
      | .error e => .error e
      | .ok q' => .ok (q'.over p) := by
  unfold AutoPreprocessor.fitScaler
  rw [show (q.over p).options = p.options from rfl, hq]
  by_cases hi : p.options.scaling = true
  · rw [if_pos hi, if_pos hi]
    generalize (newScaler (F := F) ⟨false, true, true⟩).fit v (sch.jobs (namesOf (h.tab v.tab) .float)) h = r
    cases r <;> rfl
  · rw [if_neg hi, if_neg hi]

theorem fitImputer_options {q q' : AutoPreprocessor F} {sch : AutoSched} {v : DF} {h : Heap F} (e : q.fitImputer sch v h = .ok q') :
    q'.options = q.options := by
  unfold AutoPreprocessor.fitImputer at e
  split at e
  · split at e
    · cases e
    · cases e; rfl
  · cases e; rfl

theorem fitScaler_options {q q' : AutoPreprocessor F} {sch : AutoSched} {v : DF} {h : Heap F} (e : q.fitScaler sch v h = .ok q') :
    q'.options = q.options := by
  unfold AutoPreprocessor.fitScaler at e
  split at e
  · split at e
    · cases e
    · cases e; rfl
  · cases e; rfl

theorem fitFloats_over (p q : AutoPreprocessor F) (hq : q.options = p.options) (sch : AutoSched) (df : DF) (h : Heap F) :
    (q.over p).fitFloats sch df h = match q.fitFloats sch df h with
      | .error e => .error e
      | .ok (q', h') => .ok (q'.over p, h') := by
  unfold AutoPreprocessor.fitFloats AutoPreprocessor.floatCols
  rw [show (q.over p).options = p.options from rfl, hq]
  by_cases hi : (p.options.imputing || p.options.scaling) = true
  · rw [if_pos hi, if_pos hi]
    simp only
    rw [fitImputer_over p q hq]
    generalize hr : q.fitImputer sch _ _ = r
    cases r with
    | error e => rfl
    | ok q1 =>
      simp only
      rw [fitScaler_over p q1 ((fitImputer_options hr).trans hq)]
      generalize q1.fitScaler sch _ _ = r2
      cases r2 <;> rfl
  · rw [if_neg hi, if_neg hi]

theorem fitFloats_options {q q' : AutoPreprocessor F} {sch : AutoSched} {v : DF} {h h' : Heap F} (e : q.fitFloats sch v h = .ok (q', h')) :
    q'.options = q.options := by
  unfold AutoPreprocessor.fitFloats at e
  split at e
  · simp only at e
    split at e
    · cases e
    · rename_i e1
      split at e
      · cases e
      · rename_i e2
        cases e
        exact (fitScaler_options e2).trans (fitImputer_options e1)
  · cases e; rfl

theorem fitHash_over (p q : AutoPreprocessor F) (sch : AutoSched) (df : DF) (h : Heap F) :
    (q.over p).fitHash sch df h = match q.fitHash sch df h with
      | .error e => .error e
      | .ok ((q', d), h') => .ok ((q'.over p, d), h') := by
  unfold AutoPreprocessor.fitHash
  by_cases hi : (df.stringNames h).length > 0
  · rw [if_pos hi, if_pos hi]
    simp only
    generalize (HashEncoder.fit ⟨[]⟩ sch.names df h).transformView _ df h = r
    cases r <;> rfl
  · rw [if_neg hi, if_neg hi]

omit [GoFloat F] in
theorem fitOneHot_over (p q : AutoPreprocessor F) (sch : AutoSched) (df : DF) (cats : List GoStr) (h : Heap F) :
    (q.over p).fitOneHot sch df cats h = match q.fitOneHot sch df cats h with
      | .error e => .error e
      | .ok (q', h') => .ok (q'.over p, h') := by
  unfold AutoPreprocessor.fitOneHot
  by_cases hi : cats.length > 0
  · rw [if_pos hi, if_pos hi]
    simp only
    generalize (newOneHotEncoder ⟨.separateIfSeen, .sharedSeparate, false⟩).fit sch.oneHot _ _ = r
    cases r <;> rfl
  · rw [if_neg hi, if_neg hi]

/-- C66: what training a preprocessor again does, whatever state it is in: what a new preprocessor with the same options
learns, but the components that the new one does not get are those of the previous training. -/
theorem C66_refit (p : AutoPreprocessor F) (sch : AutoSched) (df : DF) (h : Heap F) :
    p.fit sch df h = match (newAutoPreprocessor p.options).fit sch df h with
      | .error e => .error e
      | .ok ((q, ok), h') => .ok ((q.over p, ok), h') := by
  have h0 : p = (newAutoPreprocessor (F := F) p.options).over p := by
    cases p; simp [AutoPreprocessor.over, newAutoPreprocessor]
  conv_lhs => rw [h0]
  unfold AutoPreprocessor.fit AutoPreprocessor.fitWith
  simp only
  rw [fitFloats_over p (newAutoPreprocessor p.options) rfl]
  generalize hr : (newAutoPreprocessor (F := F) p.options).fitFloats sch df h = r
  cases r with
  | error e => rfl
  | ok r =>
    obtain ⟨q1, h1⟩ := r
    simp only
    rw [fitHash_over p q1]
    generalize q1.fitHash sch df h1 = r
    cases r with
    | error e => rfl
    | ok r =>
      obtain ⟨⟨q2, d, cats⟩, h2⟩ := r
      simp only
      rw [fitOneHot_over p q2]
      generalize q2.fitOneHot sch d cats h2 = r
      cases r <;> rfl

/-- C66, where the code does what the property says: when the second dataframe has a string column and both `Imputing`
and `Scaling` are on, nothing of the previous training is left. What is missing: components that the second training
does not need stay (`C66_refuted`). -/
theorem C66_refit_partial {df : DF} {h : Heap F} {fvals : GoStr → List F} {ivals : GoStr → List Int} (p : AutoPreprocessor F) (wf : df.WF h) (sep : df.toRaw.Sep) (hf : FloatCols (abs h df) fvals)
    (hi : IntCols (abs h df) ivals) (hcpu : 0 < df.maxCPU) (ready : AutoReady (abs h df)) (sch : AutoSched)
    (ho : p.options.imputing = true ∧ p.options.scaling = true) (hs : ∃ c, (abs h df).isStr c = true) :
    p.fit sch df h = (newAutoPreprocessor p.options).fit sch df h := by
  obtain ⟨q, T, h', e, tr, _⟩ := C44_fit (o := p.options) wf sep hf hi hcpu ready sch
  rw [C66_refit, e]
  obtain ⟨c, hc⟩ := hs
  obtain ⟨im, h1, _⟩ := tr.imputer ho.1
  obtain ⟨sc, h2, _⟩ := tr.scaler ho.2
  obtain ⟨st, h3, _⟩ := tr.hash ⟨c, hc⟩
  obtain ⟨en, h4, _⟩ := tr.codes ⟨c, Or.inl hc⟩
  have h5 := tr.options
  cases q
  simp only at h1 h2 h3 h4 h5
  subst h1 h2 h3 h4 h5
  rfl

end

namespace Demo

/-- A dataframe with float columns only, in the heap of the demo. -/
def fonly : Except Abort (DF × Heap Int) :=
  (build [.add .float b!"x" [.float 1, .float 2]] h).1.toDataFrame (build [.add .float b!"x" [.float 1, .float 2]] h).2

/-- C66 is false of the code: after training on the demo dataframe, which has a string column `s`, and training again
on a dataframe that has only float columns, the preprocessor cannot transform the latter: it looks for `s`. A new
preprocessor can. -/
theorem C66_refuted :
    okAnd fonly (fun q => okAnd ((newAutoPreprocessor ⟨true, true, []⟩).fit autoSched df q.2) (fun p1 =>
      okAnd (p1.1.1.fit autoSched q.1 p1.2) (fun p2 => p2.1.2 &&
        (match p2.1.1.transformView autoSched q.1 p2.2 with | .error _ => true | .ok _ => false)) &&
      okAnd ((newAutoPreprocessor ⟨true, true, []⟩).fit autoSched q.1 p1.2) (fun p2 => p2.1.2 &&
        okAnd (p2.1.1.transformView autoSched q.1 p2.2) (fun r => r.1.isSome)))) = true := by
  decide +kernel

/-- The hypotheses of `C66_refit_partial`: the demo dataframe, whatever the preprocessor was trained on before. -/
example (p : AutoPreprocessor Int) (hp : p.options = ⟨true, true, [b!"y"]⟩) :
    p.fit autoSched df h = (newAutoPreprocessor ⟨true, true, [b!"y"]⟩).fit autoSched df h := by
  rw [← hp]
  exact C66_refit_partial p df_wf df_sep df_fcols df_icols (by decide +kernel) df_ready autoSched (by rw [hp]; exact ⟨rfl, rfl⟩)
    ⟨b!"s", (df_strings _).2 rfl⟩

/-- C65 and C67 on the demo: `x` is the only float column and it is excluded, as is the string column `s`; both are
transformed all the same. -/
theorem C65_refuted : ∃ (p : AutoPreprocessor Int) (T : Code) (h' : Heap Int),
    (newAutoPreprocessor ⟨true, false, [b!"x", b!"s"]⟩).fit autoSched df h = .ok ((p, true), h') ∧
    (∃ im, p.imputer = some im ∧ b!"x" ∈ im.transformedColumns) ∧
    (∀ b : ADF (Val Int), (p.shown T df.repeats b).col .obj b!"s" = none) ∧
    ∃ L, p.transformedColumns = .ok L ∧ b!"x" ∈ L ∧ b!"s" ∈ L := by
  obtain ⟨p, T, h1, e, tr, k⟩ := C44_fit (o := ⟨true, false, [b!"x", b!"s"]⟩) df_wf df_sep df_fcols df_icols (by decide +kernel) df_ready autoSched
  have hall : ∀ d, ((abs h df).col .float d).isSome → d ∈ [b!"x", b!"s"] := by
    intro d hd
    have := mem_namesOf_iff.2 hd
    rw [df_floatNames] at this
    simp at this; simp [this]
  have hx : ((abs h df).col .float b!"x").isSome := by decide +kernel
  have hs : (abs h df).isStr b!"s" = true := (df_strings _).2 rfl
  obtain ⟨im, i1, i2, _⟩ := (C65_all_excluded tr hall hx).1 rfl
  obtain ⟨L, l1, l2⟩ := (C67_transformedColumns tr).1 ⟨rfl, b!"s", hs⟩
  exact ⟨p, T, h1, e, ⟨im, i1, i2⟩, fun b => C65_strings_ignore_exclude tr _ hs, L, l1, (l2 _).2 (Or.inl ⟨hx, Or.inr hall⟩), (l2 _).2 (Or.inr hs)⟩

end Demo

end Verif
