import Verif.Props.Json
import Verif.Proofs.Programs
import Verif.Proofs.AutoFit
import Verif.Spec.Experiment

/-! What is learnt is made of the names and the values of the training dataframe. -/

namespace Verif
variable {F : Type}

theorem IsText.append {s t : GoStr} (hs : IsText s) (ht : IsText t) : IsText (s ++ t) := by
  obtain ⟨a, ha, rfl⟩ := hs
  obtain ⟨b, hb, rfl⟩ := ht
  refine ⟨a ++ b, ?_, by rw [List.flatMap_append]⟩
  intro r hr
  rcases List.mem_append.1 hr with h | h
  · exact ha r h
  · exact hb r h

theorem isText_nil : IsText [] := ⟨[], by simp, rfl⟩

theorem isText_natDec (n : Nat) : IsText (natDec n) := by
  apply isText_ascii
  intro b hb
  have := (natDec_digits _ b hb).2
  exact UInt8.lt_iff_toNat_lt.2 (by change b.toNat < 128; omega)

theorem isText_word (w : Word) : IsText (95 :: w.bytes) := by
  have h95 : IsText [95] := isText_ascii (by decide)
  have hw : IsText w.bytes := by
    cases w with
    | cat i => exact (isText_ascii (by decide)).append (isText_natDec i)
    | missing => exact isText_ascii (by decide)
    | unk => exact isText_ascii (by decide)
  exact h95.append hw

theorem mem_amap_set {κ α : Type} [DecidableEq κ] {m : AMap κ α} {k : κ} {v : α} {e : κ × α} (h : e ∈ AMap.set m k v) : e ∈ m ∨ e = (k, v) := by
  induction m with
  | nil => simp only [AMap.set, List.mem_cons, List.not_mem_nil, or_false] at h; exact Or.inr h
  | cons x m ih =>
    obtain ⟨k', v'⟩ := x
    simp only [AMap.set] at h
    split at h
    · rename_i hk
      rcases List.mem_cons.1 h with h | h
      · exact Or.inr (h)
      · exact Or.inl (by simp [h])
    · rcases List.mem_cons.1 h with h | h
      · exact Or.inl (by simp [h])
      · rcases ih h with h | h
        · exact Or.inl (by simp [h])
        · exact Or.inr h

theorem keysOnce_set {κ α : Type} [DecidableEq κ] {m : AMap κ α} (h : KeysOnce m) (k : κ) (v : α) : KeysOnce (AMap.set m k v) :=
  AMap.nodup_set h k v

theorem Named.set {α : Type} {m : AMap GoStr α} (h : Named m) {c : GoStr} (hc : IsText c) (x : α) : Named (AMap.set m c x) := by
  refine ⟨keysOnce_set h.1 c x, ?_⟩
  intro e he
  rcases mem_amap_set he with h1 | rfl
  · exact h.2 e h1
  · exact hc

theorem named_nil {α : Type} : Named ([] : AMap GoStr α) := ⟨List.nodup_nil, by simp⟩

/-! ### one-hot encoding -/

theorem numberCats_good {col : GoStr} (hc : IsText col) {ks : List Int} {P : Int → Prop} (hk : ∀ v ∈ ks, P v) :
    ∀ {i : Nat} {m : AMap Int GoStr}, (KeysOnce m ∧ ∀ y ∈ m, P y.1 ∧ IsText y.2) →
      KeysOnce (numberCats col i ks m) ∧ ∀ y ∈ numberCats col i ks m, P y.1 ∧ IsText y.2 := by
  induction ks with
  | nil => intro i m h; exact h
  | cons v ks ih =>
    intro i m h
    simp only [numberCats]
    refine ih (fun w hw => hk w (by simp [hw])) ⟨keysOnce_set h.1 _ _, ?_⟩
    intro y hy
    rcases mem_amap_set hy with h1 | rfl
    · exact h.2 y h1
    · exact ⟨hk v (by simp), (hc.append (isText_ascii (by decide))).append (isText_natDec i)⟩

theorem freqKeys_mem {vals : List Int} {v : Int} (h : v ∈ freqKeys vals) : v ∈ vals := by
  unfold freqKeys at h
  exact (List.mem_filter.1 (List.mem_dedup.1 h)).1

theorem oneHotFitCol_good (o : OneHotOptions) (sch : OneHotSched) {col : GoStr} (hc : IsText col) {vals : List Int} {P : Int → Prop} (hv : ∀ v ∈ vals, P v) :
    (KeysOnce (oneHotFitCol o sch col vals).1 ∧ ∀ y ∈ (oneHotFitCol o sch col vals).1, P y.1 ∧ IsText y.2) ∧
    IsText (oneHotFitCol o sch col vals).2.1 ∧ IsText (oneHotFitCol o sch col vals).2.2 := by
  have hcats := numberCats_good (P := P) hc (i := 0) (m := []) (ks := sch.number col (freqKeys vals))
    (fun v h => hv v (freqKeys_mem ((sch.number_perm col _).mem_iff.1 h))) ⟨List.nodup_nil, by simp⟩
  have hfr : ∀ k, IsText ((AMap.get (numberCats col 0 (sch.number col (freqKeys vals)) []) k).getD []) := by
    intro k
    cases hg : AMap.get (numberCats col 0 (sch.number col (freqKeys vals)) []) k with
    | none => exact isText_nil
    | some n => exact (hcats.2 _ (AMap.mem_of_get hg)).2
  have hmiss : IsText (missingName col) := hc.append (isText_ascii (by decide))
  have hunk : IsText (unkName col) := hc.append (isText_ascii (by decide))
  obtain ⟨k, hk⟩ : ∃ k, k = (if o.missing ≠ .returnError ∨ o.unknown ≠ .returnError then
    mostCommon vals (sch.common col (freqKeys vals)) else 0) := ⟨_, rfl⟩
  have h0 : IsText (oneHotFitCol o sch col vals).2.1 := by
    simp only [oneHotFitCol]
    rw [← hk]
    split
    · split
      · exact hmiss
      · exact hfr k
    · exact hmiss
    · exact hfr k
    · exact isText_nil
  refine ⟨hcats, h0, ?_⟩
  simp only [oneHotFitCol] at h0 ⊢
  rw [← hk] at h0 ⊢
  split
  · exact hunk
  · exact hfr k
  · exact h0
  · exact isText_nil

/-- The maps of a one-hot encoder are good, relative to the names and values allowed. -/
structure GoodMaps (P : Int → Prop) (m : OneHotMaps) : Prop where
  categories : Named m.1
  codes : ∀ x ∈ m.1, KeysOnce x.2 ∧ ∀ y ∈ x.2, P y.1 ∧ IsText y.2
  fallback : Named m.2
  names : ∀ x ∈ m.2, IsText x.2.1 ∧ IsText x.2.2

theorem oneHotInit_good {P : Int → Prop} {cols : List GoStr} (ht : ∀ c ∈ cols, IsText c) : GoodMaps P (oneHotInit cols) := by
  unfold oneHotInit
  have : ∀ (m : OneHotMaps), GoodMaps P m → GoodMaps P (cols.foldl (fun m c => (AMap.set m.1 c [], AMap.set m.2 c ([], []))) m) := by
    induction cols with
    | nil => intro m h; exact h
    | cons c cols ih =>
      intro m h
      refine ih (fun d hd => ht d (by simp [hd])) _ ⟨h.categories.set (ht c (by simp)) _, ?_, h.fallback.set (ht c (by simp)) _, ?_⟩
      · intro x hx
        rcases mem_amap_set hx with h1 | rfl
        · exact h.codes x h1
        · exact ⟨List.nodup_nil, by simp⟩
      · intro x hx
        rcases mem_amap_set hx with h1 | rfl
        · exact h.names x h1
        · exact ⟨isText_nil, isText_nil⟩
  exact this _ ⟨named_nil, by simp, named_nil, by simp⟩

theorem intVals_col {df : DF} {h : Heap F} {c : GoStr} {vals : List Int} (e : df.intVals h c = .ok vals) : c ∈ namesOf (h.tab df.tab) .int := by
  unfold DF.intVals at e
  split at e
  · cases e
  · rename_i s hs
    rw [mem_namesOf_int]; simp [abs, hs]

/-- A trained one-hot encoder has the names and the values of the int columns. -/
theorem oneHot_fit_named {enc e' : OneHotEncoder} {sch : OneHotSched} {df : DF} {h : Heap F} (e : enc.fit sch df h = .ok e')
    (ht : ∀ c ∈ namesOf (h.tab df.tab) .int, IsText c) (hi : ∀ c vals, df.intVals h c = .ok vals → ∀ v ∈ vals, IsInt64 v) : e'.Named := by
  unfold OneHotEncoder.fit at e
  simp only at e
  split at e
  · cases e
  · rename_i m hm
    have hg : GoodMaps IsInt64 m := by
      refine runQueue_keeps (P := GoodMaps IsInt64) ?_ (oneHotInit_good ht) hm
      intro c s s' hs hj
      unfold oneHotFitJob at hj
      split at hj
      · cases hj
      · rename_i vals hv
        cases hj
        have hc := ht c (intVals_col hv)
        obtain ⟨g1, g2⟩ := oneHotFitCol_good enc.options sch hc (hi c vals hv)
        refine ⟨hs.categories.set hc _, ?_, hs.fallback.set hc _, ?_⟩
        · intro x hx
          rcases mem_amap_set hx with h1 | rfl
          · exact hs.codes x h1
          · exact g1
        · intro x hx
          rcases mem_amap_set hx with h1 | rfl
          · exact hs.names x h1
          · exact g2
    split at e
    · cases e
    · cases e
      refine ⟨ht, ?_, hg.categories, hg.codes, hg.fallback, hg.names⟩
      intro c hc
      have := (sch.news_perm _).mem_iff.1 hc
      unfold newColumnNames at this
      rw [List.mem_dedup, List.mem_append] at this
      rcases this with h1 | h1
      · obtain ⟨x, hx, hy⟩ := List.mem_flatMap.1 h1
        obtain ⟨y, hy', rfl⟩ := List.mem_map.1 hy
        exact ((hg.codes x hx).2 y hy').2
      · obtain ⟨x, hx, hy⟩ := List.mem_flatMap.1 h1
        have := (List.mem_filter.1 hy).1
        simp only [List.mem_cons, List.not_mem_nil, or_false] at this
        rcases this with rfl | rfl
        · exact (hg.names x hx).1
        · exact (hg.names x hx).2

/-! ### imputer and scaler -/

theorem floatVals_col {df : DF} {h : Heap F} [GoFloat F] {c : GoStr} {vals : List F} (e : df.floatVals h c = .ok vals) : c ∈ namesOf (h.tab df.tab) .float := by
  unfold DF.floatVals at e
  split at e
  · cases e
  · rename_i s hs
    rw [mem_namesOf_iff]; simp [abs, hs]

theorem imputer_fit_named [GoFloat F] {im im' : FloatImputer F} {df : DF} {order : List GoStr} {h : Heap F} (e : im.fit df order h = .ok im')
    (ht : ∀ c ∈ namesOf (h.tab df.tab) .float, IsText c) : Named im'.fallback := by
  have hfold : ∀ (x : F) (l : List GoStr), (∀ c ∈ l, IsText c) → ∀ m : AMap GoStr F, Named m → Named (l.foldl (fun m c => AMap.set m c x) m) := by
    intro x l
    induction l with
    | nil => intro _ m hm; exact hm
    | cons c l ih => intro hl m hm; exact ih (fun d hd => hl d (by simp [hd])) _ (hm.set (hl c (by simp)) x)
  unfold FloatImputer.fit at e
  simp only at e
  split at e
  · cases e; exact hfold _ _ ht _ named_nil
  · cases e; exact hfold _ _ ht _ named_nil
  · split at e
    · cases e
    · rename_i m hm
      cases e
      refine runQueue_keeps (P := fun m => Named m) ?_ named_nil hm
      intro c s s' hs hj
      unfold imputerJob at hj
      split at hj
      · cases hj
      · rename_i vals hv
        cases hj
        exact hs.set (ht c (floatVals_col hv)) _

theorem scaler_fit_named [GoFloat F] {sc sc' : Scaler F} {df : DF} {order : List GoStr} {h : Heap F} (e : sc.fit df order h = .ok sc')
    (ht : ∀ c ∈ namesOf (h.tab df.tab) .float, IsText c) : sc'.Named := by
  have hset : ∀ (m : AMap GoStr F) (c : GoStr) (x : Option F), Named m → IsText c → Named (setOpt m c x) := by
    intro m c x hm hc
    cases x with
    | none => exact hm
    | some x => exact hm.set hc x
  unfold Scaler.fit at e
  simp only at e
  split at e
  · cases e
  · rename_i m hm
    cases e
    refine runQueue_keeps (P := fun m : AMap GoStr F × AMap GoStr F => Named m.1 ∧ Named m.2) ?_ ⟨named_nil, named_nil⟩ hm
    intro c s s' hs hj
    unfold scalerJob at hj
    split at hj
    · cases hj
    · rename_i vals hv
      cases hj
      exact ⟨hset _ _ _ hs.1 (ht c (floatVals_col hv)), hset _ _ _ hs.2 (ht c (floatVals_col hv))⟩

/-! ### AutoPreprocessor -/

theorem hashVal_int64 (v : Val F) : IsInt64 (hashVal v) := by
  cases v with
  | str s =>
    simp only [hashVal]
    have : (fnv1a64 s).toNat % maxInt < maxInt := Nat.mod_lt _ (by decide)
    unfold maxInt at this ⊢
    exact ⟨by omega, by omega⟩
  | _ => exact ⟨by simp only [hashVal]; omega, by simp only [hashVal]; omega⟩

section
variable [GoFloat F]

theorem mapFloats_col_isSome (a : ADF (Val F)) (cols : List GoStr) (f : GoStr → Nat → F → F) (k : Kind) (c : GoStr) :
    ((a.mapFloats cols f).col k c).isSome = (a.col k c).isSome := by
  unfold ADF.mapFloats
  dsimp only
  split <;> simp

/-- The columns after the preprocessing: those before, and one-hot columns. -/
theorem shown_cols {o : AutoOptions} {a : ADF (Val F)} {fvals : GoStr → List F} {cvals : GoStr → List Int} {T : Code} {p : AutoPreprocessor F}
    (trd : AutoTrained o a fvals cvals T p) (rep : Nat → Nat) {b : ADF (Val F)} {k : Kind} {c : GoStr} (hc : ((p.shown T rep b).col k c).isSome) :
    (∃ k, (b.col k c).isSome) ∨ ∃ d w, Categorical a d ∧ c = Word.name w d := by
  have h1 : (((b.hashWith p.stringToInt).encodeWith T p.intToBool).col k c).isSome := by
    unfold AutoPreprocessor.shown at hc
    cases ei : p.imputer <;> cases es : p.scaler <;> rw [ei, es] at hc <;> simpa [ADF.imputeWith, ADF.scaleWith, mapFloats_col_isSome] using hc
  have h2 : ((b.hashWith p.stringToInt).col k c).isSome ∨ ∃ d w, Categorical a d ∧ c = Word.name w d := by
    by_cases hx : ∃ d, Categorical a d
    · obtain ⟨enc, e, _, _, _, hl, hn, _⟩ := trd.codes hx
      rw [e] at h1
      simp only [ADF.encodeWith, ADF.oneHot] at h1
      split at h1
      · cases h1
      · split at h1
        · rename_i hm
          obtain ⟨d, hd, v, hv⟩ := (hn.2 c).1 hm.2
          obtain ⟨w, hw⟩ := (hl d hd).word hv
          exact Or.inr ⟨d, w, hd, hw⟩
        · exact Or.inl h1
    · rw [trd.no_codes fun d hd => hx ⟨d, hd⟩] at h1
      exact Or.inl h1
  rcases h2 with h2 | h2
  · left
    cases e : p.stringToInt with
    | none => rw [e] at h2; exact ⟨k, h2⟩
    | some st =>
      rw [e] at h2
      simp only [ADF.hashWith, ADF.hashed] at h2
      split at h2
      · split at h2
        · exact ⟨.obj, by simpa using h2⟩
        · cases h2
      · exact ⟨k, h2⟩
  · exact Or.inr h2

theorem fitFloats_named {df : DF} {h h1 : Heap F} (wf : df.WF h) (sep : df.toRaw.Sep) {p p1 : AutoPreprocessor F} {sch : AutoSched}
    (e : p.fitFloats sch df h = .ok (p1, h1)) (hn : p.Named) (ht : ∀ c, ((abs h df).col .float c).isSome → IsText c) : p1.Named := by
  unfold AutoPreprocessor.fitFloats at e
  split at e
  · obtain ⟨_, _, _, hcol, _⟩ := floatsOnly_spec wf sep p
    simp only at e
    generalize df.columnView (p.floatCols df h) h = q at *
    obtain ⟨v, h2⟩ := q
    simp only at *
    have ht' : ∀ c ∈ namesOf (h2.tab v.tab) .float, IsText c := fun c hc => ht c ((hcol c).1 (mem_namesOf_iff.1 hc)).1
    split at e
    · cases e
    · rename_i q1 eq1
      have n1 : q1.Named := by
        unfold AutoPreprocessor.fitImputer at eq1
        split at eq1
        · split at eq1
          · cases eq1
          · rename_i im him
            cases eq1
            exact ⟨hn.hash, hn.oneHot, fun im' hi => by cases hi; exact imputer_fit_named him ht', hn.scaler⟩
        · cases eq1; exact hn
      split at e
      · cases e
      · rename_i q2 eq2
        cases e
        unfold AutoPreprocessor.fitScaler at eq2
        split at eq2
        · split at eq2
          · cases eq2
          · rename_i sc hsc
            cases eq2
            exact ⟨n1.hash, n1.oneHot, n1.imputer, fun sc' hi => by cases hi; exact scaler_fit_named hsc ht'⟩
        · cases eq2; exact n1
  · cases e; exact hn

omit [GoFloat F] in
theorem fitOneHot_named {df : DF} {h h1 : Heap F} (wf : df.WF h) (sep : df.toRaw.Sep) {p p1 : AutoPreprocessor F} {sch : AutoSched}
    {cats : List GoStr} (e : p.fitOneHot sch df cats h = .ok (p1, h1)) (hn : p.Named) {iv : GoStr → List Int} (hv : IntCols (abs h df) iv)
    (ht : ∀ c ∈ cats, IsText c) (hi : ∀ c ∈ cats, ∀ v ∈ iv c, IsInt64 v) : p1.Named := by
  unfold AutoPreprocessor.fitOneHot at e
  split at e
  · rename_i hne
    have hne := List.length_pos_iff.1 hne
    obtain ⟨c18, _, _⟩ := C18_columnView wf sep hne (v := (df.columnView cats h).1) (h' := (df.columnView cats h).2) rfl
    simp only at e
    generalize df.columnView cats h = q at *
    obtain ⟨v, h2⟩ := q
    simp only at *
    have hmem : ∀ c, ((abs h2 v).col .int c).isSome → c ∈ cats ∧ ((abs h df).col .int c).isSome := by
      intro c hc
      rw [c18] at hc
      simp only [ADF.project] at hc
      split at hc
      · exact ⟨by assumption, hc⟩
      · cases hc
    split at e
    · cases e
    · rename_i enc henc
      cases e
      refine ⟨hn.hash, ?_, hn.imputer, hn.scaler⟩
      intro e' he'
      cases he'
      refine oneHot_fit_named henc (fun c hc => ht c (hmem c (mem_namesOf_int.1 hc)).1) ?_
      intro c vals hvals w hw
      obtain ⟨hc, hs⟩ := hmem c (mem_namesOf_int.1 (intVals_col hvals))
      have hcol : (abs h1 v).col .int c = some ((iv c).map fun v => some (.int v)) := by
        rw [c18]
        simp only [ADF.project, hc, if_true]
        exact hv c hs
      rw [intVals_of_ints hcol] at hvals
      cases hvals
      exact hi c hc w hw
  · cases e; exact hn

/-- A trained preprocessor can be saved, unless a number it learnt is not finite. -/
theorem fitWith_named {o : AutoOptions} {df : DF} {h h' : Heap F} {fvals : GoStr → List F} {ivals : GoStr → List Int} (wf : df.WF h)
    (sep : df.toRaw.Sep) (hf : FloatCols (abs h df) fvals) (hi : IntCols (abs h df) ivals) (hcpu : 0 < df.maxCPU)
    (ready : AutoReady (abs h df)) (tx : (abs h df).Textual ivals) {sch : AutoSched} {b : Bool} {p : AutoPreprocessor F} {r : Option (Option DF)}
    (e : (newAutoPreprocessor o).fitWith sch df b h = .ok ((p, r), h')) : p.Named := by
  obtain ⟨p1, h1, e1, g1, o1, s1, t1, i0, i1, c0, c1⟩ := fitFloats_run wf sep hf hcpu ready.named.1 (newAutoPreprocessor o) sch
  have hsep : ∀ i, df.shared = some i → df.strHdr ≠ some i := sep
  obtain ⟨a1, _, w1⟩ := g1.abs wf hsep
  obtain ⟨d2, cats, h2, g2, w2, sep2, sh2, idx2, cpu2, nd2, hm2, hcase⟩ := fitHash_run w1 sep hcpu
    (fun c hc => by rw [a1] at hc ⊢; exact ready.strings c hc)
    (by rw [a1]
        by_contra hx
        exact ready.named.2 (Or.inl (by simpa using hx)))
    (by rw [a1]; exact ready.other) p1 sch
  rw [a1] at hm2 hcase
  have n0 : (newAutoPreprocessor (F := F) o).Named := ⟨fun _ h => (by cases h), fun _ h => (by cases h), fun _ h => (by cases h), fun _ h => (by cases h)⟩
  have n1 : p1.Named := fitFloats_named wf sep e1 n0 (tx.names .float)
  have hcat : ∀ c ∈ cats, IsText c := by
    intro c hc
    rcases (hm2 c).1 hc with h0 | h0
    · exact tx.names .obj c (ready.strings c h0)
    · exact tx.names .int c h0.2
  obtain ⟨p2, e2, n2, iv, hiv, hint⟩ : ∃ p2 : AutoPreprocessor F, p1.fitHash sch df h1 = .ok ((p2, d2, cats), h2) ∧ p2.Named ∧
      ∃ iv, IntCols (abs h2 d2) iv ∧ ∀ c ∈ cats, ∀ v ∈ iv c, IsInt64 v := by
    rcases hcase with ⟨hno, e, ha⟩ | ⟨hex, e, hfit, ha⟩
    · refine ⟨p1, e, n1, ivals, by rw [ha]; exact hi, ?_⟩
      intro c hc
      rcases (hm2 c).1 hc with h0 | h0
      · rw [hno c] at h0; cases h0
      · exact tx.ints c h0.2
    · refine ⟨_, e, ⟨fun x hx => by cases hx; exact hcat, n1.oneHot, n1.imputer, n1.scaler⟩, hashVals (abs h df) cats ivals, ha ▸ hashed_ints wf hi cats, ?_⟩
      intro c hc v hv
      simp only [hashVals, if_pos hc] at hv
      obtain ⟨x, _, rfl⟩ := List.mem_map.1 hv
      split
      · exact hashVal_int64 _
      · exact ⟨by omega, by omega⟩
  unfold AutoPreprocessor.fitWith at e
  rw [e1] at e
  simp only at e
  rw [e2] at e
  simp only at e
  split at e
  · cases e
  · rename_i p3 h3 e3
    have n3 : p3.Named := fitOneHot_named w2 sep2 e3 n2 hiv hcat hint
    suffices hp : p = p3 by rw [hp]; exact n3
    clear n3 e3 n2 n1
    repeat' split at e
    all_goals first | (cases e; done) | (cases e; rfl)

omit [GoFloat F] in
/-- A way to check that names are texts: they are ASCII. -/
theorem textual_ascii {df : DF} {h : Heap F} {ivals : GoStr → List Int} (hn : ((h.tab df.tab).all fun e => e.1.2.all fun b => decide (b < 0x80)) = true)
    (hi : ∀ c ∈ namesOf (h.tab df.tab) .int, ∀ v ∈ ivals c, IsInt64 v) : (abs h df).Textual ivals := by
  refine ⟨?_, fun c hc => hi c (mem_namesOf_int.2 hc)⟩
  intro k c hc
  have hm := mem_namesOf_int.2 hc
  unfold namesOf at hm
  obtain ⟨e, he, rfl⟩ := List.mem_map.1 hm
  simp only [List.all_eq_true, decide_eq_true_eq] at hn
  exact isText_ascii (hn e (List.mem_filter.1 he).1)

end

end Verif
