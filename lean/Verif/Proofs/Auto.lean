import Verif.Proofs.AutoFloats
import Verif.Props.Hash
import Verif.Props.OneHot
import Verif.Props.ColumnView

/-! The steps of `AutoPreprocessor`. -/

namespace Verif
variable {F : Type}

/-- From `h` to `h'`, only new objects, and the list of shared columns of `df`, changed. -/
abbrev Grows (df : DF) (h h' : Heap F) : Prop := Heap.Frame Nope Nope (fun i => df.shared = some i) Nope h h'

theorem Grows.abs {df d2 : DF} {h h' : Heap F} (g : Grows df h h') (w : d2.WF h) (hs : ∀ i, df.shared = some i → d2.strHdr ≠ some i) :
    abs h' d2 = abs h d2 ∧ locs h' d2 = locs h d2 ∧ d2.WF h' :=
  ⟨abs_frame g w.toWF id (fun i hi hx => hs i hx hi) (fun _ _ _ => Or.inr id),
    locs_frame g w.toWF id (fun i hi hx => hs i hx hi), w.frame g id (fun _ _ _ => Or.inr id)⟩

/-- One step of a chain: `r` continues `df`. -/
theorem Grows.trans {df r : DF} {h h1 h2 : Heap F} (g : Grows df h h1) (g2 : Grows r h1 h2)
    (hr : ∀ i, r.shared = some i → df.shared = some i ∨ h.next ≤ i) : Grows df h h2 :=
  Heap.Frame.trans g g2 (fun _ _ => id) (fun _ _ => id)
    (fun i hi hx => by rcases hr i hx with h0 | h0
                       · exact h0
                       · omega) (fun _ _ => id)

theorem Grows.ext {df : DF} {h h1 h2 : Heap F} (g : Grows df h h1) (e : Heap.Ext h1 h2) : Grows df h h2 :=
  Heap.Frame.trans g (e.toFrame (A := Nope) (T := Nope) (H := fun i => df.shared = some i) (M := Nope)) (fun _ _ => id) (fun _ _ => id)
    (fun _ _ => id) (fun _ _ => id)

/-! ### Order of the steps -/

theorem hashed_mapFloats (a : ADF (Val F)) (S L : List GoStr) (g : GoStr → Nat → F → F) :
    (a.mapFloats L g).hashed S = (a.hashed S).mapFloats L g := by
  refine ADF.ext' rfl ?_ ?_ rfl
  · intro k c
    simp only [ADF.mapFloats, ADF.hashed]
    by_cases hc : c ∈ S
    · simp only [hc, if_true]
      by_cases hk : k = .int
      · simp [hk]
      · simp [hk]
    · simp only [hc, if_false]
  · intro c; simp [ADF.mapFloats, ADF.hashed]

theorem oneHot_mapFloats (a : ADF (Val F)) (cats news L : List GoStr) (T : Code) (keep : Bool) (g : GoStr → Nat → F → F) :
    (a.mapFloats L g).oneHot cats news T keep = (a.oneHot cats news T keep).mapFloats L g := by
  have hi : ∀ c j, (a.mapFloats L g).intAt c j = a.intAt c j := by
    intro c j; simp [ADF.intAt, ADF.cell, ADF.mapFloats]
  refine ADF.ext' rfl ?_ (fun _ => rfl) rfl
  intro k n
  simp only [ADF.oneHot, hi]
  by_cases h1 : keep = false ∧ n ∈ cats
  · simp [ADF.mapFloats, h1]
  · by_cases h2 : k = .bool ∧ n ∈ news
    · simp [ADF.mapFloats, h2, h1]
    · simp only [if_neg h1, if_neg h2, ADF.mapFloats]

/-! ### What the preprocessor does, on what is shown -/

section
variable [GoFloat F]

theorem FloatTyped.imputeWith {a : ADF (Val F)} (h : FloatTyped a) (oi : Option (FloatImputer F)) : FloatTyped (a.imputeWith oi) := by
  cases oi with
  | none => exact h
  | some im => exact h.mapFloats _ _

theorem imputeWith_has (a : ADF (Val F)) (oi : Option (FloatImputer F)) (k : Kind) (c : GoStr) :
    ((a.imputeWith oi).col k c).isSome = (a.col k c).isSome := by
  cases oi with
  | none => rfl
  | some im => simp only [ADF.imputeWith, ADF.mapFloats]; split <;> simp

theorem scaleWith_has (a : ADF (Val F)) (rep : Nat → Nat) (os : Option (Scaler F)) (k : Kind) (c : GoStr) :
    ((a.scaleWith rep os).col k c).isSome = (a.col k c).isSome := by
  cases os with
  | none => rfl
  | some sc => simp only [ADF.scaleWith, ADF.mapFloats]; split <;> simp

theorem hash_scale_impute (a : ADF (Val F)) (rep : Nat → Nat) (oi : Option (FloatImputer F)) (os : Option (Scaler F)) (S : List GoStr) :
    ((a.imputeWith oi).scaleWith rep os).hashed S = ((a.hashed S).imputeWith oi).scaleWith rep os := by
  cases oi <;> cases os <;> simp only [ADF.imputeWith, ADF.scaleWith, hashed_mapFloats]

theorem oneHot_scale_impute (a : ADF (Val F)) (rep : Nat → Nat) (oi : Option (FloatImputer F)) (os : Option (Scaler F))
    (cats news : List GoStr) (T : Code) (keep : Bool) :
    ((a.imputeWith oi).scaleWith rep os).oneHot cats news T keep = ((a.oneHot cats news T keep).imputeWith oi).scaleWith rep os := by
  cases oi <;> cases os <;> simp only [ADF.imputeWith, ADF.scaleWith, oneHot_mapFloats]

theorem scale_impute_col (a : ADF (Val F)) (rep : Nat → Nat) (oi : Option (FloatImputer F)) (os : Option (Scaler F)) {k : Kind}
    (hk : k ≠ .float) (c : GoStr) : ((a.imputeWith oi).scaleWith rep os).col k c = a.col k c := by
  cases oi <;> cases os <;> simp [ADF.imputeWith, ADF.scaleWith, ADF.mapFloats, hk]

theorem scale_impute_isStr (a : ADF (Val F)) (rep : Nat → Nat) (oi : Option (FloatImputer F)) (os : Option (Scaler F)) (c : GoStr) :
    ((a.imputeWith oi).scaleWith rep os).isStr c = a.isStr c := by
  cases oi <;> cases os <;> rfl

theorem scale_impute_nRows (a : ADF (Val F)) (rep : Nat → Nat) (oi : Option (FloatImputer F)) (os : Option (Scaler F)) :
    ((a.imputeWith oi).scaleWith rep os).nRows = a.nRows := by
  cases oi <;> cases os <;> rfl

/-- What the imputer and the scaler need. -/
structure FloatsFit (a : ADF (Val F)) (oi : Option (FloatImputer F)) (os : Option (Scaler F)) (L : List GoStr) : Prop where
  im_nodup : ∀ im, oi = some im → im.transformedColumns.Nodup
  im_has : ∀ im, oi = some im → ∀ c ∈ im.transformedColumns, c ∈ L ∧ (a.col .float c).isSome
  sc_nodup : ∀ sc, os = some sc → sc.transformedColumns.Nodup
  sc_has : ∀ sc, os = some sc → ∀ c ∈ sc.transformedColumns, c ∈ L ∧ (a.col .float c).isSome
  sc_emp : ∀ sc, os = some sc → [] ∉ sc.transformedColumns

/-- Detach, impute, scale. -/
theorem floats_run {df : DF} {h : Heap F} (wf : df.WF h) {cols L : List GoStr} (hL : ∀ c ∈ L, Detached cols c)
    (ft : FloatTyped (abs h df)) {oi : Option (FloatImputer F)} {os : Option (Scaler F)} (ff : FloatsFit (abs h df) oi os L)
    (hcpu : 0 < df.maxCPU) (sch : AutoSched) :
    ∃ h2 h3, imputeIf oi (df.detachedView cols h).1 (df.detachedView cols h).2 = .ok h2 ∧
      scaleIf os sch (df.detachedView cols h).1 h2 = .ok h3 ∧ Heap.Ext h h3 ∧ (df.detachedView cols h).1.WF h3 ∧
      abs h3 (df.detachedView cols h).1 = ((abs h df).imputeWith oi).scaleWith df.repeats os := by
  have us := unshare_spec (view_wf wf).toWF cols
  have ext : Heap.Ext h (df.detachedView cols h).2 := us.ext rfl
  have pr := priv_detached wf hL
  obtain ⟨sh, w1, _⟩ := C14_detached_shows wf cols
  have hcpu' : 0 < (df.detachedView cols h).1.maxCPU := by
    rw [show (df.detachedView cols h).1.maxCPU = df.maxCPU from us.cpu]; exact hcpu
  have hrep : (df.detachedView cols h).1.repeats = df.repeats := rfl
  rw [← hrep]
  generalize hr : (df.detachedView cols h).1 = r at *
  generalize (df.detachedView cols h).2 = h1 at *
  clear hr hrep us
  obtain ⟨h2, e2, q2, a2, b2⟩ : ∃ h2, imputeIf oi r h1 = .ok h2 ∧ Quiet h1 h2 ∧ (∀ l : Nat × Nat, l.1 < h.next → h2.at l = h1.at l) ∧
      abs h2 r = (abs h1 r).imputeWith oi := by
    cases oi with
    | none => exact ⟨h1, rfl, Quiet.refl h1, fun _ _ => rfl, rfl⟩
    | some im =>
      exact priv_impute w1 pr (ff.im_nodup im rfl) (fun c hc => (ff.im_has im rfl c hc).1)
        (fun c hc => by rw [sh]; exact (ff.im_has im rfl c hc).2) (by rw [sh]; exact ft)
  have w2 := q2.wf w1
  have pr2 := pr.quiet q2
  obtain ⟨h3, e3, q3, a3, b3⟩ : ∃ h3, scaleIf os sch r h2 = .ok h3 ∧ Quiet h2 h3 ∧ (∀ l : Nat × Nat, l.1 < h.next → h3.at l = h2.at l) ∧
      abs h3 r = (abs h2 r).scaleWith r.repeats os := by
    cases os with
    | none => exact ⟨h2, rfl, Quiet.refl h2, fun _ _ => rfl, rfl⟩
    | some sc =>
      exact priv_scale w2 pr2 (ff.sc_nodup sc rfl) (fun c hc => (ff.sc_has sc rfl c hc).1)
        (fun c hc => by rw [b2, imputeWith_has, sh]; exact (ff.sc_has sc rfl c hc).2)
        (by rw [b2, sh]; exact ft.imputeWith oi) (Or.inr hcpu') (ff.sc_emp sc rfl) (sch.run_perm _)
  refine ⟨h2, h3, e2, e3, (ext.of_quiet q2 a2).of_quiet q3 a3, q3.wf w2, ?_⟩
  rw [b3, b2, sh]

end

/-- The rest of a detached view. -/
theorem detached_rest {df : DF} {h : Heap F} (wf : df.WF h) (cols : List GoStr) :
    (df.detachedView cols h).1.idx = df.idx ∧ (df.detachedView cols h).1.maxCPU = df.maxCPU ∧
    (df.detachedView cols h).1.toRaw.Sep ∧ ∀ i, (df.detachedView cols h).1.shared = some i → h.next ≤ i := by
  have us := unshare_spec (view_wf wf).toWF cols
  obtain ⟨_, f2⟩ := us.fresh rfl
  refine ⟨rfl, us.cpu, ?_, f2⟩
  intro i hi hx
  have h1 := f2 i hi
  have h2 : (df.view.toRaw.unshare cols h).1.strHdr = some i := hx
  rw [us.str] at h2
  have := wf.str_lt i h2
  omega

/-- The rest of what the one-hot encoder returns. -/
theorem oneHot_rest [GoFloat F] {enc : OneHotEncoder} {order : List GoStr} {df r : DF} {h h' : Heap F} (wf : df.WF h)
    (e : enc.transformView order df h = .ok (some r, h')) : r.idx = df.idx ∧ r.maxCPU = df.maxCPU := by
  have hcpu : (df.view.toRaw.alloc .bool enc.newCols h).1.maxCPU = df.maxCPU := by
    unfold Raw.alloc
    by_cases hn : enc.newCols = []
    · rw [if_pos hn]; rfl
    · rw [if_neg hn]; exact (own_spec (view_wf wf).toWF).cpu
  have hd : (df.view.withRaw (df.view.toRaw.alloc .bool enc.newCols h)).1.idx = df.idx ∧
      (df.view.withRaw (df.view.toRaw.alloc .bool enc.newCols h)).1.maxCPU = df.maxCPU := ⟨rfl, hcpu⟩
  unfold OneHotEncoder.transformView at e
  simp only at e
  split at e
  · cases e; exact ⟨rfl, rfl⟩
  · split at e
    · cases e
    · cases e
    · split at e
      · cases e; exact hd
      · cases e; exact hd

/-- The int values of hashed columns. -/
def hashVals (a : ADF (Val F)) (S : List GoStr) (ivals : GoStr → List Int) (c : GoStr) : List Int :=
  if c ∈ S then ((a.col .obj c).getD []).map fun v => match v with | some v => hashVal v | none => -1 else ivals c

theorem hashed_ints {df : DF} {h : Heap F} (wf : df.WF h) {ivals : GoStr → List Int} (hv : IntCols (abs h df) ivals) (S : List GoStr) :
    IntCols ((abs h df).hashed S) (hashVals (abs h df) S ivals) := by
  intro c hc
  simp only [ADF.hashed, hashVals] at hc ⊢
  by_cases hS : c ∈ S
  · simp only [hS, if_true] at hc ⊢
    cases hl : (abs h df).col .obj c with
    | none => rw [hl] at hc; simp at hc
    | some l =>
      simp only [Option.map_some, Option.getD_some, List.map_map]
      congr 1
      apply List.map_congr_left
      intro v hv
      cases v with
      | none => exact absurd hv (wf.cells hl).2
      | some x => rfl
  · simp only [hS, if_false] at hc ⊢
    exact hv c hc

section
variable [GoFloat F]

/-- What the one-hot encoder needs. -/
structure EncFit (a : ADF (Val F)) (enc : OneHotEncoder) (T : Code) : Prop where
  codes : Encodes (F := F) enc T
  total : ∀ c ∈ enc.catCols, ∀ v, T c v ≠ none
  has : ∀ c ∈ enc.catCols, (a.col .int c).isSome
  drop : enc.options.keep = true ∨ ∀ c ∈ enc.catCols, a.isStr c = false ∧ c ∉ enc.newCols
  rows : enc.options.keep = true ∨ enc.newCols ≠ [] ∨ 0 < a.nRows ∨ enc.catCols = []

theorem enc_run {df : DF} {h : Heap F} (wf : df.WF h) {ivals : GoStr → List Int} (hv : IntCols (abs h df) ivals) (hcpu : 0 < df.maxCPU)
    {enc : OneHotEncoder} {T : Code} (ef : EncFit (abs h df) enc T) {order : List GoStr} (hp : order.Perm enc.catCols) :
    ∃ r h', enc.transformView order df h = .ok (some r, h') ∧
      abs h' r = (abs h df).oneHot enc.catCols enc.newCols T enc.options.keep ∧ r.WF h' ∧ Heap.Ext h h' ∧
      r.idx = df.idx ∧ r.maxCPU = df.maxCPU := by
  obtain ⟨r, h', e, h1, h2, h3⟩ := (ef.codes h df ivals order wf hv ef.has hcpu ef.drop ef.rows hp).2
    (by rintro ⟨c, hc, j, v, _, hn⟩; exact ef.total c hc v hn)
  obtain ⟨h4, h5⟩ := oneHot_rest wf e
  exact ⟨r, h', e, h1, h2, h3, h4, h5⟩

/-- What the hash encoder needs. -/
structure HashFit (a : ADF (Val F)) (st : HashEncoder) : Prop where
  ne : st.categoricalColumns ≠ []
  emp : [] ∉ st.categoricalColumns
  has : ∀ c ∈ st.categoricalColumns, (a.col .obj c).isSome
  other : ∃ k c, c ∉ st.categoricalColumns ∧ (a.col k c).isSome

/-- `TransformView`, for a preprocessor whose components fit the dataframe. -/
theorem auto_run {df : DF} {h : Heap F} (wf : df.WF h) (sep : df.toRaw.Sep) (ft : FloatTyped (abs h df)) {ivals : GoStr → List Int}
    (hv : IntCols (abs h df) ivals) (hcpu : 0 < df.maxCPU) {p : AutoPreprocessor F} {L : List GoStr}
    (ff : FloatsFit (abs h df) p.imputer p.scaler L)
    (him : ∀ im, p.imputer = some im → ∀ c ∈ L, Detached im.transformedColumns c)
    (hsc : ∀ sc, p.imputer = none → p.scaler = some sc → ∀ c ∈ L, Detached sc.transformedColumns c)
    (hst : ∀ st, p.stringToInt = some st → HashFit (abs h df) st) (sch : AutoSched) :
    (p.intToBool = none → ∃ r h', p.transformView sch df h = .ok (some r, h') ∧
      abs h' r = (((abs h df).hashWith p.stringToInt).imputeWith p.imputer).scaleWith df.repeats p.scaler ∧
      r.WF h' ∧ Grows df h h') ∧
    (∀ enc T, p.intToBool = some enc → EncFit ((abs h df).hashWith p.stringToInt) enc T →
      ∃ r h', p.transformView sch df h = .ok (some r, h') ∧
      abs h' r = ((((abs h df).hashWith p.stringToInt).oneHot enc.catCols enc.newCols T enc.options.keep).imputeWith p.imputer).scaleWith
        df.repeats p.scaler ∧ r.WF h' ∧ Grows df h h') := by
  -- the float columns
  have hdet : ∀ cols : List GoStr, (∀ c ∈ L, Detached cols c) → ∃ h2 h3,
      imputeIf p.imputer (df.detachedView cols h).1 (df.detachedView cols h).2 = .ok h2 ∧
      scaleIf p.scaler sch (df.detachedView cols h).1 h2 = .ok h3 ∧ (df.detachedView cols h).1.WF h3 ∧ Grows df h h3 ∧
      abs h3 (df.detachedView cols h).1 = ((abs h df).imputeWith p.imputer).scaleWith df.repeats p.scaler ∧
      (df.detachedView cols h).1.toRaw.Sep ∧
      (∀ i, (df.detachedView cols h).1.shared = some i → df.shared = some i ∨ h.next ≤ i) ∧
      (df.detachedView cols h).1.maxCPU = df.maxCPU := by
    intro cols hc
    obtain ⟨h2, h3, e2, e3, ext, w, sh⟩ := floats_run wf hc ft ff hcpu sch
    obtain ⟨_, r2, r3, r4⟩ := detached_rest wf cols
    exact ⟨h2, h3, e2, e3, w, ext.toFrame, sh, r3, fun i hi => Or.inr (r4 i hi), r2⟩
  have step1 : ∃ h2 h3, imputeIf p.imputer (p.detach sch df h).1 (p.detach sch df h).2 = .ok h2 ∧
      scaleIf p.scaler sch (p.detach sch df h).1 h2 = .ok h3 ∧ (p.detach sch df h).1.WF h3 ∧ Grows df h h3 ∧
      abs h3 (p.detach sch df h).1 = ((abs h df).imputeWith p.imputer).scaleWith df.repeats p.scaler ∧
      (p.detach sch df h).1.toRaw.Sep ∧
      (∀ i, (p.detach sch df h).1.shared = some i → df.shared = some i ∨ h.next ≤ i) ∧ (p.detach sch df h).1.maxCPU = df.maxCPU := by
    have hperm : ∀ l : List GoStr, (∀ c ∈ L, Detached l c) → ∀ c ∈ L, Detached (sch.names l) c := by
      intro l hl c hc
      rcases hl c hc with h0 | h0
      · left; rw [h0]; exact (sch.names_perm []).eq_nil
      · right; exact (sch.names_perm l).mem_iff.2 h0
    cases hi : p.imputer with
    | some im =>
      rw [← hi]
      have e : p.detach sch df h = df.detachedView (sch.names im.transformedColumns) h := by simp only [AutoPreprocessor.detach, hi]
      rw [e]
      exact hdet _ (hperm _ (him im hi))
    | none =>
      rw [← hi]
      cases hs : p.scaler with
      | some sc =>
        rw [← hs]
        have e : p.detach sch df h = df.detachedView (sch.names sc.transformedColumns) h := by simp only [AutoPreprocessor.detach, hi, hs]
        rw [e]
        exact hdet _ (hperm _ (hsc sc hi hs))
      | none =>
        have e : p.detach sch df h = (df, h) := by simp only [AutoPreprocessor.detach, hi, hs]
        rw [e, hi]
        exact ⟨h, h, rfl, rfl, wf, (Heap.Ext.refl h).toFrame, rfl, sep, fun i hi => Or.inl hi, rfl⟩
  obtain ⟨h2, h3, e2, e3, w1, g1, a1, sep1, sh1, cpu1⟩ := step1
  have e0 : p.transformView sch df h = match hashIf p.stringToInt sch (p.detach sch df h).1 h3 with
      | .error e => .error e
      | .ok (df, h) =>
        match p.intToBool with
        | some enc => enc.transformView (sch.oneHotRun enc.catCols) df h
        | none => .ok (some df, h) := by
    unfold AutoPreprocessor.transformView
    simp only [e2, e3]
    rfl
  rw [e0]
  clear e0 e2 e3
  generalize (p.detach sch df h).1 = d1 at *
  have step2 : ∃ d2 h4, hashIf p.stringToInt sch d1 h3 = .ok (d2, h4) ∧ d2.WF h4 ∧ Grows df h h4 ∧
      abs h4 d2 = (((abs h df).hashWith p.stringToInt).imputeWith p.imputer).scaleWith df.repeats p.scaler ∧ d2.maxCPU = df.maxCPU ∧
      ∃ ivals2, IntCols (abs h4 d2) ivals2 := by
    have hv1 : IntCols (abs h3 d1) ivals := by
      intro c hc
      rw [a1, scale_impute_col _ _ _ _ (by decide)] at hc ⊢
      exact hv c hc
    cases hs : p.stringToInt with
    | none => exact ⟨d1, h3, rfl, w1, g1, a1, cpu1, ivals, hv1⟩
    | some st =>
      have hf := hst st hs
      obtain ⟨r, h', e, ha, hw, fr, _, _, _, hc⟩ := hash_run (order := sch.hash st.categoricalColumns) w1 sep1 hf.ne hf.emp
        (by rw [cpu1]; exact hcpu)
        (fun c hc => by rw [a1, scale_impute_col _ _ _ _ (by decide)]; exact hf.has c hc)
        (by obtain ⟨k, c, x1, x2⟩ := hf.other
            exact ⟨k, c, x1, by rw [a1, scaleWith_has, imputeWith_has]; exact x2⟩)
        (sch.hash_perm _)
      refine ⟨r, h', e, hw, g1.trans fr sh1, ?_, by rw [hc, cpu1], _, ha ▸ hashed_ints w1 hv1 _⟩
      rw [ha, a1, hash_scale_impute]; rfl
  obtain ⟨d2, h4, e4, w2, g2, a2, cpu2, ivals2, hv2⟩ := step2
  rw [e4]
  simp only
  refine ⟨?_, ?_⟩
  · intro hb
    rw [hb]
    exact ⟨d2, h4, rfl, a2, w2, g2⟩
  · intro enc T hb ef
    rw [hb]
    simp only
    obtain ⟨r, h5, e5, x1, x2, x3, _, _⟩ := enc_run w2 hv2 (by rw [cpu2]; exact hcpu) (T := T) (enc := enc)
      ⟨ef.codes, ef.total, fun c hc => by rw [a2, scale_impute_col _ _ _ _ (by decide)]; exact ef.has c hc,
        ef.drop.imp id (fun hd c hc => by rw [a2, scale_impute_isStr]; exact hd c hc),
        by rw [a2, scale_impute_nRows]; exact ef.rows⟩ (sch.oneHotRun_perm enc.catCols)
    exact ⟨r, h5, e5, by rw [x1, a2, oneHot_scale_impute], x2, g2.ext x3⟩

end

end Verif
