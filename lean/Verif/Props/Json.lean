import Verif.Proofs.Json
import Verif.Spec.Json
import Verif.Props.Auto
import Verif.Props.Predict
import Verif.Spec.Ideal

/-! C77: saving a trained object as JSON and restoring it. -/

namespace Verif
variable {F α : Type}

/-! ### When `json.Marshal` succeeds -/

theorem encEntries_isSome (f : α → Option Json) (l : List (GoStr × α)) : (encEntries f l).isSome ↔ ∀ e ∈ l, (f e.2).isSome := by
  induction l with
  | nil => simp [encEntries]
  | cons e l ih =>
    obtain ⟨k, v⟩ := e
    unfold encEntries
    cases hv : f v with
    | none => simp [hv]
    | some w =>
      cases hl : encEntries f l with
      | none =>
        rw [hl] at ih
        have := mt ih.2 (by simp)
        simp only [Option.isSome_none, Bool.false_eq_true, List.mem_cons, forall_eq_or_imp, false_iff, not_and]
        intro _; exact this
      | some l' =>
        rw [hl] at ih
        simp only [Option.isSome_some, List.mem_cons, forall_eq_or_imp, true_iff, hv, true_and]
        exact ih.1 rfl

theorem encMap_isSome (f : α → Option Json) (m : AMap GoStr α) : (encMap f m).isSome ↔ ∀ e ∈ m, (f e.2).isSome := by
  unfold encMap
  rw [Option.isSome_map, encEntries_isSome]
  exact ⟨fun h e he => h e ((sortEntries_perm m).mem_iff.2 he), fun h e he => h e ((sortEntries_perm m).mem_iff.1 he)⟩

section
variable [GoFloat F] (j : JsonFloats F)

theorem fmap_isSome (m : AMap GoStr F) : (encMap j.enc m).isSome ↔ AllFinite m := by
  rw [encMap_isSome]
  refine forall₂_congr fun e _ => ?_
  unfold JsonFloats.enc
  cases h : finite e.2 <;> simp

theorem scaler_isSome (sc : Scaler F) : (sc.enc j).isSome ↔ sc.Finite := by
  unfold Scaler.Finite
  rw [← fmap_isSome j, ← fmap_isSome j]
  unfold Scaler.enc
  cases encMap j.enc sc.shift <;> cases encMap j.enc sc.scale <;> simp

theorem imputer_isSome (im : FloatImputer F) : (im.enc j).isSome ↔ AllFinite im.fallback := by
  rw [← fmap_isSome j]
  unfold FloatImputer.enc
  simp

theorem floats_isSome (l : List F) : (encFloats j l).isSome ↔ ∀ x ∈ l, finite x = true := by
  unfold encFloats
  rw [Option.isSome_map]
  induction l with
  | nil => simp
  | cons x l ih =>
    rw [List.mapM_cons]
    cases hx : finite x with
    | false => simp [hx, JsonFloats.enc]
    | true =>
      have : j.enc x = some (.num (j.fmt x)) := by simp [JsonFloats.enc, hx]
      simp only [this, List.mem_cons, forall_eq_or_imp, hx, true_and, ← ih]
      cases List.mapM j.enc l <;> simp

/-! ### The scaler -/

theorem runQueue_keys {σ : Type} {ks ks' order : List GoStr} (h : ∀ c, c ∈ ks' ↔ c ∈ ks) (mw : Int) (job : GoStr → σ → Except Abort σ)
    (s : σ) : runQueue ks' order mw job s = runQueue ks order mw job s := by
  unfold runQueue
  have h1 : ks' = [] ↔ ks = [] := by
    constructor <;> intro e <;> subst e <;> rw [List.eq_nil_iff_forall_not_mem] <;> intro c hc
    · exact absurd ((h c).2 hc) (by simp)
    · exact absurd ((h c).1 hc) (by simp)
  simp only [h1, h]

theorem scaler_same {sc sc' : Scaler F} (n1 : KeysOnce sc.shift) (n2 : KeysOnce sc.scale) (p1 : List.Perm sc'.shift sc.shift)
    (p2 : List.Perm sc'.scale sc.scale) (df : DF) (order : List GoStr) (h : Heap F) :
    sc'.transformInplace df order h = sc.transformInplace df order h := by
  have hv : ∀ c x, scaleVal sc' c x = scaleVal sc c x := by
    intro c x
    unfold scaleVal
    rw [get_perm n1 p1, get_perm n2 p2]
  have hk : ∀ c, c ∈ sc'.transformedColumns ↔ c ∈ sc.transformedColumns := by
    intro c
    unfold Scaler.transformedColumns
    rw [p1.length_eq]
    split
    · exact (p1.map (fun e : GoStr × F => e.1)).mem_iff
    · exact (p2.map (fun e : GoStr × F => e.1)).mem_iff
  unfold Scaler.transformInplace
  simp only [hv, runQueue_keys hk]
  have : (if sc'.scale.length > sc'.shift.length then sc'.scale else sc'.shift).length =
      (if sc.scale.length > sc.shift.length then sc.scale else sc.shift).length := by
    rw [p1.length_eq, p2.length_eq]
    split
    · exact p2.length_eq
    · exact p1.length_eq
  rw [this]

theorem scaler_reverse {sc sc' : Scaler F} (n1 : KeysOnce sc.shift) (n2 : KeysOnce sc.scale) (p1 : List.Perm sc'.shift sc.shift)
    (p2 : List.Perm sc'.scale sc.scale) (df : DF) (order : List GoStr) (h : Heap F) :
    sc'.inverseTransformInplace df order h = sc.inverseTransformInplace df order h := by
  unfold Scaler.inverseTransformInplace
  apply scaler_same
  · unfold KeysOnce at n1 ⊢
    simpa [Scaler.reverse, Function.comp_def] using n1
  · unfold KeysOnce at n2 ⊢
    simpa [Scaler.reverse, Function.comp_def] using n2
  · have : ∀ c x, reverseShift sc'.scale c x = reverseShift sc.scale c x := by
      intro c x; unfold reverseShift; rw [get_perm n2 p2]
    simp only [Scaler.reverse, this]
    exact p1.map _
  · exact p2.map _

/-- C77, `Scaler`: if the names of the columns are texts and the numbers are finite, `json.Marshal` succeeds, and
`json.Unmarshal` of what it wrote restores a scaler with the same shifts and scales that transforms every dataframe, forwards
and backwards, exactly as the original does. -/
theorem C77_scaler_partial {sc : Scaler F} (hn : sc.Named) (hf : sc.Finite) :
    ∃ s sc', marshal (Scaler.enc j) sc = some s ∧ unmarshal (Scaler.dec j) s = some sc' ∧
      SameMap sc.shift sc'.shift ∧ SameMap sc.scale sc'.scale ∧
      ∀ (df : DF) (order : List GoStr) (h : Heap F), sc'.transformInplace df order h = sc.transformInplace df order h ∧
        sc'.inverseTransformInplace df order h = sc.inverseTransformInplace df order h := by
  obtain ⟨v, hv⟩ := Option.isSome_iff_exists.1 ((scaler_isSome j sc).2 hf)
  obtain ⟨sc', e, p1, p2, _⟩ := (codec_scaler j).roundtrip hn (s := v.text) (by simp [marshal, hv])
  exact ⟨v.text, sc', by simp [marshal, hv], e, p1, p2, fun df order h =>
    ⟨scaler_same hn.1.1 hn.2.1 p1 p2 df order h, scaler_reverse hn.1.1 hn.2.1 p1 p2 df order h⟩⟩

/-! ### The imputer -/

omit [GoFloat F] in
theorem Heap.ext_at {h1 h2 h : Heap F} (q1 : Quiet h h1) (q2 : Quiet h h2) (ha : ∀ x, h1.at x = h2.at x) : h1 = h2 := by
  have : h1.arr = h2.arr := by
    funext i
    refine List.ext_getElem? fun n => ?_
    exact ha (i, n)
  cases h1; cases h2
  have e1 := q1.tab.trans q2.tab.symm
  have e2 := q1.hdr.trans q2.hdr.symm
  have e3 := q1.msk.trans q2.msk.symm
  have e4 := q1.next.trans q2.next.symm
  have e5 := q1.rt.trans q2.rt.symm
  simp only at this e1 e2 e3 e4 e5
  subst this e1 e2 e3 e4 e5
  rfl

theorem imputer_same {im im' : FloatImputer F} {df : DF} {h : Heap F} (nd : KeysOnce im.fallback) (p : List.Perm im'.fallback im.fallback)
    (wf : df.WF h) (hu : Unaliased h df im.transformedColumns) : im'.transformInplace df h = im.transformInplace df h := by
  have pk : (AMap.keys im'.fallback).Perm (AMap.keys im.fallback) := p.map _
  have nd' : (AMap.keys im'.fallback).Nodup := pk.nodup_iff.2 nd
  by_cases hc : ∀ c ∈ im.transformedColumns, ((abs h df).col .float c).isSome
  · have hg : ∀ c, AMap.get im'.fallback c = AMap.get im.fallback c := fun c => get_perm nd p c
    unfold FloatImputer.transformInplace
    rw [imputeLoop_eq im.fallback nd, imputeLoop_eq im'.fallback nd']
    simp only [hg]
    obtain ⟨h1, e1, q1, a1⟩ := updCols_spec (fun c x => if GoFloat.isNaN x then AMap.get im.fallback c else none)
      (AMap.keys im.fallback) wf hc
    obtain ⟨h2, e2, q2, a2⟩ := updCols_spec (fun c x => if GoFloat.isNaN x then AMap.get im.fallback c else none)
      (AMap.keys im'.fallback) wf (fun c hcc => hc c (pk.mem_iff.1 hcc))
    rw [e1, e2]
    congr 1
    refine Heap.ext_at q2 q1 fun x => ?_
    rw [a1, a2]
    congr 1
    funext v
    refine pk.foldl_eq' ?_ v
    intro c hcc d hd w
    by_cases hcd : c = d
    · rw [hcd]
    · have : (fcolLocs h df c).count x = 0 ∨ (fcolLocs h df d).count x = 0 := by
        by_contra hno
        rw [not_or] at hno
        obtain ⟨i, hi⟩ := (mem_fcolLocs wf).1 (List.count_pos_iff.1 (Nat.pos_of_ne_zero hno.1))
        obtain ⟨k, hk⟩ := (mem_fcolLocs wf).1 (List.count_pos_iff.1 (Nat.pos_of_ne_zero hno.2))
        exact hu c (pk.mem_iff.1 hcc) d (pk.mem_iff.1 hd) hcd i k x hi hk
      rcases this with h0 | h0 <;> rw [h0] <;> rfl
  · simp only [not_forall] at hc
    obtain ⟨c, hcc, hno⟩ := hc
    rw [C40_transform_panics wf nd ⟨c, hcc, by simpa using hno⟩,
      C40_transform_panics wf nd' ⟨c, pk.mem_iff.2 hcc, by simpa using hno⟩]

/-- C77, `FloatImputer`: as for the scaler; the restored imputer transforms every dataframe as the original does. (Columns
must not share memory cells: if they do, the result depends on the map iteration order.) -/
theorem C77_imputer_partial {im : FloatImputer F} (hn : Named im.fallback) (hf : AllFinite im.fallback) :
    ∃ s im', marshal (FloatImputer.enc j) im = some s ∧ unmarshal (FloatImputer.dec j) s = some im' ∧
      SameMap im.fallback im'.fallback ∧
      ∀ (df : DF) (h : Heap F), df.WF h → Unaliased h df im.transformedColumns →
        im'.transformInplace df h = im.transformInplace df h := by
  obtain ⟨v, hv⟩ := Option.isSome_iff_exists.1 ((imputer_isSome j im).2 hf)
  obtain ⟨im', e, p, _⟩ := (codec_imputer j).roundtrip hn (s := v.text) (by simp [marshal, hv])
  exact ⟨v.text, im', by simp [marshal, hv], e, p, fun df h wf hu => imputer_same hn.1 p wf hu⟩

/-! ### The hash encoder and the one-hot encoder -/

/-- C77, `HashEncoder`: it is restored exactly. -/
theorem C77_hash_partial {e : HashEncoder} (hn : ∀ c ∈ e.categoricalColumns, IsText c) :
    ∃ s, marshal (fun e => some (HashEncoder.enc e)) e = some s ∧ unmarshal HashEncoder.dec s = some e := by
  obtain ⟨e', h, rfl⟩ := codec_hash.roundtrip hn (s := (HashEncoder.enc e).text) rfl
  exact ⟨_, rfl, h⟩

theorem oneHot_enc_isSome (e : OneHotEncoder) : e.enc.isSome := by
  have h1 : (encMap (encIntMap fun s => some (.str s)) e.categories).isSome := by
    rw [encMap_isSome]
    intro x _
    unfold encIntMap
    rw [encMap_isSome]
    simp
  have h2 : (encMap (fun p : GoStr × GoStr => some (.arr [.str p.1, .str p.2])) e.fallback).isSome := by
    rw [encMap_isSome]
    simp
  unfold OneHotEncoder.enc
  obtain ⟨a, ha⟩ := Option.isSome_iff_exists.1 h1
  obtain ⟨b, hb⟩ := Option.isSome_iff_exists.1 h2
  rw [ha, hb]; rfl

theorem oneHot_target {e e' : OneHotEncoder} (hn : e.Named) (s : OneHotEncoder.Same e e') (c : GoStr) (v : Int) :
    e'.target c v = e.target c v := by
  have h2 : AMap.get ((AMap.get e'.categories c).getD []) v = AMap.get ((AMap.get e.categories c).getD []) v := by
    rcases s.categories.get hn.categories.1 c with ⟨h1, h2⟩ | ⟨m, m', h1, h2, p⟩
    · rw [h1, h2]
    · rw [h1, h2]
      exact get_perm (hn.codes (c, m) (AMap.mem_of_get h1)).1 p v
  unfold OneHotEncoder.target
  rw [h2, s.options, get_perm hn.fallback.1 s.fallback]

theorem oneHot_same {e e' : OneHotEncoder} (hn : e.Named) (s : OneHotEncoder.Same e e') (order : List GoStr) (df : DF) (h : Heap F) :
    e'.transformView order df h = e.transformView order df h := by
  have hl : ∀ (r : DF) c src is (st : Heap F × Bool), oneHotLoop e' r c src is st = oneHotLoop e r c src is st := by
    intro r c src is
    induction is with
    | nil => intro st; rfl
    | cons i is ih =>
      intro st
      unfold oneHotLoop
      simp only [oneHot_target hn s, ih]
  have hj : ∀ r c (st : Heap F × Bool), oneHotJob e' r c st = oneHotJob e r c st := by
    intro r c st
    unfold oneHotJob
    simp only [hl, s.options, get_perm hn.fallback.1 s.fallback]
  have hj' : ∀ r, oneHotJob (F := F) e' r = oneHotJob e r := fun r => funext fun c => funext fun st => hj r c st
  unfold OneHotEncoder.transformView
  simp only [s.cols, s.news, s.options, hj']

/-- C77, `OneHotEncoder`: `json.Marshal` succeeds, and what is restored has the same columns and options, and transforms
every dataframe exactly as the original does. -/
theorem C77_oneHot_partial {e : OneHotEncoder} (hn : e.Named) :
    ∃ s e', marshal OneHotEncoder.enc e = some s ∧ unmarshal OneHotEncoder.dec s = some e' ∧
      e'.transformedColumns = e.transformedColumns ∧ e'.newCols = e.newCols ∧ e'.options = e.options ∧
      ∀ (order : List GoStr) (df : DF) (h : Heap F), e'.transformView order df h = e.transformView order df h := by
  obtain ⟨v, hv⟩ := Option.isSome_iff_exists.1 (oneHot_enc_isSome e)
  obtain ⟨e', h, s⟩ := codec_oneHot.roundtrip hn (s := v.text) (by simp [marshal, hv])
  exact ⟨v.text, e', by simp [marshal, hv], h, s.cols, s.news, s.options, fun order df h => oneHot_same hn s order df h⟩

/-! ### The regressor -/

/-- The names in a regressor are texts. -/
def LinearRegressor.Named (r : LinearRegressor F) : Prop :=
  (∀ sc, r.scaler = some sc → sc.Named) ∧ ∀ c ∈ r.features, IsText c

/-- The numbers in a regressor are finite. -/
def LinearRegressor.Finite (r : LinearRegressor F) : Prop :=
  (∀ sc, r.scaler = some sc → sc.Finite) ∧ ∀ x ∈ r.weights, finite x = true

theorem scaler_obj (sc : Scaler F) (v : Json) (h : sc.enc j = some v) : ∃ l, v = .obj l := by
  unfold Scaler.enc at h
  split at h
  · cases h; exact ⟨_, rfl⟩
  · cases h

theorem codec_linreg : JCodec (LinearRegressor.enc j) (LinearRegressor.dec j) LinearRegressor.Named
    (fun r r' => r'.weights = r.weights ∧ r'.features = r.features ∧
      ((r.scaler = none ∧ r'.scaler = none) ∨ ∃ sc sc', r.scaler = some sc ∧ r'.scaler = some sc' ∧
        List.Perm sc'.shift sc.shift ∧ List.Perm sc'.scale sc.scale)) := by
  intro r hn v hv
  unfold LinearRegressor.enc at hv
  split at hv
  · rename_i a b ha hb
    cases hv
    obtain ⟨ok1, o, e1, r1⟩ := codec_ptr (codec_scaler j) (scaler_obj j) r.scaler hn.1 a ha
    obtain ⟨ok2, w, e2, rfl⟩ := codec_floats j r.weights trivial b hb
    obtain ⟨ok3, l, e3, rfl⟩ := codec_strs r.features hn.2 _ rfl
    refine ⟨⟨ok1, ok2, ok3, trivial⟩, ⟨o, r.weights, r.features⟩, ?_, rfl, rfl, ?_⟩
    · generalize hv : (Json.obj [(b!"TargetScaler", a), (b!"Weights", b), (b!"Features", .arr (r.features.map .str))]).clean = v
      have f1 : v.field b!"TargetScaler" = a.clean := by rw [← hv]; rfl
      have f2 : v.field b!"Weights" = b.clean := by rw [← hv]; rfl
      have f3 : v.field b!"Features" = (Json.arr (r.features.map .str)).clean := by rw [← hv]; rfl
      unfold LinearRegressor.dec
      rw [f1, f2, f3, e1, e2, e3]
    · rcases r1 with h1 | ⟨sc, sc', h1, h2, p1, p2, _⟩
      · exact Or.inl h1
      · exact Or.inr ⟨sc, sc', h1, h2, p1, p2⟩
  · cases hv

theorem linreg_isSome (r : LinearRegressor F) : (r.enc j).isSome ↔ r.Finite := by
  have h1 : (encPtr (Scaler.enc j) r.scaler).isSome ↔ ∀ sc, r.scaler = some sc → sc.Finite := by
    cases r.scaler with
    | none => simp [encPtr]
    | some sc => simp [encPtr, scaler_isSome j sc]
  unfold LinearRegressor.Finite
  rw [← h1, ← floats_isSome j]
  unfold LinearRegressor.enc
  cases encPtr (Scaler.enc j) r.scaler <;> cases encFloats j r.weights <;> simp

/-- C77, `LinearRegressor`: the restored regressor has the same weights and features, and predicts for every dataframe
exactly what the original predicts. -/
theorem C77_linreg_partial {r : LinearRegressor F} (hn : r.Named) (hf : r.Finite) :
    ∃ s r', marshal (LinearRegressor.enc j) r = some s ∧ unmarshal (LinearRegressor.dec j) s = some r' ∧
      r'.weights = r.weights ∧ r'.features = r.features ∧
      ∀ (dot : List F → List F → F) (df : DF) (resultColumn : GoStr) (order : List GoStr) (h : Heap F),
        r'.predict dot df resultColumn order h = r.predict dot df resultColumn order h := by
  obtain ⟨v, hv⟩ := Option.isSome_iff_exists.1 ((linreg_isSome j r).2 hf)
  obtain ⟨r', e, h1, h2, h3⟩ := (codec_linreg j).roundtrip hn (s := v.text) (by simp [marshal, hv])
  refine ⟨v.text, r', by simp [marshal, hv], e, h1, h2, fun dot df rc order h => ?_⟩
  unfold LinearRegressor.predict
  rw [h1, h2]
  rcases h3 with ⟨n1, n2⟩ | ⟨sc, sc', n1, n2, p1, p2⟩
  · rw [n1, n2]
  · rw [n1, n2]
    simp only [scaler_reverse (hn.1 sc n1).1.1 (hn.1 sc n1).2.1 p1 p2]

/-! ### The automatic preprocessor -/

/-- The names in a preprocessor are texts. -/
structure AutoPreprocessor.Named (p : AutoPreprocessor F) : Prop where
  hash : ∀ e, p.stringToInt = some e → ∀ c ∈ e.categoricalColumns, IsText c
  oneHot : ∀ e, p.intToBool = some e → e.Named
  imputer : ∀ im, p.imputer = some im → Verif.Named im.fallback
  scaler : ∀ sc, p.scaler = some sc → sc.Named

/-- The numbers in a preprocessor are finite. -/
def AutoPreprocessor.Finite (p : AutoPreprocessor F) : Prop :=
  (∀ im, p.imputer = some im → AllFinite im.fallback) ∧ ∀ sc, p.scaler = some sc → sc.Finite

/-- What a restored preprocessor has in common with the original: the components. -/
structure AutoPreprocessor.Same (p p' : AutoPreprocessor F) : Prop where
  hash : p'.stringToInt = p.stringToInt
  oneHot : (p.intToBool = none ∧ p'.intToBool = none) ∨ ∃ e e', p.intToBool = some e ∧ p'.intToBool = some e' ∧ OneHotEncoder.Same e e'
  imputer : (p.imputer = none ∧ p'.imputer = none) ∨ ∃ im im', p.imputer = some im ∧ p'.imputer = some im' ∧
    List.Perm im'.fallback im.fallback ∧ im'.policy = .mean
  scaler : (p.scaler = none ∧ p'.scaler = none) ∨ ∃ sc sc', p.scaler = some sc ∧ p'.scaler = some sc' ∧
    List.Perm sc'.shift sc.shift ∧ List.Perm sc'.scale sc.scale ∧ sc'.options = ⟨false, false, false⟩
  options : p'.options = ⟨false, false, []⟩

theorem codec_auto : JCodec (AutoPreprocessor.enc j) (AutoPreprocessor.dec j) AutoPreprocessor.Named AutoPreprocessor.Same := by
  intro p hn v hv
  unfold AutoPreprocessor.enc at hv
  split at hv
  · rename_i b c d hb hc hd
    cases hv
    obtain ⟨ok1, o1, e1, r1⟩ := codec_ptr codec_hash (fun a v h => by cases h; exact ⟨_, rfl⟩) p.stringToInt hn.hash
      ((p.stringToInt.map HashEncoder.enc).getD .null) (by cases p.stringToInt <;> rfl)
    obtain ⟨ok2, o2, e2, r2⟩ := codec_ptr codec_oneHot (fun e v h => by
      unfold OneHotEncoder.enc at h
      split at h
      · cases h; exact ⟨_, rfl⟩
      · cases h) p.intToBool hn.oneHot b hb
    obtain ⟨ok3, o3, e3, r3⟩ := codec_ptr (codec_imputer j) (fun im v h => by
      unfold FloatImputer.enc at h
      obtain ⟨a, _, rfl⟩ := Option.map_eq_some_iff.1 h
      exact ⟨_, rfl⟩) p.imputer hn.imputer c hc
    obtain ⟨ok4, o4, e4, r4⟩ := codec_ptr (codec_scaler j) (scaler_obj j) p.scaler hn.scaler d hd
    refine ⟨⟨ok1, ok2, ok3, ok4, trivial⟩, ⟨o1, o2, o3, o4, ⟨false, false, []⟩⟩, ?_, ⟨?_, r2, r3, r4, rfl⟩⟩
    · generalize ha : (p.stringToInt.map HashEncoder.enc).getD .null = a at e1 ⊢
      generalize hv : (Json.obj [(b!"StringToInt", a), (b!"IntToBool", b), (b!"Imputer", c), (b!"Scaler", d)]).clean = v
      have f1 : v.field b!"StringToInt" = a.clean := by rw [← hv]; rfl
      have f2 : v.field b!"IntToBool" = b.clean := by rw [← hv]; rfl
      have f3 : v.field b!"Imputer" = c.clean := by rw [← hv]; rfl
      have f4 : v.field b!"Scaler" = d.clean := by rw [← hv]; rfl
      unfold AutoPreprocessor.dec
      rw [f1, f2, f3, f4, e1, e2, e3, e4]
    · rcases r1 with ⟨h1, h2⟩ | ⟨a, a', h1, h2, rfl⟩
      · rw [h1, h2]
      · rw [h1, h2]
  · cases hv

theorem auto_isSome (p : AutoPreprocessor F) : (p.enc j).isSome ↔ p.Finite := by
  have h1 : (encPtr OneHotEncoder.enc p.intToBool).isSome := by
    cases p.intToBool with
    | none => rfl
    | some e => exact oneHot_enc_isSome e
  have h2 : (encPtr (FloatImputer.enc j) p.imputer).isSome ↔ ∀ im, p.imputer = some im → AllFinite im.fallback := by
    cases p.imputer with
    | none => simp [encPtr]
    | some im => simp [encPtr, imputer_isSome j im]
  have h3 : (encPtr (Scaler.enc j) p.scaler).isSome ↔ ∀ sc, p.scaler = some sc → sc.Finite := by
    cases p.scaler with
    | none => simp [encPtr]
    | some sc => simp [encPtr, scaler_isSome j sc]
  unfold AutoPreprocessor.Finite
  rw [← h2, ← h3]
  unfold AutoPreprocessor.enc
  obtain ⟨b, hb⟩ := Option.isSome_iff_exists.1 h1
  rw [hb]
  cases encPtr (FloatImputer.enc j) p.imputer <;> cases encPtr (Scaler.enc j) p.scaler <;> simp

/-- A restored preprocessor has learnt the same. -/
theorem auto_trained {o : AutoOptions} {a : ADF (Val F)} {tvals : GoStr → List F} {cvals : GoStr → List Int} {T : Code}
    {p p' : AutoPreprocessor F} (tr : AutoTrained o a tvals cvals T p) (hn : p.Named) (s : p.Same p') :
    AutoTrained o a tvals cvals T { p' with options := o } where
  options := rfl
  no_imputer h := by
    rcases s.imputer with ⟨_, h2⟩ | ⟨im, _, h1, _⟩
    · exact h2
    · rw [tr.no_imputer h] at h1; cases h1
  imputer h := by
    obtain ⟨im, h1, h2, h3, h4⟩ := tr.imputer h
    rcases s.imputer with ⟨h5, _⟩ | ⟨im', im2, h5, h6, p1, _⟩
    · rw [h1] at h5; cases h5
    · rw [h1] at h5; cases h5
      have pk : im2.transformedColumns.Perm im.transformedColumns := p1.map _
      exact ⟨im2, h6, pk.nodup_iff.2 h2, fun c => by rw [pk.mem_iff]; exact h3 c,
        fun c hc => by rw [get_perm (hn.imputer im h1).1 p1]; exact h4 c hc⟩
  no_scaler h := by
    rcases s.scaler with ⟨_, h2⟩ | ⟨im, _, h1, _⟩
    · exact h2
    · rw [tr.no_scaler h] at h1; cases h1
  scaler h := by
    obtain ⟨sc, h1, h2, h3, h4⟩ := tr.scaler h
    rcases s.scaler with ⟨h5, _⟩ | ⟨sc', sc2, h5, h6, p1, p2, _⟩
    · rw [h1] at h5; cases h5
    · rw [h1] at h5; cases h5
      have pk : sc2.transformedColumns.Perm sc.transformedColumns := by
        unfold Scaler.transformedColumns
        rw [p1.length_eq]
        split
        · exact p1.map _
        · exact p2.map _
      have nn := hn.scaler sc h1
      exact ⟨sc2, h6, pk.nodup_iff.2 h2, fun c => by rw [pk.mem_iff]; exact h3 c,
        fun c hc => by rw [get_perm nn.1.1 p1, get_perm nn.2.1 p2]; exact h4 c hc⟩
  no_hash h := by simp only [s.hash]; exact tr.no_hash h
  hash h := by simp only [s.hash]; exact tr.hash h
  no_codes h := by
    rcases s.oneHot with ⟨_, h2⟩ | ⟨im, _, h1, _⟩
    · exact h2
    · rw [tr.no_codes h] at h1; cases h1
  codes h := by
    obtain ⟨e, h1, h2, h3, h4, h5, h6, h7⟩ := tr.codes h
    rcases s.oneHot with ⟨x5, _⟩ | ⟨e', e2, x5, x6, ss⟩
    · rw [h1] at x5; cases x5
    · rw [h1] at x5; cases x5
      refine ⟨e2, x6, by rw [ss.options]; exact h2, by rw [ss.cols]; exact h3, by rw [ss.cols]; exact h4, h5, by rw [ss.news]; exact h6, ?_⟩
      intro h df vals order
      rw [ss.cols, ss.news, ss.options, oneHot_same (hn.oneHot e h1) ss]
      exact h7 h df vals order

omit [GoFloat F] in
theorem mapFloats_same {a : ADF (Val F)} {l l' : List GoStr} {g g' : GoStr → Nat → F → F} (hl : ∀ c, c ∈ l' ↔ c ∈ l)
    (hg : ∀ c i, g' c i = g c i) : a.mapFloats l' g' = a.mapFloats l g := by
  unfold ADF.mapFloats
  simp only [hl, hg]

theorem auto_shown {p p' : AutoPreprocessor F} (hn : p.Named) (s : p.Same p') (T : Code) (rep : Nat → Nat) (a : ADF (Val F)) :
    p'.shown T rep a = p.shown T rep a := by
  unfold AutoPreprocessor.shown
  rw [s.hash]
  have h1 : ∀ b : ADF (Val F), b.encodeWith T p'.intToBool = b.encodeWith T p.intToBool := by
    intro b
    rcases s.oneHot with ⟨h1, h2⟩ | ⟨e, e', h1, h2, ss⟩
    · rw [h1, h2]
    · rw [h1, h2]; simp only [ADF.encodeWith, ss.cols, ss.news]
  have h2 : ∀ b : ADF (Val F), b.imputeWith p'.imputer = b.imputeWith p.imputer := by
    intro b
    rcases s.imputer with ⟨h1, h2⟩ | ⟨im, im', h1, h2, p1, _⟩
    · rw [h1, h2]
    · rw [h1, h2]
      refine mapFloats_same (fun c => (p1.map (fun e : GoStr × F => e.1)).mem_iff) fun c i => ?_
      funext x
      simp only [imputed, get_perm (hn.imputer im h1).1 p1]
  have h3 : ∀ b : ADF (Val F), b.scaleWith rep p'.scaler = b.scaleWith rep p.scaler := by
    intro b
    rcases s.scaler with ⟨h1, h2⟩ | ⟨sc, sc', h1, h2, p1, p2, _⟩
    · rw [h1, h2]
    · rw [h1, h2]
      have nn := hn.scaler sc h1
      refine mapFloats_same ?_ fun c i => ?_
      · intro c
        unfold Scaler.transformedColumns
        rw [p1.length_eq]
        split
        · exact (p1.map (fun e : GoStr × F => e.1)).mem_iff
        · exact (p2.map (fun e : GoStr × F => e.1)).mem_iff
      · simp only [get_perm nn.1.1 p1, get_perm nn.2.1 p2]
  rw [h1, h2, h3]

/-- C77, `AutoPreprocessor`: a preprocessor trained on a dataframe that shows `a` is restored as one that transforms every
dataframe with the columns of `a` into what the original makes of it, whatever the schedules of the two. -/
theorem C77_auto_partial {o : AutoOptions} {a : ADF (Val F)} {tvals : GoStr → List F} {cvals : GoStr → List Int} {T : Code}
    {p : AutoPreprocessor F} (tr : AutoTrained o a tvals cvals T p) (ready : AutoReady a) (hn : p.Named) (hf : p.Finite) :
    ∃ s p', marshal (AutoPreprocessor.enc j) p = some s ∧ unmarshal (AutoPreprocessor.dec j) s = some p' ∧
      ∀ (df : DF) (h : Heap F) (fvals : GoStr → List F) (ivals : GoStr → List Int), AutoFits o a (abs h df) → df.WF h →
        df.toRaw.Sep → FloatCols (abs h df) fvals → IntCols (abs h df) ivals → 0 < df.maxCPU → ∀ sch sch' : AutoSched,
          ∃ r h1 r' h2, p.transformView sch df h = .ok (some r, h1) ∧ p'.transformView sch' df h = .ok (some r', h2) ∧
            abs h2 r' = abs h1 r ∧ r'.WF h2 := by
  obtain ⟨v, hv⟩ := Option.isSome_iff_exists.1 ((auto_isSome j p).2 hf)
  obtain ⟨p', e, ss⟩ := (codec_auto j).roundtrip hn (s := v.text) (by simp [marshal, hv])
  refine ⟨v.text, p', by simp [marshal, hv], e, ?_⟩
  intro df h fvals ivals fits wf sep hfl hi hcpu sch sch'
  obtain ⟨r, h1, e1, a1, _⟩ := C44_transformView tr ready fits wf sep hfl hi hcpu sch
  obtain ⟨r', h2, e2, a2, w2, _⟩ := C44_transformView (auto_trained tr hn ss) ready fits wf sep hfl hi hcpu sch'
  refine ⟨r, h1, r', h2, e1, e2, ?_, w2⟩
  rw [a1, a2]
  exact auto_shown hn ss T df.repeats (abs h df)

/-! ### What is lost -/

/-- C77: the options are not saved. A restored scaler that is trained again learns nothing, whatever the dataframe and the
options of the original: its `TransformInplace` then changes nothing. -/
theorem C77_refit_scaler {sc sc' : Scaler F} {s : GoStr} (hn : sc.Named) (hs : marshal (Scaler.enc j) sc = some s)
    (hr : unmarshal (Scaler.dec j) s = some sc') {df : DF} {h : Heap F} {order : List GoStr} {sc2 : Scaler F}
    (e : sc'.fit df order h = .ok sc2) (df2 : DF) (order2 : List GoStr) (h2 : Heap F) :
    sc2.transformedColumns = [] ∧ sc2.transformInplace df2 order2 h2 = .ok h2 := by
  obtain ⟨x, hx, _, _, ho⟩ := (codec_scaler j).roundtrip hn hs
  rw [hr] at hx; cases hx
  have hjob : ∀ c m m', scalerJob sc'.options df h c m = .ok m' → m' = m := by
    intro c m m' hm
    unfold scalerJob at hm
    rw [ho] at hm
    split at hm
    · cases hm
    · cases hm; rfl
  have hfold : ∀ (l : List GoStr) (m m' : AMap GoStr F × AMap GoStr F),
      l.foldlM (fun s k => scalerJob sc'.options df h k s) m = .ok m' → m' = m := by
    intro l
    induction l with
    | nil => intro m m' hm; cases hm; rfl
    | cons c l ih =>
      intro m m' hm
      rw [List.foldlM_cons] at hm
      cases hj : scalerJob sc'.options df h c m with
      | error e => rw [hj] at hm; cases hm
      | ok m1 =>
        rw [hj] at hm
        rw [hjob c m m1 hj] at hm
        exact ih m m' hm
  unfold Scaler.fit at e
  simp only at e
  split at e
  · cases e
  · rename_i m hm
    cases e
    have : m = ([], []) := by
      unfold runQueue at hm
      split at hm
      · cases hm; rfl
      · split at hm
        · cases hm
        · exact hfold _ _ _ hm
    subst this
    exact ⟨rfl, rfl⟩

/-- C77: a restored imputer has the policy `Mean`, whatever the policy of the original. -/
theorem C77_refit_imputer {im im' : FloatImputer F} {s : GoStr} (hn : Named im.fallback) (hs : marshal (FloatImputer.enc j) im = some s)
    (hr : unmarshal (FloatImputer.dec j) s = some im') (df : DF) (order : List GoStr) (h : Heap F) :
    im'.policy = .mean ∧ (im'.fit df order h).map (·.fallback) = ((newFloatImputer .mean).fit df order h).map (·.fallback) := by
  obtain ⟨x, hx, _, ho⟩ := (codec_imputer j).roundtrip hn hs
  rw [hr] at hx; cases hx
  refine ⟨ho, ?_⟩
  unfold FloatImputer.fit
  simp only [ho, newFloatImputer]

/-- C77: a restored preprocessor that is trained again neither imputes nor scales, and excludes no column. -/
theorem C77_refit_auto {p p' : AutoPreprocessor F} {s : GoStr} (hn : p.Named) (hs : marshal (AutoPreprocessor.enc j) p = some s)
    (hr : unmarshal (AutoPreprocessor.dec j) s = some p') : p'.options = ⟨false, false, []⟩ := by
  obtain ⟨x, hx, ss⟩ := (codec_auto j).roundtrip hn hs
  rw [hr] at hx; cases hx
  exact ss.options

/-- C77: `json.Marshal` returns an error exactly when a learnt number is not finite. -/
theorem C77_marshal :
    (∀ sc : Scaler F, (marshal (Scaler.enc j) sc).isSome ↔ sc.Finite) ∧
    (∀ im : FloatImputer F, (marshal (FloatImputer.enc j) im).isSome ↔ AllFinite im.fallback) ∧
    (∀ p : AutoPreprocessor F, (marshal (AutoPreprocessor.enc j) p).isSome ↔ p.Finite) ∧
    (∀ r : LinearRegressor F, (marshal (LinearRegressor.enc j) r).isSome ↔ r.Finite) := by
  refine ⟨fun sc => ?_, fun im => ?_, fun p => ?_, fun r => ?_⟩
  · rw [marshal, Option.isSome_map, scaler_isSome]
  · rw [marshal, Option.isSome_map, imputer_isSome]
  · rw [marshal, Option.isSome_map, auto_isSome]
  · rw [marshal, Option.isSome_map, linreg_isSome]

/-! ### Trained objects -/

/-- C77: a trained scaler has the names of the float columns, so it can be saved whatever was learnt, unless a number is not
finite. -/
theorem C77_trained_scaler {sc : Scaler F} {df : DF} {h : Heap F} {vals : GoStr → List F} (hv : FloatCols (abs h df) vals)
    (hw : (∀ c, (abs h df).col .float c = none) ∨ 0 < df.maxCPU) (hemp : (abs h df).col .float [] = none) {order : List GoStr}
    (hp : order.Perm (namesOf (h.tab df.tab) .float)) (ht : ∀ c, ((abs h df).col .float c).isSome → IsText c) :
    ∃ sc', sc.fit df order h = .ok sc' ∧ sc'.Named := by
  obtain ⟨sc', e, _, n1, n2, g1, g2⟩ := scaler_fit (sc := sc) hv hw hemp hp
  refine ⟨sc', e, ⟨n1, ?_⟩, ⟨n2, ?_⟩⟩ <;> intro x hx <;> apply ht
  · have := g1 x.1
    rw [AMap.get_of_mem n1 hx] at this
    by_contra hno
    rw [if_neg hno] at this; cases this
  · have := g2 x.1
    rw [AMap.get_of_mem n2 hx] at this
    by_contra hno
    rw [if_neg hno] at this; cases this

/-- C77: so has a trained imputer. -/
theorem C77_trained_imputer {im : FloatImputer F} {df : DF} {h : Heap F} {vals : GoStr → List F} (wf : df.WF h)
    (hv : FloatCols (abs h df) vals) (hcpu : 0 < df.maxCPU) (hemp : (abs h df).col .float [] = none) {order : List GoStr}
    (hp : order.Perm (namesOf (h.tab df.tab) .float)) (ht : ∀ c, ((abs h df).col .float c).isSome → IsText c) :
    ∃ im', im.fit df order h = .ok im' ∧ Named im'.fallback := by
  obtain ⟨im', e, _, nd, hc, _⟩ := C40_fit (im := im) wf hv hcpu hemp hp
  exact ⟨im', e, nd, fun x hx => ht _ ((hc x.1).1 (List.mem_map_of_mem hx))⟩

/-- C77: an imputer trained on a dataframe with a column of missing values only cannot be saved (the mean of nothing, 0/0,
is not a number). -/
theorem C77_all_missing {im : FloatImputer F} {df : DF} {h : Heap F} {vals : GoStr → List F} (wf : df.WF h)
    (hv : FloatCols (abs h df) vals) (hcpu : 0 < df.maxCPU) (hemp : (abs h df).col .float [] = none) {order : List GoStr}
    (hp : order.Perm (namesOf (h.tab df.tab) .float)) (hpol : im.policy = .mean)
    (hz : finite (GoFloat.div (GoFloat.zero : F) (GoFloat.ofInt 0)) = false)
    {c : GoStr} (hc : ((abs h df).col .float c).isSome) (hm : ∀ x ∈ vals c, GoFloat.isNaN x = true) :
    ∃ im', im.fit df order h = .ok im' ∧ marshal (FloatImputer.enc j) im' = none := by
  obtain ⟨im', e, _, _, _, g⟩ := C40_fit (im := im) wf hv hcpu hemp hp
  refine ⟨im', e, ?_⟩
  by_contra hno
  have hs : (marshal (FloatImputer.enc j) im').isSome := Option.isSome_iff_ne_none.2 hno
  rw [(C77_marshal j).2.1] at hs
  have hg := g c
  rw [if_pos hc, hpol] at hg
  have := hs _ (AMap.mem_of_get hg)
  have hm0 : imputerFallback ImputingPolicy.mean (vals c) = GoFloat.div (GoFloat.zero : F) (GoFloat.ofInt 0) := by
    have : present (vals c) = [] := by
      unfold present
      rw [List.filter_eq_nil_iff]
      intro x hx
      simp [hm x hx]
    simp [imputerFallback, fmean, this, fsum]
  rw [hm0, hz] at this
  cases this

end

/-! ### Demonstrations -/

namespace Demo

theorem validNumber_natDec (n : Nat) : validUnsigned (natDec n) = true := by
  unfold natDec
  split
  · rfl
  · rename_i hn
    have hl := Nat.getLast_digit_ne_zero 10 hn
    have hd : ∀ d ∈ Nat.digits 10 n, d < 10 := fun d hd => Nat.digits_lt_base (by decide) hd
    have hne : Nat.digits 10 n ≠ [] := Nat.digits_ne_nil_iff_ne_zero.2 hn
    obtain ⟨l, d, e⟩ : ∃ l d, Nat.digits 10 n = l ++ [d] := ⟨_, _, (List.dropLast_append_getLast hne).symm⟩
    have hd0 : d ≠ 0 := by
      intro h0
      apply hl
      simp only [e, List.getLast_append_singleton]
      exact h0
    have hdd := hd d (by rw [e]; simp)
    rw [e, List.reverse_append, List.map_append]
    simp only [List.reverse_cons, List.reverse_nil, List.nil_append, List.map_cons, List.map_nil, List.cons_append]
    have key : ∀ r : GoStr, (∀ b ∈ r, isDigit b = true) → ∀ d, d ≠ 0 → d < 10 → validUnsigned (UInt8.ofNat (48 + d) :: r) = true := by
      intro r hr d h0 h1
      have hdrop : r.dropWhile isDigit = [] := by
        clear e
        induction r with
        | nil => rfl
        | cons b r ih => simp only [List.dropWhile_cons, hr b (by simp), if_true, ih (fun b hb => hr b (by simp [hb]))]
      have hb : UInt8.ofNat (48 + d) ≠ 48 := by
        intro he
        have : UInt8.ofNat (48 + d) = UInt8.ofNat 48 := he
        rw [ofNat_eq (by omega) (by omega)] at this
        omega
      have hw : between 49 57 (UInt8.ofNat (48 + d)) = true := between_ofNat (by change 49 ≤ _; omega) (by change _ ≤ 57; omega)
      generalize UInt8.ofNat (48 + d) = b at hb hw
      unfold validUnsigned
      split
      · rename_i h; cases h
      · rename_i h; injection h with h1 h2; exact absurd h1 hb
      · rename_i h; injection h with h1 h2; subst h1 h2; rw [hw, hdrop]; rfl
    refine key _ ?_ d hd0 hdd
    intro b hb
    obtain ⟨x, hx, rfl⟩ := List.mem_map.1 hb
    have := hd x (by rw [e]; simp [List.mem_reverse.1 hx])
    exact between_ofNat (by change 48 ≤ _; omega) (by change _ ≤ 57; omega)

theorem numChar_natDec (n : Nat) : ∀ b ∈ natDec n, numChar b = true := by
  intro b hb
  have := natDec_digits n b hb
  unfold numChar isDigit between
  have h1 : (48 : UInt8) ≤ b := UInt8.le_iff_toNat_le.2 this.1
  have h2 : b ≤ 57 := UInt8.le_iff_toNat_le.2 (by change _ ≤ 57; omega)
  simp [h1, h2]

/-- Integers as floats in JSON, whatever their operations are. -/
def intJson (i : GoFloat Int) : @JsonFloats Int i where
  fmt := fmtInt
  parse
    | 45 :: r => some (-(digitsVal r : Int))
    | r => some (digitsVal r : Int)
  valid x _ := by
    unfold fmtInt
    split
    · exact validNumber_natDec _
    · unfold validNumber
      split
      · rename_i s hs
        have := (natDec_digits x.natAbs 45 (by rw [hs]; simp)).1
        exact absurd this (by decide)
      · exact validNumber_natDec _
  back x _ := by
    by_cases hx : x < 0
    · have : fmtInt x = 45 :: natDec x.natAbs := by simp [fmtInt, hx]
      rw [this]
      simp only [digitsVal_natDec]
      congr 1; omega
    · have : fmtInt x = natDec x.natAbs := by simp [fmtInt, hx]
      rw [this]
      have hd := digitsVal_natDec x.natAbs
      have hn := natDec_digits x.natAbs
      generalize natDec x.natAbs = t at hd hn
      split
      · exact absurd (hn 45 (by simp)).1 (by decide)
      · rw [hd]; congr 1; omega

/-- The numbers of the demos in JSON. -/
def jf : JsonFloats Int := intJson inferInstance

/-- ASCII names, each once. -/
def namedB {α : Type} (m : AMap GoStr α) : Bool := decide ((m.map (·.1)).Nodup) && m.all fun e => e.1.all fun b => decide (b < 0x80)

theorem named_of {α : Type} {m : AMap GoStr α} (h : namedB m = true) : Named m := by
  simp only [namedB, Bool.and_eq_true, decide_eq_true_eq, List.all_eq_true] at h
  exact ⟨h.1, fun e he => isText_ascii (h.2 e he)⟩

/-- Checks the hypotheses for a preprocessor. -/
def goodB (p : AutoPreprocessor Int) : Bool :=
  (match p.stringToInt with | some e => e.categoricalColumns.all fun c => c.all fun b => decide (b < 0x80) | none => false) &&
  (match p.intToBool with
    | some e => (e.catCols.all fun c => c.all fun b => decide (b < 0x80)) && (e.newCols.all fun c => c.all fun b => decide (b < 0x80)) &&
      namedB e.categories && (e.categories.all fun x => decide ((x.2.map (·.1)).Nodup) && x.2.all fun y =>
        decide (-2 ^ 63 ≤ y.1 ∧ y.1 < 2 ^ 63) && y.2.all fun b => decide (b < 0x80)) && namedB e.fallback &&
      (e.fallback.all fun x => (x.2.1.all fun b => decide (b < 0x80)) && x.2.2.all fun b => decide (b < 0x80))
    | none => false) &&
  (match p.imputer with | some im => namedB im.fallback && (im.fallback.all fun e => finite e.2) && decide (im.fallback ≠ []) | none => false) &&
  (match p.scaler with
    | some sc => namedB sc.shift && namedB sc.scale && (sc.shift.all fun e => finite e.2) && (sc.scale.all fun e => finite e.2)
    | none => false)

theorem good_of {p : AutoPreprocessor Int} (h : goodB p = true) : p.Named ∧ p.Finite := by
  unfold goodB at h
  simp only [Bool.and_eq_true] at h
  obtain ⟨⟨⟨h1, h2⟩, h3⟩, h4⟩ := h
  refine ⟨⟨?_, ?_, ?_, ?_⟩, ?_, ?_⟩
  · intro e he
    rw [he] at h1
    simp only [List.all_eq_true, decide_eq_true_eq] at h1
    exact fun c hc => isText_ascii (h1 c hc)
  · intro e he
    rw [he] at h2
    simp only [Bool.and_eq_true] at h2
    obtain ⟨⟨⟨⟨⟨a1, a2⟩, a3⟩, a4⟩, a5⟩, a6⟩ := h2
    simp only [List.all_eq_true, decide_eq_true_eq, Bool.and_eq_true] at a1 a2 a4 a6
    exact ⟨fun c hc => isText_ascii (a1 c hc), fun c hc => isText_ascii (a2 c hc), named_of a3,
      fun x hx => ⟨(a4 x hx).1, fun y hy => ⟨((a4 x hx).2 y hy).1, isText_ascii ((a4 x hx).2 y hy).2⟩⟩, named_of a5,
      fun x hx => ⟨isText_ascii (a6 x hx).1, isText_ascii (a6 x hx).2⟩⟩
  · intro im he
    rw [he] at h3
    simp only [Bool.and_eq_true] at h3
    exact named_of h3.1.1
  · intro sc he
    rw [he] at h4
    simp only [Bool.and_eq_true] at h4
    exact ⟨named_of h4.1.1.1, named_of h4.1.1.2⟩
  · intro im he
    rw [he] at h3
    simp only [Bool.and_eq_true, List.all_eq_true] at h3
    exact h3.1.2
  · intro sc he
    rw [he] at h4
    simp only [Bool.and_eq_true, List.all_eq_true] at h4
    exact ⟨h4.1.2, h4.2⟩

/-- A preprocessor with all four components, trained on the demo dataframe, is saved, restored and used. -/
example : ∃ (p p' : AutoPreprocessor Int) (h1 : Heap Int) (s : GoStr),
    (newAutoPreprocessor ⟨true, true, []⟩).fit autoSched df h = .ok ((p, true), h1) ∧ p.intToBool.isSome ∧
    marshal (AutoPreprocessor.enc jf) p = some s ∧ unmarshal (AutoPreprocessor.dec jf) s = some p' ∧
    ∃ r h2 r' h3, p.transformView autoSched df h1 = .ok (some r, h2) ∧ p'.transformView autoSched df h1 = .ok (some r', h3) ∧
      abs h3 r' = abs h2 r := by
  obtain ⟨p, T, h1, e, tr, k⟩ := C44_fit (o := ⟨true, true, []⟩) df_wf df_sep df_fcols df_icols (by decide +kernel) df_ready autoSched
  obtain ⟨ad, _, wd⟩ := k df df_wf df_sep
  have hg : goodB p = true := by
    have : okAnd ((newAutoPreprocessor (F := Int) ⟨true, true, []⟩).fit autoSched df h) (fun x => goodB x.1.1) = true := by decide +kernel
    rw [e] at this
    exact this
  obtain ⟨hn, hf⟩ := good_of hg
  obtain ⟨enc, he, _⟩ := tr.codes ⟨b!"s", (df_categorical _).2 rfl⟩
  obtain ⟨s, p', m1, m2, m3⟩ := C77_auto_partial jf tr df_ready hn hf
  obtain ⟨r, h2, r', h3, t1, t2, t3, _⟩ := m3 df h1 _ _ (by rw [ad]; exact df_ready.fits) wd df_sep (by rw [ad]; exact df_fcols)
    (by rw [ad]; exact df_icols) (by decide +kernel) autoSched autoSched
  exact ⟨p, p', h1, s, e, by rw [he]; rfl, m1, m2, r, h2, r', h3, t1, t2, t3⟩

/-- A scaler with an accented name. -/
def sc0 : Scaler Int := ⟨[([0xC3, 0xA9], -3), (b!"a\"b", 12)], [([0xC3, 0xA9], 2)], ⟨false, true, true⟩⟩

theorem sc0_named : sc0.Named := by
  have h1 : IsText [0xC3, 0xA9] := ⟨[0xE9], by simp [validRune], by decide⟩
  have h2 : IsText b!"a\"b" := isText_ascii (by decide)
  refine ⟨⟨by unfold KeysOnce; decide, ?_⟩, ⟨by unfold KeysOnce; decide, ?_⟩⟩
  · intro e he
    simp only [sc0, List.mem_cons, List.not_mem_nil, or_false] at he
    rcases he with rfl | rfl
    · exact h1
    · exact h2
  · intro e he
    simp only [sc0, List.mem_cons, List.not_mem_nil, or_false] at he
    rcases he with rfl
    exact h1

/-- It is saved and restored; the text is what Go writes. Training the restored scaler again is useless. -/
example : marshal (Scaler.enc jf) sc0 =
      some (b!"{\"Shift\":{\"a\\\"b\":12,\"" ++ [0xC3, 0xA9] ++ b!"\":-3},\"Scale\":{\"" ++ [0xC3, 0xA9] ++ b!"\":2}}") ∧
    ∃ s sc', marshal (Scaler.enc jf) sc0 = some s ∧ unmarshal (Scaler.dec jf) s = some sc' ∧ SameMap sc0.shift sc'.shift := by
  refine ⟨by decide +kernel, ?_⟩
  obtain ⟨s, sc', h1, h2, h3, _⟩ := C77_scaler_partial jf sc0_named
    (by constructor <;> intro e he <;> revert e <;> decide +kernel)
  exact ⟨s, sc', h1, h2, h3⟩

/-- A column name that is not UTF-8 is altered: the restored scaler does not know the column. -/
example : ((marshal (Scaler.enc jf) ⟨[([0xFF], 1)], [], ⟨false, true, false⟩⟩).bind (unmarshal (Scaler.dec jf))).map (·.shift) =
    some [(runeError, 1)] := by decide +kernel

/-- An infinite shift (`MinMax` of a column with missing values only) cannot be saved. -/
example : marshal (Scaler.enc jf) ⟨[(b!"x", GoFloat.negInf)], [], ⟨true, false, false⟩⟩ = none := by decide +kernel

/-- A regressor with two features is saved and restored. -/
example : ∃ s r', marshal (LinearRegressor.enc jf) ⟨some ⟨[(b!"_target", -7)], [(b!"_target", 3)], ⟨false, true, true⟩⟩, [4, -5], [b!"x", b!"y"]⟩ = some s ∧
    unmarshal (LinearRegressor.dec jf) s = some r' ∧ r'.weights = [4, -5] ∧ r'.features = [b!"x", b!"y"] := by
  obtain ⟨s, r', h1, h2, h3, h4, _⟩ := C77_linreg_partial jf
    (r := ⟨some ⟨[(b!"_target", -7)], [(b!"_target", 3)], ⟨false, true, true⟩⟩, [4, -5], [b!"x", b!"y"]⟩)
    ⟨by intro sc h; cases h; exact ⟨named_of (by decide +kernel), named_of (by decide +kernel)⟩,
      fun c hc => isText_ascii (by revert c; decide)⟩
    ⟨by intro sc h; cases h; constructor <;> intro e he <;> revert e <;> decide +kernel, by decide +kernel⟩
  exact ⟨s, r', h1, h2, h3, h4⟩

/-- The trained scaler of the demo dataframe is saved, restored, and then trained again, in vain. -/
example : ∃ (sc sc' sc2 : Scaler Int) (s : GoStr), (newScaler ⟨false, true, true⟩).fit df (namesOf (h.tab df.tab) .float) h = .ok sc ∧
    sc.transformedColumns = [b!"x"] ∧ marshal (Scaler.enc jf) sc = some s ∧ unmarshal (Scaler.dec jf) s = some sc' ∧
    sc'.fit df (namesOf (h.tab df.tab) .float) h = .ok sc2 ∧ sc2.transformedColumns = [] := by
  have : okAnd ((newScaler (F := Int) ⟨false, true, true⟩).fit df (namesOf (h.tab df.tab) .float) h) (fun sc =>
      decide (sc.transformedColumns = [b!"x"]) && namedB sc.shift && namedB sc.scale && (sc.shift.all fun e => finite e.2) &&
      (sc.scale.all fun e => finite e.2)) = true := by decide +kernel
  obtain ⟨sc, e, hc⟩ := okAnd_iff.1 this
  simp only [Bool.and_eq_true, decide_eq_true_eq, List.all_eq_true] at hc
  obtain ⟨⟨⟨⟨c1, c2⟩, c3⟩, c4⟩, c5⟩ := hc
  obtain ⟨s, sc', m1, m2, _⟩ := C77_scaler_partial jf (sc := sc) ⟨named_of c2, named_of c3⟩ ⟨c4, c5⟩
  obtain ⟨sc2, e2, _⟩ := C41_fit_columns (sc := sc') df_fcols (Or.inr (by decide +kernel)) df_ready.named.1 (List.Perm.refl _)
  exact ⟨sc, sc', sc2, s, e, c1, m1, m2, e2, (C77_refit_scaler jf ⟨named_of c2, named_of c3⟩ m1 m2 e2 df [] h).1⟩

/-- 0/0 is not a number: the hypothesis of `C77_all_missing` holds of the ideal numbers. -/
example : finite (GoFloat.div (GoFloat.zero : Ideal) (GoFloat.ofInt 0)) = false := by
  simp [finite, GoFloat.div, GoFloat.zero, GoFloat.ofInt, GoFloat.isNaN, Ideal.div, Ideal.infOfSign, Ideal.isNaN]

end Demo

end Verif
