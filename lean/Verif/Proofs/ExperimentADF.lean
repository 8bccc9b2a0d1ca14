import Verif.Spec.Experiment
import Verif.Proofs.OneHot
import Verif.Proofs.LinReg
import Verif.Props.Auto
import Verif.Props.AutoMore

/-! Lemmas for C79 about what dataframes show. -/

namespace Verif
variable {F : Type}

/-! ### Rows of a dataframe -/

theorem select_isSome {C : Type} (a : ADF C) (is : List Nat) (k : Kind) (c : GoStr) : ((a.select is).col k c).isSome = (a.col k c).isSome := by
  simp [ADF.select]

theorem select_isNone {C : Type} (a : ADF C) (is : List Nat) (k : Kind) (c : GoStr) : (a.select is).col k c = none ↔ a.col k c = none := by
  simp [ADF.select]

theorem categorical_select (a : ADF (Val F)) (is : List Nat) (c : GoStr) : Categorical (a.select is) c ↔ Categorical a c := by
  unfold Categorical
  rw [select_isSome]
  rfl

theorem chosen_select (o : AutoOptions) (a : ADF (Val F)) (is : List Nat) (c : GoStr) : Chosen o (a.select is) c ↔ Chosen o a c := by
  unfold Chosen
  simp only [select_isSome]

theorem AutoReady.select {a : ADF (Val F)} (r : AutoReady a) {is : List Nat} (hi : 0 < is.length) : AutoReady (a.select is) where
  strings c hc := by rw [select_isSome]; exact r.strings c hc
  other h := by
    obtain ⟨k, c, h1, h2⟩ := r.other h
    exact ⟨k, c, h1, by rw [select_isSome]; exact h2⟩
  named := ⟨(select_isNone ..).2 r.named.1, fun h => r.named.2 ((categorical_select ..).1 h)⟩
  rows _ := hi
  names c d hc hd := r.names c d ((categorical_select ..).1 hc) ((categorical_select ..).1 hd)
  kinds c hc := (select_isNone ..).2 (r.kinds c ((categorical_select ..).1 hc))

theorem AutoReady.fits_select {o : AutoOptions} {a : ADF (Val F)} (r : AutoReady a) (is js : List Nat) :
    AutoFits o (a.select is) (a.select js) where
  floats c hc := by rw [select_isSome]; exact ((chosen_select ..).1 hc).1
  strings c hc := by rw [select_isSome]; exact r.strings c hc
  other h := by
    obtain ⟨k, c, h1, h2⟩ := r.other h
    exact ⟨k, c, h1, by rw [select_isSome]; exact h2⟩
  ints h c hc := ⟨by rw [select_isSome] at hc ⊢; exact hc, h c⟩

theorem takeRows_map {α β : Type} (f : α → β) (l : List α) (is : List Nat) : takeRows (l.map f) is = (takeRows l is).map f := by
  unfold takeRows
  rw [List.map_filterMap]
  congr 1
  funext i
  simp

theorem takeRows_length {α : Type} {l : List α} {is : List Nat} (h : ∀ i ∈ is, i < l.length) : (takeRows l is).length = is.length := by
  unfold takeRows
  induction is with
  | nil => rfl
  | cons i is ih =>
    rw [List.filterMap_cons, List.getElem?_eq_getElem (h i (by simp))]
    simp [ih fun j hj => h j (by simp [hj])]

theorem map_join_some {α : Type} {l : List α} {is : List Nat} (h : ∀ i ∈ is, i < l.length) :
    (is.map fun i => ((l.map some)[i]?).join) = (takeRows l is).map some := by
  unfold takeRows
  induction is with
  | nil => rfl
  | cons i is ih =>
    rw [List.filterMap_cons, List.getElem?_eq_getElem (h i (by simp))]
    simp only [List.map_cons]
    rw [← ih fun j hj => h j (by simp [hj])]
    simp [List.getElem?_eq_getElem (h i (by simp))]

/-- A column with a value in every row, seen through some rows. -/
theorem select_col_some {C : Type} {a : ADF C} {k : Kind} {c : GoStr} {l : List C} {is : List Nat}
    (h : a.col k c = some (l.map some)) (hi : ∀ i ∈ is, i < l.length) :
    (a.select is).col k c = some ((takeRows l is).map some) := by
  simp only [ADF.select, h, Option.map_some]
  rw [map_join_some hi]

theorem mapM_eq_map_iff {α β : Type} {g : α → Option β} {e : β → α} (hg : ∀ v x, g v = some x ↔ v = e x) (l : List α) :
    ∀ xs : List β, l.mapM g = some xs ↔ l = xs.map e := by
  induction l with
  | nil => intro xs; cases xs <;> simp
  | cons v l ih =>
    intro xs
    rw [List.mapM_cons]
    cases hv : g v with
    | none =>
      cases xs with
      | nil => simp
      | cons x xs =>
        simp only [List.map_cons, List.cons.injEq]
        constructor
        · intro h; simp at h
        · rintro ⟨h, _⟩
          rw [(hg v x).2 h] at hv; cases hv
    | some y =>
      cases hm : l.mapM g with
      | none =>
        cases xs with
        | nil => simp
        | cons x xs =>
          have := ih xs
          rw [hm] at this
          simp only [List.map_cons, List.cons.injEq, ← this]
          simp
      | some ys =>
        cases xs with
        | nil => simp
        | cons x xs =>
          have := ih xs
          rw [hm] at this
          simp only [List.map_cons, List.cons.injEq, ← this, ← hg v x, hv]
          simp

theorem floats_some {a : ADF (Val F)} {c : GoStr} {xs : List F} :
    a.floats c = some xs ↔ a.col .float c = some ((xs.map Val.float).map some) := by
  unfold ADF.floats
  cases a.col .float c with
  | none => simp
  | some l =>
    simp only [List.map_map, Option.some.injEq]
    refine mapM_eq_map_iff (e := fun x => some (Val.float x)) ?_ l xs
    intro v x
    split
    · simp
    · rename_i h
      constructor
      · intro h; cases h
      · intro h1; exact absurd h1 (h x)

theorem FloatCols.select {a : ADF (Val F)} {vals : GoStr → List F} (h : FloatCols a vals) {is : List Nat}
    (hl : ∀ c, (a.col .float c).isSome → ∀ i ∈ is, i < (vals c).length) :
    FloatCols (a.select is) (fun c => takeRows (vals c) is) := by
  intro c hc
  rw [select_isSome] at hc
  rw [floats_some, ← takeRows_map]
  exact select_col_some (floats_some.1 (h c hc)) (by simpa using hl c hc)

theorem IntCols.select {a : ADF (Val F)} {vals : GoStr → List Int} (h : IntCols a vals) {is : List Nat}
    (hl : ∀ c, (a.col .int c).isSome → ∀ i ∈ is, i < (vals c).length) :
    IntCols (a.select is) (fun c => takeRows (vals c) is) := by
  intro c hc
  rw [select_isSome] at hc
  have := select_col_some (l := (vals c).map Val.int) (is := is) (by rw [h c hc, List.map_map]; rfl) (by simpa using hl c hc)
  rw [this, takeRows_map, List.map_map]
  rfl

/-! ### The columns of a preprocessed dataframe -/

/-- `a` and `b` have the same columns. -/
def SameCols {C D : Type} (a : ADF C) (b : ADF D) : Prop := ∀ k c, (a.col k c).isSome = (b.col k c).isSome

theorem SameCols.numKind {C D : Type} {a : ADF C} {b : ADF D} (h : SameCols a b) (c : GoStr) : a.numKind c = b.numKind c := by
  unfold ADF.numKind
  rw [h, h, h]

theorem mapFloats_isSome (a : ADF (Val F)) (cols : List GoStr) (g : GoStr → Nat → F → F) : SameCols (a.mapFloats cols g) a := by
  intro k c
  simp only [ADF.mapFloats]
  split <;> simp

theorem SameCols.hashed {a b : ADF (Val F)} (h : SameCols a b) (cols : List GoStr) : SameCols (a.hashed cols) (b.hashed cols) := by
  intro k c
  simp only [ADF.hashed]
  split
  · split
    · simpa using h .obj c
    · rfl
  · exact h k c

theorem SameCols.oneHot {a b : ADF (Val F)} (h : SameCols a b) (cats news : List GoStr) (T : Code) (keep : Bool) :
    SameCols (a.oneHot cats news T keep) (b.oneHot cats news T keep) := by
  intro k c
  simp only [ADF.oneHot]
  split
  · rfl
  · split
    · simp
    · exact h k c

theorem SameCols.trans {a b c : ADF (Val F)} (h1 : SameCols a b) (h2 : SameCols b c) : SameCols a c := fun k n => (h1 k n).trans (h2 k n)
theorem SameCols.symm {a b : ADF (Val F)} (h : SameCols a b) : SameCols b a := fun k n => (h k n).symm

section
variable [GoFloat F]

theorem shown_base (p : AutoPreprocessor F) (T : Code) (rep : Nat → Nat) (a : ADF (Val F)) :
    SameCols (p.shown T rep a) ((a.hashWith p.stringToInt).encodeWith T p.intToBool) := by
  unfold AutoPreprocessor.shown
  have h1 : ∀ b : ADF (Val F), SameCols (b.imputeWith p.imputer) b := by
    intro b
    cases p.imputer with
    | none => exact fun _ _ => rfl
    | some im => exact mapFloats_isSome _ _ _
  have h2 : ∀ b : ADF (Val F), SameCols (b.scaleWith rep p.scaler) b := by
    intro b
    cases p.scaler with
    | none => exact fun _ _ => rfl
    | some im => exact mapFloats_isSome _ _ _
  exact (h2 _).trans (h1 _)

/-- The columns after preprocessing depend on the columns before only. -/
theorem shown_sameCols (p : AutoPreprocessor F) (T : Code) (rep rep' : Nat → Nat) {a b : ADF (Val F)} (h : SameCols a b) :
    SameCols (p.shown T rep a) (p.shown T rep' b) := by
  refine (shown_base p T rep a).trans (SameCols.trans ?_ (shown_base p T rep' b).symm)
  have h1 : SameCols (a.hashWith p.stringToInt) (b.hashWith p.stringToInt) := by
    cases p.stringToInt with
    | none => exact h
    | some st => exact h.hashed _
  cases p.intToBool with
  | none => exact h1
  | some enc => exact h1.oneHot _ _ _ _

/-! ### Types -/

omit [GoFloat F] in
theorem FloatTyped.select {a : ADF (Val F)} (h : FloatTyped a) {is : List Nat}
    (hl : ∀ c l, a.col .float c = some l → ∀ i ∈ is, i < l.length) : FloatTyped (a.select is) := by
  intro c l e v hv
  simp only [ADF.select, Option.map_eq_some_iff] at e
  obtain ⟨l0, e0, rfl⟩ := e
  obtain ⟨i, hi, rfl⟩ := List.mem_map.1 hv
  have hlt := hl c l0 e0 i hi
  rw [List.getElem?_eq_getElem hlt]
  exact h c l0 e0 _ (List.getElem_mem hlt)

theorem FloatTyped.shown {a : ADF (Val F)} (h : FloatTyped a) (p : AutoPreprocessor F) (T : Code) (rep : Nat → Nat) :
    FloatTyped (p.shown T rep a) := by
  unfold AutoPreprocessor.shown
  have h1 : FloatTyped (a.hashWith p.stringToInt) := by
    cases p.stringToInt with
    | none => exact h
    | some st =>
      intro c l e
      simp only [ADF.hashWith, ADF.hashed] at e
      split at e
      · simp at e
      · exact h c l e
  have h2 : FloatTyped ((a.hashWith p.stringToInt).encodeWith T p.intToBool) := by
    cases p.intToBool with
    | none => exact h1
    | some enc =>
      intro c l e
      simp only [ADF.encodeWith, ADF.oneHot] at e
      split at e
      · cases e
      · rw [if_neg (by simp)] at e
        exact h1 c l e
  have h3 : FloatTyped (((a.hashWith p.stringToInt).encodeWith T p.intToBool).imputeWith p.imputer) := by
    cases p.imputer with
    | none => exact h2
    | some im => exact h2.mapFloats _ _
  cases p.scaler with
  | none => exact h3
  | some sc => exact h3.mapFloats _ _

/-! ### Repeated rows -/

omit [GoFloat F] in
theorem mapFloats_congr_rows {a : ADF (Val F)} {cols : List GoStr} {g g' : GoStr → Nat → F → F} {n : Nat}
    (hl : ∀ c l, a.col .float c = some l → l.length ≤ n) (hg : ∀ c i, i < n → g c i = g' c i) :
    a.mapFloats cols g = a.mapFloats cols g' := by
  unfold ADF.mapFloats
  congr 1
  funext k c
  split
  · rename_i hk
    cases e : a.col k c with
    | none => rfl
    | some l =>
      have := hl c l (hk.1 ▸ e)
      simp only [Option.map_some]
      congr 1
      apply List.ext_getElem (by simp)
      intro i h1 h2
      simp only [List.getElem_mapIdx]
      rw [hg c i (by simp at h1; omega)]
  · rfl

/-- Only the counts of the rows that exist matter. -/
theorem shown_rep (p : AutoPreprocessor F) (T : Code) {rep rep' : Nat → Nat} {a : ADF (Val F)} {n : Nat}
    (hl : ∀ c l, a.col .float c = some l → l.length ≤ n) (hr : ∀ i, i < n → rep i = rep' i) :
    p.shown T rep a = p.shown T rep' a := by
  unfold AutoPreprocessor.shown
  cases p.scaler with
  | none => rfl
  | some sc =>
    refine mapFloats_congr_rows (n := n) ?_ (fun c i hi => by rw [hr i hi])
    have h1 : ∀ c l, (a.hashWith p.stringToInt).col .float c = some l → l.length ≤ n := by
      intro c l e
      cases hst : p.stringToInt with
      | none => rw [hst] at e; exact hl c l e
      | some st =>
        rw [hst] at e
        simp only [ADF.hashWith, ADF.hashed] at e
        split at e
        · simp at e
        · exact hl c l e
    have h2 : ∀ c l, ((a.hashWith p.stringToInt).encodeWith T p.intToBool).col .float c = some l → l.length ≤ n := by
      intro c l e
      cases hst : p.intToBool with
      | none => rw [hst] at e; exact h1 c l e
      | some st =>
        rw [hst] at e
        simp only [ADF.encodeWith, ADF.oneHot] at e
        split at e
        · cases e
        · rw [if_neg (by simp)] at e
          exact h1 c l e
    intro c l e
    cases him : p.imputer with
    | none => rw [him] at e; exact h2 c l e
    | some im =>
      rw [him] at e
      simp only [ADF.imputeWith, ADF.mapFloats] at e
      split at e
      · obtain ⟨l0, e0, rfl⟩ := Option.map_eq_some_iff.1 e
        simpa using h2 c l0 e0
      · exact h2 c l e

/-! ### The column "_target" -/

omit [GoFloat F] in
theorem onehotName_ne_target (c : GoStr) (i : Nat) : onehotName c i ≠ b!"_target" := by
  intro h
  have h1 : (onehotName c i).getLast? = some 116 := by rw [h]; decide
  unfold onehotName at h1
  rw [List.getLast?_append_of_ne_nil _ (natDec_ne_nil i)] at h1
  have := natDec_digits i 116 (List.mem_of_getLast? h1)
  revert this
  decide

omit [GoFloat F] in
theorem missingName_ne_target (c : GoStr) : missingName c ≠ b!"_target" := by
  intro h
  have h1 : (missingName c).getLast? = some 116 := by rw [h]; decide
  unfold missingName at h1
  rw [List.getLast?_append_of_ne_nil _ (by decide)] at h1
  revert h1
  decide

/-- The preprocessor makes no column named "_target". -/
theorem shown_target {o : AutoOptions} {a : ADF (Val F)} {fvals : GoStr → List F} {cvals : GoStr → List Int} {T : Code}
    {p : AutoPreprocessor F} (tr : AutoTrained o a fvals cvals T p) (rep : Nat → Nat) {b : ADF (Val F)} {k : Kind}
    (hk : k ≠ .int) (hb : b.col k b!"_target" = none) : (p.shown T rep b).col k b!"_target" = none := by
  have hs := shown_base p T rep b k b!"_target"
  suffices ((b.hashWith p.stringToInt).encodeWith T p.intToBool).col k b!"_target" = none by
    rw [this] at hs
    simpa using hs
  have h1 : (b.hashWith p.stringToInt).col k b!"_target" = none := by
    cases p.stringToInt with
    | none => exact hb
    | some st =>
      simp only [ADF.hashWith, ADF.hashed]
      split
      · rfl
      · exact hb
  cases he : p.intToBool with
  | none => exact h1
  | some enc =>
    have hex : ∃ c, Categorical a c := by
      by_contra hx
      have := tr.no_codes (fun c hc => hx ⟨c, hc⟩)
      rw [he] at this; cases this
    obtain ⟨enc', e1, _, _, _, h5, ⟨_, h6⟩, _⟩ := tr.codes hex
    rw [he] at e1; cases e1
    simp only [ADF.encodeWith, ADF.oneHot]
    split
    · rfl
    · rw [if_neg]
      · exact h1
      · rintro ⟨_, hx⟩
        obtain ⟨c, hc, v, hv⟩ := (h6 _).1 hx
        rcases (h5 c hc).total v with h7 | ⟨i, h7⟩
        · rw [hv] at h7
          exact missingName_ne_target c (Option.some.inj h7).symm
        · rw [hv] at h7
          exact onehotName_ne_target c i (Option.some.inj h7).symm

end

/-! ### Row by row -/

theorem select_mapFloats (a : ADF (Val F)) (cols : List GoStr) (g : GoStr → Nat → F → F) (is : List Nat) :
    (a.mapFloats cols g).select is = (a.select is).mapFloats cols fun c i => g c (is.getD i 0) := by
  refine ADF.ext' rfl ?_ (fun _ => rfl) rfl
  intro k c
  simp only [ADF.select, ADF.mapFloats]
  split
  · cases a.col k c with
    | none => rfl
    | some l =>
      simp only [Option.map_some, Option.some.injEq]
      apply List.ext_getElem (by simp)
      intro i h1 h2
      have hi : i < is.length := by simpa using h1
      simp only [List.getElem_map, List.getElem_mapIdx, List.getElem?_mapIdx, List.getD_eq_getElem?_getD, List.getElem?_eq_getElem hi,
        Option.getD_some]
      cases l[is[i]]? with
      | none => rfl
      | some v => rfl
  · rfl

theorem select_hashed (a : ADF (Val F)) (cols : List GoStr) (is : List Nat) : (a.hashed cols).select is = (a.select is).hashed cols := by
  refine ADF.ext' rfl ?_ (fun c => by simp [ADF.select, ADF.hashed]) rfl
  intro k c
  simp only [ADF.select, ADF.hashed]
  split
  · split
    · cases a.col .obj c with
      | none => rfl
      | some l =>
        simp only [Option.map_some, Option.some.injEq, List.map_map]
        apply List.map_congr_left
        intro i _
        simp only [Function.comp, List.getElem?_map]
        cases l[i]? with
        | none => rfl
        | some v => rfl
    · rfl
  · rfl

theorem intAt_select (a : ADF (Val F)) (is : List Nat) (c : GoStr) {i r : Nat} (hi : is[i]? = some r) :
    (a.select is).intAt c i = a.intAt c r := by
  unfold ADF.intAt
  rw [cell_select a is .int c hi]

theorem select_oneHot (a : ADF (Val F)) (cats news : List GoStr) (T : Code) (keep : Bool) {is : List Nat} (hi : ∀ i ∈ is, i < a.nRows) :
    (a.oneHot cats news T keep).select is = (a.select is).oneHot cats news T keep := by
  refine ADF.ext' rfl ?_ (fun c => by simp [ADF.select, ADF.oneHot]) rfl
  intro k n
  rw [show ((a.oneHot cats news T keep).select is).col k n = ((a.oneHot cats news T keep).col k n).map fun l => is.map fun i => (l[i]?).join from rfl]
  simp only [ADF.oneHot]
  split
  · rfl
  · split
    · simp only [Option.map_some, Option.some.injEq]
      apply List.ext_getElem (by simp [ADF.select])
      intro i h1 h2
      have h1' : i < is.length := by simpa using h1
      have hlt : is[i] < a.nRows := hi _ (List.getElem_mem h1')
      simp only [List.getElem_map, List.getElem_range, List.getElem?_map, List.getElem?_range hlt, Option.map_some, Option.join_some]
      simp only [intAt_select a is _ (List.getElem?_eq_getElem h1')]
    · rfl

theorem nRows_hashWith (a : ADF (Val F)) (o : Option HashEncoder) : (a.hashWith o).nRows = a.nRows := by
  cases o <;> rfl

/-- Preprocessing works row by row. -/
theorem select_shown [GoFloat F] (p : AutoPreprocessor F) (T : Code) (rep : Nat → Nat) (a : ADF (Val F)) {is : List Nat} (hi : ∀ i ∈ is, i < a.nRows) :
    (p.shown T rep a).select is = p.shown T (fun i => rep (is.getD i 0)) (a.select is) := by
  unfold AutoPreprocessor.shown
  have h1 : (a.hashWith p.stringToInt).select is = (a.select is).hashWith p.stringToInt := by
    cases p.stringToInt with
    | none => rfl
    | some st => exact select_hashed ..
  have h2 : ((a.hashWith p.stringToInt).encodeWith T p.intToBool).select is = ((a.select is).hashWith p.stringToInt).encodeWith T p.intToBool := by
    rw [← h1]
    cases p.intToBool with
    | none => rfl
    | some st => exact select_oneHot _ _ _ _ _ (by rw [nRows_hashWith]; exact hi)
  rw [← h2]
  generalize (a.hashWith p.stringToInt).encodeWith T p.intToBool = b
  have h3 : (b.imputeWith p.imputer).select is = (b.select is).imputeWith p.imputer := by
    cases p.imputer with
    | none => rfl
    | some im => exact select_mapFloats _ _ (fun c _ => imputed im.fallback c) _
  rw [← h3]
  generalize b.imputeWith p.imputer = b
  cases p.scaler with
  | none => rfl
  | some sc => exact select_mapFloats _ _ (fun c i => times (rep i) fun x =>
      GoFloat.mul (GoFloat.add x ((AMap.get sc.shift c).getD GoFloat.zero)) ((AMap.get sc.scale c).getD GoFloat.one)) _

end Verif
