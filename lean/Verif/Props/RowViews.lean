import Verif.Props.Demo

/-! C01 - C06, C09 - C11, C52: row views. `RowView h df h' v is` (Verif.Spec.ADF) says that `v` shows
exactly the rows `is` of `df`, over the same memory cells, and that no existing dataframe changed. -/

namespace Verif
open scoped Demo
variable {F : Type}

/-! ### What `abs` means in terms of the API -/

/-- Reading through the accessors: `df.Xs(col).Get(i)` returns `v` exactly when `abs` lists `v` at
row `i` of that column, and panics in all the other cases. -/
theorem get_iff_abs (df : DF) (h : Heap F) (k : Kind) (c : GoStr) (i : Int) (v : Val F) :
    df.get h k c i = .ok v ↔
      0 ≤ i ∧ ∃ l, (abs h df).col k c = some l ∧ l[i.toNat]? = some (some v) := by
  unfold DF.get
  simp only [abs]
  cases hg : AMap.get (h.tab df.tab) (k, c) with
  | none => simp
  | some s =>
    simp only [Option.map_some, Option.some.injEq]
    by_cases hi : 0 ≤ i ∧ i < df.idx.rows.length
    · rw [Idx.at_ok hi.1 hi.2]
      have hlt : i.toNat < df.idx.rows.length := by omega
      simp only [hi.1, true_and, exists_eq_left', DF.rows, List.getElem?_map,
        List.getElem?_eq_getElem hlt, Option.map_some, Option.some.injEq]
      cases h.cell s df.idx.rows[i.toNat] <;> simp
    · rw [Idx.at_err hi]
      simp only [reduceCtorEq, false_iff, not_and]
      intro h0
      simp only [exists_eq_left', DF.rows, List.getElem?_map]
      rw [List.getElem?_eq_none (by omega)]
      simp

/-- A dataframe consistent in the sense of `DF.WF`: every row of every column can be read, nothing
else can. -/
theorem get_total (df : DF) (h : Heap F) (wf : df.WF h) (k : Kind) (c : GoStr) (i : Int) :
    (∃ v, df.get h k c i = .ok v) ↔
      0 ≤ i ∧ i < (abs h df).nRows ∧ ((abs h df).col k c).isSome := by
  constructor
  · rintro ⟨v, hv⟩
    obtain ⟨h0, l, hl, hi⟩ := (get_iff_abs ..).1 hv
    have := (wf.cells hl).1
    have h2 := (List.getElem?_eq_some_iff.1 hi).1
    exact ⟨h0, by omega, by simp [hl]⟩
  · rintro ⟨h0, h1, h2⟩
    obtain ⟨l, hl⟩ := Option.isSome_iff_exists.1 h2
    obtain ⟨hlen, hno⟩ := wf.cells hl
    have hlt : i.toNat < l.length := by omega
    cases hx : l[i.toNat] with
    | none => exact absurd (hx ▸ List.getElem_mem hlt) hno
    | some v =>
      exact ⟨v, (get_iff_abs ..).2 ⟨h0, l, hl, by rw [List.getElem?_eq_getElem hlt, hx]⟩⟩

/-- What a row view means for the accessors: reading row `i` of the view is reading row `is[i]` of
the dataframe it was made from. -/
theorem RowView.get_eq {h h' : Heap F} {df v : DF} {is : List Nat} (r : RowView h df h' v is)
    (wf : df.WF h) (his : ∀ i ∈ is, i < df.numRows)
    (k : Kind) (c : GoStr) (i : Nat) (hi : i < is.length) :
    v.get h' k c i = df.get h k c (is[i] : Nat) := by
  have key : ∀ x, v.get h' k c i = .ok x ↔ df.get h k c (is[i] : Nat) = .ok x := by
    intro x
    rw [get_iff_abs, get_iff_abs, r.shows]
    simp only [ADF.select, Int.toNat_natCast, Int.natCast_nonneg, true_and, Option.map_eq_some_iff]
    constructor
    · rintro ⟨l, ⟨l', hl', rfl⟩, hx⟩
      refine ⟨l', hl', ?_⟩
      simp only [List.getElem?_map, List.getElem?_eq_getElem hi, Option.map_some, Option.some.injEq] at hx
      have hlt : is[i] < l'.length := by
        rw [(wf.cells hl').1]; exact his _ (List.getElem_mem hi)
      rw [List.getElem?_eq_getElem hlt] at hx ⊢
      simpa using hx
    · rintro ⟨l', hl', hx⟩
      refine ⟨_, ⟨l', hl', rfl⟩, ?_⟩
      simp [List.getElem?_map, List.getElem?_eq_getElem hi, hx]
  have panicOnly : ∀ (d : DF) (hh : Heap F) (j : Int) e, d.get hh k c j = .error e → e = .panic := by
    intro d hh j e
    unfold DF.get
    cases AMap.get (hh.tab d.tab) (k, c) with
    | none => simp; intro h; exact h.symm
    | some s =>
      simp only
      by_cases hj : 0 ≤ j ∧ j < d.idx.rows.length
      · rw [Idx.at_ok hj.1 hj.2]; simp only
        cases hh.cell s _ <;> simp
        intro h; exact h.symm
      · rw [Idx.at_err hj]; simp; intro h; exact h.symm
  cases h1 : v.get h' k c i with
  | ok x => exact ((key x).1 h1).symm
  | error e =>
    cases h2 : df.get h k c (is[i] : Nat) with
    | ok y => rw [(key y).2 h2] at h1; cases h1
    | error e' => rw [panicOnly _ _ _ _ h1, panicOnly _ _ _ _ h2]

/-! ### C01 -/

/-- **C01**. `IndexView(is)` with all indices inside the dataframe is the view on these rows. -/
theorem C01_indexView {df : DF} {h : Heap F} (wf : df.WF h) {is : List Int}
    (hi : ∀ i ∈ is, 0 ≤ i ∧ i < df.numRows) :
    ∃ v h', df.indexView is h = .ok (v, h') ∧ RowView h df h' v (is.map Int.toNat) := by
  obtain ⟨v, h', he, r, _⟩ := indexView_rowView wf hi
  exact ⟨v, h', he, r⟩

/-- **C01**. `IndexView` panics exactly when some index is outside `[0, NumRows)`. -/
theorem C01_indexView_panics_iff {df : DF} {h : Heap F} (wf : df.WF h) (is : List Int) :
    df.indexView is h = .error .panic ↔ ∃ i ∈ is, ¬ (0 ≤ i ∧ i < df.numRows) := by
  constructor
  · intro he
    refine Classical.byContradiction fun hn => ?_
    obtain ⟨v, h', hok, _⟩ := C01_indexView wf (is := is) (fun i him =>
      Classical.byContradiction fun hx => hn ⟨i, him, hx⟩)
    rw [hok] at he; cases he
  · exact indexView_err df h is

/-- **C01**, composition: `IndexView(a).IndexView(b)` is the view on the rows `a[b[i]]`. -/
theorem C01_indexView_compose {df : DF} {h : Heap F} (wf : df.WF h) {a b : List Int}
    (ha : ∀ i ∈ a, 0 ≤ i ∧ i < df.numRows) (hb : ∀ i ∈ b, 0 ≤ i ∧ i < a.length) :
    ∃ v h1 w h2, df.indexView a h = .ok (v, h1) ∧ v.indexView b h1 = .ok (w, h2) ∧
      RowView h df h2 w (b.map fun i => (a.getD i.toNat 0).toNat) := by
  obtain ⟨v, h1, e1, r1⟩ := C01_indexView wf ha
  obtain ⟨w, h2, e2, r2⟩ := C01_indexView r1.wf (is := b) (by
    intro i him; have := hb i him; rw [r1.numRows]; simpa using this)
  refine ⟨v, h1, w, h2, e1, e2, ?_⟩
  have := r1.trans r2 (toNat_mem (by simpa using hb))
  have he : pick (a.map Int.toNat) (b.map Int.toNat) = b.map fun i => (a.getD i.toNat 0).toNat := by
    unfold pick
    rw [List.map_map]
    apply List.map_congr_left
    intro i him
    have := hb i him
    have hlt : i.toNat < a.length := by omega
    simp [List.getD_eq_getElem?_getD, List.getElem?_eq_getElem hlt]
  rw [← he]; exact this

-- non-vacuity: repeated and reordered rows of the demo dataframe
example : ∃ v h', Demo.df.indexView [3, 0, 0, 2, 1] Demo.h = .ok (v, h') ∧
    RowView Demo.h Demo.df h' v [3, 0, 0, 2, 1] := C01_indexView Demo.df_wf (by decide)
example : Demo.df.indexView [0, 4] Demo.h = .error .panic :=
  (C01_indexView_panics_iff Demo.df_wf _).2 ⟨4, by decide, by decide⟩

/-! ### C02 -/

/-- **C02**. `MaskView(mask)` is the view on the increasing list of the positions where the mask is
true. -/
theorem C02_maskView {df : DF} {h : Heap F} (wf : df.WF h) {m : List Bool}
    (hm : m.length ≤ df.numRows) :
    ∃ v, df.maskView m = .ok v ∧
      RowView h df h v ((List.range m.length).filter fun i => m.getD i false) := by
  obtain ⟨v, he, r, _⟩ := maskView_rowView wf (m := m) (by
    intro i hi
    simp [truePos] at hi
    omega)
  exact ⟨v, he, r⟩

/-- **C02**. Same as `IndexView` of these positions. -/
theorem C02_maskView_eq_indexView {df : DF} {h : Heap F} (wf : df.WF h) {m : List Bool}
    (hm : m.length ≤ df.numRows) :
    ∃ v w h', df.maskView m = .ok v ∧
      df.indexView (((List.range m.length).filter fun i => m.getD i false).map Int.ofNat) h = .ok (w, h') ∧
      abs h v = abs h' w ∧ locs h v = locs h' w := by
  obtain ⟨v, he, r⟩ := C02_maskView wf hm
  obtain ⟨w, h', he', r'⟩ := C01_indexView wf
    (is := ((List.range m.length).filter fun i => m.getD i false).map Int.ofNat) (by
      intro i hi
      simp at hi
      omega)
  refine ⟨v, w, h', he, he', ?_, ?_⟩
  · rw [r.shows, r'.shows]; simp [List.map_map, Function.comp_def]
  · rw [r.shares, r'.shares]; simp [List.map_map, Function.comp_def]

/-- **C02** for masks longer than the dataframe: a true value past the last row panics. -/
theorem C02_maskView_panics_iff {df : DF} {h : Heap F} (wf : df.WF h) (m : List Bool) :
    df.maskView m = .error .panic ↔ ∃ i, df.numRows ≤ i ∧ m[i]? = some true := by
  constructor
  · intro he
    refine Classical.byContradiction fun hn => ?_
    obtain ⟨v, hok, _⟩ := maskView_rowView wf (m := m) (by
      intro i hi
      refine Classical.byContradiction fun hx => hn ⟨i, by omega, ?_⟩
      simp [truePos, List.getD_eq_getElem?_getD] at hi
      rw [List.getElem?_eq_getElem hi.1] at hi ⊢
      simpa using hi.2)
    rw [hok] at he; cases he
  · rintro ⟨i, h1, h2⟩
    refine maskView_err ⟨i, ?_, by omega⟩
    obtain ⟨hlt, hx⟩ := List.getElem?_eq_some_iff.1 h2
    simp [truePos, hlt, hx]

example : ∃ v, Demo.df.maskView [true, false, false, true] = .ok v ∧
    RowView Demo.h Demo.df Demo.h v [0, 3] := C02_maskView Demo.df_wf (by decide)

/-! ### C03 -/

/-- The meaning of a bound of `SliceView`: a negative bound counts from the end, `-1` being the end. -/
def bound (n b : Int) : Int := if b < 0 then n + 1 + b else b

/-- **C03** (in range). `SliceView(from, to)` with `0 ≤ from ≤ to ≤ NumRows` (negative bounds standing
for `NumRows+1+b`) is the view on rows `from, ..., to-1`. -/
theorem C03_sliceView {df : DF} {h : Heap F} (wf : df.WF h) {a b : Int}
    (h0 : 0 ≤ bound df.numRows a) (h1 : bound df.numRows a ≤ bound df.numRows b)
    (h2 : bound df.numRows b ≤ df.numRows) :
    ∃ v h', df.sliceView a b h = .ok (v, h') ∧
      RowView h df h' v (rowRange (bound df.numRows a).toNat (bound df.numRows b).toNat) := by
  have ea : (if a < 0 then a + ((df.numRows : Int) + 1) else a) = bound df.numRows a := by
    unfold bound; split <;> omega
  have eb : (if b < 0 then b + ((df.numRows : Int) + 1) else b) = bound df.numRows b := by
    unfold bound; split <;> omega
  unfold DF.sliceView
  simp only [ea, eb]
  rw [if_neg (by omega)]
  obtain ⟨v, h', he, r, _⟩ := cut_rowView (df := df.view) (view_wf wf) rfl h0 h1 h2
  exact ⟨v, h', he, r.of_view⟩

example : ∃ v h', Demo.df.sliceView 1 (-2) Demo.h = .ok (v, h') ∧
    RowView Demo.h Demo.df h' v [1, 2] := C03_sliceView Demo.df_wf (by decide) (by decide) (by decide)

/-- A dataframe has no spare capacity: what a dataframe that was just built (or copied) looks like. -/
def DF.Compact (h : Heap F) (df : DF) : Prop :=
  df.idx.data.length = df.numRows ∧
  (∃ k, (AMap.get (h.tab df.tab) k).isSome) ∧
  ∀ k s, AMap.get (h.tab df.tab) k = some s → s.cap = s.len

/-- Out of bounds on a dataframe without spare capacity: `SliceView` panics. (Partial: the general
claim is refuted below.) -/
theorem C03_sliceView_panics_partial {df : DF} {h : Heap F} (wf : df.WF h) (hc : df.Compact h)
    {a b : Int} (ho : bound df.numRows a < 0 ∨ df.numRows < bound df.numRows b ∨
      bound df.numRows b < 0 ∨ df.numRows < bound df.numRows a) :
    df.sliceView a b h = .error .panic := by
  have ea : (if a < 0 then a + ((df.numRows : Int) + 1) else a) = bound df.numRows a := by
    unfold bound; split <;> omega
  have eb : (if b < 0 then b + ((df.numRows : Int) + 1) else b) = bound df.numRows b := by
    unfold bound; split <;> omega
  have hview : ∀ (d : DF) (x y : Int), d.WF h → d.sharedMaps = true → d.idx.data.length = df.numRows →
      (∃ k, (AMap.get (h.tab d.tab) k).isSome) → (∀ k s, AMap.get (h.tab d.tab) k = some s → s.cap ≤ df.numRows) →
      x ≤ y → (x < 0 ∨ df.numRows < y) → d.cut x y h = .error .panic := by
    intro d x y wd hsm hlen hex hcap hxy hout
    unfold DF.cut
    simp only
    split
    · have : d.idx.reslice x y = .error .panic := by
        unfold Idx.reslice; rw [if_neg]; omega
      rw [this]
    · have sp := own_spec wd.toWF
      generalize hraw : d.toRaw.own h = p at sp
      obtain ⟨raw, h1⟩ := p
      simp only at sp ⊢
      cases hr : d.idx.reslice 0 (y - x) with
      | error e =>
        have : d.idx.reslice 0 (y - x) = .error .panic := by
          unfold Idx.reslice at hr ⊢
          split at hr
          · cases hr
          · rename_i hn; rw [if_neg hn]
        rw [this] at hr; cases hr; rfl
      | ok z =>
        simp only
        have : mapCols (resliceCol x y) (h1.tab raw.tab) h1 = .error .panic := by
          rw [sp.tab]
          obtain ⟨k, hk⟩ := hex
          obtain ⟨s, hs⟩ := Option.isSome_iff_exists.1 hk
          have gen : ∀ (t : Table) (h1 : Heap F), (∀ e ∈ t, e.2.cap ≤ df.numRows) → t ≠ [] →
              mapCols (resliceCol x y) t h1 = .error .panic := by
            intro t h1 hall hne
            cases t with
            | nil => exact absurd rfl hne
            | cons e t =>
              obtain ⟨k, s⟩ := e
              have hle := hall (k, s) (by simp)
              simp only [mapCols, resliceCol, Slice.reslice]
              rw [if_neg]
              simp only at hle
              omega
          refine gen _ _ (fun e he => hcap e.1 e.2 (AMap.get_of_mem wd.keys he)) ?_
          intro e; rw [e] at hs; simp at hs
        rw [this]
  have hcap : ∀ k s, AMap.get (h.tab df.tab) k = some s → s.cap ≤ df.numRows ∨ df.indexViewed = true := by
    intro k s hk
    cases hv : df.indexViewed with
    | true => exact Or.inr rfl
    | false =>
      left
      obtain ⟨N, hN1, _, hN3⟩ := wf.rect
      have := hN3 hv
      rw [hc.2.2 _ _ hk, hN1 _ _ hk]
      simp [DF.numRows, this]
  -- an index-viewed dataframe never reslices columns
  have hidx : ∀ (d : DF) (x y : Int), d.indexViewed = true → d.idx.data.length = df.numRows →
      x ≤ y → (x < 0 ∨ df.numRows < y) → d.cut x y h = .error .panic := by
    intro d x y hv hlen hxy hout
    unfold DF.cut
    simp only
    rw [if_pos (by simp [hv])]
    have : d.idx.reslice x y = .error .panic := by
      unfold Idx.reslice; rw [if_neg]; omega
    rw [this]
  unfold DF.sliceView
  simp only [ea, eb]
  split
  · refine hidx _ _ _ rfl ?_ (by omega) (by omega)
    simp [DF.reverseView, DF.view, Idx.mk', DF.numRows]
  · cases hv : df.indexViewed with
    | true => exact hidx _ _ _ hv hc.1 (by omega) (by omega)
    | false =>
      refine hview _ _ _ (view_wf wf) rfl hc.1 hc.2.1 ?_ (by omega) (by omega)
      intro k s hk
      rcases hcap k s hk with hx | hx
      · exact hx
      · rw [hx] at hv; cases hv

-- a dataframe built from slices without spare capacity
example : ∃ df h', (build [.set .int b!"a" [.int 1, .int 2, .int 3] []] Demo.heap0).1.toDataFrame
    (build [.set .int b!"a" [.int 1, .int 2, .int 3] []] Demo.heap0).2 = .ok (df, h') ∧
    df.WF h' ∧ df.Compact h' := by
  obtain ⟨df, h', he, wf, _⟩ := C20_toDataFrame_ok
    ([.set .int b!"a" [.int 1, .int 2, .int 3] []] : List (BOp Int)) Demo.heap0 3
    (by intro k c l; simp only [specCol, List.foldl_cons, List.foldl_nil, BOp.stepCol]; grind)
    ⟨.int, b!"a", by decide⟩
  refine ⟨df, h', he, wf, ?_⟩
  have hd : (match (build [.set .int b!"a" [.int 1, .int 2, .int 3] []] Demo.heap0).1.toDataFrame
    (build [.set .int b!"a" [.int 1, .int 2, .int 3] []] Demo.heap0).2 with
    | .ok (df, h') => decide (df.idx.data.length = df.numRows ∧
        h'.tab df.tab = [((.int, b!"a"), ⟨1, 0, 3, 3⟩)])
    | .error _ => false) = true := by decide
  rw [he] at hd
  simp only [decide_eq_true_eq] at hd
  refine ⟨hd.1, ?_, ?_⟩
  · exact ⟨(.int, b!"a"), by rw [hd.2]; rfl⟩
  · intro k s hk
    rw [hd.2] at hk
    simp only [AMap.get_cons] at hk
    split at hk
    · cases hk; rfl
    · simp at hk

/-- **C03** refuted as stated: a slice view can be sliced again past its own end. Here a view of 2 rows
is cut to 4 rows: the call succeeds and shows rows outside the view. -/
theorem C03_out_of_bounds_refuted :
    ∃ v h1 w h2, Demo.df.sliceView 0 2 Demo.h = .ok (v, h1) ∧ v.WF h1 ∧ v.numRows = 2 ∧
      v.sliceView 0 4 h1 = .ok (w, h2) ∧ w.numRows = 4 ∧
      (abs h2 w).col .int b!"a" = some [some (.int 10), some (.int 20), some (.int 30), some (.int 40)] := by
  obtain ⟨v, h1, e1, r1⟩ := C03_sliceView Demo.df_wf (a := 0) (b := 2) (by decide) (by decide) (by decide)
  have hd : okAnd (Demo.df.sliceView 0 2 Demo.h) (fun p => okAnd (p.1.sliceView 0 4 p.2) (fun q =>
      decide (q.1.numRows = 4 ∧ (abs q.2 q.1).col .int b!"a" =
        some [some (.int 10), some (.int 20), some (.int 30), some (.int 40)]))) = true := by decide
  rw [e1] at hd
  obtain ⟨⟨w, h2⟩, hw, hq⟩ := okAnd_iff.1 (show okAnd (v.sliceView 0 4 h1) _ = true from hd)
  simp only [decide_eq_true_eq] at hq
  exact ⟨v, h1, w, h2, e1, r1.wf, r1.numRows, hw, hq.1, hq.2⟩

/-- A dataframe without columns does not notice an out-of-range `SliceView` either. -/
theorem C03_no_column_refuted :
    ∃ v h', (emptyDataFrame Demo.heap0 5 4).1.sliceView 3 8 (emptyDataFrame Demo.heap0 5 4).2 = .ok (v, h') ∧
      v.numRows = 5 := by
  have hd : okAnd ((emptyDataFrame Demo.heap0 5 4).1.sliceView 3 8 (emptyDataFrame Demo.heap0 5 4).2)
    (fun p => decide (p.1.numRows = 5)) = true := by decide
  obtain ⟨⟨v, h'⟩, he, hp⟩ := okAnd_iff.1 hd
  exact ⟨v, h', he, by simpa using hp⟩

/-! ### C04 -/

/-- What `SliceView(from, to)` with `from > to` really does: it takes rows `to..from-1` of the
*reversed* dataframe, that is rows `n-1-to, n-2-to, ..., n-from` of the dataframe. -/
theorem C04_sliceView_reversed_actual {df : DF} {h : Heap F} (wf : df.WF h) {a b : Int}
    (h0 : 0 ≤ b) (h1 : b < a) (h2 : a ≤ df.numRows) :
    ∃ v h', df.sliceView a b h = .ok (v, h') ∧
      RowView h df h' v ((rowRange b.toNat a.toNat).map fun i => df.numRows - 1 - i) := by
  unfold DF.sliceView
  simp only
  rw [if_neg (show ¬ a < 0 by omega), if_neg (show ¬ b < 0 by omega), if_pos (show a > b by omega)]
  have r1 := reverseView_rowView (df := df) (h := h) wf
  have hn : df.reverseView.numRows = df.numRows := by simpa using r1.numRows
  obtain ⟨v, h', he, r, _⟩ := cut_rowView (df := df.reverseView.view) (view_wf r1.wf) rfl h0
    (show b ≤ a by omega) (show a ≤ df.reverseView.numRows by omega)
  refine ⟨v, h', he, ?_⟩
  have r2 := r1.trans r.of_view (by
    intro j hj; simp [rowRange, List.mem_range'] at hj; simp; omega)
  refine r2.cast ?_
  unfold pick
  apply List.map_congr_left
  intro i hi
  simp [rowRange, List.mem_range'] at hi
  have : i < (List.range df.numRows).reverse.length := by simp; omega
  rw [List.getD_eq_getElem?_getD, List.getElem?_eq_getElem this]
  simp

/-- **C04** (partial): when the range is symmetric (`from + to = NumRows`), the rows `to..from-1`
appear in reverse order. Missing: all the other ranges, for which the claim is false. -/
theorem C04_sliceView_reversed_partial {df : DF} {h : Heap F} (wf : df.WF h) {a b : Int}
    (h0 : 0 ≤ b) (h1 : b < a) (h2 : a ≤ df.numRows) (hsym : a + b = df.numRows) :
    ∃ v h', df.sliceView a b h = .ok (v, h') ∧
      RowView h df h' v (rowRange b.toNat a.toNat).reverse := by
  obtain ⟨v, h', he, r⟩ := C04_sliceView_reversed_actual wf h0 h1 h2
  refine ⟨v, h', he, ?_⟩
  refine r.cast ?_
  apply List.ext_getElem
  · simp
  · intro i x1 x2
    simp [rowRange] at x1 x2 ⊢
    omega

/-- **C04** refuted: `SliceView(3, 1)` of the 4-row demo shows rows 2, 1 as documented, but
`SliceView(2, 0)` shows rows 3, 2 instead of rows 1, 0. -/
theorem C04_refuted : ∃ v h', Demo.df.sliceView 2 0 Demo.h = .ok (v, h') ∧
    (abs h' v).col .int b!"a" = some [some (.int 40), some (.int 30)] ∧
    ¬ RowView Demo.h Demo.df h' v [1, 0] := by
  obtain ⟨v, h', he, r⟩ := C04_sliceView_reversed_actual Demo.df_wf (a := 2) (b := 0) (by decide)
    (by decide) (by decide)
  have hc : (abs h' v).col .int b!"a" = some [some (.int 40), some (.int 30)] := by
    rw [r.shows]; decide
  refine ⟨v, h', he, hc, ?_⟩
  intro r'
  have : (abs h' v).col .int b!"a" = some [some (.int 20), some (.int 10)] := by
    rw [r'.shows]; decide
  rw [hc] at this
  exact absurd this (by decide)

/-! ### C05 -/

/-- **C05**. `ReverseView` is the view on the rows in reverse order. -/
theorem C05_reverseView {df : DF} {h : Heap F} (wf : df.WF h) :
    RowView h df h df.reverseView (List.range df.numRows).reverse := reverseView_rowView wf

/-- **C05**. Reversing twice is observably the dataframe itself. -/
theorem C05_reverse_involution {df : DF} {h : Heap F} (wf : df.WF h) :
    abs h df.reverseView.reverseView = abs h df ∧ locs h df.reverseView.reverseView = locs h df := by
  have r1 := reverseView_rowView (df := df) (h := h) wf
  have r2 := reverseView_rowView (df := df.reverseView) (h := h) r1.wf
  have hn : df.reverseView.numRows = df.numRows := by simpa using r1.numRows
  have r := r1.trans r2 (by intro j hj; simpa [hn] using hj)
  have hp : pick (List.range df.numRows).reverse (List.range df.reverseView.numRows).reverse
      = List.range df.numRows := by
    rw [hn]
    have := reverse_eq_pick (List.range df.numRows).reverse
    simp only [List.reverse_reverse, List.length_reverse, List.length_range] at this
    exact this.symm
  rw [hp] at r
  exact ⟨by rw [r.shows, select_range_abs], by rw [r.shares, select_range_locs]⟩

example : (abs Demo.h Demo.df.reverseView).col .int b!"a" =
    some [some (.int 40), some (.int 30), some (.int 20), some (.int 10)] := by
  rw [(C05_reverseView Demo.df_wf).shows]; decide

/-! ### C06 -/

/-- **C06**. Whatever permutation the random source produces, `ShuffleView` is the view on a
permutation of all the rows. -/
theorem C06_shuffleView {df : DF} {h : Heap F} (wf : df.WF h) {perm : List Nat}
    (hp : perm.Perm (List.range df.numRows)) :
    ∃ v h', df.shuffleView perm h = .ok (v, h') ∧ RowView h df h' v perm := by
  obtain ⟨v, h', he, r⟩ := C01_indexView wf (is := perm.map Int.ofNat) (by
    intro i hi
    simp only [List.mem_map] at hi
    obtain ⟨j, hj, rfl⟩ := hi
    have := (hp.mem_iff).1 hj
    simp at this
    exact ⟨Int.natCast_nonneg _, by simpa using this⟩)
  refine ⟨v, h', he, ?_⟩
  simpa [List.map_map, Function.comp_def] using r

/-- **C06**. `SampleView(n, false)` is the view on `n` distinct rows. -/
theorem C06_sampleView {df : DF} {h : Heap F} (wf : df.WF h) {perm : List Nat}
    (hp : perm.Perm (List.range df.numRows)) {n : Int} (h0 : 0 ≤ n) (hn : n ≤ df.numRows) :
    ∃ v h' is, df.sampleView n false perm h = .ok (v, h') ∧ RowView h df h' v is ∧
      is.length = n.toNat ∧ is.Nodup ∧ ∀ i ∈ is, i < df.numRows := by
  unfold DF.sampleView
  simp only [Bool.false_eq_true, if_false]
  rw [if_neg (by omega)]
  obtain ⟨v, h', he, r, hidx, hraw, hv, ht, ha, hh⟩ := indexView_rowView wf (is := perm.map Int.ofNat) (by
    intro i hi
    simp only [List.mem_map] at hi
    obtain ⟨j, hj, rfl⟩ := hi
    have := (hp.mem_iff).1 hj
    simp at this
    exact ⟨Int.natCast_nonneg _, by simpa using this⟩)
  have hper : (perm.map Int.ofNat).map Int.toNat = perm := by simp [List.map_map, Function.comp_def]
  rw [hper] at r hidx
  have hlen : perm.length = df.numRows := by simpa using hp.length_eq
  unfold DF.shuffleView
  rw [he]
  simp only
  have hres : v.idx.reslice 0 n = .ok ⟨pick df.rows perm, n.toNat⟩ := by
    rw [hidx]
    unfold Idx.reslice
    rw [if_pos]
    · simp [Idx.mk']
    · simp only [Idx.mk', pick_length]; omega
  rw [hres]
  have hin : ∀ i ∈ perm, i < df.numRows := fun i hi => by
    have := (hp.mem_iff).1 hi; simpa using this
  refine ⟨_, _, perm.take n.toNat, rfl, ?_, ?_, ?_, ?_⟩
  · have r2 : RowView h' v h' { v with idx := ⟨pick df.rows perm, n.toNat⟩ } (List.range n.toNat) := by
      refine rowView_pick (M := Nope) (Heap.Frame.refl ..) r.wf ?_ ?_ ?_ ?_ ?_
      · rfl
      · exact hv
      · simp only [pick_length]; omega
      · simp only [DF.rows, Idx.rows, hidx, Idx.mk', pick_length]
        rw [List.range_eq_range', pick_range' _ _ _ (by simp; omega)]
        simp only [List.drop_zero]
        rw [List.take_of_length_le (i := perm.length) (by simp)]
      · intro i hi
        simp at hi
        rw [r.numRows]; omega
    have := r.trans r2 (by intro j hj; simp at hj; omega)
    rwa [List.range_eq_range', pick_range' _ _ _ (by omega), List.drop_zero] at this
  · simp; omega
  · exact List.Nodup.sublist (List.take_sublist _ _) (hp.nodup_iff.2 List.nodup_range)
  · intro i hi; exact hin i (List.mem_of_mem_take hi)

/-- **C06**. `SampleView` panics with replacement, and when more rows are asked for than there are. -/
theorem C06_sampleView_panics (df : DF) (h : Heap F) (perm : List Nat) (n : Int) (rep : Bool)
    (hc : rep = true ∨ df.numRows < n) : df.sampleView n rep perm h = .error .panic := by
  unfold DF.sampleView
  rcases hc with rfl | hc
  · simp
  · cases rep
    · simp only [Bool.false_eq_true, if_false]; rw [if_pos (by omega)]
    · simp

example : ∃ v h' is, Demo.df.sampleView 2 false [2, 0, 3, 1] Demo.h = .ok (v, h') ∧
    RowView Demo.h Demo.df h' v is ∧ is.length = 2 ∧ is.Nodup ∧ ∀ i ∈ is, i < 4 :=
  C06_sampleView Demo.df_wf (by rw [Demo.df_rows]; decide) (by decide) (by decide)

end Verif
