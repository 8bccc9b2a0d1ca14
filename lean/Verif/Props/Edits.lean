import Verif.Props.Copies
import Verif.Proofs.Create

/-! In-place edits of one dataframe: `Rename` (C51), `Drop` (C61), `Alloc*` (C62), `IntToFloats` and
`BoolToFloats` (C50), `Overwrite*` (C25). The effect is stated on `abs`, what the API shows. `Edit` and
the expected contents (`ADF.dropCols`, `ADF.allocCols`, ...) are in Verif.Spec.Edit. -/

namespace Verif
open scoped Demo
variable {F : Type}

/-- A consistent dataframe has a column in its table iff it shows one. -/
theorem tab_ne_nil_iff {h : Heap F} {d : DF} : h.tab d.tab ≠ [] ↔ ∃ k c, ((abs h d).col k c).isSome := by
  constructor
  · intro hne
    cases ht : h.tab d.tab with
    | nil => exact absurd ht hne
    | cons e t =>
      obtain ⟨⟨k, c⟩, s⟩ := e
      exact ⟨k, c, by simp [abs, ht, AMap.get_cons]⟩
  · rintro ⟨k, c, hk⟩ h0
    simp [abs, h0] at hk

theorem col_isSome {h : Heap F} {d : DF} {k : Kind} {c : GoStr} :
    ((abs h d).col k c).isSome ↔ ∃ s, AMap.get (h.tab d.tab) (k, c) = some s := by
  simp [abs, Option.isSome_iff_exists]

theorem col_eq_none {h : Heap F} {d : DF} {k : Kind} {c : GoStr} :
    (abs h d).col k c = none ↔ AMap.get (h.tab d.tab) (k, c) = none := by
  simp [abs]

/-! ### Rename -/

/-- C51: `Rename(old, new)` of an existing column, `new` being no column and `old` one column only: the
data of `old` is available under `new` with the same type, the same cells and the same string mark, `old`
is gone, and nothing else changes. Every other dataframe stays consistent. -/
theorem C51_rename [GoFloat F] {d : DF} {h : Heap F} (wf : d.WF h) (sep : d.toRaw.Sep) {old new : GoStr} {k : Kind}
    (hk : ((abs h d).col k old).isSome) (hu : ∀ k', k' ≠ k → (abs h d).col k' old = none)
    (hnew : ∀ k', (abs h d).col k' new = none) :
    ∃ d' h', (Edit.rename old new : Edit F).run d h = .ok (d', h') ∧
      (abs h' d').nRows = (abs h d).nRows ∧ (abs h' d').enc = (abs h d).enc ∧
      (∀ k' c, (abs h' d').col k' c =
        if c = old then none else if c = new then (abs h d).col k' old else (abs h d).col k' c) ∧
      (∀ k' c, (locs h' d').col k' c =
        if c = old then none else if c = new then (locs h d).col k' old else (locs h d).col k' c) ∧
      (k = .obj → ∀ c, (abs h' d').isStr c =
        if c = new then (abs h d).isStr old || (abs h d).isStr new
        else if c = old then false else (abs h d).isStr c) ∧
      (k ≠ .obj → (abs h' d').isStr = (abs h d).isStr) ∧
      d'.WF h' ∧ (∀ d2 : DF, d2.WF h → d2.WF h') := by
  obtain ⟨s, hs⟩ := col_isSome.1 hk
  have hrk := renameKind_eq hs (fun k' h' => col_eq_none.1 (hu k' h'))
  obtain ⟨r', h', he, h1, h2, h3, h4⟩ := rename_abs wf old new sep hrk
  have hne : old ≠ new := by rintro rfl; rw [hnew k] at hk; cases hk
  have hcol : ∀ {C : Type} (a : ADF C), (∀ k', k' ≠ k → a.col k' old = none) → (∀ k', a.col k' new = none) → ∀ k' c,
      (a.renameCol k old new).col k' c = if c = old then none else if c = new then a.col k' old else a.col k' c := by
    intro C a ho hn k' c
    simp only [ADF.renameCol]
    by_cases hk' : k' = k
    · subst hk'; by_cases h1 : c = old <;> by_cases h2 : c = new <;> simp [h1, h2]
    · by_cases h1 : c = old
      · subst h1; simp [hk', ho k' hk']
      · by_cases h2 : c = new
        · subst h2; simp [hk', ho k' hk', hn]
        · simp [h1, h2]
  have hlo : ∀ k' c, (locs h d).col k' c = none ↔ (abs h d).col k' c = none := by
    intro k' c; simp [locs, abs]
  refine ⟨{ d with toRaw := r' }, h', by simp [Edit.run, he, DF.withRaw], by rw [h1]; rfl, by rw [h1]; rfl, ?_, ?_, ?_, ?_, h3,
    fun d2 w => w.safe h4⟩
  · intro k' c; rw [h1]; exact hcol _ hu hnew k' c
  · intro k' c; rw [h2]; exact hcol _ (fun k' h' => (hlo _ _).2 (hu k' h')) (fun k' => (hlo _ _).2 (hnew k')) k' c
  · intro ho c
    rw [h1]
    simp only [ADF.renameCol, ho, true_and]
    cases hm : (abs h d).isStr old
    · by_cases h1 : c = new <;> by_cases h2 : c = old <;> simp_all
    · by_cases h1 : c = new <;> by_cases h2 : c = old <;> simp_all
  · intro ho
    rw [h1]; funext c; simp [ADF.renameCol, ho]

/-- C51: `Rename` panics iff there is no column of that name. -/
theorem C51_rename_panics [GoFloat F] {d : DF} {h : Heap F} (wf : d.WF h) (sep : d.toRaw.Sep) (old new : GoStr) :
    (Edit.rename old new : Edit F).run d h = .error .panic ↔ ∀ k, (abs h d).col k old = none := by
  constructor
  · intro he k
    rw [col_eq_none]
    cases hr : renameKind (h.tab d.tab) old with
    | none => exact renameKind_none.1 hr k
    | some k' =>
      obtain ⟨r', h', he', _⟩ := rename_abs wf old new sep hr
      simp [Edit.run, he'] at he
  · intro hn
    have := rename_err wf old new (renameKind_none.2 fun k => col_eq_none.1 (hn k))
    simp [Edit.run, this]

/-- C51, last sentence, is false of the code: `Rename(x, x)` deletes the column. (raw_data.go:252-253:
the column is stored under the new name, then the old name is deleted.) -/
theorem C51_rename_same_deletes [GoFloat F] {d : DF} {h : Heap F} (wf : d.WF h) (sep : d.toRaw.Sep) {x : GoStr} {k : Kind}
    (hk : ((abs h d).col k x).isSome) (hu : ∀ k', k' ≠ k → (abs h d).col k' x = none) :
    ∃ d' h', (Edit.rename x x : Edit F).run d h = .ok (d', h') ∧ (∀ k', (abs h' d').col k' x = none) := by
  obtain ⟨s, hs⟩ := col_isSome.1 hk
  have hrk := renameKind_eq hs (fun k' h' => col_eq_none.1 (hu k' h'))
  obtain ⟨r', h', he, h1, _⟩ := rename_abs wf x x sep hrk
  refine ⟨{ d with toRaw := r' }, h', by simp [Edit.run, he, DF.withRaw], fun k' => ?_⟩
  rw [h1]
  simp only [ADF.renameCol, and_true]
  by_cases hkk : k' = k
  · simp [hkk]
  · simp [hkk, hu k' hkk]

/-- The demo dataframe's two headers are separate. -/
theorem Demo.df_sep : Demo.df.toRaw.Sep := by
  intro i hi
  have : Demo.df.shared = none := by decide
  rw [this] at hi; cases hi

-- the hypotheses are met
example : ∃ d' h', (Edit.rename b!"s" b!"t" : Edit Int).run Demo.df Demo.h = .ok (d', h') ∧
    (abs h' d').col .obj b!"t" = (abs Demo.h Demo.df).col .obj b!"s" ∧ (abs h' d').isStr b!"t" = true := by
  obtain ⟨d', h', he, _, _, h1, _, h2, _⟩ := C51_rename Demo.df_wf Demo.df_sep (old := b!"s") (new := b!"t") (k := .obj)
    (by decide) (by intro k' hk; cases k' <;> first | exact absurd rfl hk | decide) (by intro k'; cases k' <;> decide)
  refine ⟨d', h', he, ?_, ?_⟩
  · rw [h1]; decide
  · rw [h2 rfl]; decide

/-! ### Drop -/

/-- C61: `Drop(cols...)` removes exactly the columns named in `cols`, with their string marks; names
that are not columns are ignored; it never panics. Rows, cells of the other columns, encoding are
unchanged and every other dataframe stays consistent. -/
theorem C61_drop [GoFloat F] {d : DF} {h : Heap F} (wf : d.WF h) (sep : d.toRaw.Sep) (cols : List GoStr) :
    ∃ h', (Edit.drop cols : Edit F).run d h = .ok (d, h') ∧
      abs h' d = (abs h d).dropCols cols ∧ locs h' d = (locs h d).dropCols cols ∧
      d.WF h' ∧ (∀ d2 : DF, d2.WF h → d2.WF h') := by
  obtain ⟨h1, h2, h3, h4⟩ := drop_abs wf cols sep
  exact ⟨_, rfl, h1, h4, h2, fun d2 w => w.safe h3⟩

/-! ### Alloc -/

/-- C62: on a dataframe that has at least one column, `AllocInts/Floats/Bools/Objects(cols...)` makes
each name a column of that type with the zero value in every row, leaves the other columns, the marks and
the rows alone, and every dataframe stays consistent. -/
theorem C62_alloc [GoFloat F] {d : DF} {h : Heap F} (wf : d.WF h) (hne : ∃ k c, ((abs h d).col k c).isSome)
    (k : Kind) (cols : List GoStr) :
    ∃ d' h', (Edit.alloc k cols : Edit F).run d h = .ok (d', h') ∧
      abs h' d' = (abs h d).allocCols k cols ∧ d'.WF h' ∧ (∀ d2 : DF, d2.WF h → d2.WF h') := by
  obtain ⟨h1, h2, h3⟩ := alloc_abs wf (tab_ne_nil_iff.2 hne) k cols
  exact ⟨_, _, rfl, h1, h2, fun d2 w => w.safe h3⟩

/-- C62 for `AllocStrings`: nil object columns, marked as string. -/
theorem C62_allocStrings [GoFloat F] {d : DF} {h : Heap F} (wf : d.WF h) (hne : ∃ k c, ((abs h d).col k c).isSome)
    (cols : List GoStr) :
    ∃ d' h', (Edit.allocStrings cols : Edit F).run d h = .ok (d', h') ∧
      abs h' d' = ((abs h d).allocCols .obj cols).markCols cols ∧ d'.WF h' ∧ (∀ d2 : DF, d2.WF h → d2.WF h') := by
  obtain ⟨h1, h2, h3⟩ := allocStrings_abs wf (tab_ne_nil_iff.2 hne) cols
  exact ⟨_, _, rfl, h1, h2, fun d2 w => w.safe h3⟩

/-- C62 without the precondition is false of the code: on a dataframe with rows but no column yet
(`EmptyDataFrame(n)`), `AllocInts` creates columns of length zero, so that reading row 0 panics.
(raw_data.go:88-102: `NumAllocatedRows` is 0 when there is no column.) -/
theorem C62_refuted_without_columns : ∃ (d : DF) (h : Heap Int), d.WF h ∧ 0 < (abs h d).nRows ∧
    ∃ d' h', (Edit.alloc .int [b!"a"] : Edit Int).run d h = .ok (d', h') ∧
      ((abs h' d').col .int b!"a").isSome ∧ d'.get h' .int b!"a" 0 = .error .panic := by
  refine ⟨(emptyDataFrame Demo.heap0 3 1).1, (emptyDataFrame Demo.heap0 3 1).2, ?_, by decide, _, _, rfl, by decide, rfl⟩
  refine ⟨⟨by decide, ?_, ?_, by decide, ?_⟩, by decide, 3, ?_, by decide, ?_⟩
  · intro i hi; cases hi
  · intro i hi; cases hi
  · intro k s hk; cases hk
  · intro k s hk; cases hk
  · intro _; decide

/-! ### conversions -/

/-- C50, ints: `IntToFloats(cols...)` of distinct int columns turns each into a float column holding the
converted values row by row, removes the int column, and leaves every other column, the marks and the
rows alone. -/
theorem C50_intToFloats [GoFloat F] {d : DF} {h : Heap F} (wf : d.WF h) {cols : List GoStr} (hnd : cols.Nodup)
    (hcol : ∀ c ∈ cols, ((abs h d).col .int c).isSome) :
    ∃ d' h', (Edit.intToFloats cols : Edit F).run d h = .ok (d', h') ∧
      (abs h' d').nRows = (abs h d).nRows ∧ (abs h' d').isStr = (abs h d).isStr ∧ (abs h' d').enc = (abs h d).enc ∧
      (∀ c ∈ cols, (abs h' d').col .int c = none ∧
        ∀ (i : Nat) (n : Int), d.get h .int c i = .ok (.int n) → d'.get h' .float c i = .ok (.float (GoFloat.ofInt n))) ∧
      (∀ k c, (k, c) ∉ cols.map (Kind.int, ·) → (k, c) ∉ cols.map (Kind.float, ·) →
        (abs h' d').col k c = (abs h d).col k c) ∧
      d'.WF h' ∧ (∀ d2 : DF, d2.WF h → d2.WF h') := by
  obtain ⟨h1, h2, h3⟩ := conv_abs wf .int .int intToFloatVal cols (by decide) hnd hcol
  refine ⟨_, _, rfl, ?_⟩
  simp only [intToFloats_eq]
  rw [h1]
  refine ⟨rfl, rfl, rfl, ?_, ?_, h2, fun d2 w => w.safe h3⟩
  · intro c hc
    refine ⟨by simp [ADF.convCols, hc], ?_⟩
    intro i n hg
    rw [get_iff_abs] at hg ⊢
    obtain ⟨h0, l, hl, hi⟩ := hg
    refine ⟨h0, l.map (Option.map intToFloatVal), ?_, ?_⟩
    · rw [h1]; simp [ADF.convCols, hc, hl]
    · simp only [Int.toNat_natCast] at hi
      simp [hi, intToFloatVal]
  · intro k c hi hf
    simp only [ADF.convCols]
    by_cases hc : c ∈ cols
    · cases k <;> simp_all
    · simp [hc]

/-- C50, bools: `BoolToFloats(cols...)` of distinct bool columns creates the float columns with 0/1 row
by row. What is missing from the claim: the bool column is not removed (see `C50_bool_refuted`), and an
int column of that name is. -/
theorem C50_boolToFloats_partial [GoFloat F] {d : DF} {h : Heap F} (wf : d.WF h) {cols : List GoStr} (hnd : cols.Nodup)
    (hcol : ∀ c ∈ cols, ((abs h d).col .bool c).isSome) :
    ∃ d' h', (Edit.boolToFloats cols : Edit F).run d h = .ok (d', h') ∧
      (abs h' d').nRows = (abs h d).nRows ∧ (abs h' d').isStr = (abs h d).isStr ∧ (abs h' d').enc = (abs h d).enc ∧
      (∀ c ∈ cols, (abs h' d').col .int c = none ∧ (abs h' d').col .bool c = (abs h d).col .bool c ∧
        ∀ (i : Nat) (b : Bool), d.get h .bool c i = .ok (.bool b) →
          d'.get h' .float c i = .ok (.float (if b then GoFloat.one else GoFloat.zero))) ∧
      (∀ k c, (k, c) ∉ cols.map (Kind.int, ·) → (k, c) ∉ cols.map (Kind.float, ·) →
        (abs h' d').col k c = (abs h d).col k c) ∧
      d'.WF h' ∧ (∀ d2 : DF, d2.WF h → d2.WF h') := by
  obtain ⟨h1, h2, h3⟩ := conv_abs wf .bool .int boolToFloatVal cols (by decide) hnd hcol
  refine ⟨_, _, rfl, ?_⟩
  simp only [boolToFloats_eq]
  rw [h1]
  refine ⟨rfl, rfl, rfl, ?_, ?_, h2, fun d2 w => w.safe h3⟩
  · intro c hc
    refine ⟨by simp [ADF.convCols, hc], by simp [ADF.convCols], ?_⟩
    intro i b hg
    rw [get_iff_abs] at hg ⊢
    obtain ⟨h0, l, hl, hi⟩ := hg
    refine ⟨h0, l.map (Option.map boolToFloatVal), ?_, ?_⟩
    · rw [h1]; simp [ADF.convCols, hc, hl]
    · simp only [Int.toNat_natCast] at hi
      cases b <;> simp [hi, boolToFloatVal]
  · intro k c hi hf
    simp only [ADF.convCols]
    by_cases hc : c ∈ cols
    · cases k <;> simp_all
    · simp [hc]

/-- C50 is false of the code for bools: the original bool column survives `BoolToFloats`
(raw_data.go:462 deletes the name from the int columns instead). -/
theorem C50_bool_refuted [GoFloat F] {d : DF} {h : Heap F} (wf : d.WF h) {c : GoStr}
    (hcol : ((abs h d).col .bool c).isSome) :
    ∃ d' h', (Edit.boolToFloats [c] : Edit F).run d h = .ok (d', h') ∧ ((abs h' d').col .bool c).isSome := by
  obtain ⟨d', h', he, _, _, _, h1, _⟩ := C50_boolToFloats_partial wf (cols := [c]) (by simp) (by simpa using hcol)
  exact ⟨d', h', he, by rw [(h1 c (by simp)).2.1]; exact hcol⟩

-- the hypotheses are met, and a refutation of the claim for bools on the demo dataframe
example : ∃ d' h', (Edit.boolToFloats [b!"b"] : Edit Int).run Demo.df Demo.h = .ok (d', h') ∧
    ((abs h' d').col .bool b!"b").isSome := C50_bool_refuted Demo.df_wf (by decide)
example : ∃ d' h', (Edit.intToFloats [b!"a"] : Edit Int).run Demo.df Demo.h = .ok (d', h') ∧
    (abs h' d').col .int b!"a" = none ∧ d'.get h' .float b!"a" 2 = .ok (.float 30) := by
  obtain ⟨d', h', he, _, _, _, h1, _⟩ := C50_intToFloats (F := Int) Demo.df_wf (cols := [b!"a"]) (by decide) (by decide)
  exact ⟨d', h', he, (h1 _ (by decide)).1, (h1 _ (by decide)).2 2 30 rfl⟩

/-! ### Overwrite -/

/-- C25, existing column: `OverwriteX(col, values)` with enough values is the loop
`for i, v := range values[:NumRows] { df.Xs(col).Set(i, v) }`. Afterwards row `a` reads the value given
for the last position `b` that shows the same row as `a` (so `values[a]` when no row is repeated), every
cell that is not one of the overwritten ones - in this or any other dataframe - is unchanged, and so is
all structure. -/
theorem C25_overwrite_existing [GoFloat F] {d : DF} {h : Heap F} (wf : d.WF h) {k : Kind} {c : GoStr}
    {vals : List (Val F)} (asString : Bool) (hc : ((abs h d).col k c).isSome) (hpos : 0 < d.numRows)
    (hl : d.numRows ≤ vals.length) :
    ∃ h', d.overwrite k c vals asString h = .ok (d, h') ∧
      d.setRows k c 0 (vals.take d.numRows) h = .ok h' ∧
      (∀ a b (ha : a < d.rows.length) (hb : b < d.rows.length), d.rows[b] = d.rows[a] →
        (∀ n (hn : n < d.rows.length), b < n → d.rows[n] ≠ d.rows[a]) →
        d.get h' k c a = .ok (vals[b]'(Nat.lt_of_lt_of_le hb hl))) ∧
      (∀ d2 : DF, locs h' d2 = locs h d2 ∧ ∀ k' c' (j : Nat),
        (∀ n, n < d.numRows → cellOf h d2 k' c' j ≠ cellOf h d k c n) →
        d2.get h' k' c' j = d2.get h k' c' j) := by
  obtain ⟨s, hs⟩ := col_isSome.1 hc
  have hlen : s.len ≠ 0 := by
    obtain ⟨N, h1, h2, _⟩ := wf.rect
    have := h2 (d.rows[0]'hpos) (List.getElem_mem _)
    rw [h1 _ _ hs]; omega
  have htc : tabCol (h.tab d.tab) (k, c) = s := by simp [tabCol, hs]
  have hrun : ∀ h', overwriteLoop s d.rows vals h = .ok h' → d.overwrite k c vals asString h = .ok (d, h') := by
    intro h' e
    simp [DF.overwrite, htc, hlen, e]
  have heq := overwriteLoop_eq (d := d) (k := k) (c := c) 0 vals h hs (by simpa [DF.numRows] using hl)
  simp only [List.drop_zero] at heq
  have htl : (vals.take d.rows.length).length = d.rows.length := by
    rw [List.length_take]; exact Nat.min_eq_left hl
  obtain ⟨h', he⟩ := setRows_ok (i := 0) (vs := vals.take d.rows.length) wf hc (by rw [htl]; simp [DF.numRows])
  refine ⟨h', hrun h' (by rw [heq, he]), he, ?_, ?_⟩
  · intro a b ha hb hab hlast
    have := setRows_last wf he (a := a) (b := b) (Nat.zero_le _) (by rw [htl]; omega) hb ha (by rw [htl]; omega) hab
      (fun n hn h1 _ => hlast n hn h1)
    rw [this]; simp
  · intro d2
    refine ⟨(setRows_quiet he).locs d2, fun k' c' j hno => ?_⟩
    refine setRows_other wf he (fun n _ hn => Or.inr ?_)
    refine hno n ?_
    rw [htl] at hn; simpa [DF.numRows] using hn

/-- C25, new column: when `col` is not a column of that type and the dataframe has some column,
`OverwriteX` creates it: it is a column of that type, marked as string iff it was or strings are stored,
row `a` reads the last value given for it, and no other column of this or any other dataframe changes.
Every dataframe stays consistent. -/
theorem C25_overwrite_creates [GoFloat F] {d : DF} {h : Heap F} (wf : d.WF h) {k : Kind} {c : GoStr}
    {vals : List (Val F)} (asString : Bool) (hc : (abs h d).col k c = none)
    (hne : ∃ k' c', ((abs h d).col k' c').isSome) (hl : d.numRows ≤ vals.length) :
    ∃ d' h', d.overwrite k c vals asString h = .ok (d', h') ∧ d'.rows = d.rows ∧
      ((abs h' d').col k c).isSome ∧
      (∀ x, (abs h' d').isStr x = ((abs h d).isStr x || decide (k = .obj ∧ asString = true ∧ x = c))) ∧
      (∀ a b (ha : a < d.rows.length) (hb : b < d.rows.length), d.rows[b] = d.rows[a] →
        (∀ n (hn : n < d.rows.length), b < n → d.rows[n] ≠ d.rows[a]) →
        d'.get h' k c a = .ok (vals[b]'(Nat.lt_of_lt_of_le hb hl))) ∧
      (∀ k' c', (k', c') ≠ (k, c) → (abs h' d').col k' c' = (abs h d).col k' c') ∧
      (∀ d2 : DF, d2.WF h → d2.WF h' ∧
        ∀ k' c', (k', c') ≠ (k, c) → (abs h' d2).col k' c' = (abs h d2).col k' c') ∧
      d'.WF h' := by
  have hg : AMap.get (h.tab d.tab) (k, c) = none := col_eq_none.1 hc
  have htc : (tabCol (h.tab d.tab) (k, c)).len = 0 := by simp [tabCol, hg, Slice.nil]
  -- the allocation step
  have step : ∃ r1 h1, (if k = .obj ∧ asString = true then d.withRaw (d.toRaw.allocStrings [c] h)
        else d.withRaw (d.toRaw.alloc k [c] h)) = ({ d with toRaw := r1 }, h1) ∧
      CreateSpec k c h d.toRaw h1 r1 ∧ DF.WF h1 { d with toRaw := r1 } ∧ Safe h h1 ∧
      (∀ x, (abs h1 { d with toRaw := r1 }).isStr x = ((abs h d).isStr x || decide (k = .obj ∧ asString = true ∧ x = c))) := by
    by_cases hk : k = .obj ∧ asString = true
    · obtain ⟨rfl, rfl⟩ := hk
      obtain ⟨g1, g2, g3⟩ := allocStrings_abs wf (tab_ne_nil_iff.2 hne) [c]
      refine ⟨_, _, by simp [DF.withRaw], create_allocStrings wf.toWF c, g2, g3, ?_⟩
      intro x; rw [g1]; simp [ADF.markCols, ADF.allocCols, Bool.or_comm]
    · obtain ⟨g1, g2, g3⟩ := alloc_abs wf (tab_ne_nil_iff.2 hne) k [c]
      refine ⟨_, _, by simp [DF.withRaw, hk], create_alloc wf.toWF k c, g2, g3, ?_⟩
      intro x; rw [g1]
      have : ¬ (k = .obj ∧ asString = true ∧ x = c) := fun h => hk ⟨h.1, h.2.1⟩
      simp [ADF.allocCols, this]
  obtain ⟨r1, h1, e1, cs, w1, sf, hmark⟩ := step
  obtain ⟨s, hs, hfresh, _⟩ := cs.new
  generalize hd1 : ({ d with toRaw := r1 } : DF) = d1 at *
  have htab1 : d1.tab = r1.tab := by rw [← hd1]
  have hrows1 : d1.rows = d.rows := by rw [← hd1]; rfl
  rw [← htab1] at hs
  have hc1 : ((abs h1 d1).col k c).isSome := col_isSome.2 ⟨s, hs⟩
  have htc1 : tabCol (h1.tab d1.tab) (k, c) = s := by simp [tabCol, hs]
  have heq := overwriteLoop_eq (d := d1) (k := k) (c := c) 0 vals h1 hs (by simpa [DF.numRows, hrows1] using hl)
  simp only [List.drop_zero] at heq
  have htl : (vals.take d1.rows.length).length = d1.rows.length := by
    rw [List.length_take, hrows1]; exact Nat.min_eq_left hl
  obtain ⟨h', he⟩ := setRows_ok (i := 0) (vs := vals.take d1.rows.length) w1 hc1 (by rw [htl]; simp [DF.numRows])
  have hloop : overwriteLoop s d1.rows vals h1 = .ok h' := by rw [heq, he]
  obtain ⟨q, hfr⟩ := overwriteLoop_frame hloop
  have hcells : ∀ (s' : Slice), s'.Valid h → h'.cell s' = h.cell s' := by
    intro s' v
    apply Heap.cell_congr
    rcases v.2 with h0 | ⟨h0, _⟩
    · left; have := v.1; omega
    · right; rw [hfr _ (by omega), cs.arr _ h0]
  refine ⟨d1, h', ?_, hrows1, ?_, ?_, ?_, ?_, ?_, w1.safe q.safe⟩
  · simp only [DF.overwrite, htc, if_true]
    rw [e1]
    simp only [htc1, hloop]
  · exact col_isSome.2 ⟨s, by rw [q.tab]; exact hs⟩
  · intro x
    rw [← hmark x]
    have : hdrList h' d1.strHdr = hdrList h1 d1.strHdr := by unfold hdrList; rw [q.hdr]
    simp only [abs, this]
  · intro a b ha hb hab hlast
    have := setRows_last w1 he (a := a) (b := b) (Nat.zero_le _) (by rw [htl, hrows1]; omega) (by rw [hrows1]; exact hb)
      (by rw [hrows1]; exact ha) (by rw [htl]; omega) (by simpa [hrows1] using hab)
      (fun n hn h1 _ => by simpa [hrows1] using hlast n (by rw [← hrows1]; exact hn) h1)
    rw [this]; simp
  · intro k' c' hne'
    have : (h'.tab d1.tab) = h1.tab r1.tab := by rw [q.tab, htab1]
    simp only [abs, this, cs.old _ hne', hrows1]
    cases hg' : AMap.get (h.tab d.tab) (k', c') with
    | none => rfl
    | some s' => simp [hcells s' (wf.slices _ _ hg')]
  · intro d2 w2
    refine ⟨(w2.safe sf).safe q.safe, fun k' c' hne' => ?_⟩
    simp only [abs, q.tab, cs.cols _ w2.tab_lt _ hne']
    cases hg' : AMap.get (h.tab d2.tab) (k', c') with
    | none => rfl
    | some s' => simp [hcells s' (w2.slices _ _ hg')]

/-- C25: with fewer values than rows, `OverwriteX` panics. -/
theorem C25_overwrite_short [GoFloat F] {d : DF} {h : Heap F} {k : Kind} {c : GoStr} {vals : List (Val F)}
    (asString : Bool) (hl : vals.length < d.numRows) : d.overwrite k c vals asString h = .error .panic := by
  have hr : ∀ p : DF × Heap F, p.1.rows = d.rows →
      (match overwriteLoop (tabCol (p.2.tab p.1.tab) (k, c)) p.1.rows vals p.2 with
        | .error e => Except.error e
        | .ok h => .ok (p.1, h)) = (.error .panic : Except Abort (DF × Heap F)) := by
    intro p hp
    rw [overwriteLoop_short _ (by rw [hp]; exact hl)]
  unfold DF.overwrite
  simp only
  apply hr
  split
  · split <;> rfl
  · rfl

/-- C25 on a dataframe without repeated rows: row `i` reads `values[i]`. -/
theorem C25_overwrite_no_repeat [GoFloat F] {d d' : DF} {h h' : Heap F} (wf : d.WF h) {k : Kind} {c : GoStr}
    {vals : List (Val F)} {asString : Bool} (hne : ∃ k' c', ((abs h d).col k' c').isSome)
    (hd : d.rows.Nodup) (e : d.overwrite k c vals asString h = .ok (d', h')) (i : Nat) (hi : i < d.numRows) :
    ∃ v, vals[i]? = some v ∧ d'.get h' k c i = .ok v := by
  have hl : d.numRows ≤ vals.length := by
    rcases Nat.lt_or_ge vals.length d.numRows with h1 | h1
    · rw [C25_overwrite_short asString h1] at e; cases e
    · exact h1
  have hlast : ∀ n (hn : n < d.rows.length), i < n → d.rows[n] ≠ d.rows[i]'hi := by
    intro n hn hin he
    have := (List.getElem_inj hd).1 he; omega
  refine ⟨vals[i]'(Nat.lt_of_lt_of_le hi hl), List.getElem?_eq_getElem _, ?_⟩
  cases hc : (abs h d).col k c with
  | some l =>
    obtain ⟨h2, e2, _, h3, _⟩ := C25_overwrite_existing wf asString (by rw [hc]; rfl) (by omega) hl
    rw [e] at e2; cases e2
    exact h3 i i hi hi rfl hlast
  | none =>
    obtain ⟨d2, h2, e2, _, _, _, h3, _⟩ := C25_overwrite_creates wf asString hc hne hl
    rw [e] at e2; cases e2
    exact h3 i i hi hi rfl hlast

-- the hypotheses are met: overwrite an existing column of the reversed demo, and create a new one
example : ∃ d' h', Demo.df.reverseView.overwrite .int b!"a" [.int 1, .int 2, .int 3, .int 4] false Demo.h = .ok (d', h') ∧
    d'.get h' .int b!"a" 2 = .ok (.int 3) := by
  have w := (reverseView_rowView Demo.df_wf).wf
  obtain ⟨h', e, _, h3, _⟩ := C25_overwrite_existing (k := .int) (c := b!"a") (vals := [.int 1, .int 2, .int 3, .int 4]) w
    false (by decide) (by decide) (by decide)
  exact ⟨_, h', e, h3 2 2 (by decide) (by decide) rfl (by decide)⟩
example : ∃ d' h', Demo.df.overwrite .obj b!"new" [.nil, .str b!"q", .nil, .str b!"r"] true Demo.h = .ok (d', h') ∧
    d'.get h' .obj b!"new" 1 = .ok (.str b!"q") ∧ (abs h' d').isStr b!"new" = true := by
  obtain ⟨d', h', e, _, _, hm, h3, _⟩ := C25_overwrite_creates (k := .obj) (c := b!"new")
    (vals := [.nil, .str b!"q", .nil, .str b!"r"]) Demo.df_wf true (by decide) ⟨.int, b!"a", by decide⟩ (by decide)
  exact ⟨_, h', e, h3 1 1 (by decide) (by decide) rfl (by decide), by rw [hm]; decide⟩

end Verif
