import Verif.Props.RowConcat
import Verif.Props.Splits
import Verif.Proofs.Disk

/-! C89: what was cut into views can be stacked again. -/

namespace Verif
open scoped Demo
variable {F : Type}

/-- The parts can be listed in any way. -/
theorem Parts.all {h : Heap F} {df : DF} {h' : Heap F} {vs : List DF} {parts : List (List Nat)} (p : Parts h df h' vs parts) :
    List.Forall₂ (fun v is => RowView h df h' v is) vs parts := by
  induction p with
  | nil => exact .nil
  | cons r _ ih => exact .cons r ih

/-- Row views of one dataframe, stacked: the rows of the views, one after the other. -/
theorem stack_views {h : Heap F} {df : DF} {h' : Heap F} {v : DF} {is : List Nat} {vs : List DF} {parts : List (List Nat)}
    (hv : List.Forall₂ (fun v is => RowView h df h' v is) (v :: vs) (is :: parts)) :
    (abs h' v).stack (vs.map (abs h')) = { (abs h df).select (is :: parts).flatten with enc := none } := by
  have hm : (v :: vs).map (abs h') = (is :: parts).map (abs h df).select := by
    generalize v :: vs = l at hv
    generalize is :: parts = ps at hv
    induction hv with
    | nil => rfl
    | cons r _ ih => rw [List.map_cons, List.map_cons, r.shows, ih]
  have hm' : abs h' v :: vs.map (abs h') = (is :: parts).map (abs h df).select := by rw [← hm, List.map_cons]
  have hv0 : abs h' v = (abs h df).select is := by cases hv with | cons r _ => exact r.shows
  unfold ADF.stack
  rw [hm', hv0]
  generalize hq : is :: parts = ps
  have h1 : ((ps.map (abs h df).select).map (·.nRows)).sum = ((abs h df).select ps.flatten).nRows := by
    rw [List.map_map]
    show (ps.map List.length).sum = ps.flatten.length
    rw [List.length_flatten]
  have h2 : ∀ k c, (((abs h df).select is).col k c).map (fun _ => (ps.map (abs h df).select).flatMap fun a => (a.col k c).getD []) =
      ((abs h df).select ps.flatten).col k c := by
    intro k c
    unfold ADF.select
    simp only
    cases hc : (abs h df).col k c with
    | none => rfl
    | some l =>
      simp only [Option.map_some, Option.some.injEq]
      rw [List.flatMap_map, List.map_flatten, List.flatMap_def]
      congr 1
      apply List.map_congr_left
      intro a _
      simp [hc]
  have h3 : ∀ c, (ps.map (abs h df).select).any (·.isStr c) = ((abs h df).select ps.flatten).isStr c := by
    intro c
    subst hq
    rw [List.any_map]
    show (is :: parts).any (fun _ => (abs h df).isStr c) = (abs h df).isStr c
    cases (abs h df).isStr c <;> simp
  simp only [h1, h2, h3]

/-- **C89** (row views). `RowConcat` of row views of one dataframe, in any number and order (at least one), returns no error; it has the rows of
the views one after the other, with the columns, types and string marks of the dataframe (and no text encoding); nothing that existed changes. -/
theorem C89_stack_views [GoFloat F] {h : Heap F} {df : DF} {h' : Heap F} {vs : List DF} {parts : List (List Nat)} (hne : vs ≠ [])
    (hv : List.Forall₂ (fun v is => RowView h df h' v is) vs parts) :
    ∃ r h2, rowConcat vs h' = .ok (some (r, h2)) ∧ abs h2 r = { (abs h df).select parts.flatten with enc := none } ∧ r.WF h2 ∧
      NothingChanges h' h2 := by
  match vs, parts, hv, hne with
  | v :: vs, is :: parts, hv, _ =>
    have wfs : ∀ d ∈ v :: vs, d.WF h' ∧ ∃ js, abs h' d = (abs h df).select js := by
      intro d hd
      obtain ⟨i, hi⟩ := List.mem_iff_getElem?.1 hd
      rw [List.forall₂_iff_get] at hv
      obtain ⟨hl, hg⟩ := hv
      obtain ⟨hi1, rfl⟩ := List.getElem?_eq_some_iff.1 hi
      have := hg i hi1 (by omega)
      exact ⟨this.wf, _, this.shows⟩
    obtain ⟨r, h2, e, hs, wr, -, oth⟩ := C21_rowConcat_stacks (fun d hd => (wfs d hd).1) (by
      intro d hd k c hc
      obtain ⟨-, js, hj⟩ := wfs d (by simp [hd])
      obtain ⟨-, js', hj'⟩ := wfs v (by simp)
      rw [hj] at *
      rw [hj'] at hc
      simpa [ADF.select] using hc)
    refine ⟨r, h2, e, ?_, wr, oth⟩
    rw [hs, stack_views hv]

/-- **C89** (`SplitView`). `RowConcat` of the batches of `SplitView` shows the dataframe again. -/
theorem C89_splitView [GoFloat F] {df : DF} {h : Heap F} (wf : df.WF h) {b : Int} (hb : 0 < b) :
    ∃ vs h1 r h2, df.splitView b h = .ok (vs, h1) ∧ rowConcat vs h1 = .ok (some (r, h2)) ∧
      abs h2 r = { abs h df with enc := none } ∧ r.WF h2 := by
  obtain ⟨vs, h1, parts, e, hp, hf, -, -, hl⟩ := C09_splitView wf hb
  have hne : vs ≠ [] := by
    intro hx
    have := hp.length_eq
    rw [hx, hl] at this
    simp only [List.length_nil] at this
    split at this
    · omega
    · have : 1 ≤ (df.numRows + b.toNat - 1) / b.toNat := (Nat.le_div_iff_mul_le (by omega)).2 (by omega)
      omega
  obtain ⟨r, h2, e2, hs, wr, -⟩ := C89_stack_views hne hp.all
  refine ⟨vs, h1, r, h2, e, e2, ?_, wr⟩
  rw [hs, hf, select_range_abs]

/-- The elements of the other lists are those that are not in this one. -/
theorem flatten_erase {l : List (List Nat)} (nd : l.flatten.Nodup) {i : Nat} {q : List Nat} (hq : l[i]? = some q) :
    (l.eraseIdx i).flatten = l.flatten.filter fun j => decide (j ∉ q) := by
  obtain ⟨hi, rfl⟩ := List.getElem?_eq_some_iff.1 hq
  obtain ⟨q, hq⟩ : ∃ q, q = l[i] := ⟨_, rfl⟩
  rw [← hq]
  have hsplit : l = l.take i ++ q :: l.drop (i + 1) := by
    rw [hq, List.getElem_cons_drop, List.take_append_drop]
  rw [List.eraseIdx_eq_take_drop_succ]
  generalize l.take i = x at *
  generalize l.drop (i + 1) = y at *
  rw [hsplit] at nd ⊢
  rw [List.flatten_append, List.flatten_cons] at nd
  rw [List.flatten_append, List.flatten_append, List.flatten_cons, List.filter_append, List.filter_append]
  rw [List.nodup_append] at nd
  obtain ⟨-, hn2, hn3⟩ := nd
  rw [List.nodup_append] at hn2
  obtain ⟨-, -, hn4⟩ := hn2
  have f1 : x.flatten.filter (fun j => decide (j ∉ q)) = x.flatten := by
    rw [List.filter_eq_self]
    intro j hj
    simp only [decide_eq_true_eq]
    intro hm
    exact hn3 j hj j (List.mem_append_left _ hm) rfl
  have f2 : q.filter (fun j => decide (j ∉ q)) = [] := by
    rw [List.filter_eq_nil_iff]
    intro j hj
    simpa using hj
  have f3 : y.flatten.filter (fun j => decide (j ∉ q)) = y.flatten := by
    rw [List.filter_eq_self]
    intro j hj
    simp only [decide_eq_true_eq]
    intro hm
    exact hn4 j hm j hj rfl
  rw [f1, f2, f3, List.nil_append]

/-- **C89** (leaving one out). Of the batches of `SplitView`, at least two of them, leave out any one: `RowConcat` of the others has the rows of the dataframe that the
batch left out does not have, in order; each row is in exactly one of the two. -/
theorem C89_leaveOut [GoFloat F] {df : DF} {h : Heap F} (wf : df.WF h) {b : Int} (hb : 0 < b) (h2 : b < df.numRows) :
    ∃ vs h1, df.splitView b h = .ok (vs, h1) ∧ 2 ≤ vs.length ∧ ∀ i v, vs[i]? = some v →
      ∃ r h2 left, rowConcat (vs.eraseIdx i) h1 = .ok (some (r, h2)) ∧ r.WF h2 ∧
        abs h2 v = (abs h df).select left ∧
        abs h2 r = { (abs h df).select ((List.range df.numRows).filter fun j => decide (j ∉ left)) with enc := none } ∧
        left = rowRange (i * b.toNat) (min ((i + 1) * b.toNat) df.numRows) := by
  obtain ⟨vs, h1, parts, e, hp, hf, hfull, hlast, hl⟩ := C09_splitView wf hb
  have hvl := hp.length_eq
  have hle : ∀ p ∈ parts, p.length ≤ b.toNat := by
    intro p hpm
    rcases List.eq_nil_or_concat parts with rfl | ⟨ini, last, rfl⟩
    · simp at hpm
    · simp only [List.concat_eq_append, List.mem_append, List.mem_singleton] at hpm
      simp only [List.concat_eq_append, List.dropLast_concat, List.getLast?_concat] at hfull hlast
      rcases hpm with hm | rfl
      · exact Nat.le_of_eq (hfull p hm)
      · exact (hlast p rfl).1
  have h2l : 2 ≤ parts.length := by
    rw [hl, if_neg (by omega)]
    exact (Nat.le_div_iff_mul_le (by omega)).2 (by omega)
  refine ⟨vs, h1, e, by omega, ?_⟩
  intro i v hv
  have hi : i < parts.length := by rw [← hvl]; exact (List.getElem?_eq_some_iff.1 hv).1
  have hall := hp.all
  have hgi := parts_at (m := b.toNat) parts 0 df.numRows (by rw [hf, List.range_eq_range']) hle hfull (List.getElem?_eq_getElem hi)
  have herase : List.Forall₂ (fun v is => RowView h df h1 v is) (vs.eraseIdx i) (parts.eraseIdx i) := by
    rw [List.forall₂_iff_get] at hall ⊢
    obtain ⟨-, hg⟩ := hall
    refine ⟨by rw [List.length_eraseIdx, List.length_eraseIdx, hvl], ?_⟩
    intro j hj1 hj2
    simp only [List.get_eq_getElem, List.getElem_eraseIdx] at hg ⊢
    split
    · exact hg j (by rw [List.length_eraseIdx] at hj1; split at hj1 <;> omega) (by rw [List.length_eraseIdx] at hj2; split at hj2 <;> omega)
    · exact hg (j + 1) (by rw [List.length_eraseIdx, if_pos (by omega)] at hj1; omega) (by rw [List.length_eraseIdx, if_pos (by omega)] at hj2; omega)
  obtain ⟨r, h3, e2, hs, wr, hch⟩ := C89_stack_views (by
    intro hx
    have := congrArg List.length hx
    rw [List.length_eraseIdx, if_pos (by omega)] at this
    simp at this; omega) herase
  have rv : RowView h df h1 v parts[i] := by
    rw [List.forall₂_iff_get] at hall
    obtain ⟨hi1, rfl⟩ := List.getElem?_eq_some_iff.1 hv
    exact hall.2 i hi1 hi
  refine ⟨r, h3, parts[i], e2, wr, ?_, ?_, ?_⟩
  · rw [(hch v rv.wf).1, rv.shows]
  · rw [hs]
    rw [flatten_erase (by rw [hf]; exact List.nodup_range) (List.getElem?_eq_getElem hi), hf]
  · rw [hgi, Nat.zero_add]
    unfold rowRange
    congr 1
    rw [Nat.succ_mul]
    omega

/-- **C89** (`SplitTrainTestViews`). `RowConcat` of the two parts shows the dataframe again. -/
theorem C89_trainTest [GoFloat F] {df : DF} {h : Heap F} (wf : df.WF h) {ratio : F}
    (hr : GoFloat.lt ratio (GoFloat.zero : F) = false ∧ GoFloat.lt (GoFloat.one : F) ratio = false)
    (t : Nat) (ht : GoFloat.trunc (GoFloat.mul (GoFloat.ofInt df.numRows) ratio : F) = t) (hle : t ≤ df.numRows) :
    ∃ train test h1 r h2, df.splitTrainTestViews ratio h = .ok ((train, test), h1) ∧ rowConcat [train, test] h1 = .ok (some (r, h2)) ∧
      abs h2 r = { abs h df with enc := none } ∧ r.WF h2 := by
  obtain ⟨train, test, h1, e, r1, r2⟩ := C11_splitTrainTest wf hr t ht hle
  obtain ⟨r, h2, e2, hs, wr, -⟩ := C89_stack_views (by simp) (.cons r1 (.cons r2 .nil))
  refine ⟨train, test, h1, r, h2, e, e2, ?_, wr⟩
  rw [hs]
  simp only [List.flatten_cons, List.flatten_nil, List.append_nil]
  rw [(C11_partition _ _ hle).1, select_range_abs]

/-- **C89** (`SplitNView`). `RowConcat` of the `n` parts shows the dataframe again when there is a row for each of the parts; otherwise, if there is a column at all, it
returns an error, because the empty parts have no columns. -/
theorem C89_splitNView_partial [GoFloat F] {df : DF} {h : Heap F} (wf : df.WF h) {n : Nat} (hn : 1 ≤ n) (h0 : 0 < df.numRows) :
    ∃ vs h1, df.splitNView n h = .ok (vs, h1) ∧
      ((n - 1) * ((df.numRows + n - 1) / n) < df.numRows →
        ∃ r h2, rowConcat vs h1 = .ok (some (r, h2)) ∧ abs h2 r = { abs h df with enc := none } ∧ r.WF h2) ∧
      (¬ (n - 1) * ((df.numRows + n - 1) / n) < df.numRows → (∃ k c, ((abs h df).col k c).isSome) → rowConcat vs h1 = .ok none) := by
  obtain ⟨vs, pad, h1, parts, e, hlen, hp, hf, hev, hpad⟩ := C10_splitNView_partial wf (n := (n : Int)) (by omega) h0
  rw [Int.toNat_natCast] at hlen hev
  have hvl := hp.length_eq
  have hpl : parts.length ≤ n := by rw [List.length_append] at hlen; omega
  have hcount := shares_count hn h0 rfl hf hpl hev
  refine ⟨vs ++ pad, h1, e, ?_, ?_⟩
  · intro hx
    have hpn := hcount.2 hx
    have hnil : pad = [] := by
      rw [List.length_append] at hlen
      exact List.length_eq_zero_iff.1 (by omega)
    subst hnil
    rw [List.append_nil]
    obtain ⟨r, h2, e2, hs, wr, -⟩ := C89_stack_views (by
      intro hy
      rw [hy] at hvl
      simp at hvl; omega) hp.all
    exact ⟨r, h2, e2, by rw [hs, hf, select_range_abs], wr⟩
  · intro hx hcol
    obtain ⟨k, c, hkc⟩ := hcol
    have hpn : parts.length < n := by
      have := mt hcount.1 hx
      omega
    have hvne : vs ≠ [] := by
      intro hy
      rw [hy] at hvl
      have : parts = [] := List.length_eq_zero_iff.1 hvl.symm
      rw [this] at hf
      have := congrArg List.length hf
      simp at this; omega
    have hpne : pad ≠ [] := by
      rintro rfl
      simp at hlen; omega
    rw [C21_rowConcat_error_partial _ _ (by
      intro d hd
      rcases List.mem_append.1 hd with hd | hd
      · obtain ⟨i, hi⟩ := List.mem_iff_getElem?.1 hd
        have := hp.all
        rw [List.forall₂_iff_get] at this
        obtain ⟨hi1, rfl⟩ := List.getElem?_eq_some_iff.1 hi
        exact (this.2 i hi1 (by omega)).wf
      · exact (hpad d hd).1)]
    right
    match vs, parts, hp, hvne with
    | v :: vs, is :: parts, .cons r _, _ =>
      refine ⟨v, vs ++ pad, rfl, ?_⟩
      obtain ⟨x, xs, rfl⟩ := List.exists_cons_of_ne_nil hpne
      refine ⟨x, by simp, k, c, ?_, (hpad x (by simp)).2.2.1 k c⟩
      rw [r.shows]
      simpa [ADF.select] using hkc

/-- **C89** (`MaskView` and its complement). `RowConcat` of `MaskView(mask)` and of `MaskView` of the negated mask, for a mask as long as the dataframe: the rows where the
mask is true, then the rows where it is false, each in order; every row of the dataframe exactly once. -/
theorem C89_mask [GoFloat F] {df : DF} {h : Heap F} (wf : df.WF h) {m : List Bool} (hm : m.length = df.numRows) :
    ∃ v w r h2 is, df.maskView m = .ok v ∧ df.maskView (m.map (!·)) = .ok w ∧ rowConcat [v, w] h = .ok (some (r, h2)) ∧
      is = ((List.range df.numRows).filter fun i => m.getD i false) ++ ((List.range df.numRows).filter fun i => !m.getD i false) ∧
      is.Perm (List.range df.numRows) ∧ abs h2 r = { (abs h df).select is with enc := none } ∧ r.WF h2 ∧ NothingChanges h h2 := by
  obtain ⟨v, e1, r1⟩ := C02_maskView wf (m := m) (by omega)
  obtain ⟨w, e2, r2⟩ := C02_maskView wf (m := m.map (!·)) (by simp; omega)
  obtain ⟨r, h2, e3, hs, wr, oth⟩ := C89_stack_views (vs := [v, w]) (by simp) (.cons r1 (.cons r2 .nil))
  have hneg : ((List.range (m.map (!·)).length).filter fun i => (m.map (!·)).getD i false) = (List.range df.numRows).filter fun i => !m.getD i false := by
    rw [List.length_map, hm]
    apply List.filter_congr
    intro i hi
    have hi' : i < m.length := by rw [hm]; simpa using hi
    simp [List.getD_eq_getElem?_getD, List.getElem?_eq_getElem hi']
  refine ⟨v, w, r, h2, _, e1, e2, e3, rfl, List.filter_append_perm _ _, ?_, wr, oth⟩
  rw [hs, hneg, hm]
  simp

/-- The demo dataframe, of 4 rows, in batches of 3. -/
example := C89_splitView (F := Int) Demo.df_wf (b := 3) (by decide)

example := C89_mask (F := Int) Demo.df_wf (m := [true, false, false, true]) (by decide)

example := C89_leaveOut (F := Int) Demo.df_wf (b := 3) (by decide) (by decide)

example := C89_trainTest (F := Int) Demo.df_wf (ratio := 1) (by decide) 4 (by decide) (by decide)

/-- In 2 parts it can be stacked again; in 3 parts it cannot. -/
example : (∃ vs h1 r h2, Demo.df.splitNView 2 Demo.h = .ok (vs, h1) ∧ rowConcat vs h1 = .ok (some (r, h2)) ∧ (abs h2 r).nRows = 4) ∧
    ∃ vs h1, Demo.df.splitNView 3 Demo.h = .ok (vs, h1) ∧ rowConcat vs h1 = .ok none := by
  constructor
  · obtain ⟨vs, h1, e, a, -⟩ := C89_splitNView_partial (F := Int) Demo.df_wf (n := 2) (by decide) (by decide)
    obtain ⟨r, h2, b, c, -⟩ := a (by decide)
    exact ⟨vs, h1, r, h2, e, b, by rw [c]; rfl⟩
  · obtain ⟨vs, h1, e, -, a⟩ := C89_splitNView_partial (F := Int) Demo.df_wf (n := 3) (by decide) (by decide)
    exact ⟨vs, h1, e, a (by decide) ⟨.int, b!"a", by decide +kernel⟩⟩

end Verif
