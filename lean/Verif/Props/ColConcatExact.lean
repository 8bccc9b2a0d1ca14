import Verif.Props.ColConcat

/-! C22: what `ColumnConcatView` does with any dataframes. -/

namespace Verif
variable {F : Type}

/-- The dataframe `d`, looked at with the row positions of `d0` instead of its own. -/
def DF.atRowsOf (d d0 : DF) : DF := { d with idx := d0.idx }

/-- **C22**, exactly, for any consistent dataframes. `ColumnConcatView` returns an error if and only if a column name occurs
twice, or some dataframe has altered indices and the hash of another one's row positions differs from the hash of the first one's.
In all other cases it returns a dataframe with the rows of the first one, and the columns of all of them *at the row positions of the
first one*: a column of another dataframe shows its own rows only if that dataframe has the same row positions, and has an unreadable cell
where it is too short. A name is marked as string if some dataframe marks it, provided that the first one marks some
name. Nothing else changes. -/
theorem C22_concatView_exact {h : Heap F} {d0 : DF} {rest : List DF} (wfs : ∀ d ∈ d0 :: rest, d.WF h) :
    (columnConcatView (d0 :: rest) h = .ok none ↔
      ¬ NoOverlap ((d0 :: rest).map (abs h)) ∨
      ((∃ d ∈ d0 :: rest, d.indexViewed = true) ∧ ∃ d ∈ rest, hashIntSlice d.rows ≠ hashIntSlice d0.rows)) ∧
    (columnConcatView (d0 :: rest) h ≠ .ok none →
      ∃ r h', columnConcatView (d0 :: rest) h = .ok (some (r, h')) ∧
        (abs h' r).nRows = (abs h d0).nRows ∧ (abs h' r).enc = none ∧
        (∀ d ∈ d0 :: rest, ∀ k c, ((abs h d).col k c).isSome →
          (abs h' r).col k c = (abs h (d.atRowsOf d0)).col k c ∧ (locs h' r).col k c = (locs h (d.atRowsOf d0)).col k c) ∧
        (∀ k c, ((abs h' r).col k c).isSome → ∃ d ∈ d0 :: rest, ((abs h d).col k c).isSome) ∧
        (∀ c, (abs h' r).isStr c = true ↔ (∃ y, (abs h d0).isStr y = true) ∧ ∃ d ∈ d0 :: rest, (abs h d).isStr c = true) ∧
        ∀ d : DF, d.WF h → abs h' d = abs h d ∧ locs h' d = locs h d ∧ d.WF h') := by
  have hany : ((d0 :: rest).any (·.indexViewed) = true ∧
      rest.any (fun d => hashIntSlice d.rows != hashIntSlice d0.rows) = true) ↔
      ((∃ d ∈ d0 :: rest, d.indexViewed = true) ∧ ∃ d ∈ rest, hashIntSlice d.rows ≠ hashIntSlice d0.rows) := by
    rw [List.any_eq_true, List.any_eq_true]
    simp
  by_cases ov : NoOverlap ((d0 :: rest).map (abs h))
  · have hc := (overlap_iff wfs).2 ov
    by_cases hx : (∃ d ∈ d0 :: rest, d.indexViewed = true) ∧ ∃ d ∈ rest, hashIntSlice d.rows ≠ hashIntSlice d0.rows
    · have e : columnConcatView (d0 :: rest) h = .ok none := by
        unfold columnConcatView
        rw [if_neg (by rw [hc]; simp)]
        simp only
        rw [if_pos (hany.2 hx)]
      exact ⟨⟨fun _ => Or.inr hx, fun _ => e⟩, fun hn => absurd e hn⟩
    · have e : columnConcatView (d0 :: rest) h = .ok (some (mergeViews rest (d0.shallowCopy h).1 (d0.shallowCopy h).2)) := by
        unfold columnConcatView
        rw [if_neg (by rw [hc]; simp)]
        simp only
        rw [if_neg (fun hn => hx (hany.1 hn))]
      have sp := columnConcat_step wfs ov
      refine ⟨⟨fun hn => ?_, fun hn => ?_⟩, fun _ => ?_⟩
      · rw [e] at hn; cases hn
      · rcases hn with hn | hn
        · exact absurd ov hn
        · exact absurd hn hx
      generalize mergeViews rest (d0.shallowCopy h).1 (d0.shallowCopy h).2 = p at sp e
      obtain ⟨r, h'⟩ := p
      simp only at sp
      have hrows : r.rows = d0.rows := by simp [DF.rows, sp.idx]
      have hcell : h'.cell = h.cell := by funext s i; simp only [Heap.cell, sp.arr]
      have hget : ∀ d ∈ d0 :: rest, ∀ q, (AMap.get (h.tab d.tab) q).isSome → AMap.get (h'.tab r.tab) q = AMap.get (h.tab d.tab) q := by
        intro d hd q hq
        rw [sp.get]
        have pw := pairwise_cols ov q
        revert hd pw
        generalize d0 :: rest = ds
        intro hd pw
        induction ds with
        | nil => cases hd
        | cons a as ih =>
          rw [List.findSome?_cons]
          rw [List.pairwise_cons] at pw
          rcases List.mem_cons.1 hd with rfl | hd
          · obtain ⟨s, hs⟩ := Option.isSome_iff_exists.1 hq
            rw [hs]
          · cases hg : AMap.get (h.tab a.tab) q with
            | none => exact ih hd pw.2
            | some s => exact absurd hq (pw.1 d hd (by rw [hg]; rfl))
      refine ⟨r, h', e, ?_, sp.enc, ?_, ?_, ?_, ?_⟩
      · simp [abs, DF.numRows, hrows]
      · intro d hd k c hk
        have hg := hget d hd (k, c) (by simpa [abs] using hk)
        have hr' : (d.atRowsOf d0).rows = d0.rows := rfl
        constructor
        · simp only [abs, hg, hrows, hcell, hr']; rfl
        · simp only [locs, hg, hrows, hr']; rfl
      · intro k c hk
        simp only [abs, Option.isSome_map] at hk
        obtain ⟨s, hs⟩ := Option.isSome_iff_exists.1 hk
        rw [sp.get] at hs
        obtain ⟨d, hd, hg⟩ := findSome_mem hs
        exact ⟨d, hd, by simp [abs, hg]⟩
      · intro c
        have : (abs h' r).isStr c = true ↔ c ∈ hdrList h' r.strHdr := by simp [abs]
        rw [this, sp.str c]
      · intro d wd
        exact ⟨abs_ext sp.ext wd.toWF, locs_ext sp.ext wd.toWF, wd.ext sp.ext⟩
  · have e := (C22_concatView_errors wfs).1 ov
    exact ⟨⟨fun _ => Or.inl ov, fun _ => e⟩, fun hn => absurd e hn⟩

/-! ### example: four rows beside two -/

/-- The result of `C22_rows_refuted` is what the theorem says. -/
example : ∃ (a b : DF) (h : Heap Int), (∀ d ∈ [a, b], d.WF h) ∧ columnConcatView [a, b] h ≠ .ok none ∧
    (abs h (b.atRowsOf a)).col .float b!"z" = some [some (.float 5), some (.float 3), none, none] := by
  have hd : okAnd Demo.twoLens (fun p => p.1.1.checkWF p.2 4 && p.1.2.checkWF p.2 2 &&
      decide (okAnd (columnConcatView [p.1.1, p.1.2] p.2) (fun o => o.isSome) = true) &&
      decide ((abs p.2 (p.1.2.atRowsOf p.1.1)).col .float b!"z" = some [some (.float 5), some (.float 3), none, none])) = true := by decide
  obtain ⟨⟨⟨a, b⟩, h⟩, _, hx⟩ := okAnd_iff.1 hd
  simp only [Bool.and_eq_true, decide_eq_true_eq] at hx
  obtain ⟨⟨⟨h1, h2⟩, h3⟩, h4⟩ := hx
  refine ⟨a, b, h, ?_, ?_, h4⟩
  · intro d hd
    simp at hd
    rcases hd with rfl | rfl
    · exact DF.wf_of_check 4 h1
    · exact DF.wf_of_check 2 h2
  · intro hn
    rw [hn] at h3
    cases h3

open Demo in
example := C22_concatView_exact (h := h) (d0 := df) (rest := []) (by intro d hd; simp at hd; subst hd; exact df_wf)

end Verif
