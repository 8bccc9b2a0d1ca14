import Verif.Props.Splits
import Verif.Proofs.Apart

/-! C12: writing through a view writes the cell of the parent and nothing else.

`locs h d` lists, for every typed column and row of `d`, the memory cell behind it. Two dataframes
"show the same cell" at some rows exactly when `locs` gives the same location there. -/

namespace Verif
open scoped Demo
variable {F : Type}

/-- The memory cell behind `d.Xs(c)` at row `i`. -/
def cellOf (h : Heap F) (d : DF) (k : Kind) (c : GoStr) (i : Nat) : Option (Nat × Nat) :=
  ((locs h d).col k c).bind fun l => (l[i]?).join

theorem get_of_cellOf {h : Heap F} {d : DF} (k : Kind) (c : GoStr) (i : Nat) (v : Val F) :
    d.get h k c i = .ok v ↔ ∃ l, cellOf h d k c i = some l ∧ h.at l = some v := by
  rw [get_iff_abs, abs_eq_locs]
  simp only [ADF.bindCells, cellOf, Int.natCast_nonneg, true_and, Int.toNat_natCast]
  cases hc : (locs h d).col k c with
  | none => simp
  | some l =>
    simp only [Option.map_some, Option.some.injEq, exists_eq_left', List.getElem?_map, Option.bind_some]
    cases l[i]? with
    | none => simp
    | some o => cases o <;> simp

theorem get_eq_cellOf {h : Heap F} {d : DF} (k : Kind) (c : GoStr) (i : Nat) :
    d.get h k c i = match (cellOf h d k c i).bind h.at with
      | some v => .ok v
      | none => .error .panic := by
  cases hb : (cellOf h d k c i).bind h.at with
  | some v =>
    obtain ⟨l, h1, h2⟩ := Option.bind_eq_some_iff.1 hb
    exact (get_of_cellOf k c i v).2 ⟨l, h1, h2⟩
  | none =>
    cases hg : d.get h k c i with
    | ok v =>
      obtain ⟨l, h1, h2⟩ := (get_of_cellOf k c i v).1 hg
      rw [h1] at hb; simp [h2] at hb
    | error e =>
      -- the only failure of a read is a panic
      unfold DF.get at hg
      split at hg
      · cases hg; rfl
      · split at hg
        · rename_i hx
          unfold Idx.at at hx
          split at hx
          · split at hx
            · cases hx
            · cases hx; cases hg; rfl
          · cases hx; cases hg; rfl
        · split at hg
          · cases hg; rfl
          · cases hg

/-- C12 (one write, all observers): a successful `df.Xs(c).Set(i, v)` stores `v` in the cell behind row
`i`; afterwards *any* dataframe, at *any* column and row, reads `v` if that same cell is behind that
row, and what it read before otherwise. No row, column or mark of any dataframe changes. -/
theorem C12_set_all_observers {df : DF} {h h' : Heap F} {k : Kind} {c : GoStr} {i : Nat} {v : Val F}
    (wf : df.WF h) (e : df.set h k c i v = .ok h') :
    ∃ l, cellOf h df k c i = some l ∧
      (∀ d : DF, locs h' d = locs h d ∧
        ∀ k' c' (j : Nat), d.get h' k' c' j =
          if cellOf h d k' c' j = some l then .ok v else d.get h k' c' j) := by
  unfold DF.set at e
  split at e
  · cases e
  · rename_i s hs
    split at e
    · cases e
    · rename_i r hr
      unfold Heap.write at e
      split at e
      · rename_i hlt
        cases e
        have hv := wf.slices _ _ hs
        have hrow : df.rows[i]? = some r := by
          unfold Idx.at at hr
          simp only [Int.natCast_nonneg, if_true, Int.toNat_natCast] at hr
          split at hr
          · rename_i r' h'; cases hr; exact h'
          · cases hr
        have hcell : cellOf h df k c i = some (s.arr, s.off + r) := by
          simp [cellOf, locs, hs, List.getElem?_map, hrow, hlt]
        have hin : s.off + r < (h.arr s.arr).length := by
          rcases hv.2 with h0 | ⟨_, h0⟩
          · have := hv.1; omega
          · have := hv.1; omega
        refine ⟨_, hcell, fun d => ⟨rfl, fun k' c' j => ?_⟩⟩
        have hl : ∀ d : DF, cellOf (h.setArr s.arr ((h.arr s.arr).set (s.off + r) v)) d k' c' j =
            cellOf h d k' c' j := fun _ => rfl
        rw [get_eq_cellOf, hl d, get_eq_cellOf (h := h)]
        cases hc : cellOf h d k' c' j with
        | none => simp
        | some l' =>
          obtain ⟨a, p⟩ := l'
          simp only [Option.bind_some, Option.some.injEq, Prod.mk.injEq]
          by_cases heq : a = s.arr ∧ p = s.off + r
          · rw [if_pos heq]
            obtain ⟨rfl, rfl⟩ := heq
            simp [Heap.at, Heap.setArr, hin]
          · rw [if_neg heq]
            have : (h.setArr s.arr ((h.arr s.arr).set (s.off + r) v)).at (a, p) = h.at (a, p) := by
              simp only [Heap.at, Heap.setArr]
              split
              · subst a
                have hp : s.off + r ≠ p := fun h => heq ⟨rfl, h.symm⟩
                rw [List.getElem?_set_ne hp]
              · rfl
            rw [this]
      · cases e

/-- A write through a view made from `df` on the rows `is`: afterwards row `is[i]` of `df` reads `v`;
every view of `df` (on any rows `js`) reads `v` at every position that shows the same row, and the other
rows of that column are unchanged, provided `df` itself shows each of its rows once. -/
theorem C12_set_through_view {df v w : DF} {h h1 h' : Heap F} {is js : List Nat} {k : Kind} {c : GoStr}
    {i : Nat} {x : Val F} (wf : df.WF h) (rv : RowView h df h1 v is) (rw_ : RowView h df h1 w js)
    (hi : i < is.length) (his : ∀ j ∈ is, j < df.numRows) (hjs : ∀ j ∈ js, j < df.numRows)
    (hd : df.rows.Nodup) (e : v.set h1 k c i x = .ok h') :
    df.get h' k c (is[i] : Nat) = .ok x ∧
    (∀ j (hj : j < js.length), w.get h' k c j = if js[j] = is[i] then .ok x else w.get h1 k c j) := by
  obtain ⟨l, hl, hall⟩ := C12_set_all_observers rv.wf e
  have hcell : ∀ (u : DF) (us : List Nat), RowView h df h1 u us → ∀ j (hj : j < us.length),
      cellOf h1 u k c j = cellOf h df k c us[j] := by
    intro u us ru j hj
    simp only [cellOf, ru.shares, ADF.select]
    cases (locs h df).col k c with
    | none => rfl
    | some ls => simp [List.getElem?_map, List.getElem?_eq_getElem hj]
  have hdf : cellOf h1 df k c is[i] = cellOf h df k c is[i] := by
    simp only [cellOf, (rv.others df wf).2.1]
  have hld : cellOf h df k c is[i] = some l := by rw [← hcell v is rv i hi]; exact hl
  refine ⟨?_, ?_⟩
  · rw [(hall df).2, hdf, hld, if_pos rfl]
  · intro j hj
    rw [(hall w).2, hcell w js rw_ j hj]
    congr 1
    apply propext
    constructor
    · intro h1'
      -- same cell, hence same row
      have hlt := hjs js[j] (List.getElem_mem _)
      have hlt2 := his is[i] (List.getElem_mem _)
      rw [← hld] at h1'
      unfold cellOf locs at h1' hld
      simp only at h1' hld
      cases hg : AMap.get (h.tab df.tab) (k, c) with
      | none => rw [hg] at hld; simp at hld
      | some s =>
        rw [hg] at h1' hld
        have e1 : df.rows[js[j]]? = some (df.rows[js[j]]'hlt) := List.getElem?_eq_getElem hlt
        have e2 : df.rows[is[i]]? = some (df.rows[is[i]]'hlt2) := List.getElem?_eq_getElem hlt2
        simp only [Option.map_some, Option.bind_some, List.getElem?_map, e1, e2] at h1' hld
        simp only [Option.join_some] at h1' hld
        split at hld
        · rename_i hb
          rw [if_pos hb] at h1'
          split at h1'
          · simp only [Option.some.injEq, Prod.mk.injEq, true_and] at h1'
            have : df.rows[js[j]] = df.rows[is[i]] := by omega
            exact (List.getElem_inj hd).1 this
          · cases h1'
        · cases hld
    · intro h1'; rw [h1']; exact hld

theorem set_total {df : DF} {h : Heap F} (wf : df.WF h) (k : Kind) (c : GoStr) (i : Int) (v : Val F) :
    (∃ h', df.set h k c i v = .ok h') ↔ 0 ≤ i ∧ i < (abs h df).nRows ∧ ((abs h df).col k c).isSome := by
  rw [← get_total df h wf k c i]
  unfold DF.set DF.get
  cases hs : AMap.get (h.tab df.tab) (k, c) with
  | none => simp
  | some s =>
    simp only
    cases hi : df.idx.at i with
    | error e => simp
    | ok r =>
      simp only
      have hv := wf.slices _ _ hs
      by_cases hr : r < s.len
      · obtain ⟨x, hx⟩ := hv.cell_some hr
        simp [hx, Heap.write, hr]
      · simp [Heap.write, hr, Heap.cell_none hr]

/-- A write succeeds exactly on the rows that exist, and panics on all others. -/
theorem C12_set_total {df : DF} {h : Heap F} (wf : df.WF h) (k : Kind) (c : GoStr) (i : Int) (v : Val F) :
    ((∃ h', df.set h k c i v = .ok h') ↔ 0 ≤ i ∧ i < (abs h df).nRows ∧ ((abs h df).col k c).isSome) ∧
    (df.set h k c i v = .error .panic ↔ ¬ (0 ≤ i ∧ i < (abs h df).nRows ∧ ((abs h df).col k c).isSome)) := by
  have key : ((∃ h', df.set h k c i v = .ok h') ↔ 0 ≤ i ∧ i < (abs h df).nRows ∧ ((abs h df).col k c).isSome) :=
    set_total wf k c i v
  refine ⟨key, ?_⟩
  rw [← key]
  have hp : ∀ e, df.set h k c i v = .error e → e = .panic := by
    intro e he
    unfold DF.set at he
    split at he
    · cases he; rfl
    · split at he
      · rename_i hat
        unfold Idx.at at hat
        split at hat
        · split at hat
          · cases hat
          · cases hat; cases he; rfl
        · cases hat; cases he; rfl
      · unfold Heap.write at he
        split at he
        · cases he
        · cases he; rfl
  cases hs : df.set h k c i v with
  | ok h' => simp
  | error e => simp [hp e hs]

-- the hypotheses are met: a reversed view and a slice of the demo dataframe; row 1 of the view is row 2
-- of the dataframe
example : ∃ h', (Demo.df.reverseView).set Demo.h .int b!"a" 1 (.int 99) = .ok h' ∧
    Demo.df.get h' .int b!"a" 2 = .ok (.int 99) ∧ Demo.df.get h' .int b!"a" 1 = .ok (.int 20) := by
  have hd : okAnd ((Demo.df.reverseView).set Demo.h .int b!"a" 1 (.int 99))
      (fun h' => decide ((Demo.df.get h' .int b!"a" 2).toOption = some (.int 99) ∧
        (Demo.df.get h' .int b!"a" 1).toOption = some (.int 20))) = true := by decide
  obtain ⟨h', e, hp⟩ := okAnd_iff.1 hd
  have hp := of_decide_eq_true hp
  refine ⟨h', e, ?_, ?_⟩
  · cases hx : Demo.df.get h' .int b!"a" 2 with
    | ok v => rw [hx] at hp; simpa [Except.toOption] using hp.1
    | error _ => rw [hx] at hp; simp [Except.toOption] at hp
  · cases hx : Demo.df.get h' .int b!"a" 1 with
    | ok v => rw [hx] at hp; simpa [Except.toOption] using hp.2
    | error _ => rw [hx] at hp; simp [Except.toOption] at hp

example : ∃ h', Demo.df.reverseView.set Demo.h .int b!"a" 1 (.int 99) = .ok h' :=
  (C12_set_total (reverseView_rowView Demo.df_wf).wf ..).1.2 (by decide)

-- a row that does not exist, and a column that does not exist
example : Demo.df.reverseView.set Demo.h .int b!"a" 7 (.int 99) = .error .panic ∧
    Demo.df.reverseView.set Demo.h .int b!"nope" 1 (.int 99) = .error .panic :=
  ⟨(C12_set_total (reverseView_rowView Demo.df_wf).wf ..).2.2 (by decide),
    (C12_set_total (reverseView_rowView Demo.df_wf).wf ..).2.2 (by decide)⟩

end Verif
