import Verif.Model.Internals
import Verif.Props.History
import Verif.Proofs.Printing

/-! C75: the internals are what the accessors show. -/

namespace Verif
variable {F : Type}

/-- **C75**. Row `i` of a column is the element of the column's backing data at the position that `GetIndices()[i]` and
`SharedIndex(i)` both tell. -/
theorem C75_internals {df : DF} {h : Heap F} (wf : df.WF h) {k : Kind} {c : GoStr} (hc : ((abs h df).col k c).isSome)
    {i : Nat} (hi : i < (abs h df).nRows) :
    ∃ j v, df.internalIndices[i]? = some j ∧ df.sharedIndex i = .ok j ∧ j < (df.internalData h k c).len ∧
      h.cell (df.internalData h k c) j = some v ∧ df.get h k c i = .ok v ∧ (abs h df).cell k c i = some v := by
  have hi' : i < df.rows.length := hi
  obtain ⟨v, hv⟩ := (get_total df h wf k c i).2 ⟨by omega, by omega, hc⟩
  have hx := cell_abs (h := h) df k c i
  have hrow : df.rows[i]? = some df.rows[i] := List.getElem?_eq_getElem hi'
  rw [hrow, Option.bind_some] at hx
  have hat : df.idx.at i = .ok df.rows[i] := by
    unfold Idx.at
    rw [if_pos (by omega)]
    simp only [Int.toNat_natCast]
    have : df.idx.rows[i]? = some df.rows[i] := hrow
    rw [this]
  have hv' := hv
  unfold DF.get at hv'
  obtain ⟨s, hs⟩ : ∃ s, AMap.get (h.tab df.tab) (k, c) = some s := by
    simp only [abs, Option.isSome_map] at hc
    exact Option.isSome_iff_exists.1 hc
  rw [hs] at hv'
  simp only [hat] at hv'
  have hcell : h.cell s df.rows[i] = some v := by
    cases hcc : h.cell s df.rows[i] with
    | none => rw [hcc] at hv'; cases hv'
    | some x => rw [hcc] at hv'; cases hv'; rfl
  obtain ⟨N, h1, h2, -⟩ := wf.rect
  refine ⟨df.rows[i], v, hrow, hat, ?_, ?_, hv, ?_⟩
  · unfold DF.internalData
    rw [hs, Option.getD_some, h1 _ _ hs]
    exact h2 _ (List.getElem_mem hi')
  · unfold DF.internalData
    rw [hs, Option.getD_some]
    exact hcell
  · rw [hx]
    unfold tabCol
    rw [hs, Option.getD_some]
    exact hcell

/-- **C75** (writes). Storing into the backing data at `GetIndices()[i]` is what `Set(i, v)` does. -/
theorem C75_write {df : DF} {h : Heap F} (wf : df.WF h) {k : Kind} {c : GoStr} (hc : ((abs h df).col k c).isSome)
    {i : Nat} (hi : i < (abs h df).nRows) (v : Val F) :
    ∃ j, df.internalIndices[i]? = some j ∧ df.set h k c i v = h.write (df.internalData h k c) j v := by
  obtain ⟨j, -, h1, h2, -⟩ := C75_internals wf hc hi
  refine ⟨j, h1, ?_⟩
  obtain ⟨s, hs⟩ : ∃ s, AMap.get (h.tab df.tab) (k, c) = some s := by
    simp only [abs, Option.isSome_map] at hc
    exact Option.isSome_iff_exists.1 hc
  unfold DF.set DF.internalData
  unfold DF.sharedIndex at h2
  rw [hs]
  simp only [h2, Option.getD_some]

/-- **C75** (no such row). `SharedIndex` panics exactly on what is not a row. -/
theorem C75_sharedIndex_panics (df : DF) (i : Int) :
    df.sharedIndex i = .error .panic ↔ i < 0 ∨ (df.numRows : Int) ≤ i := by
  unfold DF.sharedIndex Idx.at
  split
  · rename_i h0
    split
    · rename_i r hr
      have := (List.getElem?_eq_some_iff.1 hr).1
      simp only [reduceCtorEq, false_iff, not_or, not_lt, not_le]
      refine ⟨h0, ?_⟩
      show i < (df.idx.rows.length : Int)
      omega
    · rename_i hr
      simp only [true_iff]
      right
      rw [List.getElem?_eq_none_iff] at hr
      show (df.idx.rows.length : Int) ≤ i
      omega
  · simp only [true_iff]
    left; omega

/-- **C75** (no such column). The data of a missing column is an empty slice, where the accessors panic. -/
theorem C75_no_column {df : DF} {h : Heap F} {k : Kind} {c : GoStr} (hc : (abs h df).col k c = none) :
    (df.internalData h k c).len = 0 ∧ ∀ i, df.get h k c i = .error .panic := by
  have hs : AMap.get (h.tab df.tab) (k, c) = none := by
    simp only [abs, Option.map_eq_none_iff] at hc
    exact hc
  refine ⟨?_, ?_⟩
  · unfold DF.internalData
    rw [hs]; rfl
  · intro i
    unfold DF.get
    rw [hs]

/-- The elements of a slice, when they are cells. -/
theorem read_eq_cells {h : Heap F} {s : Slice} {n : Nat} (hn : s.len = n) {l : List (Val F)}
    (hl : (List.range n).map (h.cell s) = l.map some) : h.read s = l := by
  have hlen : l.length = n := by
    have := congrArg List.length hl
    simpa using this.symm
  apply List.ext_getElem?
  intro i
  by_cases hi : i < n
  · have h1 := congrArg (fun x => x[i]?) hl
    simp only [List.getElem?_map, List.getElem?_range hi, Option.map_some] at h1
    rw [List.getElem?_eq_getElem (by omega), Option.map_some, Option.some.injEq] at h1
    unfold Heap.cell at h1
    rw [if_pos (by omega)] at h1
    unfold Heap.read
    rw [List.getElem?_take_of_lt (by omega), List.getElem?_drop]
    rw [h1, List.getElem?_eq_getElem (by omega)]
  · unfold Heap.read
    rw [List.getElem?_eq_none (l := l) (by omega), List.getElem?_eq_none]
    simp; omega

/-- **C75** (`AreIndicesAltered`). In every dataframe a program can get (any history of legal calls): when the indices are not
altered, `GetIndices()` is 0, 1, ..., NumRows()-1, and the backing data of every column is exactly the column. -/
theorem C75_not_altered_partial [GoFloat F] {h : Heap F} {cs : List (Call F)} {w : World F} (hist : Hist ⟨h, []⟩ cs w)
    {d : DF} (hd : d ∈ w.dfs) (hn : d.areIndicesAltered = false) :
    d.internalIndices = List.range (abs w.h d).nRows ∧
    ∀ k c vs, (abs w.h d).col k c = some (vs.map some) → w.h.read (d.internalData w.h k c) = vs := by
  have wf := (hist.good (World.empty_good h)).wf d hd
  obtain ⟨N, h1, h2, h3⟩ := wf.rect
  have hr := h3 hn
  have hN : (abs w.h d).nRows = N := by
    show d.rows.length = N
    rw [hr]; simp
  refine ⟨by rw [hN]; exact hr, ?_⟩
  intro k c vs hv
  simp only [abs, Option.map_eq_some_iff] at hv
  obtain ⟨s, hs, hm⟩ := hv
  unfold DF.internalData
  rw [hs, Option.getD_some]
  rw [hr] at hm
  exact read_eq_cells (h1 _ _ hs) hm

namespace Demo

-- the hypotheses are met by a view of the demo dataframe, and by the dataframe itself
example : okAnd (df.indexView [3, 1] h) (fun v => decide (v.1.areIndicesAltered = true ∧ v.1.internalIndices = [3, 1] ∧
    ((abs v.2 v.1).col .float b!"x").isSome ∧ 1 < (abs v.2 v.1).nRows)) = true := by decide +kernel

example : df.areIndicesAltered = false ∧ df.internalIndices = [0, 1, 2, 3] ∧
    h.read (df.internalData h .float b!"x") = [.float 5, .float 3, .float 9, .float 1] := by decide +kernel

/-- The converse of `C75_not_altered_partial` is false: a view on all rows in order counts as altered. -/
theorem C75_converse_refuted : okAnd (df.indexView [0, 1, 2, 3] h) (fun v =>
    decide (v.1.areIndicesAltered = true ∧ v.1.internalIndices = List.range v.1.numRows)) = true := by decide +kernel

-- a history, and a dataframe of it whose indices are not altered
example : ∃ w : World Int, Hist ⟨heap0, []⟩ calls w ∧ ∃ d ∈ w.dfs, d.areIndicesAltered = false ∧ 0 < d.numRows ∧
    d.internalIndices = List.range (abs w.h d).nRows := by
  have key : okAnd (runAll ⟨heap0, []⟩ calls) (fun w => w.dfs.any fun d => decide (d.areIndicesAltered = false ∧ 0 < d.numRows)) = true := by
    decide +kernel
  obtain ⟨w, h1, h2⟩ := okAnd_iff.1 key
  have hist := hist_of_run h1 calls_legal
  obtain ⟨d, hd, h3⟩ := List.any_eq_true.1 h2
  simp only [decide_eq_true_eq] at h3
  exact ⟨w, hist, d, hd, h3.1, h3.2, (C75_not_altered_partial hist hd h3.1).1⟩

end Demo

end Verif
