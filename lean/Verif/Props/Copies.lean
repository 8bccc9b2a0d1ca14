import Verif.Props.Writes
import Verif.Proofs.Copy

/-! C15 - C17: `Copy` and `ShallowCopy`. `Edit` (Verif.Spec.Edit) lists the in-place operations of the
API; `runPair` applies any history of them to two dataframes. -/

namespace Verif
open scoped Demo
variable {F : Type}

/-- C15: `Copy()` never panics on a consistent dataframe; the copy shows the same rows, columns, types
and string marks, is consistent and compact (as many allocated rows as visible ones), and no existing
dataframe changes. -/
theorem C15_copy_equal_compact {df : DF} {h : Heap F} (wf : df.WF h) :
    ∃ c h', df.copy h = .ok (c, h') ∧ abs h' c = { abs h df with enc := none } ∧
      c.WF h' ∧ c.MaskWF h' ∧
      (h'.tab c.tab ≠ [] → numAllocatedRows (h'.tab c.tab) = c.numRows) ∧
      c.rows = List.range df.numRows ∧
      (∀ d : DF, d.WF h → abs h' d = abs h d ∧ locs h' d = locs h d ∧ d.WF h') := by
  obtain ⟨c, h', he, sp⟩ := copy_spec wf
  have hrows : c.rows = List.range df.numRows := by
    simp [DF.rows, Idx.rows, sp.idx, Idx.mk']
  refine ⟨c, h', he, sp.shows, sp.wf, sp.mwf, ?_, hrows, ?_⟩
  · intro hne
    rw [numAllocatedRows_of_len (N := df.numRows) ?_ hne]
    · simp [DF.numRows, hrows]
    · intro e hm
      exact sp.len e.1 e.2 (AMap.get_of_mem sp.wf.keys hm)
  · intro d wd
    exact ⟨abs_ext sp.ext wd.toWF, locs_ext sp.ext wd.toWF, wd.ext sp.ext⟩

/-- C15, isolation: whatever in-place operations (writes, renames, drops, allocations, conversions,
overwrites, encodings...) are applied, in any order, to a copy and to any dataframe that existed before
the copy, the next operation on one of the two is invisible in the other. -/
theorem C15_copy_isolated [GoFloat F] {df c d a b : DF} {h h' h2 : Heap F} {es : List (Bool × Edit F)}
    (wf : df.WF h) (hc : df.copy h = .ok (c, h')) (wd : d.WF h)
    (hr : runPair es (d, c) h' = .ok ((a, b), h2)) :
    (∀ (e : Edit F) a' h3, e.run a h2 = .ok (a', h3) → abs h3 b = abs h2 b) ∧
    (∀ (e : Edit F) b' h3, e.run b h2 = .ok (b', h3) → abs h3 a = abs h2 a) := by
  obtain ⟨c', h'', he, sp⟩ := copy_spec wf
  rw [hc] at he; cases he
  obtain ⟨wa, wb, ap⟩ := runPair_apart (wd.toWF.ext sp.ext) sp.wf.toWF (sp.new.apart wd.toWF sp.ext).symm hr
  constructor
  · intro e a' h3 hx
    exact ((Edit.foot wa hx).other_abs wb ap.toStructApart ap.arr).1
  · intro e b' h3 hx
    exact ((Edit.foot wb hx).other_abs wa ap.symm.toStructApart ap.symm.arr).1

/-- C16 is false of the code: `Copy`, `ShallowCopy` and `ColumnConcatView` always forget the text
encoding (dataframe.go:108-120, 126-187 never copy `textEncoding`). -/
theorem C16_copy_forgets_encoding {df : DF} {h : Heap F} (wf : df.WF h) :
    (∃ c h', df.copy h = .ok (c, h') ∧ (abs h' c).enc = none) ∧
    (abs (df.shallowCopy h).2 (df.shallowCopy h).1).enc = none := by
  obtain ⟨c, h', he, sp⟩ := copy_spec wf
  exact ⟨⟨c, h', he, by rw [sp.shows]⟩, (shallowCopy_spec wf).enc⟩

/-- C16, refuted on a dataframe with an encoding: the encoding of the copy differs. -/
theorem C16_refuted : ∃ (df : DF) (h : Heap Int), df.WF h ∧
    ∃ c h', df.copy h = .ok (c, h') ∧ (abs h' c).enc ≠ (abs h df).enc := by
  let df : DF := { Demo.df with enc := some 7 }
  have wf : df.WF Demo.h := by
    have w := Demo.df_wf
    exact ⟨⟨w.tab_lt, w.shared_lt, w.str_lt, w.keys, w.slices⟩, w.idx_len, w.rect⟩
  obtain ⟨⟨c, h', he, h1⟩, _⟩ := C16_copy_forgets_encoding wf
  exact ⟨df, Demo.h, wf, c, h', he, by rw [h1]; decide⟩

/-- C17: `ShallowCopy()` shows the same data over the same memory cells; no existing dataframe
changes. -/
theorem C17_shallow_same_cells {df : DF} {h : Heap F} (wf : df.WF h) :
    abs (df.shallowCopy h).2 (df.shallowCopy h).1 = { abs h df with enc := none } ∧
    locs (df.shallowCopy h).2 (df.shallowCopy h).1 = { locs h df with enc := none } ∧
    (df.shallowCopy h).1.WF (df.shallowCopy h).2 ∧
    (∀ d : DF, d.WF h → abs (df.shallowCopy h).2 d = abs h d ∧ locs (df.shallowCopy h).2 d = locs h d) := by
  have sp := shallowCopy_spec wf
  exact ⟨sp.shows, sp.locs, sp.wf, fun d wd => ⟨abs_ext sp.ext wd.toWF, locs_ext sp.ext wd.toWF⟩⟩

/-- C17, writes are shared both ways: a write through the shallow copy is read through the original at
the same column and row, and the other way round. -/
theorem C17_shallow_writes_seen {df : DF} {h h' : Heap F} (wf : df.WF h) {k : Kind} {c : GoStr} {i : Nat}
    {v : Val F} :
    ((df.shallowCopy h).1.set (df.shallowCopy h).2 k c i v = .ok h' → df.get h' k c i = .ok v) ∧
    (df.set (df.shallowCopy h).2 k c i v = .ok h' → (df.shallowCopy h).1.get h' k c i = .ok v) := by
  have sp := shallowCopy_spec wf
  have hl : ∀ k c i, cellOf (df.shallowCopy h).2 (df.shallowCopy h).1 k c i = cellOf (df.shallowCopy h).2 df k c i := by
    intro k c i
    simp only [cellOf, sp.locs, locs_ext sp.ext wf.toWF]
  constructor
  · intro e
    obtain ⟨l, h1, h2⟩ := C12_set_all_observers sp.wf e
    rw [(h2 df).2, ← hl, h1, if_pos rfl]
  · intro e
    obtain ⟨l, h1, h2⟩ := C12_set_all_observers (wf.ext sp.ext) e
    rw [(h2 _).2, hl, h1, if_pos rfl]

/-- C17, structure is separate: after any history of operations on the shallow copy and on any dataframe
that existed before, the next structural operation (rename, drop, allocate, convert, unshare) on one of
the two is invisible in the other. -/
theorem C17_shallow_structure_isolated [GoFloat F] {df d a b : DF} {h h2 : Heap F} {es : List (Bool × Edit F)}
    (wf : df.WF h) (wd : d.WF h)
    (hr : runPair es (d, (df.shallowCopy h).1) (df.shallowCopy h).2 = .ok ((a, b), h2)) :
    (∀ (e : Edit F) a' h3, e.structural = true → e.run a h2 = .ok (a', h3) →
      abs h3 b = abs h2 b ∧ locs h3 b = locs h2 b) ∧
    (∀ (e : Edit F) b' h3, e.structural = true → e.run b h2 = .ok (b', h3) →
      abs h3 a = abs h2 a ∧ locs h3 a = locs h2 a) := by
  have sp := shallowCopy_spec wf
  have ap0 : d.toRaw.StructApart (df.shallowCopy h).1.toRaw := by
    refine ⟨?_, ?_⟩
    · have := sp.tab; have := wd.tab_lt; omega
    · intro i h1 h2
      have := sp.hdr i h2; have := Raw.headers_lt wd.toWF h1; omega
  obtain ⟨wa, wb, ap⟩ := runPair_structApart (wd.toWF.ext sp.ext) sp.wf.toWF ap0 hr
  constructor
  · intro e a' h3 hs hx
    exact (Edit.foot_structural hs wa hx).other_abs wb ap (fun _ => False.elim)
  · intro e b' h3 hs hx
    exact (Edit.foot_structural hs wb hx).other_abs wa ap.symm (fun _ => False.elim)

-- the hypotheses are met: histories on a copy and on the original run to the end
example : ∃ c h' a b h2, Demo.df.copy Demo.h = .ok (c, h') ∧
    runPair [(true, .set .int b!"a" 0 (.int 7)), (false, .rename b!"s" b!"t"), (true, .drop [b!"x"]),
      (false, .overwrite .float b!"new" [.float 1, .float 2, .float 3, .float 4] false)] (Demo.df, c) h'
      = .ok ((a, b), h2) := by
  have hd : okAnd (Demo.df.copy Demo.h) (fun p => okAnd (runPair [(true, .set .int b!"a" 0 (.int 7)),
      (false, .rename b!"s" b!"t"), (true, .drop [b!"x"]),
      (false, .overwrite .float b!"new" [.float 1, .float 2, .float 3, .float 4] false)] (Demo.df, p.1) p.2)
        (fun _ => true)) = true := by decide
  obtain ⟨p, e, hp⟩ := okAnd_iff.1 hd
  obtain ⟨q, e2, _⟩ := okAnd_iff.1 hp
  exact ⟨p.1, p.2, q.1.1, q.1.2, q.2, e, e2⟩

example : ∃ a b h2, runPair [(true, .rename b!"s" b!"t"), (false, .intToFloats [b!"a"]),
      (false, .set .float b!"x" 1 (.float 8)), (true, .unshare [])]
      (Demo.df, (Demo.df.shallowCopy Demo.h).1) (Demo.df.shallowCopy Demo.h).2 = .ok ((a, b), h2) := by
  have hd : okAnd (runPair [(true, .rename b!"s" b!"t"), (false, .intToFloats [b!"a"]),
      (false, .set .float b!"x" 1 (.float 8)), (true, .unshare [])]
      (Demo.df, (Demo.df.shallowCopy Demo.h).1) (Demo.df.shallowCopy Demo.h).2) (fun _ => true) = true := by decide
  obtain ⟨q, e2, _⟩ := okAnd_iff.1 hd
  exact ⟨q.1.1, q.1.2, q.2, e2⟩

end Verif
