import Verif.Proofs.Views

/-! C19: every reachable dataframe is consistent. C59: views and copies change no existing dataframe. -/

namespace Verif
variable {F : Type}

theorem Hist.good [GoFloat F] {w w' : World F} {cs : List (Call F)} (hist : Hist w cs w') (g : w.Good) : w'.Good := by
  induction hist with
  | nil w => exact g
  | cons lg e _ ih => exact ih (Call.good g lg e)

theorem World.empty_good (h : Heap F) : World.Good ⟨h, []⟩ :=
  ⟨fun d hd => (by cases hd), fun d hd => (by cases hd), fun d hd => (by cases hd)⟩

/-- C19. Take a program that starts without dataframes and performs any finite sequence of calls: builders,
views, copies, in-place operations, concatenations, masks, on any of the dataframes made so far, in any
order. Then every dataframe it holds has columns of one common length, shows only rows inside that length,
can be read at every row of every column without a panic, and has a mask with room for all its rows.
Missing from the full property (it is false without it, see the refutations below): calls must be legal in
the sense of `Call.Legal` (columns are allocated next to existing ones, conversions are asked for existing
columns, each once, `SliceView` bounds are row positions, `ColumnConcatView` gets equally long columns). -/
theorem C19_reachable_consistent_partial [GoFloat F] {h : Heap F} {cs : List (Call F)} {w : World F}
    (hist : Hist ⟨h, []⟩ cs w) (d : DF) (hd : d ∈ w.dfs) :
    (∃ N, (∀ k s, AMap.get (w.h.tab d.tab) k = some s → s.len = N) ∧ (∀ i ∈ d.rows, i < N) ∧
      (d.indexViewed = false → d.rows = List.range N)) ∧
    (∀ k c (i : Int), ((abs w.h d).col k c).isSome → 0 ≤ i → i < (abs w.h d).nRows → ∃ v, d.get w.h k c i = .ok v) ∧
    d.numRows ≤ d.mask.len := by
  have g := hist.good (World.empty_good h)
  have wf := g.wf d hd
  exact ⟨wf.rect, fun k c i hc h0 hi => (get_total d w.h wf k c i).2 ⟨h0, hi, hc⟩, (g.mwf d hd).len_ge⟩

/-- C19 from any consistent world, for example one the program got from elsewhere. -/
theorem C19_steps_consistent_partial [GoFloat F] {w w' : World F} {cs : List (Call F)} (g : w.Good) (hist : Hist w cs w') :
    ∀ d ∈ w'.dfs, d.WF w'.h ∧ d.MaskWF w'.h := fun d hd => ⟨(hist.good g).wf d hd, (hist.good g).mwf d hd⟩

/-- C19, the library's own check: on every dataframe of such a program the length tests of
`CheckConsistency` pass, so that it returns true if and only if string marks are put on object columns only
and no string is stored in a column that is not marked. -/
theorem C19_checkConsistency_partial [GoFloat F] {h : Heap F} {cs : List (Call F)} {w : World F}
    (hist : Hist ⟨h, []⟩ cs w) (d : DF) (hd : d ∈ w.dfs) :
    d.toRaw.checkConsistency w.h = true ↔
      (∀ c ∈ hdrList w.h d.strHdr, (AMap.get (w.h.tab d.tab) (.obj, c)).isSome) ∧
      ∀ c s, AMap.get (w.h.tab d.tab) (.obj, c) = some s → c ∉ hdrList w.h d.strHdr → ∀ x, .str x ∉ w.h.read s := by
  have wf := (hist.good (World.empty_good h)).wf d hd
  have hlen : (w.h.tab d.tab).all (fun e => decide (e.2.len = numAllocatedRows (w.h.tab d.tab))) = true := by
    rw [List.all_eq_true]
    intro e he
    have hne : w.h.tab d.tab ≠ [] := by intro h0; rw [h0] at he; cases he
    obtain ⟨N, hN, _⟩ := wf.rect
    rw [wf.numAllocated hne hN, decide_eq_true_eq]
    exact hN e.1 e.2 (AMap.get_of_mem wf.keys he)
  unfold Raw.checkConsistency
  dsimp only
  rw [hlen, Bool.true_and, Bool.and_eq_true, List.all_eq_true, List.all_eq_true]
  refine and_congr (forall₂_congr fun c _ => Iff.rfl) ?_
  constructor
  · intro hx c s hs hc x hm
    have := hx ((.obj, c), s) (AMap.mem_of_get hs)
    simp only [ne_eq, not_true_eq_false, decide_false, Bool.false_or, hdrContains] at this
    rw [Bool.or_eq_true] at this
    rcases this with h1 | h1
    · exact hc (by simpa using h1)
    · have := List.all_eq_true.1 h1 _ hm
      cases this
  · rintro hx ⟨⟨k, c⟩, s⟩ he
    by_cases hk : k = .obj
    · subst hk
      by_cases hc : c ∈ hdrList w.h d.strHdr
      · simp [hdrContains, hc]
      · have := hx c s (AMap.get_of_mem wf.keys he) hc
        simp only [ne_eq, not_true_eq_false, decide_false, Bool.false_or]
        rw [Bool.or_eq_true]; right
        rw [List.all_eq_true]
        intro v hv
        cases v with
        | str x => exact absurd hv (this x)
        | _ => rfl
    · simp [hk]

/-- C59. After any history of legal calls, any of the view- or copy-returning functions, with any argument
for which it returns, only adds dataframes: what every existing dataframe shows is unchanged.
`HashStringsView` must leave at least one column out (`C37_all_columns_refuted` otherwise). -/
theorem C59_views_leave_others_partial [GoFloat F] {h : Heap F} {cs : List (Call F)} {w w' : World F} {c : Call F}
    (hist : Hist ⟨h, []⟩ cs w) (hv : c.IsView w) (e : c.run w = .ok w') :
    (∃ new, w'.dfs = w.dfs ++ new) ∧ ∀ d ∈ w.dfs, abs w'.h d = abs w.h d := by
  have g := hist.good (World.empty_good h)
  obtain ⟨h1, h2⟩ := Call.grew g hv e
  exact ⟨h1, fun d hd => h2.abs_eq g hd⟩

/-! ### examples -/

namespace Demo

/-- A run of calls, if none panics. -/
def runAll (w : World Int) : List (Call Int) → Except Abort (World Int)
  | [] => .ok w
  | c :: cs => match c.run w with
    | .error e => .error e
    | .ok w' => runAll w' cs

theorem hist_of_run {w w' : World Int} {cs : List (Call Int)} (e : runAll w cs = .ok w')
    (lg : ∀ c ∈ cs, ∀ w, c.Legal w) : Hist w cs w' := by
  induction cs generalizing w with
  | nil => cases e; exact .nil _
  | cons c cs ih =>
    simp only [runAll] at e
    split at e
    · cases e
    · rename_i w1 h1
      exact .cons (lg c (by simp) w) h1 (ih e (fun c hc => lg c (by simp [hc])))

/-- A history: build, view, sort, write in the view, copy, concatenate, hash, reverse. -/
def calls : List (Call Int) :=
  [.build ops, .indexView 0 [3, 1, 1], .edit 1 (.set .int b!"a" 0 (.int 77)), .copy 1, .rowConcat [0, 1, 2],
   .maskView 3 [true, false, true], .edit 4 (.drop [b!"b"]), .shallowCopy 4, .splitView 3 4, .zeroMask 0,
   .columnView 0 [b!"a", b!"s"], .reverseView 0, .resetIndexView 1, .detachedView 1 [b!"x"]]

theorem calls_legal : ∀ c ∈ calls, ∀ w, c.Legal w := by
  intro c hc w
  simp only [calls, List.mem_cons, List.not_mem_nil, or_false] at hc
  rcases hc with rfl | rfl | rfl | rfl | rfl | rfl | rfl | rfl | rfl | rfl | rfl | rfl | rfl | rfl <;>
    simp [Call.Legal, Edit.Legal]

/-- The world after these calls. -/
theorem calls_run : ∃ w, runAll ⟨heap0, []⟩ calls = .ok w ∧ w.dfs.length = 13 := by
  have key : okAnd (runAll ⟨heap0, []⟩ calls) (fun w => decide (w.dfs.length = 13)) = true := by decide
  obtain ⟨w, h1, h2⟩ := okAnd_iff.1 key
  exact ⟨w, h1, by simpa using h2⟩

-- C19 applies to this history: all 13 dataframes can be read
example : ∃ w : World Int, Hist ⟨heap0, []⟩ calls w ∧ w.dfs.length = 13 ∧ ∀ d ∈ w.dfs, d.numRows ≤ d.mask.len := by
  obtain ⟨w, h1, h2⟩ := calls_run
  have hist := hist_of_run h1 calls_legal
  exact ⟨w, hist, h2, fun d hd => (C19_reachable_consistent_partial hist d hd).2.2⟩

-- C59 applies after this history to a hash view of the first dataframe
example : ∃ w w' : World Int, Hist ⟨heap0, []⟩ calls w ∧
    (Call.hashStringsView 0 [b!"s"] [b!"s"]).run w = .ok w' ∧ w'.dfs.length = 14 ∧ ∀ d ∈ w.dfs, abs w'.h d = abs w.h d := by
  have key : okAnd (runAll ⟨heap0, []⟩ calls) (fun w => okAnd ((Call.hashStringsView 0 [b!"s"] [b!"s"]).run w) (fun w' =>
      decide (w'.dfs.length = 14 ∧ ∀ d, w.dfs[0]? = some d → ((abs w.h d).col .int b!"a").isSome))) = true := by decide
  obtain ⟨w, h1, h2⟩ := okAnd_iff.1 key
  obtain ⟨w', h3, h4⟩ := okAnd_iff.1 h2
  simp only [decide_eq_true_eq] at h4
  have hist := hist_of_run h1 calls_legal
  refine ⟨w, w', hist, h3, h4.1, (C59_views_leave_others_partial hist ?_ h3).2⟩
  exact ⟨fun c hc => hc, Or.inr (fun d hd => ⟨.int, b!"a", by decide, h4.2 d hd⟩)⟩

/-! ### C19 is false without the conditions of `Call.Legal` -/

/-- Some dataframe of the world has an existing column and a row at which reading panics. -/
def Broken (w : World Int) : Prop := ∃ d ∈ w.dfs, ∃ k c, ∃ i : Int, ((abs w.h d).col k c).isSome ∧ 0 ≤ i ∧ i < d.numRows ∧ d.get w.h k c i = .error .panic

theorem broken_of {cs : List (Call Int)} {j : Nat} {k : Kind} {c : GoStr} {i : Nat}
    (key : okAnd (runAll ⟨heap0, []⟩ cs) (fun w => match w.dfs[j]? with
      | none => false
      | some d => ((abs w.h d).col k c).isSome && decide (i < d.numRows) && (match d.get w.h k c i with | .error .panic => true | _ => false)) = true) :
    ∃ w, runAll ⟨heap0, []⟩ cs = .ok w ∧ Broken w := by
  obtain ⟨w, h1, h2⟩ := okAnd_iff.1 key
  refine ⟨w, h1, ?_⟩
  split at h2
  · cases h2
  · rename_i d hd
    simp only [Bool.and_eq_true, decide_eq_true_eq] at h2
    refine ⟨d, List.mem_of_getElem? hd, k, c, i, h2.1.1, by omega, by omega, ?_⟩
    have h3 := h2.2
    split at h3
    · assumption
    · cases h3

/-- Allocating a column after dropping all of them: the new column is empty although there are rows. -/
theorem C19_alloc_after_drop_refuted :
    ∃ w, runAll ⟨heap0, []⟩ [.build ops, .edit 0 (.drop [b!"a", b!"x", b!"b", b!"s"]), .edit 0 (.alloc .int [b!"n"])] = .ok w ∧
      Broken w := broken_of (j := 0) (k := .int) (c := b!"n") (i := 0) (by decide)

/-- Converting a column that is not an int column makes an empty float column. -/
theorem C19_intToFloats_missing_refuted :
    ∃ w, runAll ⟨heap0, []⟩ [.build ops, .edit 0 (.intToFloats [b!"zzz"])] = .ok w ∧ Broken w :=
  broken_of (j := 0) (k := .float) (c := b!"zzz") (i := 0) (by decide)

/-- The same column twice: the second conversion sees no int column any more. -/
theorem C19_intToFloats_twice_refuted :
    ∃ w, runAll ⟨heap0, []⟩ [.build ops, .edit 0 (.intToFloats [b!"a", b!"a"])] = .ok w ∧ Broken w :=
  broken_of (j := 0) (k := .float) (c := b!"a") (i := 0) (by decide)

/-- `ColumnConcatView` of dataframes of different lengths. -/
theorem C19_columnConcatView_refuted :
    ∃ w, runAll ⟨heap0, []⟩ [.build ops, .build [.add .int b!"n" [.int 1]], .columnConcatView [0, 1]] = .ok w ∧ Broken w :=
  broken_of (j := 2) (k := .int) (c := b!"n") (i := 2) (by decide)

/-- The row positions a dataframe shows are not all inside its columns, after `SliceView` beyond the last
row of a dataframe made by `MaskView`: the slice reaches into the spare capacity of the index slice and
shows raw row 0 again. (Such a dataframe can still be read; it shows rows nobody selected.) -/
theorem C19_slice_beyond_refuted :
    ∃ w, runAll ⟨heap0, []⟩ [.build ops, .maskView 0 [false, true, false, false], .sliceView 1 0 3] = .ok w ∧
      ∃ d, w.dfs[2]? = some d ∧ d.rows = [1, 0, 0] := by
  have key : okAnd (runAll ⟨heap0, []⟩ [.build ops, .maskView 0 [false, true, false, false], .sliceView 1 0 3])
      (fun w => decide ((w.dfs[2]?).map DF.rows = some [1, 0, 0])) = true := by decide
  obtain ⟨w, h1, h2⟩ := okAnd_iff.1 key
  simp only [decide_eq_true_eq, Option.map_eq_some_iff] at h2
  exact ⟨w, h1, h2⟩

end Demo

end Verif
