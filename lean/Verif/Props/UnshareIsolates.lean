import Verif.Props.Detach
import Verif.Proofs.Copy
import Verif.Props.Debug
import Verif.Props.Demo

/-! C87: what `Unshare(cols...)` detaches, and what it leaves shared. -/

namespace Verif
open scoped Demo
variable {F : Type}

/-- No memory cell of a column in `cols` (any column when `cols` is empty) of `d` is a cell of `d2`. -/
def ApartOn (h : Heap F) (cols : List GoStr) (d d2 : DF) : Prop :=
  ∀ k c i l, Detached cols c → cellOf h d k c i = some l → ∀ k2 c2 j, cellOf h d2 k2 c2 j ≠ some l

/-- `df.Unshare(cols...)`: the dataframe and the memory afterwards. -/
abbrev DF.unshared (d : DF) (cols : List GoStr) (h : Heap F) : DF × Heap F :=
  d.withRaw (d.toRaw.unshare cols h)

/-- Columns with no common cells stay isolated, both ways, at any later point of any history of writes. -/
theorem isolated_of_apart {d d2 : DF} {h h1 h2 : Heap F} {cols : List GoStr} (wf : d.WF h) (w2 : d2.WF h)
    (ap : ApartOn h cols d d2) (hw : Written h h1) {k : Kind} {c : GoStr} {i : Int} {x : Val F} :
    (Detached cols c → d.set h1 k c i x = .ok h2 → abs h2 d2 = abs h1 d2) ∧
    (d2.set h1 k c i x = .ok h2 → ∀ k' c' (j : Nat), Detached cols c' → d.get h2 k' c' j = d.get h1 k' c' j) := by
  have q := hw.quiet
  have wv1 := wf.safe q.safe
  have w21 := w2.safe q.safe
  constructor
  · intro hc e
    obtain ⟨n, rfl⟩ := set_nat e
    obtain ⟨l, hl, hall⟩ := C12_set_all_observers wv1 e
    rw [q.cellOf] at hl
    obtain ⟨g1, g2⟩ := hall d2
    have hget : ∀ k' c' (j : Nat), d2.get h2 k' c' j = d2.get h1 k' c' j := by
      intro k' c' j
      rw [g2 k' c' j, if_neg]
      rw [q.cellOf]
      exact ap _ _ _ _ hc hl _ _ _
    refine ADF.ext' rfl ?_ ?_ rfl
    · intro k' c'
      rw [abs_eq_locs, abs_eq_locs, g1]
      simp only [ADF.bindCells]
      cases hcol : (locs h1 d2).col k' c' with
      | none => rfl
      | some ls =>
        simp only [Option.map_some, Option.some.injEq]
        apply List.map_congr_left
        intro o ho
        cases o with
        | none => rfl
        | some l' =>
          simp only [Option.bind_some]
          obtain ⟨j, hj, hjl⟩ := List.getElem_of_mem ho
          have hcell : cellOf h1 d2 k' c' j = some l' := by
            simp [cellOf, hcol, List.getElem?_eq_getElem hj, hjl]
          have hcell2 : cellOf h2 d2 k' c' j = some l' := by unfold cellOf; rw [g1]; exact hcell
          have := hget k' c' j
          rw [get_eq_cellOf, get_eq_cellOf, hcell, hcell2] at this
          simp only [Option.bind_some] at this
          cases ha : h2.at l' <;> cases hb : h1.at l' <;> simp_all
    · intro x; simp only [abs]
      have := congrArg ADF.isStr g1
      exact congrFun this x
  · intro e k' c' j hc
    obtain ⟨n, rfl⟩ := set_nat e
    obtain ⟨l, hl, hall⟩ := C12_set_all_observers w21 e
    rw [q.cellOf] at hl
    rw [(hall _).2 k' c' j, if_neg]
    rw [q.cellOf]
    intro hx
    exact ap _ _ _ _ hc hx _ _ _ hl

theorem unshared_wf {d : DF} {h : Heap F} (wf : d.WF h) (cols : List GoStr) :
    (d.unshared cols h).1.WF (d.unshared cols h).2 := by
  have us := unshare_spec wf.toWF cols
  refine ⟨us.wf, wf.idx_len, ?_⟩
  obtain ⟨N, h1, h2, h3⟩ := wf.rect
  refine ⟨N, ?_, h2, h3⟩
  intro q s' hq
  have hq' : AMap.get ((d.toRaw.unshare cols h).2.tab (d.toRaw.unshare cols h).1.tab) q = some s' := hq
  rcases us.get q with ⟨g1, g2⟩ | ⟨s, s2, g1, g2, g3⟩
  · rw [g1] at hq'; cases hq'
  · rw [g2] at hq'; cases hq'
    have hl : s'.len = s.len := by
      split at g3
      · exact g3.1
      · rw [g3]
    rw [hl, h1 q s g1]

/-- The dataframe is not `d` itself under another name: it has its own set of columns; and the columns asked
for are recorded as shared in `d`. -/
def Recorded (h : Heap F) (d : DF) (cols : List GoStr) (d2 : DF) : Prop :=
  d2.tab ≠ d.tab ∧ ∀ k c, Detached cols c → ((abs h d).col k c).isSome → c ∈ hdrList h d.shared

/-- After `Unshare(cols...)`, no cell of the columns `cols` is a cell of a dataframe that existed before,
provided `d` shares its set of columns (what `View` and its relatives return) or records `cols` as shared. -/
theorem unshared_apart {d d2 : DF} {h : Heap F} {cols : List GoStr} (wf : d.WF h) (w2 : d2.WF h)
    (hs : d.sharedMaps = true ∨ Recorded h d cols d2) :
    ApartOn (d.unshared cols h).2 cols (d.unshared cols h).1 d2 := by
  intro k c i l hc e1 k2 c2 j e2
  have us := unshare_spec wf.toWF cols
  obtain ⟨s, hs1, h1, h1'⟩ := cellOf_arr e1
  obtain ⟨s2, hs2, h2, h2'⟩ := cellOf_arr e2
  have hs' : AMap.get ((d.toRaw.unshare cols h).2.tab (d.toRaw.unshare cols h).1.tab) (k, c) = some s := hs1
  have ht : (d.unshared cols h).2.tab d2.tab = h.tab d2.tab := by
    rcases hs with hs | hs
    · exact (us.ext hs).tab _ w2.tab_lt
    · exact (Foot.unshare wf.toWF cols).frame.tab d2.tab w2.tab_lt hs.1
  rw [ht] at hs2
  have hlt : s2.arr < h.next := by
    rcases (w2.slices _ _ hs2).2 with h0 | h0
    · have := (w2.slices _ _ hs2).1; omega
    · exact h0.1
  rcases us.get (k, c) with ⟨g1, _⟩ | ⟨t, t', g1, g2, g3⟩
  · rw [hs'] at g1; cases g1
  · rw [hs'] at g2; cases g2
    rw [if_pos] at g3
    · have := g3.2.2.1; omega
    · have g1' : AMap.get (h.tab d.tab) (k, c) = some t := g1
      refine ⟨?_, mem_unshareSet g1 hc⟩
      have hn : c ∈ tabNames (h.tab d.tab) := mem_tabNames.2 ⟨k, by rw [g1']; rfl⟩
      rcases hs with hs | hs
      · simpa [sharedNames, hs] using hn
      · unfold sharedNames
        split
        · exact hn
        · exact hs.2 k c hc (by simp [abs, g1'])

/-- C87, partial: `Unshare(cols...)` isolates the columns `cols` both ways from a dataframe that existed
before, at any later point of any history of writes, if `d` is a view in the sense of `View` (it shares its
set of columns) or if `d` has its own set of columns and still records all of `cols` as shared.
Missing, because the code contradicts it (see the refutations below): the same without the proviso. -/
theorem C87_unshare_isolates_partial {d d2 : DF} {h h1 h2 : Heap F} {cols : List GoStr} (wf : d.WF h) (w2 : d2.WF h)
    (hs : d.sharedMaps = true ∨ Recorded h d cols d2)
    (hw : Written (d.unshared cols h).2 h1) {k : Kind} {c : GoStr} {i : Int} {x : Val F} :
    (Detached cols c → (d.unshared cols h).1.set h1 k c i x = .ok h2 → abs h2 d2 = abs h1 d2) ∧
    (d2.set h1 k c i x = .ok h2 → ∀ k' c' (j : Nat), Detached cols c' →
      (d.unshared cols h).1.get h2 k' c' j = (d.unshared cols h).1.get h1 k' c' j) :=
  isolated_of_apart (unshared_wf wf cols) (w2.safe (unshare_spec wf.toWF cols).safe) (unshared_apart wf w2 hs) hw

/-- C87, the copy: `ShallowCopy().Unshare(cols...)` isolates `cols` from every dataframe that existed before
the shallow copy. -/
theorem C87_shallowCopy_unshare {d d2 : DF} {h h1 h2 : Heap F} {cols : List GoStr} (wf : d.WF h) (w2 : d2.WF h)
    (hw : Written ((d.shallowCopy h).1.unshared cols (d.shallowCopy h).2).2 h1)
    {k : Kind} {c : GoStr} {i : Int} {x : Val F} :
    let sc := ((d.shallowCopy h).1.unshared cols (d.shallowCopy h).2).1
    (Detached cols c → sc.set h1 k c i x = .ok h2 → abs h2 d2 = abs h1 d2) ∧
    (d2.set h1 k c i x = .ok h2 → ∀ k' c' (j : Nat), Detached cols c' → sc.get h2 k' c' j = sc.get h1 k' c' j) := by
  have ss := shallowCopy_spec wf
  refine C87_unshare_isolates_partial ss.wf (w2.ext ss.ext) (Or.inr ⟨?_, ?_⟩) hw
  · have := w2.tab_lt; have := ss.tab; omega
  · intro k c _ hc
    rw [ss.sh]
    obtain ⟨s, hs⟩ := col_isSome.1 hc
    rw [ss.tabE] at hs
    exact mem_tabNames.2 ⟨k, by rw [hs]; rfl⟩

/-- The columns that `Unshare(cols...)` asks for: all when no name is given, or when as many names are given as
there are columns (repeated or unknown names count); otherwise the named ones. -/
def AskedFor (h : Heap F) (d : DF) (cols : List GoStr) (c : GoStr) : Prop :=
  cols = [] ∨ cols.length = numColumns (h.tab d.tab) ∨ c ∈ cols

/-- C87, exact: `Unshare(cols...)` moves to new cells exactly the columns asked for that are recorded as
shared (all of them when `d` shares its set of columns); the other columns keep their cells. A dataframe that
existed before keeps its cells, unless it has the very set of columns of `d` and `d` does not mark it as
shared: such a dataframe has, for every row of memory, the cells of `d`. -/
theorem C87_unshare_exact {d : DF} {h : Heap F} (wf : d.WF h) (cols : List GoStr) (k : Kind) (c : GoStr) :
    let d' := (d.unshared cols h).1
    let h' := (d.unshared cols h).2
    (AskedFor h d cols c ∧ (d.sharedMaps = true ∨ c ∈ hdrList h d.shared) →
      (∀ i l, cellOf h' d' k c i = some l → h.next ≤ l.1) ∧
      (∀ d2 : DF, d2.WF h → ∀ i l, cellOf h' d' k c i = some l → ∀ k2 c2 j, cellOf h d2 k2 c2 j ≠ some l)) ∧
    (¬ (AskedFor h d cols c ∧ (d.sharedMaps = true ∨ c ∈ hdrList h d.shared)) →
      (locs h' d').col k c = (locs h d).col k c) ∧
    (∀ d2 : DF, d2.WF h → (d.sharedMaps = true ∨ d2.tab ≠ d.tab) →
      ∀ k2 c2 j, cellOf h' d2 k2 c2 j = cellOf h d2 k2 c2 j) ∧
    (∀ d2 : DF, d2.WF h → d.sharedMaps = false → d2.tab = d.tab → d2.rows = d.rows →
      ∀ k2 c2 j, cellOf h' d2 k2 c2 j = cellOf h' d' k2 c2 j) := by
  have us := unshare_spec wf.toWF cols
  have hmoved : ∀ t, AMap.get (h.tab d.tab) (k, c) = some t →
      ((c ∈ sharedNames h d.toRaw ∧ c ∈ unshareSet (h.tab d.tab) cols) ↔
        (AskedFor h d cols c ∧ (d.sharedMaps = true ∨ c ∈ hdrList h d.shared))) := by
    intro t ht
    have hn : c ∈ tabNames (h.tab d.tab) := mem_tabNames.2 ⟨k, by rw [ht]; rfl⟩
    unfold sharedNames unshareSet AskedFor
    cases hsm : d.sharedMaps <;> by_cases h0 : cols.length = 0 ∨ cols.length = numColumns (h.tab d.tab) <;>
      simp only [hsm, h0, if_true, if_false, hn, true_and, and_true, Bool.false_eq_true, false_or, true_or, reduceCtorEq]
    all_goals
      have h00 : cols.length = 0 ↔ cols = [] := List.length_eq_zero_iff
      grind
  have hold : ∀ d2 : DF, d2.WF h → ∀ k2 c2 j l, cellOf h d2 k2 c2 j = some l → l.1 < h.next := by
    intro d2 w2 k2 c2 j l e2
    obtain ⟨s2, hs2, h2, h2'⟩ := cellOf_arr e2
    rcases (w2.slices _ _ hs2).2 with h0 | h0
    · have := (w2.slices _ _ hs2).1; omega
    · have := h0.1; omega
  have hnew : (AskedFor h d cols c ∧ (d.sharedMaps = true ∨ c ∈ hdrList h d.shared)) →
      ∀ i l, cellOf (d.unshared cols h).2 (d.unshared cols h).1 k c i = some l → h.next ≤ l.1 := by
    intro hm i l e1
    obtain ⟨s, hs1, h1, h1'⟩ := cellOf_arr e1
    have hs' : AMap.get ((d.toRaw.unshare cols h).2.tab (d.toRaw.unshare cols h).1.tab) (k, c) = some s := hs1
    rcases us.get (k, c) with ⟨g1, _⟩ | ⟨t, t', g1, g2, g3⟩
    · rw [hs'] at g1; cases g1
    · rw [hs'] at g2; cases g2
      rw [if_pos ((hmoved t g1).2 hm)] at g3
      rw [h1]; exact g3.2.2.1
  refine ⟨fun hm => ⟨hnew hm, fun d2 w2 i l e1 k2 c2 j e2 => ?_⟩, fun hm => ?_, fun d2 w2 hs k2 c2 j => ?_,
    fun d2 w2 hs ht hr k2 c2 j => ?_⟩
  · have := hnew hm i l e1
    have := hold d2 w2 _ _ _ _ e2
    omega
  · simp only [locs]
    rcases us.get (k, c) with ⟨g1, g2⟩ | ⟨s, s', g1, g2, g3⟩
    · have g1' : AMap.get ((d.unshared cols h).2.tab (d.unshared cols h).1.tab) (k, c) = none := g1
      rw [g1', g2]; rfl
    · rw [if_neg (fun hx => hm ((hmoved s g1).1 hx))] at g3
      have g2' : AMap.get ((d.unshared cols h).2.tab (d.unshared cols h).1.tab) (k, c) = some s' := g2
      rw [g1, g2', g3]; rfl
  · have ht : (d.unshared cols h).2.tab d2.tab = h.tab d2.tab := by
      rcases hs with hs | hs
      · exact (us.ext hs).tab _ w2.tab_lt
      · exact (Foot.unshare wf.toWF cols).frame.tab d2.tab w2.tab_lt hs
    simp only [cellOf, locs, ht]
  · have h1 : (d.unshared cols h).1.tab = d2.tab := by rw [ht]; exact (us.same hs).1
    have h2 : (d.unshared cols h).1.rows = d2.rows := hr.symm
    simp only [cellOf, locs, h1, h2]

/-- C87 refuted in general, 1: the record of shared columns is common to a shallow copy and its `ColumnView`s.
`sc = df.ShallowCopy(); v = sc.ColumnView("a"); v.Unshare("a"); sc.Unshare("a")` leaves the column `a` of `sc` in
the cells of `df`: the first `Unshare` removes the mark the second one looks for. A write through `sc` changes `df`. -/
theorem C87_refuted_columnView :
    let (sc, h1) := Demo.df.shallowCopy Demo.h
    let (v, h2) := sc.columnView [b!"a"] h1
    let (_, h3) := v.unshared [b!"a"] h2
    let (sc', h4) := sc.unshared [b!"a"] h3
    sc'.WF h4 ∧ cellOf h4 sc' .int b!"a" 0 = cellOf h4 Demo.df .int b!"a" 0 ∧
      okAnd (sc'.set h4 .int b!"a" 0 (.int 77)) (fun h5 => decide (Demo.df.get h5 .int b!"a" 0 = .ok (.int 77))) = true := by
  refine ⟨DF.wf_of_check 4 (by decide +kernel), by decide +kernel, by decide +kernel⟩

/-- C87 refuted in general, 2: `v = df.View(); df.Unshare("a")` does nothing: `df` does not record that it is
shared, and its column `a` stays in the cells of `v`. -/
theorem C87_refuted_owner :
    Demo.df.unshared [b!"a"] Demo.h = (Demo.df, Demo.h) ∧
    cellOf Demo.h Demo.df .int b!"a" 0 = cellOf Demo.h Demo.df.view .int b!"a" 0 ∧
    (cellOf Demo.h Demo.df .int b!"a" 0).isSome = true := by
  refine ⟨rfl, by decide +kernel, by decide +kernel⟩

/-- C87 refuted in general, 3: `sc = df.ShallowCopy(); v = sc.View(); sc.Unshare()` detaches `sc` from `df` but
not from `v`, which follows `sc` to the new cells. -/
theorem C87_refuted_view :
    let (sc, h1) := Demo.df.shallowCopy Demo.h
    let (sc', h2) := sc.unshared [] h1
    sc.view.WF h1 ∧ cellOf h2 sc' .int b!"a" 0 = cellOf h2 sc.view .int b!"a" 0 ∧
      cellOf h2 sc' .int b!"a" 0 ≠ cellOf h2 Demo.df .int b!"a" 0 := by
  refine ⟨view_wf (shallowCopy_spec Demo.df_wf).wf, by decide +kernel, by decide +kernel⟩

-- the hypotheses are met: a shallow copy, unshared on `a`, written; a view, unshared, while `df` is written
example : ∃ h2, ((Demo.df.shallowCopy Demo.h).1.unshared [b!"a"] (Demo.df.shallowCopy Demo.h).2).1.set
      ((Demo.df.shallowCopy Demo.h).1.unshared [b!"a"] (Demo.df.shallowCopy Demo.h).2).2 .int b!"a" 0 (.int 77) = .ok h2 ∧
    abs h2 Demo.df = abs ((Demo.df.shallowCopy Demo.h).1.unshared [b!"a"] (Demo.df.shallowCopy Demo.h).2).2 Demo.df := by
  obtain ⟨h2, e⟩ := (set_total (unshared_wf (shallowCopy_spec Demo.df_wf).wf [b!"a"]) .int b!"a" 0 (.int 77)).2 (by decide +kernel)
  exact ⟨h2, e, (C87_shallowCopy_unshare Demo.df_wf Demo.df_wf (Written.refl _)).1 (Or.inr (by decide)) e⟩
example : Demo.df.view.WF Demo.h ∧ Demo.df.view.sharedMaps = true := ⟨view_wf Demo.df_wf, rfl⟩
-- asked for and recorded, asked for and not recorded, neither
example : AskedFor Demo.h Demo.df [b!"a"] b!"a" ∧ ¬ AskedFor Demo.h Demo.df [b!"a"] b!"x" ∧
    Demo.df.view.sharedMaps = true ∧ Demo.df.sharedMaps = false ∧ b!"a" ∉ hdrList Demo.h Demo.df.shared := by
  unfold AskedFor; decide +kernel
-- as many names as columns ask for every column, whatever the names
example : AskedFor Demo.h Demo.df [b!"a", b!"a", b!"a", b!"a"] b!"x" ∧ ¬ (b!"x" ∈ [b!"a", b!"a", b!"a", b!"a"]) := by
  unfold AskedFor; decide +kernel

end Verif
