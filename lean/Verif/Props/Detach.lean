import Verif.Props.ViewEdits
import Verif.Proofs.Unshare

/-! C14: `DetachedView`, and C63: `Unshare` in place. -/

namespace Verif
open scoped Demo
variable {F : Type}

theorem set_nat {d : DF} {h h' : Heap F} {k : Kind} {c : GoStr} {i : Int} {v : Val F}
    (e : d.set h k c i v = .ok h') : ∃ n : Nat, i = n := by
  unfold DF.set at e
  split at e
  · cases e
  · split at e
    · cases e
    · rename_i hx
      unfold Idx.at at hx
      split at hx
      · rename_i h0; exact ⟨i.toNat, (Int.toNat_of_nonneg h0).symm⟩
      · cases hx

theorem Written.quiet {h h' : Heap F} (w : Written h h') : Quiet h h' := by
  induction w with
  | refl => exact Quiet.refl _
  | step d k c i v _ _ e ih =>
    obtain ⟨n, rfl⟩ := set_nat e
    exact ih.trans (set_quiet e)

/-- C14: `DetachedView(cols...)` shows exactly what the dataframe shows, is consistent, and changes no
dataframe that existed before (values, cells, structure). -/
theorem C14_detached_shows {d : DF} {h : Heap F} (wf : d.WF h) (cols : List GoStr) :
    abs (d.detachedView cols h).2 (d.detachedView cols h).1 = abs h d ∧
    (d.detachedView cols h).1.WF (d.detachedView cols h).2 ∧
    (∀ d2 : DF, d2.WF h → abs (d.detachedView cols h).2 d2 = abs h d2 ∧
      locs (d.detachedView cols h).2 d2 = locs h d2 ∧ d2.WF (d.detachedView cols h).2) := by
  have us := unshare_spec (view_wf wf).toWF cols
  have ext := us.ext rfl
  refine ⟨?_, ?_, fun d2 w => ⟨abs_ext ext w.toWF, locs_ext ext w.toWF, w.ext ext⟩⟩
  · -- marks: the headers of existing dataframes are untouched
    have hm : hdrList (d.detachedView cols h).2 (d.detachedView cols h).1.strHdr = hdrList h d.strHdr := by
      show hdrList _ (d.view.toRaw.unshare cols h).1.strHdr = _
      rw [us.str]; exact hdrList_ext ext wf.str_lt
    -- reuse the general statement on a dataframe whose headers are separate
    refine ADF.ext' rfl ?_ ?_ us.enc
    · intro k c
      have hcell : ∀ q s s', AMap.get (h.tab d.tab) q = some s →
          AMap.get ((d.detachedView cols h).2.tab (d.detachedView cols h).1.tab) q = some s' →
          (d.detachedView cols h).2.cell s' = h.cell s := by
        intro q s s' h1 h2
        rcases us.get q with ⟨g1, g2⟩ | ⟨t, t', g1, g2, g3⟩
        · have g2' : AMap.get (h.tab d.tab) q = none := g2
          rw [h1] at g2'; cases g2'
        · have g1' : AMap.get (h.tab d.tab) q = some t := g1
          have g2' : AMap.get ((d.detachedView cols h).2.tab (d.detachedView cols h).1.tab) q = some t' := g2
          rw [h1] at g1'; cases g1'
          rw [h2] at g2'; cases g2'
          split at g3
          · funext i; rw [Heap.cell_eq_read, Heap.cell_eq_read]
            exact congrArg (·[i]?) g3.2.2.2
          · subst g3
            exact Heap.cell_congr ((wf.slices q s' h1).arr_eq ext)
      simp only [abs]
      rcases us.get (k, c) with ⟨g1, g2⟩ | ⟨s, s', g1, g2, _⟩
      · have g1' : AMap.get ((d.detachedView cols h).2.tab (d.detachedView cols h).1.tab) (k, c) = none := g1
        have g2' : AMap.get (h.tab d.tab) (k, c) = none := g2
        rw [g1', g2']; rfl
      · have g1' : AMap.get (h.tab d.tab) (k, c) = some s := g1
        have g2' : AMap.get ((d.detachedView cols h).2.tab (d.detachedView cols h).1.tab) (k, c) = some s' := g2
        rw [g1', g2']; simp only [Option.map_some, hcell _ _ _ g1' g2']; rfl
    · intro c; simp only [abs, hm]
  · refine ⟨us.wf, wf.idx_len, ?_⟩
    obtain ⟨N, h1, h2, h3⟩ := wf.rect
    refine ⟨N, ?_, h2, h3⟩
    intro q s' hq
    rcases us.get q with ⟨g1, g2⟩ | ⟨s, s2, g1, g2, g3⟩
    · have : AMap.get ((d.view.toRaw.unshare cols h).2.tab (d.view.toRaw.unshare cols h).1.tab) q = some s' := hq
      rw [g1] at this; cases this
    · have : AMap.get ((d.view.toRaw.unshare cols h).2.tab (d.view.toRaw.unshare cols h).1.tab) q = some s' := hq
      rw [g2] at this; cases this
      have hl : s'.len = s.len := by
        split at g3
        · exact g3.1
        · rw [g3]
      rw [hl, h1 q s g1]

/-- The columns asked for: all of them when no name is given. -/
def Detached (cols : List GoStr) (c : GoStr) : Prop := cols = [] ∨ c ∈ cols

theorem mem_unshareSet {t : Table} {cols : List GoStr} {q : Key} {s : Slice} (hq : AMap.get t q = some s)
    (hd : Detached cols q.2) : q.2 ∈ unshareSet t cols := by
  have hn : q.2 ∈ tabNames t := mem_tabNames.2 ⟨q.1, by rw [hq]; rfl⟩
  unfold unshareSet
  split
  · exact hn
  · rename_i h0
    rcases hd with rfl | h1
    · simp at h0
    · exact h1

theorem cellOf_arr {h : Heap F} {d : DF} {k : Kind} {c : GoStr} {i : Nat} {l : Nat × Nat}
    (e : cellOf h d k c i = some l) :
    ∃ s, AMap.get (h.tab d.tab) (k, c) = some s ∧ l.1 = s.arr ∧ s.len ≠ 0 := by
  unfold cellOf locs at e
  simp only at e
  cases hg : AMap.get (h.tab d.tab) (k, c) with
  | none => rw [hg] at e; simp at e
  | some s =>
    refine ⟨s, rfl, ?_⟩
    rw [hg] at e
    simp only [Option.map_some, Option.bind_some, List.getElem?_map] at e
    cases hr : d.rows[i]? with
    | none => rw [hr] at e; simp at e
    | some r =>
      rw [hr] at e
      simp only [Option.map_some, Option.join_some] at e
      split at e
      · cases e; exact ⟨rfl, by omega⟩
      · cases e

/-- The cells of a detached column are not cells of any dataframe that existed before. -/
theorem detached_cells {d : DF} {h : Heap F} (wf : d.WF h) {cols : List GoStr} {d2 : DF} (w2 : d2.WF h)
    {c : GoStr} (hc : Detached cols c) {k k2 : Kind} {c2 : GoStr} {i j : Nat} {l : Nat × Nat}
    (e1 : cellOf (d.detachedView cols h).2 (d.detachedView cols h).1 k c i = some l) :
    cellOf (d.detachedView cols h).2 d2 k2 c2 j ≠ some l := by
  intro e2
  have us := unshare_spec (view_wf wf).toWF cols
  obtain ⟨s, hs, h1, h1'⟩ := cellOf_arr e1
  obtain ⟨s2, hs2, h2, h2'⟩ := cellOf_arr e2
  have hs' : AMap.get ((d.view.toRaw.unshare cols h).2.tab (d.view.toRaw.unshare cols h).1.tab) (k, c) = some s := hs
  have ext : Heap.Ext h (d.detachedView cols h).2 := us.ext rfl
  rw [ext.tab _ w2.tab_lt] at hs2
  have hlt : s2.arr < h.next := by
    rcases (w2.slices _ _ hs2).2 with h0 | h0
    · have := (w2.slices _ _ hs2).1; omega
    · exact h0.1
  rcases us.get (k, c) with ⟨g1, _⟩ | ⟨t, t', g1, g2, g3⟩
  · rw [hs'] at g1; cases g1
  · rw [hs'] at g2; cases g2
    rw [if_pos] at g3
    · have := g3.2.2.1; omega
    · refine ⟨?_, mem_unshareSet g1 hc⟩
      have hn : c ∈ tabNames (h.tab d.tab) := mem_tabNames.2 ⟨k, by have : AMap.get (h.tab d.tab) (k, c) = some t := g1; rw [this]; rfl⟩
      simpa [sharedNames, DF.view] using hn

/-- C14, writes are isolated both ways, at any later point of any history of writes (`Written`): a write
through the detached view to one of `cols` (any column when `cols` is empty) changes nothing any dataframe
that existed before shows; a write through such a dataframe changes none of the detached columns. -/
theorem C14_detached_isolated {d d2 : DF} {h h1 h2 : Heap F} {cols : List GoStr} (wf : d.WF h) (w2 : d2.WF h)
    (hw : Written (d.detachedView cols h).2 h1) {k : Kind} {c : GoStr} {i : Int} {x : Val F} :
    (Detached cols c → (d.detachedView cols h).1.set h1 k c i x = .ok h2 → abs h2 d2 = abs h1 d2) ∧
    (d2.set h1 k c i x = .ok h2 → ∀ k' c' (j : Nat), Detached cols c' →
      (d.detachedView cols h).1.get h2 k' c' j = (d.detachedView cols h).1.get h1 k' c' j) := by
  obtain ⟨_, wv, hoth⟩ := C14_detached_shows wf cols
  have q := hw.quiet
  have wv1 := wv.safe q.safe
  have w21 := ((hoth d2 w2).2.2).safe q.safe
  constructor
  · intro hc e
    obtain ⟨n, rfl⟩ := set_nat e
    obtain ⟨l, hl, hall⟩ := C12_set_all_observers wv1 e
    rw [q.cellOf] at hl
    obtain ⟨g1, g2⟩ := hall d2
    -- same locations and same reads give the same content
    have hget : ∀ k' c' (j : Nat), d2.get h2 k' c' j = d2.get h1 k' c' j := by
      intro k' c' j
      rw [g2 k' c' j, if_neg]
      rw [q.cellOf]
      exact detached_cells wf w2 hc hl
    refine ADF.ext' rfl ?_ ?_ rfl
    · intro k' c'
      rw [abs_eq_locs, abs_eq_locs, g1]
      simp only [ADF.bindCells]
      cases hcol : (locs h1 d2).col k' c' with
      | none => rfl
      | some ls =>
        simp only [Option.map_some, Option.some.injEq]
        apply List.map_congr_left
        intro o ho
        cases o with
        | none => rfl
        | some l' =>
          simp only [Option.bind_some]
          obtain ⟨j, hj, hjl⟩ := List.getElem_of_mem ho
          have hcell : cellOf h1 d2 k' c' j = some l' := by
            simp [cellOf, hcol, List.getElem?_eq_getElem hj, hjl]
          have hcell2 : cellOf h2 d2 k' c' j = some l' := by unfold cellOf; rw [g1]; exact hcell
          have := hget k' c' j
          rw [get_eq_cellOf, get_eq_cellOf, hcell, hcell2] at this
          simp only [Option.bind_some] at this
          cases ha : h2.at l' <;> cases hb : h1.at l' <;> simp_all
    · intro x; simp only [abs]
      have := congrArg ADF.isStr g1
      exact congrFun this x
  · intro e k' c' j hc
    obtain ⟨n, rfl⟩ := set_nat e
    obtain ⟨l, hl, hall⟩ := C12_set_all_observers w21 e
    rw [q.cellOf] at hl
    rw [(hall _).2 k' c' j, if_neg]
    rw [q.cellOf]
    intro hx
    exact detached_cells wf w2 hc hx hl

/-- C14, the other columns stay shared: when `cols` are distinct existing columns, a column not in `cols`
has the same memory cells as in `d`. -/
theorem C14_others_shared {d : DF} {h : Heap F} (wf : d.WF h) {cols : List GoStr} (hne : cols ≠ [])
    (hnd : cols.Nodup) (hex : ∀ c ∈ cols, ∃ k, ((abs h d).col k c).isSome) {c : GoStr} (hc : c ∉ cols) (k : Kind) :
    (locs (d.detachedView cols h).2 (d.detachedView cols h).1).col k c = (locs h d).col k c := by
  have us := unshare_spec (view_wf wf).toWF cols
  have hnot : c ∉ unshareSet (h.tab d.tab) cols := by
    unfold unshareSet
    split
    · rename_i h0
      rcases h0 with h0 | h0
      · exact absurd (List.eq_nil_of_length_eq_zero h0) hne
      · -- as many distinct names as columns: these are all the columns
        have hsub : cols ⊆ tabNames (h.tab d.tab) := by
          intro c' hc'
          obtain ⟨k', hk'⟩ := hex c' hc'
          obtain ⟨s, hs⟩ := col_isSome.1 hk'
          exact mem_tabNames.2 ⟨k', by rw [hs]; rfl⟩
        have hp : cols.Perm (tabNames (h.tab d.tab)) :=
          (List.subperm_of_subset hnd hsub).perm_of_length_le (by simp [tabNames, h0, numColumns])
        intro hx
        exact hc (hp.mem_iff.2 hx)
    · exact hc
  simp only [locs]
  rcases us.get (k, c) with ⟨g1, g2⟩ | ⟨s, s', g1, g2, g3⟩
  · have g1' : AMap.get ((d.detachedView cols h).2.tab (d.detachedView cols h).1.tab) (k, c) = none := g1
    have g2' : AMap.get (h.tab d.tab) (k, c) = none := g2
    rw [g1', g2']; rfl
  · rw [if_neg (fun hx => hnot hx.2)] at g3
    have g1' : AMap.get (h.tab d.tab) (k, c) = some s := g1
    have g2' : AMap.get ((d.detachedView cols h).2.tab (d.detachedView cols h).1.tab) (k, c) = some s' := g2
    rw [g1', g2', g3]; rfl

/-- C63: `Unshare(cols...)` in place shows nothing: no dataframe, this one included, changes in what it
shows. -/
theorem C63_unshare_shows_nothing [GoFloat F] {d : DF} {h : Heap F} (wf : d.WF h) (sep : d.toRaw.Sep) (cols : List GoStr) :
    ∃ d' h', (Edit.unshare cols : Edit F).run d h = .ok (d', h') ∧ abs h' d' = abs h d ∧ d'.WF h' ∧
      (∀ d2 : DF, d2.WF h → (∀ k c, (abs h' d2).col k c = (abs h d2).col k c) ∧ d2.WF h') := by
  obtain ⟨h1, h2⟩ := unshare_abs wf sep cols
  have us := unshare_spec wf.toWF cols
  refine ⟨_, _, rfl, h1, h2, fun d2 w2 => ⟨?_, w2.safe us.safe⟩⟩
  intro k c
  show Option.map _ (AMap.get ((d.toRaw.unshare cols h).2.tab d2.tab) (k, c)) = _
  cases hs : d.sharedMaps with
  | true =>
    have := abs_ext (us.ext hs) w2.toWF
    exact congrArg (fun a => a.col k c) this
  | false =>
    obtain ⟨htab, _⟩ := us.same hs
    have f := Foot.unshare wf.toWF cols
    generalize d.toRaw.unshare cols h = p at us htab f
    obtain ⟨r', h'⟩ := p
    simp only at us htab f ⊢
    have harr : ∀ q s, AMap.get (h.tab d2.tab) q = some s → h'.cell s = h.cell s := by
      intro q s hq
      apply Heap.cell_congr
      rcases (w2.slices q s hq).2 with h0 | h0
      · left; have := (w2.slices q s hq).1; omega
      · right; exact us.arr _ h0.1
    by_cases ht : d2.tab = d.tab
    · simp only [abs]
      rcases us.get (k, c) with ⟨g1, g2⟩ | ⟨s, s', g1, g2, g3⟩
      · rw [ht, ← htab, g1, htab, g2]; rfl
      · have hc : h'.cell s' = h.cell s := by
          split at g3
          · funext i; rw [Heap.cell_eq_read, Heap.cell_eq_read]; exact congrArg (·[i]?) g3.2.2.2
          · rw [g3]; exact harr (k, c) s (by rw [ht]; exact g1)
        rw [ht, ← htab, g2, htab, g1]; simp only [Option.map_some, hc]
    · simp only [abs]
      rw [f.frame.tab d2.tab w2.tab_lt ht]
      cases hg : AMap.get (h.tab d2.tab) (k, c) with
      | none => rfl
      | some s => simp only [Option.map_some, harr _ _ hg]

-- the hypotheses are met: detach column `a`, write it through the view and through the original
example : ∃ h1 h2, Written (Demo.df.detachedView [b!"a"] Demo.h).2 h1 ∧
    (Demo.df.detachedView [b!"a"] Demo.h).1.set h1 .int b!"a" 0 (.int 77) = .ok h2 ∧
    Demo.df.get h2 .int b!"a" 0 = .ok (.int 10) := by
  refine ⟨(Demo.df.detachedView [b!"a"] Demo.h).2, ?_⟩
  obtain ⟨h2, e⟩ := (set_total (C14_detached_shows Demo.df_wf [b!"a"]).2.1 .int b!"a" 0 (.int 77)).2 (by decide)
  refine ⟨h2, Written.refl _, e, ?_⟩
  have := (C14_detached_isolated Demo.df_wf Demo.df_wf (Written.refl _)).1 (Or.inr (by decide)) e
  have h1 := (C14_detached_shows Demo.df_wf [b!"a"]).2.2 Demo.df Demo.df_wf
  rw [get_iff_abs, this, h1.1]
  exact ⟨by decide, _, rfl, rfl⟩
example : (locs (Demo.df.detachedView [b!"a"] Demo.h).2 (Demo.df.detachedView [b!"a"] Demo.h).1).col .float b!"x" =
    (locs Demo.h Demo.df).col .float b!"x" :=
  C14_others_shared Demo.df_wf (by decide) (by decide) (by
    intro c hc; simp only [List.mem_singleton] at hc; subst hc; exact ⟨.int, by decide⟩) (by decide) _

end Verif
