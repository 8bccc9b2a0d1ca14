import Verif.Props.Edits

/-! C13: structural edits on a view. -/

namespace Verif
open scoped Demo
variable {F : Type}

/-- Nothing that exists changes, but the string marks of `r`. -/
abbrev OnlyMarks (r : Raw) (h h' : Heap F) : Prop := Heap.Frame Nope Nope (fun i => r.strHdr = some i) Nope h h'

/-- An edit that first reallocates the shared maps, then has the footprint of an edit. -/
theorem onlyMarks_of_own {r r' : Raw} {h h' : Heap F} (wf : r.WF h) (hs : r.sharedMaps = true)
    (f : Foot Nope (r.own h).2 (r.own h).1 h' r') : OnlyMarks r h h' := by
  have sp := own_spec wf
  generalize r.own h = p at sp f
  obtain ⟨r1, h1⟩ := p
  simp only at sp f
  obtain ⟨g1, g2, _⟩ := sp.fresh hs
  refine (sp.ext.toFrame (A := Nope) (T := Nope) (H := fun i => r.strHdr = some i) (M := Nope)).trans f.frame
    (fun _ _ => id) ?_ ?_ (fun _ _ => id)
  · intro i hi (e : i = r1.tab); omega
  · rintro i hi (e | e)
    · have := g2 i e; omega
    · rw [← sp.str]; exact e

theorem own_own {r : Raw} {h : Heap F} (wf : r.WF h) : (r.own h).1.own (r.own h).2 = r.own h := by
  have sp := own_spec wf
  generalize r.own h = p at sp
  unfold Raw.own
  rw [if_neg (by rw [sp.notShared]; simp)]

/-- The operation starts by giving the dataframe its own maps: all structural edits but `Drop`. -/
def Edit.owns : Edit F → Bool
  | .drop .. => false
  | e => e.structural

theorem Edit.onlyMarks [GoFloat F] {e : Edit F} (ho : e.owns = true) {d d' : DF} {h h' : Heap F}
    (wf : d.toRaw.WF h) (hs : d.sharedMaps = true) (he : e.run d h = .ok (d', h')) : OnlyMarks d.toRaw h h' := by
  have sp := own_spec wf
  have ho2 := own_own wf
  have refl : OnlyMarks d.toRaw h h := Heap.Frame.refl ..
  cases e with
  | drop cols => cases ho
  | set k c row v => cases ho
  | setString c row v => cases ho
  | overwrite k c vals b => cases ho
  | encode cd new => cases ho
  | rename old new =>
    simp only [Edit.run] at he
    split at he
    · cases he
    · rename_i p hp
      cases he
      have hp' : (d.toRaw.own h).1.rename old new (d.toRaw.own h).2 = .ok p := by
        rw [← hp]; unfold Raw.rename; rw [ho2]
      obtain ⟨r', h'⟩ := p
      exact onlyMarks_of_own wf hs (Foot.rename sp.wf hp')
  | alloc k cols =>
    cases he
    by_cases hc : cols = []
    · subst hc; exact refl
    · have : d.toRaw.alloc k cols h = (d.toRaw.own h).1.alloc k cols (d.toRaw.own h).2 := by
        unfold Raw.alloc; simp only [if_neg hc, ho2]
      show OnlyMarks _ _ (_ : Raw × Heap F).2
      rw [this]
      exact onlyMarks_of_own wf hs (Foot.alloc sp.wf k cols)
  | allocStrings cols =>
    cases he
    by_cases hc : cols = []
    · subst hc; exact refl
    · have : d.toRaw.allocStrings cols h = (d.toRaw.own h).1.allocStrings cols (d.toRaw.own h).2 := by
        unfold Raw.allocStrings; simp only [if_neg hc, ho2]
      show OnlyMarks _ _ (_ : Raw × Heap F).2
      rw [this]
      exact onlyMarks_of_own wf hs (Foot.allocStrings sp.wf cols)
  | intToFloats cols =>
    cases he
    have : d.toRaw.intToFloats cols h = (d.toRaw.own h).1.intToFloats cols (d.toRaw.own h).2 := by
      unfold Raw.intToFloats; rw [ho2]
    show OnlyMarks _ _ (_ : Raw × Heap F).2
    rw [this]
    exact onlyMarks_of_own wf hs (Foot.intToFloats sp.wf cols)
  | boolToFloats cols =>
    cases he
    have : d.toRaw.boolToFloats cols h = (d.toRaw.own h).1.boolToFloats cols (d.toRaw.own h).2 := by
      unfold Raw.boolToFloats; rw [ho2]
    show OnlyMarks _ _ (_ : Raw × Heap F).2
    rw [this]
    exact onlyMarks_of_own wf hs (Foot.boolToFloats sp.wf cols)
  | unshare cols =>
    cases he
    have hf : Foot Nope (d.toRaw.own h).2 (d.toRaw.own h).1 (d.toRaw.unshare cols h).2 (d.toRaw.unshare cols h).1 := by
      have h0 : ¬ (d.sharedMaps = false ∧ hdrNum h d.shared = 0) := by rw [hs]; simp
      have hfo := Foot.unshare sp.wf cols
      by_cases h1 : (d.toRaw.own h).1.sharedMaps = false ∧ hdrNum (d.toRaw.own h).2 (d.toRaw.own h).1.shared = 0
      · -- a dataframe without columns: nothing to copy
        have hnil : hdrList (d.toRaw.own h).2 (d.toRaw.own h).1.shared = [] := List.eq_nil_of_length_eq_zero h1.2
        have htab : h.tab d.tab = [] := by
          cases ht : h.tab d.tab with
          | nil => rfl
          | cons x t =>
            have : x.1.2 ∈ hdrList (d.toRaw.own h).2 (d.toRaw.own h).1.shared := by
              rw [(sp.fresh hs).2.2, ht]; simp [tabNames]
            rw [hnil] at this; cases this
        unfold Raw.unshare
        rw [if_neg h0]
        simp only
        generalize d.toRaw.own h = p at sp hnil
        obtain ⟨r1, h1⟩ := p
        simp only at sp hnil ⊢
        have e1 : h1.tab r1.tab = [] := by rw [sp.tab]; exact htab
        rw [e1]
        simp only [mapColsT]
        generalize (if cols.length = 0 ∨ cols.length = numColumns [] then tabNames [] else cols) = cs
        have f1 : Foot Nope h1 r1 (h1.setTab r1.tab []) r1 :=
          Foot.table sp.wf (Heap.Ext.refl _) [] (by simp [AMap.keys]) (fun k s hk => by cases hk)
        exact f1.trans (Foot.hdrRemove_shared f1.wf cs) (fun _ _ => id)
      · have : d.toRaw.unshare cols h = (d.toRaw.own h).1.unshare cols (d.toRaw.own h).2 := by
          unfold Raw.unshare; rw [if_neg h0, if_neg h1, ho2]
        rw [this]; exact hfo
    exact onlyMarks_of_own wf hs hf
  | setMaxCPU n => cases he; exact refl
  | threadSafeMasking b => cases he; exact refl

/-- The operation may change string marks: `AllocStrings`, and `Rename` of a column marked as string. -/
def Edit.touchesMarks (a : ADF (Val F)) : Edit F → Bool
  | .allocStrings cols => !cols.isEmpty
  | .rename old _ => a.isStr old
  | _ => false

/-- Renaming a column that is not marked as string touches no mark. -/
theorem rename_unmarked {r r' : Raw} {h h' : Heap F} {old new : GoStr} (wf : r.WF h)
    (hm : hdrContains h r.strHdr old = false) (sep : ∀ i, r.shared = some i → r.strHdr ≠ some i)
    (e : r.rename old new h = .ok (r', h')) : hdrList h' r.strHdr = hdrList h r.strHdr := by
  have sp := own_spec wf
  unfold Raw.rename at e
  simp only at e
  have hsep1 : ∀ i, (r.own h).1.shared = some i → r.strHdr ≠ some i := by
    intro i hi
    cases hs : r.sharedMaps
    · rw [(sp.same hs).1] at hi; exact sep i hi
    · have := (sp.fresh hs).2.1 i hi
      intro h2; have := wf.str_lt i h2; omega
  have hl1 : hdrList (r.own h).2 r.strHdr = hdrList h r.strHdr := hdrList_ext sp.ext wf.str_lt
  generalize r.own h = p at sp e hsep1 hl1
  obtain ⟨r1, h1⟩ := p
  simp only at sp e hsep1 hl1
  have hstr := sp.str
  split at e
  · cases e
  · split at e
    · cases e
    · rename_i k hk _ s hs
      have hc : hdrContains (h1.setTab r1.tab (AMap.erase (AMap.set (h1.tab r1.tab) (k, new) s) (k, old))) r1.strHdr old = false := by
        unfold hdrContains at hm ⊢
        have : hdrList (h1.setTab r1.tab (AMap.erase (AMap.set (h1.tab r1.tab) (k, new) s) (k, old))) r1.strHdr = hdrList h r.strHdr := by
          rw [hstr, ← hl1]; rfl
        rw [this]; exact hm
      have hneg : ¬ (k = .obj ∧ hdrContains (h1.setTab r1.tab (AMap.erase (AMap.set (h1.tab r1.tab) (k, new) s) (k, old))) r1.strHdr old = true) := by
        rw [hc]; simp
      simp only [if_neg hneg] at e
      have hset : hdrList (h1.setTab r1.tab (AMap.erase (AMap.set (h1.tab r1.tab) (k, new) s) (k, old))) r.strHdr = hdrList h r.strHdr := by
        rw [← hl1]; rfl
      split at e
      · cases e
        rw [← hset]
        generalize h1.setTab r1.tab (AMap.erase (AMap.set (h1.tab r1.tab) (k, new) s) (k, old)) = h2
        cases hsh : r1.shared with
        | none =>
          rename_i hc2
          simp [hdrContains, hsh, hdrList] at hc2
        | some j =>
          have hne := hsep1 j hsh
          unfold hdrList
          cases hst : r.strHdr with
          | none => rfl
          | some i =>
            rw [hst] at hne
            have hij : i ≠ j := fun h => hne (by rw [h])
            simp [hdrAdd, hdrRemove, Heap.setHdr, hij]
      · cases e; exact hset

theorem convLoop_hdr (kO kE : Kind) (f : Val F → Val F) (tab : Nat) (cols : List GoStr) (h : Heap F) :
    (convLoop kO kE f tab cols h).hdr = h.hdr := by
  unfold convLoop
  induction cols generalizing h with
  | nil => rfl
  | cons c cs ih => rw [List.foldl_cons, ih]; rfl

/-- C13, what holds: take a view `v` of any dataframe (`v.sharedMaps`) and apply to it any structural
edit but `Drop` (`Rename`, `Alloc*`, `AllocStrings`, `IntToFloats`, `BoolToFloats`, `Unshare`...): every
dataframe that existed before, the parent included, keeps its rows, its columns with their types and
values, its memory cells, its encoding; it keeps its string marks too unless it shares the view's marks
and the edit is an `AllocStrings` or a `Rename` of a column marked as string. Missing from the claim:
`Drop` and these two cases, for which it is false (`C13_drop_refuted`, `C13_marks_refuted`). -/
theorem C13_view_edit_partial [GoFloat F] {v v' : DF} {h h' : Heap F} {e : Edit F} (wf : v.WF h)
    (sep : v.toRaw.Sep) (hv : v.sharedMaps = true) (ho : e.owns = true) (he : e.run v h = .ok (v', h'))
    (d : DF) (wd : d.WF h) :
    (abs h' d).nRows = (abs h d).nRows ∧ (∀ k c, (abs h' d).col k c = (abs h d).col k c) ∧
    (∀ k c, (locs h' d).col k c = (locs h d).col k c) ∧ (abs h' d).enc = (abs h d).enc ∧
    (e.touchesMarks (abs h v) = false → (abs h' d).isStr = (abs h d).isStr) ∧ d.WF h' := by
  have f := Edit.onlyMarks ho wf.toWF hv he
  have ht := f.tab d.tab wd.tab_lt id
  have hcell : ∀ k s, AMap.get (h.tab d.tab) k = some s → h'.cell s = h.cell s := by
    intro k s hk
    exact Heap.cell_congr ((wd.slices k s hk).arr_eq_frame f (Or.inr id))
  refine ⟨rfl, ?_, ?_, rfl, ?_, wd.frame f id (fun _ _ _ => Or.inr id)⟩
  · intro k c
    simp only [abs, ht]
    cases hg : AMap.get (h.tab d.tab) (k, c) with
    | none => rfl
    | some s => simp [hcell _ s hg]
  · intro k c; simp only [locs, ht]
  · intro htm
    funext c
    have : hdrList h' d.strHdr = hdrList h d.strHdr := by
      by_cases hd : d.strHdr = v.strHdr
      · rw [hd]
        -- the marks of the view itself
        cases e with
        | drop cols => cases ho
        | set k c row v => cases ho
        | setString c row v => cases ho
        | overwrite k c vals b => cases ho
        | encode cd new => cases ho
        | rename old new =>
          simp only [Edit.run] at he
          split at he
          · cases he
          · rename_i p hp
            cases he
            obtain ⟨r', h'⟩ := p
            exact rename_unmarked wf.toWF htm sep hp
        | alloc k cols =>
          cases he
          simp only [Raw.alloc]
          have sp := own_spec wf.toWF
          split
          · rw [show hdrList _ v.strHdr = hdrList h v.strHdr from by
              unfold hdrList; rw [(allocLoop_spec k _ v.tab cols h).hdr]]
          · rw [show hdrList _ v.strHdr = hdrList (v.toRaw.own h).2 v.strHdr from by
              unfold hdrList; rw [(allocLoop_spec k _ _ cols (v.toRaw.own h).2).hdr]]
            exact hdrList_ext sp.ext wf.str_lt
        | allocStrings cols =>
          cases cols with
          | nil => cases he; rfl
          | cons c cs => cases htm
        | intToFloats cols =>
          cases he
          simp only [intToFloats_eq]
          have sp := own_spec wf.toWF
          rw [show hdrList _ v.strHdr = hdrList (v.toRaw.own h).2 v.strHdr from by
              unfold hdrList; rw [convLoop_hdr]]
          exact hdrList_ext sp.ext wf.str_lt
        | boolToFloats cols =>
          cases he
          simp only [boolToFloats_eq]
          have sp := own_spec wf.toWF
          rw [show hdrList _ v.strHdr = hdrList (v.toRaw.own h).2 v.strHdr from by
              unfold hdrList; rw [convLoop_hdr]]
          exact hdrList_ext sp.ext wf.str_lt
        | unshare cols =>
          cases he
          have sp := own_spec wf.toWF
          have hfr := (sp.fresh hv).2.1
          have hl1 : hdrList (v.toRaw.own h).2 v.strHdr = hdrList h v.strHdr := hdrList_ext sp.ext wf.str_lt
          unfold Raw.unshare
          rw [if_neg (by rw [hv]; simp)]
          simp only
          generalize v.toRaw.own h = p at sp hl1 hfr
          obtain ⟨r1, h1⟩ := p
          simp only at sp hl1 hfr ⊢
          generalize (if cols.length = 0 ∨ cols.length = numColumns (h1.tab r1.tab) then tabNames (h1.tab r1.tab) else cols) = cs
          have us := unshareLoop_spec (hdrList h1 r1.shared) cs (h1.tab r1.tab) h1 sp.wf.keys
            (fun k s hm => sp.wf.slices k s (AMap.get_of_mem sp.wf.keys hm))
          rw [← hl1]
          rw [hdrList_frame (hdrRemove_frame (A := Nope) (T := Nope) (M := Nope) _ r1.shared cs) (o := v.strHdr)]
          · generalize mapColsT (unshareCol (hdrList h1 r1.shared) cs) (h1.tab r1.tab) h1 = q at us
            unfold hdrList; simp only [Heap.setTab_hdr, us.hdr]
          · intro i hi
            have hlt := wf.str_lt i hi
            refine ⟨?_, ?_⟩
            · have := us.ext.next_le; have := sp.ext.next_le; simp only [Heap.setTab_next]; omega
            · intro hx; have := hfr i hx; omega
        | setMaxCPU n => cases he; rfl
        | threadSafeMasking b => cases he; rfl
      · exact hdrList_frame f (fun i hi => ⟨wd.str_lt i hi, fun hx => hd (by rw [hi]; exact hx.symm)⟩)
    simp only [abs, this]

/-- C13 for an `Overwrite*` that creates its column on a view: every dataframe that existed keeps all its
columns, types and values. (The marks are as in `C13_view_edit_partial`: a new string column marks its
name in the parent.) -/
theorem C13_view_overwrite_new_partial [GoFloat F] {v v' : DF} {h h' : Heap F} (wf : v.WF h)
    (hv : v.sharedMaps = true) {k : Kind} {c : GoStr} {vals : List (Val F)} {b : Bool}
    (hc : (abs h v).col k c = none) (hne : ∃ k' c', ((abs h v).col k' c').isSome)
    (he : v.overwrite k c vals b h = .ok (v', h')) (d : DF) (wd : d.WF h) :
    (abs h' d).nRows = (abs h d).nRows ∧ (∀ k c, (abs h' d).col k c = (abs h d).col k c) ∧
    (¬ (k = .obj ∧ b = true) → (abs h' d).isStr = (abs h d).isStr) ∧ d.WF h' := by
  have hl : v.numRows ≤ vals.length := by
    rcases Nat.lt_or_ge vals.length v.numRows with h1 | h1
    · rw [C25_overwrite_short b h1] at he; cases he
    · exact h1
  obtain ⟨d2, h2, e2, _, _, _, _, _, h5, _⟩ := C25_overwrite_creates wf b hc hne hl
  rw [he] at e2; cases e2
  obtain ⟨w', hcols⟩ := h5 d wd
  have hg : AMap.get (h.tab v.tab) (k, c) = none := col_eq_none.1 hc
  have htc : (tabCol (h.tab v.tab) (k, c)).len = 0 := by simp [tabCol, hg, Slice.nil]
  -- the allocation leaves existing tables alone
  have key : ∀ (e : Edit F), e.owns = true → ∀ v1 h1, e.run v h = .ok (v1, h1) →
      ∀ (h' : Heap F), (∃ s, overwriteLoop s v1.rows vals h1 = .ok h') → h'.tab d.tab = h.tab d.tab := by
    intro e ho v1 h1 he h' ⟨s, hw⟩
    have f := Edit.onlyMarks ho wf.toWF hv he
    rw [(overwriteLoop_frame hw).1.tab, f.tab d.tab wd.tab_lt id]
  have hmk : ∀ (e : Edit F), e.owns = true → e.touchesMarks (abs h v) = false → ∀ v1 h1, e.run v h = .ok (v1, h1) →
      ∀ (h' : Heap F), (∃ s, overwriteLoop s v1.rows vals h1 = .ok h') → hdrList h' d.strHdr = hdrList h1 d.strHdr := by
    intro e ho _ v1 h1 he h' ⟨s, hw⟩
    unfold hdrList; rw [(overwriteLoop_frame hw).1.hdr]
  unfold DF.overwrite at he
  simp only [htc, if_true] at he
  by_cases hk : k = .obj ∧ b = true
  · rw [if_pos hk] at he
    split at he
    · cases he
    · rename_i h3 hw
      simp only [Except.ok.injEq, Prod.mk.injEq] at he
      obtain ⟨rfl, rfl⟩ := he
      have htab := key (.allocStrings [c]) rfl _ _ rfl h3 ⟨_, hw⟩
      refine ⟨rfl, ?_, fun h => absurd hk h, w'⟩
      intro k' c'
      by_cases hq : (k', c') = (k, c)
      · cases hq
        -- not a column before, not a column after; or unchanged cells
        cases hg2 : AMap.get (h.tab d.tab) (k, c) with
        | none => simp only [abs, htab, hg2, Option.map_none]
        | some s =>
          have f := Edit.onlyMarks (e := (.allocStrings [c] : Edit F)) rfl wf.toWF hv rfl
          have hcell : h3.cell s = h.cell s := by
            apply Heap.cell_congr
            rcases (wd.slices _ _ hg2).arr_eq_frame f (Or.inr id) with h0 | h0
            · exact Or.inl h0
            · rcases (wd.slices _ _ hg2).2 with h1 | ⟨h1, _⟩
              · left; have := (wd.slices _ _ hg2).1; omega
              · right
                obtain ⟨hkk, _⟩ := hk
                subst hkk
                obtain ⟨s2, g1, g2, _⟩ := (create_allocStrings wf.toWF c).new
                have hs2 : tabCol ((v.withRaw (v.toRaw.allocStrings [c] h)).2.tab (v.withRaw (v.toRaw.allocStrings [c] h)).1.tab) (.obj, c) = s2 := by
                  simp only [tabCol, DF.withRaw]; rw [g1]; rfl
                rw [(overwriteLoop_frame hw).2 s.arr (by rw [hs2]; omega)]
                exact h0
          simp only [abs, htab, hg2, Option.map_some, hcell]
      · exact hcols k' c' hq
  · rw [if_neg hk] at he
    split at he
    · cases he
    · rename_i h3 hw
      simp only [Except.ok.injEq, Prod.mk.injEq] at he
      obtain ⟨rfl, rfl⟩ := he
      have htab := key (.alloc k [c]) rfl _ _ rfl h3 ⟨_, hw⟩
      have f := Edit.onlyMarks (e := (.alloc k [c] : Edit F)) rfl wf.toWF hv rfl
      refine ⟨rfl, ?_, fun _ => ?_, w'⟩
      · intro k' c'
        by_cases hq : (k', c') = (k, c)
        · cases hq
          cases hg2 : AMap.get (h.tab d.tab) (k, c) with
          | none => simp only [abs, htab, hg2, Option.map_none]
          | some s =>
            have hcell : h3.cell s = h.cell s := by
              apply Heap.cell_congr
              rcases (wd.slices _ _ hg2).arr_eq_frame f (Or.inr id) with h0 | h0
              · exact Or.inl h0
              · rcases (wd.slices _ _ hg2).2 with h1 | ⟨h1, _⟩
                · left; have := (wd.slices _ _ hg2).1; omega
                · right
                  obtain ⟨s2, g1, g2, _⟩ := (create_alloc wf.toWF k c).new
                  have hs2 : tabCol ((v.withRaw (v.toRaw.alloc k [c] h)).2.tab (v.withRaw (v.toRaw.alloc k [c] h)).1.tab) (k, c) = s2 := by
                    simp only [tabCol, DF.withRaw]; rw [g1]; rfl
                  rw [(overwriteLoop_frame hw).2 s.arr (by rw [hs2]; omega)]
                  exact h0
            simp only [abs, htab, hg2, Option.map_some, hcell]
        · exact hcols k' c' hq
      · have h1 := hmk (.alloc k [c]) rfl rfl _ _ rfl h3 ⟨_, hw⟩
        have hal : hdrList (v.toRaw.alloc k [c] h).2 d.strHdr = hdrList h d.strHdr := by
          have sp := own_spec wf.toWF
          have : hdrList (v.toRaw.alloc k [c] h).2 d.strHdr = hdrList (v.toRaw.own h).2 d.strHdr := by
            unfold hdrList Raw.alloc
            simp only [List.cons_ne_nil, if_false, (allocLoop_spec k _ _ [c] (v.toRaw.own h).2).hdr]
          rw [this]; exact hdrList_ext sp.ext wd.str_lt
        funext x
        have h1' : hdrList h3 d.strHdr = hdrList h d.strHdr := h1.trans hal
        simp only [abs, h1']

/-- C13 is false of the code for `Drop`: dropping a column from `df.View()` drops it from `df`
(raw_data.go:228-240 deletes from the shared maps without reallocating them). -/
theorem C13_drop_refuted [GoFloat F] {d : DF} {h : Heap F} (wf : d.WF h) (sep : d.toRaw.Sep) {c : GoStr} :
    ∃ h', (Edit.drop [c] : Edit F).run d.view h = .ok (d.view, h') ∧ ∀ k, (abs h' d).col k c = none := by
  obtain ⟨h', he, h1, _⟩ := C61_drop (view_wf wf) sep [c]
  refine ⟨h', he, fun k => ?_⟩
  have : (abs h' d).col k c = (abs h' d.view).col k c := rfl
  rw [this, h1]; simp [ADF.dropCols]

/-- C13 is false of the code for string marks: renaming a string column of `df.View()` removes the
string mark of that column in `df`, so that `df.Strings(col)` panics (raw_data.go:477-486 does not
reallocate `stringHeader`). -/
theorem C13_marks_refuted : ∃ v' h', (Edit.rename b!"s" b!"t" : Edit Int).run Demo.df.view Demo.h = .ok (v', h') ∧
    Demo.df.getString Demo.h b!"s" 0 = .ok b!"u" ∧ Demo.df.getString h' b!"s" 0 = .error .panic := by
  have hd : okAnd ((Edit.rename b!"s" b!"t" : Edit Int).run Demo.df.view Demo.h)
      (fun p => (match Demo.df.getString p.2 b!"s" 0 with | .error .panic => true | _ => false)) = true := by decide
  obtain ⟨⟨v', h'⟩, e, hp⟩ := okAnd_iff.1 hd
  refine ⟨v', h', e, rfl, ?_⟩
  simp only at hp
  split at hp
  · assumption
  · cases hp

-- the hypotheses are met
example : ∃ v' h', (Edit.rename b!"a" b!"z" : Edit Int).run Demo.df.view Demo.h = .ok (v', h') ∧
    (abs h' Demo.df).col .int b!"a" = (abs Demo.h Demo.df).col .int b!"a" ∧ (abs h' v').col .int b!"a" = none := by
  obtain ⟨d', h', he, _, _, h1, _⟩ := C51_rename (F := Int) (view_wf Demo.df_wf) Demo.df_sep (old := b!"a") (new := b!"z") (k := .int)
    (by decide) (by intro k' hk; cases k' <;> first | exact absurd rfl hk | decide) (by intro k'; cases k' <;> decide)
  exact ⟨d', h', he, (C13_view_edit_partial (view_wf Demo.df_wf) Demo.df_sep rfl rfl he Demo.df Demo.df_wf).2.1 _ _,
    by rw [h1]; decide⟩

end Verif
