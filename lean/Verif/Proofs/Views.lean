import Verif.Proofs.History3

/-! View-returning functions touch no column, no table and no string mark of an existing dataframe (C59). -/

namespace Verif
variable {F : Type}

/-- Existing arrays and tables are as before, and so are the headers that are nobody's shared-column list. -/
abbrev Still (w : World F) (h' : Heap F) : Prop :=
  Heap.Frame Nope Nope (fun i => ∃ d ∈ w.dfs, d.shared = some i) (fun _ => True) w.h h'

theorem Still.refl (w : World F) : Still w w.h := Heap.Frame.refl ..

theorem Still.ext {w : World F} {h' : Heap F} (e : Heap.Ext w.h h') : Still w h' := e.toFrame

theorem Still.trans {w : World F} {h1 h2 : Heap F} (a : Still w h1) (b : Heap.Frame Nope Nope Nope (fun _ => True) h1 h2) : Still w h2 :=
  Heap.Frame.trans a b (fun _ _ => id) (fun _ _ => id) (fun _ _ h => h.elim) (fun _ _ => id)

theorem Still.abs_eq {w : World F} (g : w.Good) {h' : Heap F} (s : Still w h') {d : DF} (hd : d ∈ w.dfs) :
    abs h' d = abs w.h d := by
  refine abs_frame s (g.wf d hd).toWF id ?_ (fun _ _ _ => Or.inr id)
  rintro i hi ⟨d2, hd2, h2⟩
  exact g.sep d2 hd2 d hd i h2 hi

theorem indexView_still {d v : DF} {is : List Int} {h h' : Heap F} (e : d.indexView is h = .ok (v, h')) :
    Heap.Frame Nope Nope Nope (fun _ => True) h h' := by
  unfold DF.indexView at e
  split at e
  · cases e
  · simp only at e
    split at e
    · cases e
      unfold Heap.appendMask
      split
      · exact (Heap.setMsk_frame ..).mono (fun _ _ => id) (fun _ _ => id) (fun _ _ => id) (fun _ _ _ => trivial)
      · exact (Heap.newMsk_ext ..).toFrame
    · cases e; exact Heap.Frame.refl ..

theorem mapCols_resliceCol_heap {a b : Int} {t t' : Table} {h h' : Heap F} (e : mapCols (resliceCol a b) t h = .ok (t', h')) : h' = h := by
  induction t generalizing h t' with
  | nil => simp [mapCols] at e; exact e.2.symm
  | cons x t ih =>
    obtain ⟨k, s⟩ := x
    simp only [mapCols, resliceCol] at e
    split at e
    · cases e
    · rename_i s' h1 hs
      split at hs
      · cases hs
      · cases hs
        split at e
        · cases e
        · rename_i he
          cases e
          exact ih he

theorem cut_ext {d v : DF} {a b : Int} {h h' : Heap F} (wf : d.WF h) (hsm : d.sharedMaps = true)
    (e : d.cut a b h = .ok (v, h')) : Heap.Ext h h' := by
  unfold DF.cut at e
  simp only at e
  split at e
  · split at e
    · cases e
    · cases e; exact Heap.Ext.refl _
  · have sp := own_spec wf.toWF
    generalize d.toRaw.own h = p at sp e
    obtain ⟨r, h1⟩ := p
    simp only at sp e
    split at e
    · cases e
    · split at e
      · cases e
      · rename_i t h2 hm
        cases e
        obtain rfl := mapCols_resliceCol_heap hm
        have fr := sp.fresh hsm
        have f1 : Heap.Frame Nope (· = r.tab) Nope Nope h2 (h2.setTab r.tab t) := Heap.setTab_frame ..
        have e1 : Heap.Ext h (h2.setTab r.tab t) :=
          sp.ext.frame f1 (fun _ h => h.elim) (fun i hi => hi ▸ fr.1) (fun _ h => h.elim) (fun _ h => h.elim)
        have f2 := hdrAddEach_frame (A := Nope) (T := Nope) (M := Nope) (h2.setTab r.tab t) r.shared (tabNames t)
        exact e1.frame f2 (fun _ h => h.elim) (fun _ h => h.elim) (fun i hi => fr.2.1 i hi) (fun _ h => h.elim)

theorem sliceView_ext {d v : DF} {a b : Int} {h h' : Heap F} (wf : d.WF h) (mwf : d.MaskWF h)
    (e : d.sliceView a b h = .ok (v, h')) : Heap.Ext h h' := by
  unfold DF.sliceView at e
  simp only at e
  obtain ⟨x, hx⟩ : ∃ x, x = (if a < 0 then a + ((d.numRows : Int) + 1) else a) := ⟨_, rfl⟩
  obtain ⟨y, hy⟩ : ∃ y, y = (if b < 0 then b + ((d.numRows : Int) + 1) else b) := ⟨_, rfl⟩
  rw [← hx, ← hy] at e
  split at e
  · exact cut_ext (view_wf (reverseView_step wf mwf).wf) rfl e
  · exact cut_ext (view_wf wf) rfl e

theorem splitLoop_ext {d : DF} {b : Nat} (m i : Nat) {vs : List DF} {h h' : Heap F} (wf : d.WF h)
    (e : d.splitLoop b i m h = .ok (vs, h')) : Heap.Ext h h' := by
  induction m generalizing i h vs with
  | zero =>
    unfold DF.splitLoop at e
    split at e
    · cases e
    · rename_i hc; cases e; exact cut_ext (view_wf wf) rfl hc
  | succ m ih =>
    unfold DF.splitLoop at e
    split at e
    · cases e
    · rename_i d1 h1 hc
      have e1 := cut_ext (view_wf wf) rfl hc
      split at e
      · cases e
      · rename_i he; cases e; exact e1.trans (ih _ (wf.ext e1) he)

theorem splitView_ext {d : DF} {b : Int} {vs : List DF} {h h' : Heap F} (wf : d.WF h)
    (e : d.splitView b h = .ok (vs, h')) : Heap.Ext h h' := by
  unfold DF.splitView at e
  split at e
  · cases e
  · simp only at e
    obtain ⟨n, hn⟩ : ∃ n, n = (if d.numRows % b.toNat ≠ 0 then d.numRows / b.toNat + 1 else d.numRows / b.toNat) := ⟨_, rfl⟩
    rw [← hn] at e
    by_cases h1 : n ≤ 1
    · rw [if_pos h1] at e; cases e; exact Heap.Ext.refl _
    · rw [if_neg h1] at e; exact splitLoop_ext _ _ wf e

theorem splitNView_ext {d : DF} {n : Int} {vs : List DF} {h h' : Heap F} (wf : d.WF h)
    (e : d.splitNView n h = .ok (vs, h')) : Heap.Ext h h' := by
  unfold DF.splitNView at e
  split at e
  · cases e
  · split at e
    · cases e; exact Heap.Ext.refl _
    · split at e
      · cases e; exact Heap.Ext.refl _
      · simp only at e
        split at e
        · cases e
        · rename_i ds h1 hs
          have e1 := splitView_ext wf hs
          split at e
          · cases e; exact e1.trans (emptyDataFrame_spec h1 0 d.maxCPU).ext
          · cases e; exact e1

theorem topView_still [GoFloat F] {o : List F → List Nat} {d v : DF} {c : GoStr} {n : Int} {asc srt : Bool} {h h' : Heap F}
    (e : d.topView o c n asc srt h = .ok (v, h')) : Heap.Frame Nope Nope Nope (fun _ => True) h h' := by
  unfold DF.topView at e
  simp only at e
  split at e
  · cases e; exact Heap.Frame.refl ..
  · split at e
    · cases e
    · split at e
      · cases e
      · rename_i r h1 hr
        obtain ⟨is, hr⟩ := sortedView_indexView hr
        have f := indexView_still hr
        split at e
        · split at e
          · cases e
          · cases e; exact f
        · split at e
          · cases e
          · cases e; exact f

theorem columnConcatView_ext {ds : List DF} {r : DF} {h h' : Heap F} (wfs : ∀ d ∈ ds, d.WF h)
    (e : columnConcatView ds h = .ok (some (r, h'))) : Heap.Ext h h' := by
  have hov : checkNoColumnOverlap h ds = true := by
    cases hx : checkNoColumnOverlap h ds with
    | true => rfl
    | false => simp [columnConcatView, hx] at e
  have ov := (overlap_iff wfs).1 hov
  cases ds with
  | nil => simp [columnConcatView, hov] at e
  | cons d0 rest =>
    have sp := columnConcat_step wfs ov
    unfold columnConcatView at e
    rw [if_neg (by rw [hov]; simp)] at e
    simp only at e
    split at e
    · cases e
    · have e := Option.some.inj (Except.ok.inj e)
      rw [e] at sp
      exact sp.ext

theorem columnCopyConcat_ext {ds : List DF} {r : DF} {h h' : Heap F} (hs : ∀ d ∈ ds, d.WF h)
    (e : columnCopyConcat ds h = .ok (some (r, h'))) : Heap.Ext h h' := by
  classical
  cases ds with
  | nil => simp [columnCopyConcat] at e
  | cons d0 rest =>
    have sp := columnCopyConcat_spec hs
    split at sp
    · obtain ⟨r', h2, e', sp⟩ := sp
      rw [e] at e'; cases e'
      exact sp.ext
    · rw [e] at sp; cases sp

theorem hashColumn_arr {src dst : Slice} {rows : List Nat} {h h' : Heap F} (e : hashColumn src dst rows h = .ok h')
    {j : Nat} (hj : j ≠ dst.arr) : h'.arr j = h.arr j := by
  induction rows generalizing h with
  | nil => simp [hashColumn] at e; subst e; rfl
  | cons i is ih =>
    simp only [hashColumn] at e
    split at e
    · cases e
    · split at e
      · cases e
      · rename_i h1 hw
        rw [ih e, write_arr_ne hw hj]

theorem hashStringsView_still [GoFloat F] {w : World F} (g : w.Good) {d v : DF} (hd : d ∈ w.dfs) {cols order : List GoStr} {h' : Heap F}
    (ho : ∀ c ∈ order, c ∈ cols) (hc : cols = [] ∨ ∃ k c, c ∉ cols ∧ ((abs w.h d).col k c).isSome)
    (e : d.hashStringsView cols order w.h = .ok (v, h')) : Still w h' := by
  by_cases hne : cols = []
  · unfold DF.hashStringsView at e
    rw [if_pos hne] at e; cases e; exact Still.refl w
  · have ho' : ∃ k c, c ∉ cols ∧ (AMap.get (w.h.tab d.tab) (k, c)).isSome := by
      obtain ⟨k, c, h1, h2⟩ := hc.resolve_left hne
      exact ⟨k, c, h1, by simpa [abs] using h2⟩
    have sp := hashPrep_spec (g.wf d hd) (g.sep d hd d hd) ho'
    rw [hashStringsView_eq d hne] at e
    generalize d.hashPrep cols w.h = p at sp e
    obtain ⟨r, h1⟩ := p
    simp only at sp e
    split at e
    · cases e
    · rename_i q hq
      cases e
      unfold runQueue at hq
      rw [if_neg hne] at hq
      split at hq
      · cases hq
      · have key : ∀ (todo : List GoStr) (a b : Heap F), (∀ c ∈ todo, c ∈ cols) → a.tab = h1.tab →
            todo.foldlM (fun s k => hashColumn (tabCol (s.tab d.tab) (.obj, k)) (tabCol (s.tab v.tab) (.int, k)) d.rows s) a = .ok b →
            Quiet a b ∧ ∀ j, j < w.h.next → b.arr j = a.arr j := by
          intro todo
          induction todo with
          | nil => intro a b _ _ hx; cases hx; exact ⟨Quiet.refl _, fun _ _ => rfl⟩
          | cons c cs ih =>
            intro a b hin hta hx
            rw [List.foldlM_cons] at hx
            cases h2 : hashColumn (tabCol (a.tab d.tab) (.obj, c)) (tabCol (a.tab v.tab) (.int, c)) d.rows a with
            | error x => rw [h2] at hx; cases hx
            | ok a1 =>
              rw [h2] at hx
              have q1 := hashColumn_quiet h2
              obtain ⟨q2, f2⟩ := ih a1 b (fun c hc => hin c (by simp [hc])) (q1.tab.trans hta) hx
              refine ⟨q1.trans q2, fun j hj => ?_⟩
              rw [f2 j hj]
              refine hashColumn_arr h2 ?_
              obtain ⟨s, s1, _, _, s4⟩ := sp.new c (hin c (by simp))
              rw [hta]; unfold tabCol; rw [s1]
              simp only [Option.getD_some]; omega
        obtain ⟨q2, f2⟩ := key order h1 h' ho rfl hq
        refine ⟨by rw [q2.next]; exact sp.frame.next_le, ?_, ?_, ?_, fun i _ hx => absurd trivial hx⟩
        · intro i hi _; rw [f2 i hi]; exact sp.frame.arr i hi id
        · intro i hi _; rw [q2.tab]; exact sp.frame.tab i hi id
        · intro i hi hx
          rw [q2.hdr]
          exact sp.frame.hdr i hi (fun h => hx ⟨d, hd, h⟩)

theorem zeroMask_still {d : DF} {h h' : Heap F} {s : Slice} (e : d.zeroMask h = .ok (s, h')) :
    Heap.Frame Nope Nope Nope (fun _ => True) h h' := by
  have loop : ∀ (n : Nat) (m : Slice) (i : Nat) (h h' : Heap F), zeroMaskLoop h m i n = .ok h' →
      Heap.Frame Nope Nope Nope (fun _ => True) h h' := by
    intro n
    induction n with
    | zero => intro m i h h' e; simp [zeroMaskLoop] at e; subst e; exact Heap.Frame.refl ..
    | succ n ih =>
      intro m i h h' e
      simp only [zeroMaskLoop] at e
      split at e
      · have f : Heap.Frame Nope Nope Nope (fun _ => True) h (h.setMsk m.arr ((h.msk m.arr).set (m.off + i) false)) :=
          (Heap.setMsk_frame ..).mono (fun _ _ => id) (fun _ _ => id) (fun _ _ => id) (fun _ _ _ => trivial)
        exact f.trans (ih _ _ _ _ e) (fun _ _ => id) (fun _ _ => id) (fun _ _ => id) (fun _ _ => id)
      · cases e
  unfold DF.zeroMask at e
  split at e
  · cases e; exact (Heap.newMsk_ext ..).toFrame
  · split at e
    · cases e
    · rename_i h1 hl
      split at e
      · cases e
      · cases e; exact loop _ _ _ _ _ hl

/-- The world got new dataframes and is otherwise as before. -/
def Grew (w w' : World F) : Prop := (∃ new, w'.dfs = w.dfs ++ new) ∧ Still w w'.h

theorem on_grew {w w' : World F} {i : Nat} {f : DF → Except Abort (World F)} (e : w.on i f = .ok w')
    (hf : ∀ d, w.dfs[i]? = some d → d ∈ w.dfs → ∀ w', f d = .ok w' → Grew w w') : Grew w w' := by
  unfold World.on at e
  split at e
  · cases e; exact ⟨⟨[], by simp⟩, Still.refl w⟩
  · rename_i d hd
    exact hf d hd (List.mem_of_getElem? hd) w' e

theorem add1_grew {w w' : World F} {x : Except Abort (DF × Heap F)} (e : w.add1 x = .ok w')
    (hx : ∀ d h', x = .ok (d, h') → Still w h') : Grew w w' := by
  unfold World.add1 at e
  split at e
  · cases e
  · cases e; exact ⟨⟨_, rfl⟩, hx _ _ rfl⟩

theorem addErr_grew {w w' : World F} {x : Except Abort (Option (DF × Heap F))} (e : w.addErr x = .ok w')
    (hx : ∀ d h', x = .ok (some (d, h')) → Still w h') : Grew w w' := by
  unfold World.addErr at e
  split at e
  · cases e
  · cases e; exact ⟨⟨[], by simp⟩, Still.refl w⟩
  · cases e; exact ⟨⟨_, rfl⟩, hx _ _ rfl⟩

theorem addN_grew {w w' : World F} {x : Except Abort (List DF × Heap F)} (e : w.addN x = .ok w')
    (hx : ∀ ds h', x = .ok (ds, h') → Still w h') : Grew w w' := by
  unfold World.addN at e
  split at e
  · cases e
  · cases e; exact ⟨⟨_, rfl⟩, hx _ _ rfl⟩

theorem Call.grew [GoFloat F] {w w' : World F} {c : Call F} (g : w.Good) (hv : c.IsView w) (e : c.run w = .ok w') : Grew w w' := by
  have one : ∀ (i : Nat) (f : DF → Except Abort (DF × Heap F)), w.on i (fun d => w.add1 (f d)) = .ok w' →
      (∀ d, w.dfs[i]? = some d → d ∈ w.dfs → ∀ v h', f d = .ok (v, h') → Still w h') → Grew w w' := by
    intro i f e hf
    exact on_grew e (fun d hd hm w2 e2 => add1_grew e2 (hf d hd hm))
  have pure : ∀ (i : Nat) (f : DF → DF), w.on i (fun d => w.add1 (.ok (f d, w.h))) = .ok w' → Grew w w' := by
    intro i f e
    exact one i _ e (fun d hd hm v h' he => by cases he; exact Still.refl w)
  cases c with
  | build ops => exact hv.elim
  | edit i ed => exact hv.elim
  | maskWrite s i b => exact hv.elim
  | emptyDataFrame n cpu =>
    have e : w.add1 (.ok (Verif.emptyDataFrame w.h n cpu)) = .ok w' := e
    exact add1_grew e (fun d h' he => by
      have := (emptyDataFrame_spec w.h n cpu).ext
      generalize Verif.emptyDataFrame w.h n cpu = p at he this
      cases he; exact Still.ext this)
  | view i => exact pure i _ e
  | reverseView i => exact pure i _ e
  | resetIndexView i => exact pure i _ e
  | indexView i is => exact one i _ e (fun d hd hm v h' he => (Still.refl w).trans (indexView_still he))
  | shuffleView i is => exact one i _ e (fun d hd hm v h' he => (Still.refl w).trans (indexView_still he))
  | sliceView i a b => exact one i _ e (fun d hd hm v h' he => Still.ext (sliceView_ext (g.wf d hm) (g.mwf d hm) he))
  | maskView i m =>
    refine on_grew e (fun d hd hm w2 e2 => ?_)
    split at e2
    · cases e2
    · exact add1_grew e2 (fun d' h' he => by cases he; exact Still.refl w)
  | columnView i cols =>
    refine one i _ e (fun d hd hm v h' he => ?_)
    by_cases hne : cols = []
    · subst hne; cases he; exact Still.refl w
    · have sp := columnView_spec (g.wf d hm) (g.sep d hm d hm) hne
      generalize d.columnView cols w.h = p at he sp
      cases he
      exact sp.frame.mono (fun _ _ => id) (fun _ _ => id) (fun i _ h => ⟨d, hm, h⟩) (fun _ _ h => h.elim)
  | sampleView i n r p =>
    refine one i _ e (fun d hd hm v h' he => ?_)
    unfold DF.sampleView at he
    split at he
    · cases he
    · split at he
      · cases he
      · split at he
        · cases he
        · rename_i hr
          split at he
          · cases he
          · cases he; exact (Still.refl w).trans (indexView_still hr)
  | splitView i b => exact on_grew e (fun d hd hm w2 e2 => addN_grew e2 (fun ds h' he => Still.ext (splitView_ext (g.wf d hm) he)))
  | splitNView i n =>
    refine on_grew e (fun d hd hm w2 e2 => ?_)
    split at e2
    · cases e2
    · rename_i vs h1 hv
      exact addN_grew e2 (fun ds h' he => by cases he; exact Still.ext (splitNView_ext (g.wf d hm) hv))
  | splitTrainTestViews i r =>
    refine on_grew e (fun d hd hm w2 e2 => ?_)
    split at e2
    · cases e2
    · rename_i a b h1 hv
      refine addN_grew e2 (fun ds h' he => ?_)
      cases he
      unfold DF.splitTrainTestViews at hv
      split at hv
      · cases hv
      · simp only at hv
        split at hv
        · cases hv
        · rename_i h2 e1
          split at hv
          · cases hv
          · rename_i h3 e3
            cases hv
            have x1 := sliceView_ext (g.wf d hm) (g.mwf d hm) e1
            exact Still.ext (x1.trans (sliceView_ext ((g.wf d hm).ext x1) ((g.mwf d hm).safe (Safe.ext x1)) e3))
  | sortedView i o c =>
    refine one i _ e (fun d hd hm v h' he => ?_)
    obtain ⟨is, he⟩ := sortedView_indexView he
    exact (Still.refl w).trans (indexView_still he)
  | topView i o c n a s =>
    refine on_grew e (fun d hd hm w2 e2 => ?_)
    split at e2
    · cases e2; exact ⟨⟨[], by simp⟩, Still.refl w⟩
    · exact add1_grew e2 (fun v h' he => (Still.refl w).trans (topView_still he))
  | detachedView i cols =>
    refine one i _ e (fun d hd hm v h' he => ?_)
    have us : Heap.Ext w.h (d.detachedView cols w.h).2 := (unshare_spec (view_wf (g.wf d hm)).toWF cols).ext rfl
    generalize d.detachedView cols w.h = p at he us
    cases he; exact Still.ext us
  | hashStringsView i cols o =>
    exact one i _ e (fun d hd hm v h' he => hashStringsView_still g hm hv.1 (hv.2.imp id (fun x => x d hd)) he)
  | shallowCopy i =>
    refine one i _ e (fun d hd hm v h' he => ?_)
    have us := (shallowCopy_spec (g.wf d hm)).ext
    generalize d.shallowCopy w.h = p at he us
    cases he; exact Still.ext us
  | copy i =>
    refine one i _ e (fun d hd hm v h' he => ?_)
    obtain ⟨c', h2, e', sp⟩ := copy_spec (g.wf d hm)
    rw [he] at e'; cases e'
    exact Still.ext sp.ext
  | rowConcat is =>
    refine addErr_grew e (fun d h' he => ?_)
    have hs : ∀ d ∈ w.pick is, d.WF w.h := fun d hd => g.wf d (World.pick_mem hd)
    generalize w.pick is = ds at he hs
    cases ds with
    | nil => simp [Verif.rowConcat] at he
    | cons d0 rest =>
      rcases rowConcat_spec hs with ⟨r', h2, e', sp, _⟩ | ⟨e', _⟩
      · rw [he] at e'; cases e'; exact Still.ext sp.ext
      · rw [he] at e'; cases e'
  | columnConcatView is =>
    exact addErr_grew e (fun d h' he => Still.ext (columnConcatView_ext (fun d hd => g.wf d (World.pick_mem hd)) he))
  | columnCopyConcat is =>
    exact addErr_grew e (fun d h' he => Still.ext (columnCopyConcat_ext (fun d hd => g.wf d (World.pick_mem hd)) he))
  | columnSmartConcat is =>
    refine addErr_grew e (fun d h' he => ?_)
    unfold Verif.columnSmartConcat at he
    split at he
    · cases he
    · rename_i x hx
      cases he
      exact Still.ext (columnConcatView_ext (fun d hd => g.wf d (World.pick_mem hd)) hx)
    · exact Still.ext (columnCopyConcat_ext (fun d hd => g.wf d (World.pick_mem hd)) he)
  | zeroMask i =>
    refine on_grew e (fun d hd hm w2 e2 => ?_)
    split at e2
    · cases e2
    · rename_i hz; cases e2; exact ⟨⟨[], by simp⟩, (Still.refl w).trans (zeroMask_still hz)⟩
  | emptyMask i =>
    refine on_grew e (fun d hd hm w2 e2 => ?_)
    split at e2
    · cases e2
    · rename_i hz
      cases e2
      refine ⟨⟨[], by simp⟩, ?_⟩
      unfold DF.emptyMask at hz
      split at hz
      · cases hz; exact Still.ext (Heap.newMsk_ext ..)
      · split at hz
        · cases hz
        · cases hz; exact Still.refl w

end Verif
