import Verif.Proofs.History

/-! One-step lemmas for histories, continued: views, copies, concatenations, builders. -/

namespace Verif
variable {F : Type}

theorem StepOK.trans {h h1 h2 : Heap F} {d v w : DF} (a : StepOK h d h1 v) (b : StepOK h1 v h2 w) :
    StepOK h d h2 w where
  safe := a.safe.trans b.safe
  wf := b.wf
  mwf := b.mwf
  sh i hi := by
    have := a.safe.next_le
    rcases b.sh i hi with x | x
    · exact a.sh i x
    · right; omega
  st i hi := by
    have := a.safe.next_le
    rcases b.st i hi with x | x
    · exact a.st i x
    · right; omega
  sep s := b.sep (a.sep s)

theorem indexView_stepOK {d v : DF} {h h' : Heap F} (wf : d.WF h) (mwf : d.MaskWF h) {is : List Int}
    (e : d.indexView is h = .ok (v, h')) :
    StepOK h d h' v ∧ v.idx.len = v.idx.data.length ∧ v.indexViewed = true := by
  have hin : ∀ i ∈ is, 0 ≤ i ∧ i < d.numRows := by
    intro i hi
    refine Classical.byContradiction fun hx => ?_
    rw [indexView_err d h is ⟨i, hi, hx⟩] at e; cases e
  obtain ⟨v', h2, e', _, s, hidx, _, hv, _⟩ := indexView_step wf mwf hin
  rw [e] at e'; cases e'
  exact ⟨s, by rw [hidx]; rfl, hv⟩

theorem maskView_stepOK {d v : DF} {h : Heap F} (wf : d.WF h) (mwf : d.MaskWF h) {m : List Bool}
    (e : d.maskView m = .ok v) : StepOK h d h v := maskView_step wf mwf e

/-- Cutting the row positions of a view whose slice of positions is compact. -/
theorem reslice_stepOK {d v : DF} {h h' : Heap F} (s : StepOK h d h' v) (hl : v.idx.len = v.idx.data.length)
    (hv : v.indexViewed = true) {a b : Int} {x : Idx} (e : v.idx.reslice a b = .ok x) :
    StepOK h d h' { v with idx := x } := by
  unfold Idx.reslice at e
  split at e
  · rename_i hc
    cases e
    have hrows : ∀ i ∈ ({ v with idx := (⟨v.idx.data.drop a.toNat, (b - a).toNat⟩ : Idx) } : DF).rows, i ∈ v.rows := by
      intro i hi
      simp only [DF.rows, Idx.rows] at hi ⊢
      rw [hl, List.take_length]
      exact List.mem_of_mem_drop (List.mem_of_mem_take hi)
    have hn : ({ v with idx := (⟨v.idx.data.drop a.toNat, (b - a).toNat⟩ : Idx) } : DF).numRows ≤ v.numRows := by
      simp only [DF.numRows, DF.rows, Idx.rows, List.length_take, List.length_drop]
      omega
    refine ⟨s.safe, ⟨⟨s.wf.tab_lt, s.wf.shared_lt, s.wf.str_lt, s.wf.keys, s.wf.slices⟩, ?_, ?_⟩, ⟨?_, s.mwf.len_le, s.mwf.valid⟩, s.sh, s.st, s.sep⟩
    · simp only [List.length_drop]; omega
    · obtain ⟨N, h1, h2, _⟩ := s.wf.rect
      exact ⟨N, h1, fun i hi => h2 i (hrows i hi), fun hf => by rw [hv] at hf; cases hf⟩
    · exact Nat.le_trans hn s.mwf.len_ge
  · cases e

theorem sampleView_stepOK {d v : DF} {h h' : Heap F} (wf : d.WF h) (mwf : d.MaskWF h) {n : Int} {rep : Bool} {p : List Nat}
    (e : d.sampleView n rep p h = .ok (v, h')) : StepOK h d h' v := by
  unfold DF.sampleView at e
  split at e
  · cases e
  · split at e
    · cases e
    · split at e
      · cases e
      · rename_i r h1 hr
        split at e
        · cases e
        · rename_i x hx
          cases e
          obtain ⟨s, h1, h2⟩ := indexView_stepOK wf mwf hr
          exact reslice_stepOK s h1 h2 hx

theorem sortedView_indexView [GoFloat F] {o : List F → List Nat} {d v : DF} {c : GoStr} {h h' : Heap F}
    (e : d.sortedView o c h = .ok (v, h')) : ∃ is, d.indexView is h = .ok (v, h') := by
  unfold DF.sortedView at e
  repeat' split at e
  all_goals first | exact ⟨_, e⟩ | cases e

theorem topView_stepOK [GoFloat F] {o : List F → List Nat} {d v : DF} {c : GoStr} {n : Int} {asc srt : Bool} {h h' : Heap F}
    (wf : d.WF h) (mwf : d.MaskWF h) (hn : ¬ (n ≥ d.numRows ∧ srt = false))
    (e : d.topView o c n asc srt h = .ok (v, h')) : StepOK h d h' v := by
  unfold DF.topView at e
  simp only at e
  rw [if_neg hn] at e
  split at e
  · cases e
  · split at e
    · cases e
    · rename_i r h1 hr
      obtain ⟨is, hr⟩ := sortedView_indexView hr
      obtain ⟨s, h1, h2⟩ := indexView_stepOK wf mwf hr
      split at e
      · split at e
        · cases e
        · rename_i x hx
          cases e
          exact reslice_stepOK s h1 h2 hx
      · split at e
        · cases e
        · rename_i x hx
          have s2 := reslice_stepOK s h1 h2 hx
          cases e
          split
          · exact s2.trans (reverseView_step s2.wf s2.mwf)
          · exact s2

theorem sliceView_stepOK {d v : DF} {h h' : Heap F} (wf : d.WF h) (mwf : d.MaskWF h) {a b : Int}
    (ha : SliceBound d.numRows a) (hb : SliceBound d.numRows b)
    (e : d.sliceView a b h = .ok (v, h')) : StepOK h d h' v := by
  unfold DF.sliceView at e
  simp only at e
  obtain ⟨x, hx⟩ : ∃ x, x = (if a < 0 then a + ((d.numRows : Int) + 1) else a) := ⟨_, rfl⟩
  obtain ⟨y, hy⟩ : ∃ y, y = (if b < 0 then b + ((d.numRows : Int) + 1) else b) := ⟨_, rfl⟩
  rw [← hx, ← hy] at e
  unfold SliceBound at ha hb
  have hx1 : 0 ≤ x ∧ x ≤ d.numRows := by rw [hx]; split <;> omega
  have hy1 : 0 ≤ y ∧ y ≤ d.numRows := by rw [hy]; split <;> omega
  split at e
  · have s1 := reverseView_step wf mwf
    have s2 := view_step s1.wf s1.mwf
    have hn : d.reverseView.view.numRows = d.numRows := by
      simp [DF.numRows, DF.rows, DF.view, DF.reverseView, Idx.mk', Idx.rows]
    obtain ⟨v', h2, e2, _, s, _⟩ := cut_step s2.wf s2.mwf rfl hy1.1 (show y ≤ x by omega) (by rw [hn]; exact hx1.2)
    rw [e] at e2; cases e2
    exact (s1.trans s2).trans s
  · have s2 := view_step wf mwf
    obtain ⟨v', h2, e2, _, s, _⟩ := cut_step s2.wf s2.mwf rfl hx1.1 (show x ≤ y by omega) hy1.2
    rw [e] at e2; cases e2
    exact s2.trans s

/-- A list of dataframes joins a world. -/
structure JoinsN (w : World F) (h' : Heap F) (vs : List DF) : Prop where
  safe : Safe w.h h'
  good : World.Good ⟨h', w.dfs ++ vs⟩

theorem splitLoop_joins {w : World F} (g : w.Good) {d : DF} (hd : d ∈ w.dfs) {b : Nat} (m i : Nat)
    (hi : i + m * b ≤ d.numRows) {vs : List DF} {h' : Heap F} (e : d.splitLoop b i m w.h = .ok (vs, h')) :
    JoinsN w h' vs := by
  induction m generalizing i w vs with
  | zero =>
    unfold DF.splitLoop at e
    have s2 := view_step (g.wf d hd) (g.mwf d hd)
    obtain ⟨v, h2, e2, _, s, _⟩ := cut_step s2.wf s2.mwf rfl (a := (i : Int)) (b := (d.numRows : Int)) (by omega) (by simp at hi; omega) (Int.le_refl _)
    rw [e2] at e
    cases e
    have s := s2.trans s
    exact ⟨s.safe, g.push (s.joins g hd)⟩
  | succ m ih =>
    unfold DF.splitLoop at e
    have hm : (m + 1) * b = m * b + b := by rw [Nat.add_mul, Nat.one_mul]
    have s2 := view_step (g.wf d hd) (g.mwf d hd)
    obtain ⟨v, h2, e2, _, s, _⟩ := cut_step s2.wf s2.mwf rfl (a := (i : Int)) (b := (i : Int) + b) (by omega) (by omega)
      (by have : d.view.numRows = d.numRows := rfl; rw [this]; omega)
    rw [e2] at e
    simp only at e
    have s := s2.trans s
    have g2 := g.push (s.joins g hd)
    split at e
    · cases e
    · rename_i ds h3 he
      cases e
      have j := ih (w := ⟨h2, w.dfs ++ [v]⟩) g2 (by simp [hd]) (i + b) (by omega) he
      exact ⟨s.safe.trans j.safe, by have := j.good; simpa using this⟩

theorem splitView_joins {w : World F} (g : w.Good) {d : DF} (hd : d ∈ w.dfs) {b : Int} {vs : List DF} {h' : Heap F}
    (e : d.splitView b w.h = .ok (vs, h')) : JoinsN w h' vs := by
  unfold DF.splitView at e
  split at e
  · cases e
  · simp only at e
    have h2 : (d.numRows / b.toNat) * b.toNat ≤ d.numRows := Nat.div_mul_le_self ..
    have h3 : (d.numRows / b.toNat - 1) * b.toNat ≤ (d.numRows / b.toNat) * b.toNat := Nat.mul_le_mul_right _ (Nat.sub_le ..)
    split at e
    · by_cases hn : d.numRows / b.toNat + 1 ≤ 1
      · rw [if_pos hn] at e
        cases e
        have s := view_step (g.wf d hd) (g.mwf d hd)
        exact ⟨s.safe, g.push (s.joins g hd)⟩
      · rw [if_neg hn] at e
        exact splitLoop_joins g hd _ 0 (by simpa using h2) e
    · by_cases hn : d.numRows / b.toNat ≤ 1
      · rw [if_pos hn] at e
        cases e
        have s := view_step (g.wf d hd) (g.mwf d hd)
        exact ⟨s.safe, g.push (s.joins g hd)⟩
      · rw [if_neg hn] at e
        exact splitLoop_joins g hd _ 0 (by omega) e

theorem emptyDataFrame_joins (w : World F) (n cpu : Int) : Joins w (emptyDataFrame w.h n cpu).2 (emptyDataFrame w.h n cpu).1 := by
  have sp := emptyDataFrame_spec w.h n cpu
  generalize emptyDataFrame w.h n cpu = p at sp
  obtain ⟨d, h'⟩ := p
  simp only at sp ⊢
  have hr := sp.rawE
  refine Joins.fresh (Safe.ext sp.ext) ⟨⟨by rw [sp.tab]; exact sp.lt, ?_, ?_, by rw [sp.tabE]; simp [AMap.keys], ?_⟩, sp.idx, ⟨n.toNat, ?_, ?_, ?_⟩⟩ sp.mwf ?_ ?_
  · intro i hi; rw [hr] at hi; cases hi
  · intro i hi; rw [hr] at hi; cases hi
  · intro k s hk; rw [sp.tabE] at hk; cases hk
  · intro k s hk; rw [sp.tabE] at hk; cases hk
  · intro i hi; rw [sp.rows] at hi; simpa using hi
  · intro _; exact sp.rows
  · rintro i (hi | hi) <;> · rw [hr] at hi; cases hi
  · intro i hi; rw [hr] at hi; cases hi

theorem splitNView_joins {w : World F} (g : w.Good) {d : DF} (hd : d ∈ w.dfs) {n : Int} {vs : List DF} {h' : Heap F}
    (e : d.splitNView n w.h = .ok (vs, h')) : JoinsN w h' vs := by
  unfold DF.splitNView at e
  split at e
  · cases e
  · split at e
    · cases e; exact ⟨Safe.refl _, by simpa using g⟩
    · split at e
      · cases e
        have s := view_step (g.wf d hd) (g.mwf d hd)
        exact ⟨s.safe, g.push (s.joins g hd)⟩
      · simp only at e
        split at e
        · cases e
        · rename_i ds h1 he
          have j := splitView_joins g hd he
          split at e
          · cases e
            have j2 := emptyDataFrame_joins (⟨h1, w.dfs ++ ds⟩ : World F) 0 d.maxCPU
            refine ⟨j.safe.trans j2.safe, ?_⟩
            refine (j.good.push j2).sub ?_
            intro x hx
            simp only [List.mem_append, List.mem_replicate, List.mem_singleton] at hx ⊢
            tauto
          · cases e; exact j

theorem splitTrainTest_joins [GoFloat F] {w : World F} (g : w.Good) {d a b : DF} (hd : d ∈ w.dfs) {r : F} {h' : Heap F}
    (h0 : 0 ≤ GoFloat.trunc (GoFloat.mul (GoFloat.ofInt d.numRows) r : F))
    (h1 : GoFloat.trunc (GoFloat.mul (GoFloat.ofInt d.numRows) r : F) ≤ d.numRows)
    (e : d.splitTrainTestViews r w.h = .ok ((a, b), h')) : JoinsN w h' [a, b] := by
  unfold DF.splitTrainTestViews at e
  split at e
  · cases e
  · simp only at e
    split at e
    · cases e
    · rename_i tr h2 e1
      split at e
      · cases e
      · rename_i te h3 e2
        cases e
        have s1 := sliceView_stepOK (g.wf d hd) (g.mwf d hd) (by unfold SliceBound; omega) (by unfold SliceBound; omega) e1
        have g1 := g.push (s1.joins g hd)
        have s2 := sliceView_stepOK (h := h2) (g1.wf d (by simp [hd])) (g1.mwf d (by simp [hd])) (by unfold SliceBound; omega) (by unfold SliceBound; omega) e2
        have g2 := g1.push (s2.joins g1 (by simp [hd]))
        exact ⟨s1.safe.trans s2.safe, by simpa using g2⟩

theorem resetIndexView_stepOK {d : DF} {h : Heap F} (wf : d.WF h) (mwf : d.MaskWF h) : StepOK h d h d.resetIndexView := by
  obtain ⟨is, hp, rv, _⟩ := C52_resetIndexView wf
  refine StepOK.of_view (Safe.refl _) rv.wf ⟨?_, mwf.len_le, mwf.valid⟩ rfl rfl
  rw [rv.numRows, hp.1.length_eq, List.length_range]; exact mwf.len_ge

theorem detachedView_stepOK {d : DF} {h : Heap F} (wf : d.WF h) (mwf : d.MaskWF h) (cols : List GoStr) :
    StepOK h d (d.detachedView cols h).2 (d.detachedView cols h).1 := by
  have us := unshare_spec (view_wf wf).toWF cols
  have w := (C14_detached_shows wf cols).2.1
  have m := mwf.safe us.safe
  refine ⟨us.safe, w, ⟨m.len_ge, m.len_le, m.valid⟩, ?_, ?_, fun sep => ?_⟩
  · intro i hi
    exact Or.inr ((us.fresh rfl).2 i hi)
  · intro i hi
    left
    have : (d.view.toRaw.unshare cols h).1.strHdr = some i := hi
    rw [us.str] at this; exact this
  · exact unshare_sep (view_wf wf).toWF sep cols

theorem shallowCopy_joins {w : World F} (g : w.Good) {d : DF} (hd : d ∈ w.dfs) :
    Joins w (d.shallowCopy w.h).2 (d.shallowCopy w.h).1 := by
  have sp := shallowCopy_spec (g.wf d hd)
  exact Joins.fresh (Safe.ext sp.ext) sp.wf (sp.mwf (g.mwf d hd)) sp.hdr sp.sep

theorem copy_joins {w : World F} (g : w.Good) {d c : DF} {h' : Heap F} (hd : d ∈ w.dfs) (e : d.copy w.h = .ok (c, h')) :
    Joins w h' c := by
  obtain ⟨c', h2, e', sp⟩ := copy_spec (g.wf d hd)
  rw [e] at e'; cases e'
  exact Joins.fresh (Safe.ext sp.ext) sp.wf sp.mwf sp.new.hdr sp.sep

theorem rowConcat_joins [GoFloat F] {w : World F} {ds : List DF} (hs : ∀ d ∈ ds, d.WF w.h) {r : DF} {h' : Heap F}
    (e : rowConcat ds w.h = .ok (some (r, h'))) : Joins w h' r := by
  cases ds with
  | nil => simp [rowConcat] at e
  | cons d0 rest =>
    rcases rowConcat_spec hs with ⟨r', h2, e', sp, _⟩ | ⟨e', _⟩
    · rw [e] at e'; cases e'
      exact Joins.fresh (Safe.ext sp.ext) sp.wf sp.mwf sp.new.hdr sp.sep
    · rw [e] at e'; cases e'

theorem columnCopyConcat_joins {w : World F} {ds : List DF} (hs : ∀ d ∈ ds, d.WF w.h) {r : DF} {h' : Heap F}
    (e : columnCopyConcat ds w.h = .ok (some (r, h'))) : Joins w h' r := by
  classical
  cases ds with
  | nil => simp [columnCopyConcat] at e
  | cons d0 rest =>
    have sp := columnCopyConcat_spec hs
    split at sp
    · obtain ⟨r', h2, e', sp⟩ := sp
      rw [e] at e'; cases e'
      exact Joins.fresh (Safe.ext sp.ext) sp.wf sp.mwf sp.new.hdr (fun i hi => by rw [sp.shared] at hi; cases hi)
    · rw [e] at sp; cases sp

theorem columnConcatView_joins {w : World F} (g : w.Good) {ds : List DF} (hs : ∀ d ∈ ds, d ∈ w.dfs) (ss : SameShape w.h ds)
    {r : DF} {h' : Heap F} (e : columnConcatView ds w.h = .ok (some (r, h'))) : Joins w h' r := by
  have wfs : ∀ d ∈ ds, d.WF w.h := fun d hd => g.wf d (hs d hd)
  have hov : checkNoColumnOverlap w.h ds = true := by
    cases hx : checkNoColumnOverlap w.h ds with
    | true => rfl
    | false => simp [columnConcatView, hx] at e
  have ov := (overlap_iff wfs).1 hov
  cases ds with
  | nil => simp [columnConcatView, hov] at e
  | cons d0 rest =>
    obtain ⟨r', h2, e', sp⟩ := columnConcatView_ok wfs ov (fun d hd => ss.1 d (by simp [hd]) d0 (by simp))
    rw [e] at e'; cases e'
    obtain ⟨N, hN⟩ := ss.2
    obtain ⟨h1, h2, h3⟩ := hN d0 (by simp)
    have hw : r.WF h' := sp.wf wfs (fun d hd => (hN d hd).1) h2 (fun hv => by
      obtain ⟨M, _, _, hM⟩ := (wfs d0 (by simp)).rect
      have e1 := hM hv
      have e2 := h3 hv
      simp only [DF.numRows] at e2
      rw [e1, List.length_range] at e2
      rw [e1, e2])
    have m := g.mwf d0 (hs d0 (by simp))
    have m' := m.safe (Safe.ext sp.ext)
    refine Joins.fresh (Safe.ext sp.ext) hw ⟨?_, by rw [sp.mask]; exact m'.len_le, by rw [sp.mask]; exact m'.valid⟩
      (fun i hi => (sp.hdr i hi).1) sp.sep
    rw [sp.mask]; simp only [DF.numRows, DF.rows, sp.idx]; exact m'.len_ge

end Verif
