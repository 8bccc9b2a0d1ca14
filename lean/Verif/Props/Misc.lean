import Verif.Props.ColConcat

/-! C49 (masks), C57 (`VecDense`), C58 (`SetMaxCPU`). -/

namespace Verif
open scoped Demo
variable {F : Type}

/-! ### C57 -/

theorem vecDenseCopy_spec {df : DF} {h : Heap F} (wf : df.WF h) {c : GoStr} {l : List (Option (Val F))}
    (hc : (abs h df).col .float c = some l) (hn : l ≠ []) :
    ∃ vs, df.vecDenseCopy h c = .ok (h.newArr vs) ∧ vs.map some = l := by
  simp only [abs, Option.map_eq_some_iff] at hc
  obtain ⟨s, hs, rfl⟩ := hc
  obtain ⟨N, h1, h2, h3⟩ := wf.rect
  obtain ⟨vs, hvs⟩ := gather_ok (wf.slices _ _ hs) (is := df.rows) (fun i hi => by rw [h1 _ _ hs]; exact h2 i hi)
  have he := (gather_iff ..).1 hvs
  refine ⟨vs, ?_, he.symm⟩
  unfold DF.vecDenseCopy
  rw [hs]
  simp only [hvs]
  rw [if_neg]
  intro h0
  apply hn
  rw [he, List.length_eq_zero_iff.1 h0]; rfl

/-- C57: for every non-empty float column, `VecDense()` and `VecDenseCopy()` have exactly the visible values
as entries, whether the dataframe is contiguous or index-viewed; no dataframe changes. -/
theorem C57_vecDense {df : DF} {h : Heap F} (wf : df.WF h) {c : GoStr} {l : List (Option (Val F))}
    (hc : (abs h df).col .float c = some l) (hn : l ≠ []) :
    (∃ s h', df.vecDense h c = .ok (s, h') ∧ (h'.read s).map some = l ∧
      ∀ d : DF, d.WF h → abs h' d = abs h d ∧ locs h' d = locs h d ∧ d.WF h') ∧
    (∃ s h', df.vecDenseCopy h c = .ok (s, h') ∧ (h'.read s).map some = l ∧
      ∀ d : DF, d.WF h → abs h' d = abs h d ∧ locs h' d = locs h d ∧ d.WF h') := by
  obtain ⟨vs, e, hv⟩ := vecDenseCopy_spec wf hc hn
  have hcopy : ∃ s h', df.vecDenseCopy h c = .ok (s, h') ∧ (h'.read s).map some = l ∧
      ∀ d : DF, d.WF h → abs h' d = abs h d ∧ locs h' d = locs h d ∧ d.WF h' :=
    ⟨_, _, e, (congrArg (List.map some) (read_newArr h vs)).trans hv, fun d wd =>
      ⟨abs_ext (Heap.newArr_ext ..) wd.toWF, locs_ext (Heap.newArr_ext ..) wd.toWF, wd.ext (Heap.newArr_ext ..)⟩⟩
  refine ⟨?_, hcopy⟩
  have hc' := hc
  simp only [abs, Option.map_eq_some_iff] at hc
  obtain ⟨s, hs, hl⟩ := hc
  unfold DF.vecDense
  rw [hs]
  simp only
  by_cases hiv : df.indexViewed = false
  · rw [if_pos hiv]
    obtain ⟨N, h1, h2, h3⟩ := wf.rect
    have hlen := h1 _ _ hs
    have hr : df.rows = List.range s.len := by rw [hlen]; exact h3 hiv
    rw [hr, read_range (wf.slices _ _ hs)] at hl
    rw [if_neg]
    · exact ⟨s, h, rfl, hl, fun d wd => ⟨rfl, rfl, wd⟩⟩
    · intro h0
      apply hn
      rw [← hl]
      have := (wf.slices _ _ hs).read_length
      rw [h0] at this
      rw [List.length_eq_zero_iff.1 this]; rfl
  · rw [if_neg hiv]; exact hcopy

/-- C57: the entries of a `VecDenseCopy` live in memory of their own: storing any value at any position of it
changes no dataframe that existed before. -/
theorem C57_copy_private {df : DF} {h h1 h2 : Heap F} {c : GoStr} {s : Slice}
    (e : df.vecDenseCopy h c = .ok (s, h1)) {i : Nat} {v : Val F} (ew : h1.write s i v = .ok h2) :
    ∀ d : DF, d.WF h → abs h2 d = abs h d := by
  intro d wd
  unfold DF.vecDenseCopy at e
  split at e
  · cases e
  · split at e
    · cases e
    · split at e
      · cases e
      · simp only [Except.ok.injEq] at e
        rename_i vs _ _
        have e1 := Heap.newArr_ext h vs
        have hs : s.arr = h.next := by rw [show s = (h.newArr vs).1 from (congrArg Prod.fst e).symm]; rfl
        have hh : h1 = (h.newArr vs).2 := (congrArg Prod.snd e).symm
        subst hh
        unfold Heap.write at ew
        split at ew
        · cases ew
          have e2 : Heap.Ext h ((h.newArr vs).2.setArr s.arr (((h.newArr vs).2.arr s.arr).set (s.off + i) v)) := by
            refine ⟨e1.next_le, ?_, e1.tab, e1.hdr, e1.msk⟩
            intro j hj
            simp only [Heap.setArr, hs]
            rw [if_neg (by omega)]
            exact e1.arr j hj
          exact abs_ext e2 wd.toWF
        · cases ew

example : ∃ s h', Demo.df.vecDense Demo.h b!"x" = .ok (s, h') ∧
    (h'.read s).map some = [some (.float 5), some (.float 3), some (.float 9), some (.float 1)] ∧
    ∀ d : DF, d.WF Demo.h → abs h' d = abs Demo.h d ∧ locs h' d = locs Demo.h d ∧ d.WF h' :=
  (C57_vecDense Demo.df_wf (c := b!"x") (by decide) (by simp)).1
example : ∃ s h', Demo.df.reverseView.vecDense Demo.h b!"x" = .ok (s, h') ∧
    (h'.read s).map some = [some (.float 1), some (.float 9), some (.float 3), some (.float 5)] ∧
    ∀ d : DF, d.WF Demo.h → abs h' d = abs Demo.h d ∧ locs h' d = locs Demo.h d ∧ d.WF h' :=
  (C57_vecDense (reverseView_step Demo.df_wf Demo.df_mwf).wf (c := b!"x") (by decide) (by simp)).1

/-! ### C58 -/

/-- C58: after `SetMaxCPU(n)`, `ActualMaxCPU()` is between 1 and the number of cores, and equal to `n` when
`1 ≤ n < cores`. -/
theorem C58_setMaxCPU (r : Raw) (h : Heap F) (n : Int) :
    1 ≤ (r.setMaxCPU h n).actualMaxCPU ∧ (r.setMaxCPU h n).actualMaxCPU ≤ h.rt.numCPU ∧
    (1 ≤ n → n < h.rt.numCPU → (r.setMaxCPU h n).actualMaxCPU = n) ∧
    (n ≤ 0 ∨ h.rt.numCPU ≤ n → (r.setMaxCPU h n).actualMaxCPU = h.rt.numCPU) := by
  have := h.rt.numCPU_pos
  simp only [Raw.setMaxCPU, Raw.actualMaxCPU, clampCPU]
  refine ⟨?_, ?_, ?_, ?_⟩ <;> split <;> omega

theorem C58_new_inherits {df : DF} {h : Heap F} (wf : df.WF h) :
    df.view.maxCPU = df.maxCPU ∧ df.reverseView.maxCPU = df.maxCPU ∧ df.resetIndexView.maxCPU = df.maxCPU ∧
    (df.shallowCopy h).1.maxCPU = df.maxCPU ∧
    (∀ c h', df.copy h = .ok (c, h') → c.maxCPU = df.maxCPU) ∧
    (∀ is v h', df.indexView is h = .ok (v, h') → v.maxCPU = df.maxCPU) ∧
    (∀ m v, df.maskView m = .ok v → v.maxCPU = df.maxCPU) ∧
    (∀ cs, (df.columnView cs h).1.maxCPU = df.maxCPU) := by
  refine ⟨rfl, rfl, rfl, (shallowCopy_spec wf).cpu, ?_, ?_, ?_, ?_⟩
  · intro c h' e
    obtain ⟨c', h'', e', sp⟩ := copy_spec wf
    rw [e] at e'; cases e'
    exact sp.cpu
  · intro is v h' e
    unfold DF.indexView at e
    split at e
    · cases e
    · split at e <;> · cases e; rfl
  · intro m v e
    unfold DF.maskView at e
    split at e <;> cases e
    rfl
  · intro cs
    unfold DF.columnView
    split <;> rfl

/-- C58, concatenations: the result of `RowConcat`, `ColumnConcatView` and `ColumnCopyConcat` has the setting of the first
dataframe. -/
theorem C58_concat_inherits [GoFloat F] {d0 : DF} {rest : List DF} {h h' : Heap F} {r : DF} (wfs : ∀ d ∈ d0 :: rest, d.WF h) :
    (rowConcat (d0 :: rest) h = .ok (some (r, h')) → r.maxCPU = d0.maxCPU) ∧
    (columnConcatView (d0 :: rest) h = .ok (some (r, h')) → r.maxCPU = d0.maxCPU) ∧
    (columnCopyConcat (d0 :: rest) h = .ok (some (r, h')) → r.maxCPU = d0.maxCPU) := by
  have hview : ∀ {d0 r : DF} {rest : List DF} {h h' : Heap F}, (∀ d ∈ d0 :: rest, d.WF h) →
      columnConcatView (d0 :: rest) h = .ok (some (r, h')) → r.maxCPU = d0.maxCPU := by
    intro d0 r rest h h' wfs e
    have hov : NoOverlap ((d0 :: rest).map (abs h)) := by
      by_contra hn
      rw [(C22_concatView_errors wfs).1 hn] at e
      cases e
    unfold columnConcatView at e
    split at e
    · cases e
    · simp only at e
      split at e
      · cases e
      · simp only [Except.ok.injEq, Option.some.injEq] at e
        have sp := columnConcat_step wfs hov
        rw [e] at sp
        exact sp.cpu
  refine ⟨?_, hview wfs, ?_⟩
  · intro e
    rcases rowConcat_spec wfs with ⟨r', h'', e', sp, _⟩ | ⟨e', _⟩
    · rw [e] at e'; cases e'; exact sp.cpu
    · rw [e] at e'; cases e'
  · intro e
    unfold columnCopyConcat at e
    simp only at e
    split at e
    · cases e
    · obtain ⟨cs, h1, e1, s1⟩ := copyAll_spec (d0 :: rest) wfs
      rw [e1] at e
      simp only at e
      have wcs : ∀ c ∈ cs, c.WF h1 := by
        intro c hc
        obtain ⟨d, _, hp⟩ := forall₂_mem_right s1.all hc
        exact hp.2.1
      obtain ⟨c0, crest, hp0, hprest, rfl⟩ : ∃ c0 crest, _ ∧ List.Forall₂ _ rest crest ∧ cs = c0 :: crest := by
        have := s1.all
        rw [List.forall₂_cons_left_iff] at this
        exact this
      cases ec : columnConcatView (c0 :: crest) h1 with
      | error a => rw [ec] at e; cases e
      | ok o =>
        cases o with
        | none => rw [ec] at e; cases e
        | some p =>
          obtain ⟨r2, h2⟩ := p
          rw [ec] at e
          cases e
          exact (hview wcs ec).trans hp0.2.2.2.2.2.2.1

example : (Demo.df.toRaw.setMaxCPU Demo.h 3).actualMaxCPU = 3 :=
  (C58_setMaxCPU Demo.df.toRaw Demo.h 3).2.2.1 (by decide) (by decide)

/-! ### C49 -/

/-- The loop that clears the mask touches only that mask's array. -/
theorem zeroMaskLoop_spec (s : Slice) (n i : Nat) (h : Heap F) (hl : i + n ≤ s.len) :
    ∃ m, zeroMaskLoop h s i n = .ok (h.setMsk s.arr m) ∧ m.length = (h.msk s.arr).length ∧
      ∀ j, m[j]? = if s.off + i ≤ j ∧ j < s.off + i + n ∧ j < (h.msk s.arr).length then some false else (h.msk s.arr)[j]? := by
  induction n generalizing i h with
  | zero =>
    refine ⟨h.msk s.arr, ?_, rfl, fun j => by rw [if_neg (by omega)]⟩
    simp only [zeroMaskLoop, Except.ok.injEq]
    cases h
    simp only [Heap.setMsk, Heap.mk.injEq, true_and]
    funext j; split
    · rename_i hj; rw [hj]
    · rfl
  | succ n ih =>
    simp only [zeroMaskLoop]
    rw [if_pos (by omega)]
    obtain ⟨m, e, h1, h2⟩ := ih (i + 1) (h.setMsk s.arr ((h.msk s.arr).set (s.off + i) false)) (by omega)
    have hsame : (h.setMsk s.arr ((h.msk s.arr).set (s.off + i) false)).msk s.arr = (h.msk s.arr).set (s.off + i) false := by
      simp [Heap.setMsk]
    rw [hsame] at h1 h2
    simp only [List.length_set] at h1 h2
    refine ⟨m, ?_, h1, ?_⟩
    · rw [e]
      simp only [Heap.setMsk, Except.ok.injEq, Heap.mk.injEq, true_and]
      funext j; split <;> rfl
    · intro j
      rw [h2 j]
      by_cases hj : s.off + i = j
      · subst hj
        rw [if_neg (by omega)]
        rw [List.getElem?_set]
        simp only [if_true]
        by_cases hlt : s.off + i < (h.msk s.arr).length
        · rw [if_pos hlt, if_pos ⟨by omega, by omega, hlt⟩]
        · rw [if_neg hlt, if_neg (by omega), List.getElem?_eq_none (by omega)]
      · rw [List.getElem?_set, if_neg hj]
        by_cases hc : s.off + (i + 1) ≤ j ∧ j < s.off + (i + 1) + n ∧ j < (h.msk s.arr).length
        · rw [if_pos hc, if_pos (by omega)]
        · rw [if_neg hc, if_neg (by omega)]

/-- What is observable of a dataframe does not depend on the mask arrays. -/
theorem setMsk_abs (h : Heap F) (i : Nat) (m : List Bool) (d : DF) :
    abs (h.setMsk i m) d = abs h d ∧ locs (h.setMsk i m) d = locs h d := ⟨rfl, rfl⟩

theorem setMsk_safe (h : Heap F) (i : Nat) (m : List Bool) (hl : m.length = (h.msk i).length) : Safe h (h.setMsk i m) := by
  refine Safe.of_tab (Nat.le_refl _) (fun _ _ => rfl) ?_ (fun _ _ => rfl)
  intro j _
  simp only [Heap.setMsk]
  split
  · rename_i hj; rw [hj, hl]; exact Nat.le_refl _
  · exact Nat.le_refl _

/-- C49, sizes: `ZeroMask()` returns as many `false` as there are rows, `EmptyMask()` as many values as there are
rows; neither changes a dataframe. -/
theorem C49_mask_size {df : DF} {h : Heap F} (mwf : df.MaskWF h) :
    (∃ m h', df.zeroMask h = .ok (m, h') ∧ h'.readMask m = List.replicate df.numRows false ∧
      ∀ d : DF, d.WF h → abs h' d = abs h d ∧ locs h' d = locs h d ∧ d.WF h') ∧
    (∃ m h', df.emptyMask h = .ok (m, h') ∧ (h'.readMask m).length = df.numRows ∧
      ∀ d : DF, d.WF h → abs h' d = abs h d ∧ locs h' d = locs h d ∧ d.WF h') := by
  obtain ⟨g1, g2, g3⟩ := mwf
  have hre : df.mask.reslice 0 df.numRows = .ok ⟨df.mask.arr, df.mask.off, df.numRows, df.mask.cap⟩ := by
    unfold Slice.reslice
    rw [if_pos ⟨by omega, by omega, by omega⟩]
    simp
  have hnew : ∀ d : DF, d.WF h → abs (h.newMsk (List.replicate df.numRows false)).2 d = abs h d ∧
      locs (h.newMsk (List.replicate df.numRows false)).2 d = locs h d ∧ d.WF (h.newMsk (List.replicate df.numRows false)).2 :=
    fun d wd => ⟨rfl, rfl, wd.ext (Heap.newMsk_ext ..)⟩
  have hread : (h.newMsk (List.replicate df.numRows false)).2.readMask (h.newMsk (List.replicate df.numRows false)).1 =
      List.replicate df.numRows false := by
    simp [Heap.newMsk, Heap.readMask]
  constructor
  · unfold DF.zeroMask
    split
    · exact ⟨_, _, rfl, hread, hnew⟩
    · obtain ⟨m, e, h1, h2⟩ := zeroMaskLoop_spec df.mask df.numRows 0 h (by omega)
      rw [e]
      simp only [hre]
      refine ⟨_, _, rfl, ?_, fun d wd => ⟨rfl, rfl, wd.safe (setMsk_safe _ _ _ h1)⟩⟩
      simp only [Heap.readMask, Heap.setMsk, if_true]
      apply List.ext_getElem?
      intro j
      by_cases hj : j < df.numRows
      · rw [List.getElem?_take_of_lt hj, List.getElem?_drop, h2, if_pos]
        · rw [List.getElem?_replicate, if_pos hj]
        · refine ⟨by omega, by omega, ?_⟩
          rcases g3 with g3 | ⟨_, g3⟩ <;> omega
      · rw [List.getElem?_eq_none (by simp; omega), List.getElem?_eq_none (by simpa using hj)]
  · unfold DF.emptyMask
    split
    · exact ⟨_, _, rfl, (congrArg List.length hread).trans (by simp), hnew⟩
    · rw [hre]
      refine ⟨_, _, rfl, ?_, fun d wd => ⟨rfl, rfl, wd⟩⟩
      simp only [Heap.readMask, List.length_take, List.length_drop]
      rcases g3 with g3 | ⟨_, g3⟩ <;> omega

/-- Requests that use mask memory: `ZeroMask` and `EmptyMask` on the i-th dataframe, `IndexView` of the i-th
dataframe (which may extend the mask; the view joins the list), `EmptyDataFrame(n)` (joins the list), and
`ThreadSafeMasking` on the i-th dataframe. -/
inductive MaskReq where
  | zero (i : Nat)
  | empty (i : Nat)
  | index (i : Nat) (rows : List Int)
  | create (n : Int) (cpu : Int)
  | safe (i : Nat) (b : Bool)

/-- One request. A request on a missing dataframe, or one that panics, changes nothing. -/
def MaskReq.run : MaskReq → List DF × Heap F → List DF × Heap F
  | .zero i, (ds, h) =>
    match ds[i]? with
    | none => (ds, h)
    | some d => match d.zeroMask h with | .ok (_, h') => (ds, h') | .error _ => (ds, h)
  | .empty i, (ds, h) =>
    match ds[i]? with
    | none => (ds, h)
    | some d => match d.emptyMask h with | .ok (_, h') => (ds, h') | .error _ => (ds, h)
  | .index i rows, (ds, h) =>
    match ds[i]? with
    | none => (ds, h)
    | some d => match d.indexView rows h with | .ok (v, h') => (ds ++ [v], h') | .error _ => (ds, h)
  | .create n cpu, (ds, h) => let p := emptyDataFrame h n cpu; (ds ++ [p.1], p.2)
  | .safe i b, (ds, h) =>
    match ds[i]? with
    | none => (ds, h)
    | some d => (ds.set i (d.threadSafeMasking b), h)

/-- No dataframe of the list uses the mask array `a`. -/
def NoUse (a : Nat) (p : List DF × Heap F) : Prop :=
  a < p.2.next ∧ ∀ d ∈ p.1, d.mask.cap = 0 ∧ d.mask.len = 0 ∨ d.mask.arr ≠ a

theorem readMask_other {h : Heap F} {s : Slice} {i : Nat} {m : List Bool} (hn : i ≠ s.arr) :
    (h.setMsk i m).readMask s = h.readMask s := by
  simp only [Heap.readMask, Heap.setMsk]
  rw [if_neg (fun x => hn x.symm)]

theorem maskReq_step (q : MaskReq) (p : List DF × Heap F) {m : Slice} (hu : NoUse m.arr p) :
    NoUse m.arr (q.run p) ∧ (q.run p).2.readMask m = p.2.readMask m := by
  obtain ⟨ds, h⟩ := p
  obtain ⟨hlt, hall⟩ := hu
  simp only at hlt hall
  have hfresh : ∀ l : List Bool, ((h.newMsk l).2.readMask m) = h.readMask m := by
    intro l
    simp only [Heap.newMsk, Heap.readMask]
    rw [if_neg (by omega)]
  have hloop : ∀ (d : DF), d ∈ ds → ∀ n h', zeroMaskLoop h d.mask 0 n = .ok h' → h'.next = h.next ∧ h'.readMask m = h.readMask m := by
    intro d hd n h' e
    by_cases hle : n ≤ d.mask.len
    · obtain ⟨mm, e', _⟩ := zeroMaskLoop_spec d.mask n 0 h (by omega)
      rw [e] at e'; cases e'
      refine ⟨rfl, ?_⟩
      rcases hall d hd with ⟨_, h0⟩ | hne
      · have : n = 0 := by omega
        subst this
        simp only [zeroMaskLoop, Except.ok.injEq] at e
        rw [← e]
      · exact readMask_other hne
    · exfalso
      have : ∀ (n i : Nat) (h : Heap F), d.mask.len < i + n → i ≤ d.mask.len → zeroMaskLoop h d.mask i n = .error .panic := by
        intro n
        induction n with
        | zero => intro i h h1 h2; omega
        | succ n ih =>
          intro i h h1 h2
          simp only [zeroMaskLoop]
          split
          · exact ih _ _ (by omega) (by omega)
          · rfl
      rw [this n 0 h (by omega) (by omega)] at e
      cases e
  cases q with
  | zero i =>
    simp only [MaskReq.run]
    cases hd : ds[i]? with
    | none => exact ⟨⟨hlt, hall⟩, rfl⟩
    | some d =>
      have hmem : d ∈ ds := List.mem_of_getElem? hd
      simp only
      cases e : d.zeroMask h with
      | error a => exact ⟨⟨hlt, hall⟩, rfl⟩
      | ok r =>
        obtain ⟨s, h'⟩ := r
        simp only
        unfold DF.zeroMask at e
        split at e
        · cases e
          exact ⟨⟨by simp only; omega, hall⟩, hfresh _⟩
        · split at e
          · cases e
          · rename_i h1 e1
            obtain ⟨k1, k2⟩ := hloop d hmem _ _ e1
            split at e
            · cases e
            · cases e
              exact ⟨⟨by simp only; omega, hall⟩, k2⟩
  | empty i =>
    simp only [MaskReq.run]
    cases hd : ds[i]? with
    | none => exact ⟨⟨hlt, hall⟩, rfl⟩
    | some d =>
      simp only
      cases e : d.emptyMask h with
      | error a => exact ⟨⟨hlt, hall⟩, rfl⟩
      | ok r =>
        obtain ⟨s, h'⟩ := r
        simp only
        unfold DF.emptyMask at e
        split at e
        · cases e
          exact ⟨⟨by simp only; omega, hall⟩, hfresh _⟩
        · split at e
          · cases e
          · cases e
            exact ⟨⟨hlt, hall⟩, rfl⟩
  | index i rows =>
    simp only [MaskReq.run]
    cases hd : ds[i]? with
    | none => exact ⟨⟨hlt, hall⟩, rfl⟩
    | some d =>
      have hmem : d ∈ ds := List.mem_of_getElem? hd
      simp only
      cases e : d.indexView rows h with
      | error a => exact ⟨⟨hlt, hall⟩, rfl⟩
      | ok r =>
        obtain ⟨v, h'⟩ := r
        simp only
        unfold DF.indexView at e
        split at e
        · cases e
        · split at e
          · cases e
            rename_i hgt
            have happ : ∀ n, 0 < n → (h.appendMask d.mask n).2.readMask m = h.readMask m ∧ m.arr < (h.appendMask d.mask n).2.next ∧
                (h.appendMask d.mask n).1.arr ≠ m.arr := by
              intro n hn
              unfold Heap.appendMask
              split
              · rename_i hc
                rcases hall d hmem with ⟨h0, h0'⟩ | hne
                · omega
                · exact ⟨readMask_other hne, hlt, hne⟩
              · refine ⟨hfresh _, by simp only [Heap.newMsk]; omega, by simp only [Heap.newMsk]; omega⟩
            obtain ⟨k1, k2, k3⟩ := happ (rows.length - d.numRows) (by omega)
            refine ⟨⟨k2, ?_⟩, k1⟩
            intro d' hd'
            simp only [List.mem_append, List.mem_singleton] at hd'
            rcases hd' with hd' | rfl
            · exact hall d' hd'
            · exact Or.inr k3
          · cases e
            refine ⟨⟨hlt, ?_⟩, rfl⟩
            intro d' hd'
            simp only [List.mem_append, List.mem_singleton] at hd'
            rcases hd' with hd' | rfl
            · exact hall d' hd'
            · exact hall d hmem
  | create n cpu =>
    simp only [MaskReq.run]
    have es := emptyDataFrame_spec h n cpu
    have hmask : (emptyDataFrame h n cpu).1.mask.cap = 0 ∧ (emptyDataFrame h n cpu).1.mask.len = 0 ∨ h.next ≤ (emptyDataFrame h n cpu).1.mask.arr := by
      unfold emptyDataFrame
      simp only
      split
      · right; simp [Heap.newMsk, Heap.newTab]
      · left; exact ⟨rfl, rfl⟩
    refine ⟨⟨Nat.lt_of_lt_of_le hlt es.ext.next_le, ?_⟩, ?_⟩
    · intro d' hd'
      simp only [List.mem_append, List.mem_singleton] at hd'
      rcases hd' with hd' | rfl
      · exact hall d' hd'
      · exact hmask.imp id (fun x => by omega)
    · simp only [Heap.readMask]
      rw [es.ext.msk _ hlt]
  | safe i b =>
    simp only [MaskReq.run]
    cases hd : ds[i]? with
    | none => exact ⟨⟨hlt, hall⟩, rfl⟩
    | some d =>
      refine ⟨⟨hlt, ?_⟩, rfl⟩
      intro d' hd'
      rcases List.mem_or_eq_of_mem_set hd' with hd' | rfl
      · exact hall d' hd'
      · exact hall d (List.mem_of_getElem? hd)

/-- C49, privacy: a mask handed out by a dataframe in thread-safe mode keeps its content through every later
sequence of mask requests on the dataframes that existed, and on views of them and dataframes made later. -/
theorem C49_thread_safe_mask {df : DF} {h h1 : Heap F} {m : Slice} (hts : df.mThreadSafe = true)
    (he : df.zeroMask h = .ok (m, h1) ∨ df.emptyMask h = .ok (m, h1))
    (ds : List DF) (hds : ∀ d ∈ ds, d.MaskWF h) (qs : List MaskReq) :
    (qs.foldl (fun p q => q.run p) (ds, h1)).2.readMask m = h1.readMask m := by
  have hm : h.newMsk (List.replicate df.numRows false) = (m, h1) := by
    rcases he with he | he
    · unfold DF.zeroMask at he; rw [if_pos hts] at he; simpa using he
    · unfold DF.emptyMask at he; rw [if_pos hts] at he; simpa using he
  have h1n : h1.next = h.next + 1 := by rw [show h1 = (h.newMsk _).2 from (congrArg Prod.snd hm).symm]; rfl
  have hma : m.arr = h.next := by rw [show m = (h.newMsk _).1 from (congrArg Prod.fst hm).symm]; rfl
  have hu : NoUse m.arr (ds, h1) := by
    refine ⟨by simp only; omega, ?_⟩
    intro d hd
    have := hds d hd
    rcases this.valid with h0 | ⟨h0, _⟩
    · left; exact ⟨h0, by have := this.len_le; omega⟩
    · right; omega
  have key : ∀ (qs : List MaskReq) (p : List DF × Heap F), NoUse m.arr p →
      (qs.foldl (fun p q => q.run p) p).2.readMask m = p.2.readMask m := by
    intro qs
    induction qs with
    | nil => intro p _; rfl
    | cons q qs ih =>
      intro p hp
      obtain ⟨a, b⟩ := maskReq_step q p hp
      rw [List.foldl_cons, ih _ a, b]
  exact key qs _ hu

/-- C49, the mode follows to the views: after `ThreadSafeMasking(true)` on a dataframe, the masks of the views made of
it by `IndexView` and `ColumnView` are private as well. -/
theorem C49_views {df v : DF} {h h' h1 : Heap F} {m : Slice}
    (hv : (∃ rows, (df.threadSafeMasking true).indexView rows h = .ok (v, h')) ∨
      (∃ cols, (df.threadSafeMasking true).columnView cols h = (v, h')))
    (he : v.zeroMask h' = .ok (m, h1) ∨ v.emptyMask h' = .ok (m, h1))
    (ds : List DF) (hds : ∀ d ∈ ds, d.MaskWF h') (qs : List MaskReq) :
    (qs.foldl (fun p q => q.run p) (ds, h1)).2.readMask m = h1.readMask m := by
  refine C49_thread_safe_mask ?_ he ds hds qs
  rcases hv with ⟨rows, e⟩ | ⟨cols, e⟩
  · unfold DF.indexView at e
    split at e
    · cases e
    · simp only at e
      split at e <;> (cases e; rfl)
  · unfold DF.columnView at e
    split at e
    · rename_i h0
      cases e
      rfl
    · cases e; rfl

/-- C49, the default mode: after `ThreadSafeMasking(false)` every mask request on a dataframe hands out the same
memory, whatever was asked before (documented: "possibly pre-allocated"). -/
theorem C49_recycled {df : DF} {h h1 h1' h2 : Heap F} {m1 m2 : Slice}
    (e1 : (df.threadSafeMasking false).zeroMask h = .ok (m1, h1) ∨ (df.threadSafeMasking false).emptyMask h = .ok (m1, h1))
    (e2 : (df.threadSafeMasking false).zeroMask h1' = .ok (m2, h2) ∨ (df.threadSafeMasking false).emptyMask h1' = .ok (m2, h2)) :
    m1 = m2 := by
  have key : ∀ {h h1 : Heap F} {m : Slice}, (df.threadSafeMasking false).zeroMask h = .ok (m, h1) ∨
      (df.threadSafeMasking false).emptyMask h = .ok (m, h1) → df.mask.reslice 0 df.numRows = .ok m := by
    intro h h1 m e
    have hf : (df.threadSafeMasking false).mThreadSafe = false := rfl
    rcases e with e | e
    · unfold DF.zeroMask at e
      rw [hf] at e
      simp only [Bool.false_eq_true, if_false] at e
      split at e
      · cases e
      · split at e
        · cases e
        · rename_i hx; cases e; exact hx
    · unfold DF.emptyMask at e
      rw [hf] at e
      simp only [Bool.false_eq_true, if_false] at e
      split at e
      · cases e
      · rename_i hx; cases e; exact hx
  have a := key e1
  rw [key e2] at a
  exact (Except.ok.inj a).symm

-- In the default mode two masks of one dataframe share memory (as documented): clearing the second clears the first.
example : okAnd (do
    let (m1, h1) ← Demo.df.zeroMask Demo.h
    let h2 ← maskWrite h1 m1 0 true
    let (_, h3) ← Demo.df.zeroMask h2
    return (h2.readMask m1, h3.readMask m1)) (fun p => decide (p = ([true, false, false, false], [false, false, false, false]))) = true := by
  decide
-- In thread-safe mode it does not.
example : ∃ m1 h1, (Demo.df.threadSafeMasking true).zeroMask Demo.h = .ok (m1, h1) ∧
    ([MaskReq.zero 0, .index 0 [0, 0, 1, 2, 3], .empty 1].foldl (fun p q => q.run p) ([Demo.df], h1)).2.readMask m1 = h1.readMask m1 :=
  ⟨_, _, rfl, C49_thread_safe_mask (df := Demo.df.threadSafeMasking true) rfl (Or.inl rfl) [Demo.df]
    (by intro d hd; rw [List.mem_singleton.1 hd]; exact Demo.df_mwf) _⟩
-- And a view of it is private too.
example : ∃ v h' m1 h1, (Demo.df.threadSafeMasking true).indexView [3, 0, 0, 2, 1] Demo.h = .ok (v, h') ∧ v.zeroMask h' = .ok (m1, h1) ∧
    (h1.readMask m1).length = 5 :=
  ⟨_, _, _, _, rfl, rfl, by decide⟩
example : ∃ m1 h1 m2 h2, (Demo.df.threadSafeMasking false).zeroMask Demo.h = .ok (m1, h1) ∧
    (Demo.df.threadSafeMasking false).emptyMask h1 = .ok (m2, h2) ∧ m1 = m2 :=
  ⟨_, _, _, _, rfl, rfl, C49_recycled (df := Demo.df) (h := Demo.h) (h1' := Demo.h) (Or.inl rfl) (Or.inr rfl)⟩

end Verif
