import Verif.Proofs.ColConcat
import Verif.Props.RowConcat
import Verif.Proofs.Check
import Mathlib.Data.List.Forall2

/-! C22 - C24: `CheckNoColumnOverlap`, `ColumnConcatView`, `ColumnCopyConcat`, `ColumnSmartConcat`. -/

namespace Verif
open scoped Demo
variable {F : Type}

/-- C24: `CheckNoColumnOverlap` returns nil exactly when no column name occurs twice. -/
theorem C24_check_overlap {h : Heap F} {dfs : List DF} (wfs : ∀ d ∈ dfs, d.WF h) :
    checkNoColumnOverlap h dfs = true ↔ NoOverlap (dfs.map (abs h)) := overlap_iff wfs

example : checkNoColumnOverlap Demo.h [Demo.df, Demo.df] = false ∧ checkNoColumnOverlap Demo.h [Demo.df] = true := by
  decide

theorem shallowCopy_marks {d : DF} {h : Heap F} (wf : d.WF h) :
    (d.shallowCopy h).1.strHdr.isSome ↔ ∃ x, (abs h d).isStr x = true := by
  have es := emptyDataFrame_spec h (-1) d.maxCPU
  have hdef : d.shallowCopy h =
      (let r0 := (emptyDataFrame h (-1) d.maxCPU).1
       let h1 := (emptyDataFrame h (-1) d.maxCPU).2
       let r := { r0 with mThreadSafe := d.mThreadSafe, idx := d.idx, mask := d.mask, indexViewed := d.indexViewed }
       r.withRaw (r.toRaw.transferFrom d.toRaw h1)) := rfl
  rw [hdef]
  generalize emptyDataFrame h (-1) d.maxCPU = p at es
  obtain ⟨r0, h1⟩ := p
  simp only at es ⊢
  have hown : r0.toRaw.own h1 = (r0.toRaw, h1) := by
    unfold Raw.own; rw [es.rawE]; rfl
  simp only [Raw.transferFrom, hown, Raw.transferCore, DF.withRaw]
  have hst0 : r0.strHdr = none := by rw [es.rawE]
  have hsh0 : r0.shared = none := by rw [es.rawE]
  rw [hst0, hsh0]
  obtain ⟨p2, hp2⟩ : ∃ p2, p2 = hdrAddEach (h1.setTab r0.tab (tabSetAll (h1.tab r0.tab) (h1.tab d.tab))) none (tabNames (h1.tab d.tab)) := ⟨_, rfl⟩
  rw [← hp2]
  have hl : hdrList p2.2 d.strHdr = hdrList h d.strHdr := by
    have f := hdrAddEach_frame (A := Nope) (T := Nope) (M := Nope) (h1.setTab r0.tab (tabSetAll (h1.tab r0.tab) (h1.tab d.tab))) none (tabNames (h1.tab d.tab))
    rw [← hp2] at f
    have hn := es.ext.next_le
    rw [hdrList_frame f (o := d.strHdr) (fun i hi => ⟨by have := wf.str_lt i hi; simp only [Heap.setTab_next]; omega, by simp⟩)]
    have : hdrList (h1.setTab r0.tab (tabSetAll (h1.tab r0.tab) (h1.tab d.tab))) d.strHdr = hdrList h1 d.strHdr := by
      cases d.strHdr <;> rfl
    rw [this]
    exact hdrList_ext es.ext wf.str_lt
  rw [hl]
  simp only [abs, decide_eq_true_eq]
  cases hdrList h d.strHdr with
  | nil => simp [hdrAddEach]
  | cons c cs => simp only [hdrAddEach, hdrAdd_fst, Option.isSome_some, true_iff]; exact ⟨c, by simp⟩

/-- Result and memory of a successful `ColumnConcatView`. -/
structure ConcatViewSpec (h : Heap F) (d0 : DF) (rest : List DF) (r : DF) (h' : Heap F) : Prop where
  ext : Heap.Ext h h'
  get : ∀ q, AMap.get (h'.tab r.tab) q = (d0 :: rest).findSome? fun d => AMap.get (h.tab d.tab) q
  keys : (AMap.keys (h'.tab r.tab)).Nodup
  arr : h'.arr = h.arr
  rt : h'.rt = h.rt
  tab : h.next ≤ r.tab ∧ r.tab < h'.next
  hdr : ∀ i, r.toRaw.headers i → h.next ≤ i ∧ i < h'.next
  sep : r.toRaw.Sep
  str : ∀ x, x ∈ hdrList h' r.strHdr ↔ (∃ y, (abs h d0).isStr y = true) ∧ ∃ d ∈ d0 :: rest, (abs h d).isStr x = true
  idx : r.idx = d0.idx
  mask : r.mask = d0.mask
  view : r.indexViewed = d0.indexViewed
  ts : r.mThreadSafe = d0.mThreadSafe
  maps : r.sharedMaps = false
  enc : r.enc = none
  cpu : r.maxCPU = d0.maxCPU

theorem pairwise_cols {h : Heap F} {dfs : List DF} (ov : NoOverlap (dfs.map (abs h))) (q : Key) :
    dfs.Pairwise (fun a b => (AMap.get (h.tab a.tab) q).isSome → ¬ (AMap.get (h.tab b.tab) q).isSome) := by
  have := ov.1
  rw [List.pairwise_map] at this
  refine this.imp ?_
  intro a b hx h1
  have := hx q.1 q.1 q.2
  simpa [abs, h1] using this

theorem columnConcat_step {h : Heap F} {d0 : DF} {rest : List DF} (wfs : ∀ d ∈ d0 :: rest, d.WF h)
    (ov : NoOverlap ((d0 :: rest).map (abs h))) :
    ConcatViewSpec h d0 rest (mergeViews rest (d0.shallowCopy h).1 (d0.shallowCopy h).2).1
      (mergeViews rest (d0.shallowCopy h).1 (d0.shallowCopy h).2).2 := by
  have wd := wfs d0 (by simp)
  have sp := shallowCopy_spec wd
  have hmk := shallowCopy_marks wd
  generalize d0.shallowCopy h = p at sp hmk
  obtain ⟨c, h1⟩ := p
  simp only at sp hmk ⊢
  have ms := mergeViews_spec (h0 := h) rest c h1 sp.ext (fun d hd => wfs d (by simp [hd])) sp.wf.keys
    ⟨sp.tab, sp.wf.tab_lt⟩ (fun i hi => ⟨sp.hdr i (Or.inl hi), sp.wf.shared_lt i hi⟩)
    (fun i hi => ⟨sp.hdr i (Or.inr hi), sp.wf.str_lt i hi⟩) sp.sep
  generalize mergeViews rest c h1 = p at ms
  obtain ⟨r, h'⟩ := p
  simp only at ms ⊢
  have hs := ms.same
  have e1 : r.tab = c.tab := by rw [hs]
  have e2 : r.strHdr = c.strHdr := by rw [hs]
  refine ⟨ms.ext, ?_, by rw [e1]; exact ms.keys, ms.arr.trans sp.arr, ms.rt.trans sp.rt, ?_, ?_, ms.sep, ?_, ?_, ?_, ?_, ?_, ?_, ?_, ?_⟩
  · intro q
    rw [e1, ms.tab q, sp.tabE]
    exact mergedGet_first (pairwise_cols ov q)
  · rw [e1]; exact ⟨sp.tab, Nat.lt_of_lt_of_le sp.wf.tab_lt ms.next⟩
  · rintro i (hi | hi)
    · exact ms.sh i hi
    · rw [e2] at hi
      exact ⟨sp.hdr i (Or.inr hi), Nat.lt_of_lt_of_le (sp.wf.str_lt i hi) ms.next⟩
  · intro x
    rw [e2, ms.str x]
    have hx : x ∈ hdrList h1 c.strHdr ↔ (abs h d0).isStr x = true := by
      have := congrFun (congrArg ADF.isStr sp.shows) x
      simp only [abs] at this
      rw [← decide_eq_true_iff (p := x ∈ hdrList h1 c.strHdr), this]
      rfl
    rw [hx]
    simp only [List.mem_cons, exists_eq_or_imp]
    constructor
    · rintro (hx | ⟨h1, h2⟩)
      · exact ⟨⟨x, hx⟩, Or.inl hx⟩
      · exact ⟨hmk.1 h1, Or.inr h2⟩
    · rintro ⟨h1, h2 | h2⟩
      · exact Or.inl h2
      · exact Or.inr ⟨hmk.2 h1, h2⟩
  · rw [hs]; exact sp.rows
  · rw [hs]; exact sp.mask
  · rw [hs]; exact sp.view
  · rw [hs]; exact sp.ts
  · rw [hs]; exact sp.maps
  · rw [hs]; exact sp.enc
  · rw [hs]; exact sp.cpu

/-- What the result shows, when all the inputs have the same row positions. -/
theorem ConcatViewSpec.shows {h h' : Heap F} {d0 r : DF} {rest : List DF} (sp : ConcatViewSpec h d0 rest r h')
    (hr : ∀ d ∈ rest, d.rows = d0.rows) :
    (abs h' r).nRows = (abs h d0).nRows ∧
    (∀ k c, (abs h' r).col k c = ((abs h d0).beside (rest.map (abs h))).col k c) ∧
    (∀ k c, (locs h' r).col k c = ((locs h d0).beside (rest.map (locs h))).col k c) ∧
    (∀ c, (abs h' r).isStr c = true ↔ (∃ y, (abs h d0).isStr y = true) ∧ ((abs h d0).beside (rest.map (abs h))).isStr c = true) := by
  have hrows : r.rows = d0.rows := by simp [DF.rows, sp.idx]
  have hcell : h'.cell = h.cell := by funext s i; simp only [Heap.cell, sp.arr]
  have hfind : ∀ {C : Type} (f : Slice → List Nat → List (Option C)) q (ds : List DF), (∀ d ∈ ds, d.rows = d0.rows) →
      ((ds.findSome? fun d => AMap.get (h.tab d.tab) q).map fun s => f s d0.rows) =
        ds.findSome? fun d => (AMap.get (h.tab d.tab) q).map fun s => f s d.rows := by
    intro C f q ds hds
    induction ds with
    | nil => rfl
    | cons d ds ih =>
      simp only [List.findSome?_cons]
      cases hg : AMap.get (h.tab d.tab) q with
      | none => simp only [Option.map_none]; exact ih (fun d hd => hds d (by simp [hd]))
      | some s => simp only [Option.map_some]; rw [hds d (by simp)]
  have hall : ∀ d ∈ d0 :: rest, d.rows = d0.rows := by
    intro d hd
    rcases List.mem_cons.1 hd with rfl | hd
    · rfl
    · exact hr d hd
  refine ⟨by simp [abs, DF.numRows, hrows], ?_, ?_, ?_⟩
  · intro k c
    have e1 : (abs h' r).col k c = (AMap.get (h'.tab r.tab) (k, c)).map fun s => d0.rows.map (h.cell s) := by
      simp only [abs, hrows, hcell]
    rw [e1, sp.get, hfind (fun s rows => rows.map (h.cell s)) _ _ hall]
    show _ = (abs h d0 :: rest.map (abs h)).findSome? fun b => b.col k c
    rw [← List.map_cons, List.findSome?_map]
    rfl
  · intro k c
    have e1 : (locs h' r).col k c = (AMap.get (h'.tab r.tab) (k, c)).map fun s =>
        d0.rows.map fun r => if r < s.len then some (s.arr, s.off + r) else none := by
      simp only [locs, hrows]
    rw [e1, sp.get, hfind (fun s rows => rows.map fun r => if r < s.len then some (s.arr, s.off + r) else none) _ _ hall]
    show _ = (locs h d0 :: rest.map (locs h)).findSome? fun b => b.col k c
    rw [← List.map_cons, List.findSome?_map]
    rfl
  · intro c
    have : (abs h' r).isStr c = true ↔ c ∈ hdrList h' r.strHdr := by simp [abs]
    rw [this, sp.str c]
    apply and_congr Iff.rfl
    show _ ↔ (abs h d0 :: rest.map (abs h)).any (·.isStr c) = true
    rw [← List.map_cons, List.any_map, List.any_eq_true]
    rfl

theorem findSome_mem {h : Heap F} {q : Key} {ds : List DF} {s : Slice}
    (e : (ds.findSome? fun d => AMap.get (h.tab d.tab) q) = some s) : ∃ d ∈ ds, AMap.get (h.tab d.tab) q = some s := by
  obtain ⟨a, ha, hx⟩ := List.exists_of_findSome?_eq_some e
  exact ⟨a, ha, hx⟩

/-- The result is consistent when the inputs also have the same number of allocated rows. -/
theorem ConcatViewSpec.wf {h h' : Heap F} {d0 r : DF} {rest : List DF} (sp : ConcatViewSpec h d0 rest r h')
    (wfs : ∀ d ∈ d0 :: rest, d.WF h) {N : Nat} (hN : ∀ d ∈ d0 :: rest, ∀ q s, AMap.get (h.tab d.tab) q = some s → s.len = N)
    (hi : ∀ i ∈ d0.rows, i < N) (hv : d0.indexViewed = false → d0.rows = List.range N) : r.WF h' where
  tab_lt := sp.tab.2
  shared_lt i hx := (sp.hdr i (Or.inl hx)).2
  str_lt i hx := (sp.hdr i (Or.inr hx)).2
  keys := sp.keys
  slices q s hq := by
    rw [sp.get] at hq
    obtain ⟨d, hd, hg⟩ := findSome_mem hq
    exact ((wfs d hd).slices q s hg).ext sp.ext
  idx_len := by rw [sp.idx]; exact (wfs d0 (by simp)).idx_len
  rect := by
    refine ⟨N, ?_, by simpa [DF.rows, sp.idx] using hi, by simpa [DF.rows, sp.idx, sp.view] using hv⟩
    intro q s hq
    rw [sp.get] at hq
    obtain ⟨d, hd, hg⟩ := findSome_mem hq
    exact hN d hd q s hg

theorem columnConcatView_ok {h : Heap F} {d0 : DF} {rest : List DF} (wfs : ∀ d ∈ d0 :: rest, d.WF h)
    (ov : NoOverlap ((d0 :: rest).map (abs h))) (hr : ∀ d ∈ rest, d.rows = d0.rows) :
    ∃ r h', columnConcatView (d0 :: rest) h = .ok (some (r, h')) ∧ ConcatViewSpec h d0 rest r h' := by
  have hc := (overlap_iff wfs).2 ov
  unfold columnConcatView
  rw [if_neg (by rw [hc]; simp)]
  simp only
  rw [if_neg]
  · exact ⟨_, _, rfl, columnConcat_step wfs ov⟩
  · rintro ⟨_, hx⟩
    rw [List.any_eq_true] at hx
    obtain ⟨d, hd, hne⟩ := hx
    rw [hr d hd] at hne
    simp at hne

/-- C22, success: dataframes without a common column name, all with the same inner indices, are
concatenated; the result shows all the columns of all of them over the same memory cells, and no
dataframe changes. What is missing for the full property: the string marks are only kept when the first
dataframe has a string column (`C22_marks_refuted`), different numbers of rows are only detected when
some dataframe's indices are altered (`C22_rows_refuted`), and indices are compared by a hash that
collides (`C22_hash_refuted`). -/
theorem C22_concatView_shows_partial {h : Heap F} {d0 : DF} {rest : List DF} (wfs : ∀ d ∈ d0 :: rest, d.WF h)
    (ov : NoOverlap ((d0 :: rest).map (abs h))) (hr : ∀ d ∈ rest, d.rows = d0.rows) :
    ∃ r h', columnConcatView (d0 :: rest) h = .ok (some (r, h')) ∧
      (abs h' r).nRows = (abs h d0).nRows ∧
      (∀ k c, (abs h' r).col k c = ((abs h d0).beside (rest.map (abs h))).col k c) ∧
      (∀ k c, (locs h' r).col k c = ((locs h d0).beside (rest.map (locs h))).col k c) ∧
      ((∃ y, (abs h d0).isStr y = true) →
        ∀ c, (abs h' r).isStr c = ((abs h d0).beside (rest.map (abs h))).isStr c) ∧
      ∀ d : DF, d.WF h → abs h' d = abs h d ∧ locs h' d = locs h d ∧ d.WF h' := by
  obtain ⟨r, h', e, sp⟩ := columnConcatView_ok wfs ov hr
  obtain ⟨s1, s2, s3, s4⟩ := sp.shows hr
  refine ⟨r, h', e, s1, s2, s3, ?_, fun d wd => ⟨abs_ext sp.ext wd.toWF, locs_ext sp.ext wd.toWF, wd.ext sp.ext⟩⟩
  intro hy c
  rw [Bool.eq_iff_iff, s4 c]
  exact ⟨fun x => x.2, fun x => ⟨hy, x⟩⟩

/-- C22, the result is consistent when the inputs moreover have equally many allocated rows. -/
theorem C22_concatView_consistent {h : Heap F} {d0 : DF} {rest : List DF} (wfs : ∀ d ∈ d0 :: rest, d.WF h)
    (ov : NoOverlap ((d0 :: rest).map (abs h))) (hr : ∀ d ∈ rest, d.rows = d0.rows)
    {N : Nat} (hN : ∀ d ∈ d0 :: rest, h.tab d.tab ≠ [] → numAllocatedRows (h.tab d.tab) = N)
    (hrN : (∀ i ∈ d0.rows, i < N) ∧ (d0.indexViewed = false → d0.rows = List.range N))
    {r : DF} {h' : Heap F} (e : columnConcatView (d0 :: rest) h = .ok (some (r, h'))) : r.WF h' := by
  obtain ⟨r', h'', e', sp⟩ := columnConcatView_ok wfs ov hr
  rw [e] at e'; cases e'
  refine sp.wf wfs ?_ hrN.1 hrN.2
  intro d hd q s hq
  have hne : h.tab d.tab ≠ [] := by intro h0; rw [h0] at hq; cases hq
  obtain ⟨tok, _, _⟩ := (wfs d hd).rect_ne hne
  rw [(tok.slices q s hq).2, hN d hd hne]

/-- C22, errors: a common column name is always an error; and when the indices of some dataframe are
altered, so is a difference between the hashes of the inner indices. The empty list panics. -/
theorem C22_concatView_errors {h : Heap F} {dfs : List DF} (wfs : ∀ d ∈ dfs, d.WF h) :
    (¬ NoOverlap (dfs.map (abs h)) → columnConcatView dfs h = .ok none) ∧
    (∀ d0 rest, dfs = d0 :: rest → (∃ d ∈ dfs, d.indexViewed = true) →
      (∃ d ∈ rest, hashIntSlice d.rows ≠ hashIntSlice d0.rows) → columnConcatView dfs h = .ok none) ∧
    (dfs = [] → columnConcatView dfs h = .error .panic) := by
  refine ⟨?_, ?_, ?_⟩
  · intro hn
    unfold columnConcatView
    rw [if_pos]
    rw [Bool.eq_false_iff]
    exact fun hx => hn ((overlap_iff wfs).1 hx)
  · rintro d0 rest rfl ⟨d, hd, hv⟩ ⟨d', hd', hne⟩
    unfold columnConcatView
    split
    · rfl
    · simp only
      rw [if_pos]
      refine ⟨List.any_eq_true.2 ⟨d, hd, hv⟩, List.any_eq_true.2 ⟨d', hd', by simpa using hne⟩⟩
  · rintro rfl; rfl

/-! What the hash does detect. -/

theorem mul7_inj {x y : UInt64} (h : 7 * x = 7 * y) : x = y := by
  have e : ∀ z : UInt64, 7905747460161236407 * (7 * z) = z := by
    intro z
    rw [← UInt64.mul_assoc]
    have : (7905747460161236407 * 7 : UInt64) = 1 := by decide
    rw [this, UInt64.one_mul]
  rw [← e x, ← e y, h]

theorem hashFold_inj (q : List Nat) {x y : UInt64}
    (h : q.foldl (fun r v => 7 * r + UInt64.ofNat v) x = q.foldl (fun r v => 7 * r + UInt64.ofNat v) y) : x = y := by
  induction q generalizing x y with
  | nil => exact h
  | cons v q ih => exact mul7_inj ((UInt64.add_left_inj _).1 (ih h))

/-- Two lists of row positions that differ at exactly one place have different hashes. -/
theorem hashIntSlice_one_change (p q : List Nat) {a b : Nat} (ha : a < 2 ^ 64) (hb : b < 2 ^ 64) (hne : a ≠ b) :
    hashIntSlice (p ++ a :: q) ≠ hashIntSlice (p ++ b :: q) := by
  unfold hashIntSlice
  simp only [List.length_append, List.length_cons, List.foldl_append, List.foldl_cons]
  intro h
  have h1 := (UInt64.add_right_inj _).1 (hashFold_inj q h)
  have h2 := congrArg UInt64.toNat h1
  simp only [UInt64.toNat_ofNat'] at h2
  rw [Nat.mod_eq_of_lt ha, Nat.mod_eq_of_lt hb] at h2
  exact hne h2

/-- C22, errors: when the indices of some dataframe are altered, a dataframe that shows the same rows as the
first one except for one is rejected. (Differences in several places may collide: `C22_hash_refuted`.) -/
theorem C22_one_row_differs {h : Heap F} {d0 d : DF} {rest : List DF} (wfs : ∀ x ∈ d0 :: rest, x.WF h) (hd : d ∈ rest)
    (hv : ∃ x ∈ d0 :: rest, x.indexViewed = true) {p q : List Nat} {a b : Nat} (h0 : d0.rows = p ++ a :: q)
    (h1 : d.rows = p ++ b :: q) (ha : a < 2 ^ 63) (hb : b < 2 ^ 63) (hne : a ≠ b) :
    columnConcatView (d0 :: rest) h = .ok none := by
  refine (C22_concatView_errors wfs).2.1 d0 rest rfl hv ⟨d, hd, ?_⟩
  rw [h0, h1]
  exact hashIntSlice_one_change p q (by omega) (by omega) (Ne.symm hne)

/-! ### `ColumnCopyConcat` -/

theorem forall₂_mem_right {A B : Type} {R : A → B → Prop} {as : List A} {bs : List B}
    (hx : List.Forall₂ R as bs) {b : B} (hb : b ∈ bs) : ∃ a ∈ as, R a b := by
  induction hx with
  | nil => cases hb
  | cons hp _ ih =>
    rcases List.mem_cons.1 hb with rfl | hb
    · exact ⟨_, List.mem_cons_self .., hp⟩
    · obtain ⟨a, ha, hr⟩ := ih hb
      exact ⟨a, by simp [ha], hr⟩

/-- The copies made by `ColumnCopyConcat`. -/
structure CopiesSpec (h : Heap F) (ds : List DF) (h' : Heap F) (cs : List DF) : Prop where
  ext : Heap.Ext h h'
  rt : h'.rt = h.rt
  all : List.Forall₂ (fun d c => d.WF h ∧ c.WF h' ∧ c.toRaw.NewSince h h' ∧ abs h' c = { abs h d with enc := none } ∧
    c.idx = Idx.mk' (List.range d.numRows) ∧ c.indexViewed = false ∧ c.maxCPU = d.maxCPU ∧ c.MaskWF h' ∧
    (∀ k s, AMap.get (h'.tab c.tab) k = some s → s.len = d.numRows)) ds cs

theorem copyAll_spec {h : Heap F} (ds : List DF) (wfs : ∀ d ∈ ds, d.WF h) :
    ∃ cs h', copyAll ds h = .ok (cs, h') ∧ CopiesSpec h ds h' cs := by
  induction ds generalizing h with
  | nil => exact ⟨[], h, rfl, Heap.Ext.refl _, rfl, .nil⟩
  | cons d ds ih =>
    have wd := wfs d (by simp)
    obtain ⟨c, h1, e1, s1⟩ := copy_spec wd
    obtain ⟨cs, h', e2, s2⟩ := ih (h := h1) (fun d hd => (wfs d (by simp [hd])).ext s1.ext)
    refine ⟨c :: cs, h', by simp only [copyAll, e1, e2], s1.ext.trans s2.ext, s2.rt.trans s1.rt, .cons ?_ ?_⟩
    · refine ⟨wd, s1.wf.ext s2.ext, ?_, ?_, s1.idx, s1.view, s1.cpu, s1.mwf.safe (Safe.ext s2.ext), ?_⟩
      · refine ⟨s1.new.tab, s1.new.hdr, ?_⟩
        rintro i ⟨k, s, hk, h0, rfl⟩
        rw [s2.ext.tab _ s1.wf.tab_lt] at hk
        exact s1.new.arr _ ⟨k, s, hk, h0, rfl⟩
      · rw [abs_ext s2.ext s1.wf.toWF, s1.shows]
      · intro k s hk
        rw [s2.ext.tab _ s1.wf.tab_lt] at hk
        exact s1.len k s hk
    · have hn := s1.ext.next_le
      have aux : ∀ {ds cs : List DF}, (∀ d ∈ ds, d.WF h) →
          List.Forall₂ (fun d c => d.WF h1 ∧ c.WF h' ∧ c.toRaw.NewSince h1 h' ∧ abs h' c = { abs h1 d with enc := none } ∧
            c.idx = Idx.mk' (List.range d.numRows) ∧ c.indexViewed = false ∧ c.maxCPU = d.maxCPU ∧ c.MaskWF h' ∧
            (∀ k s, AMap.get (h'.tab c.tab) k = some s → s.len = d.numRows)) ds cs →
          List.Forall₂ (fun d c => d.WF h ∧ c.WF h' ∧ c.toRaw.NewSince h h' ∧ abs h' c = { abs h d with enc := none } ∧
            c.idx = Idx.mk' (List.range d.numRows) ∧ c.indexViewed = false ∧ c.maxCPU = d.maxCPU ∧ c.MaskWF h' ∧
            (∀ k s, AMap.get (h'.tab c.tab) k = some s → s.len = d.numRows)) ds cs := by
        intro ds cs hw hx
        induction hx with
        | nil => exact .nil
        | cons hp _ ih =>
          obtain ⟨_, a2, a3, a4, a5⟩ := hp
          have wd' := hw _ (List.mem_cons_self ..)
          refine .cons ⟨wd', a2, ⟨Nat.le_trans hn a3.tab, fun i hi => Nat.le_trans hn (a3.hdr i hi),
            fun i hi => Nat.le_trans hn (a3.arr i hi)⟩, ?_, a5⟩ (ih fun d hd => hw d (by simp [hd]))
          rw [a4, abs_ext s1.ext wd'.toWF]
      exact aux (fun d hd => wfs d (by simp [hd])) s2.all

theorem noOverlap_cols1 {C D : Type} {as : List (ADF C)} {bs : List (ADF D)}
    (hx : List.Forall₂ (fun a b => ∀ k c, (a.col k c).isSome ↔ (b.col k c).isSome) as bs) :
    NoOverlap as → NoOverlap bs := by
  induction hx with
  | nil => intro; exact ⟨.nil, by simp⟩
  | @cons a b as bs hab hrest ih =>
    rintro ⟨h1, h2⟩
    obtain ⟨p1, p2⟩ := List.pairwise_cons.1 h1
    have ih' := ih ⟨p2, fun a ha => h2 a (by simp [ha])⟩
    have hmem : ∀ b' ∈ bs, ∃ a' ∈ as, ∀ k c, (a'.col k c).isSome ↔ (b'.col k c).isSome := by
      clear ih ih' h1 h2 p1 p2 hab
      induction hrest with
      | nil => simp
      | cons hp _ ih =>
        intro b' hb'
        rcases List.mem_cons.1 hb' with rfl | hb'
        · exact ⟨_, List.mem_cons_self .., hp⟩
        · obtain ⟨a', ha', hh⟩ := ih b' hb'
          exact ⟨a', by simp [ha'], hh⟩
    refine ⟨List.pairwise_cons.2 ⟨?_, ih'.1⟩, ?_⟩
    · intro b' hb' k k' c h3 h4
      obtain ⟨a', ha', hh⟩ := hmem b' hb'
      exact p1 a' ha' k k' c ((hab k c).2 h3) ((hh k' c).2 h4)
    · intro b' hb' k k' c h3 h4
      rcases List.mem_cons.1 hb' with rfl | hb'
      · exact h2 a (by simp) k k' c ((hab k c).2 h3) ((hab k' c).2 h4)
      · exact ih'.2 b' hb' k k' c h3 h4

theorem noOverlap_cols {C D : Type} {as : List (ADF C)} {bs : List (ADF D)}
    (hx : List.Forall₂ (fun a b => ∀ k c, (a.col k c).isSome ↔ (b.col k c).isSome) as bs) :
    NoOverlap as ↔ NoOverlap bs :=
  ⟨noOverlap_cols1 hx, noOverlap_cols1 (hx.flip.imp fun _ _ hp k c => (hp k c).symm)⟩

/-- Result and memory of a successful `ColumnCopyConcat`. -/
structure CopyConcatSpec (h : Heap F) (d0 : DF) (rest : List DF) (r : DF) (h' : Heap F) : Prop where
  ext : Heap.Ext h h'
  wf : r.WF h'
  new : r.toRaw.NewSince h h'
  nRows : (abs h' r).nRows = (abs h d0).nRows
  cols : ∀ k c, (abs h' r).col k c = ((abs h d0).beside (rest.map (abs h))).col k c
  str : ∀ c, (abs h' r).isStr c = true ↔ (∃ y, (abs h d0).isStr y = true) ∧ ((abs h d0).beside (rest.map (abs h))).isStr c = true
  enc : r.enc = none
  view : r.indexViewed = false
  maps : r.sharedMaps = false
  shared : r.shared = none
  rt : h'.rt = h.rt
  mwf : r.MaskWF h'

open Classical in
theorem columnCopyConcat_spec {h : Heap F} {d0 : DF} {rest : List DF} (wfs : ∀ d ∈ d0 :: rest, d.WF h) :
    if (∀ d ∈ rest, d.numRows = d0.numRows) ∧ NoOverlap ((d0 :: rest).map (abs h)) then
      ∃ r h', columnCopyConcat (d0 :: rest) h = .ok (some (r, h')) ∧ CopyConcatSpec h d0 rest r h'
    else columnCopyConcat (d0 :: rest) h = .ok none := by
  unfold columnCopyConcat
  simp only
  by_cases hn : ∀ d ∈ rest, d.numRows = d0.numRows
  swap
  · rw [if_neg (fun x => hn x.1), if_pos]
    rw [List.any_eq_true]
    have : ∃ d ∈ rest, ¬ d.numRows = d0.numRows := by
      by_contra hc; exact hn fun d hd => by_contra fun hne => hc ⟨d, hd, hne⟩
    obtain ⟨d, hd, hne⟩ := this
    exact ⟨d, hd, by simpa using hne⟩
  have hnot : rest.any (fun d => d.numRows != d0.numRows) = false := by
    rw [Bool.eq_false_iff]; intro hx
    obtain ⟨d, hd, hne⟩ := List.any_eq_true.1 hx
    rw [hn d hd] at hne; simp at hne
  rw [hnot]
  simp only [Bool.false_eq_true, if_false]
  obtain ⟨cs, h1, e1, s1⟩ := copyAll_spec (d0 :: rest) wfs
  rw [e1]
  simp only
  have hov : NoOverlap ((d0 :: rest).map (abs h)) ↔ NoOverlap (cs.map (abs h1)) := by
    apply noOverlap_cols
    rw [List.forall₂_map_left_iff, List.forall₂_map_right_iff]
    exact s1.all.imp fun d c hp k x => by rw [hp.2.2.2.1]
  have wcs : ∀ c ∈ cs, c.WF h1 := by
    intro c hc
    obtain ⟨d, _, hp⟩ := forall₂_mem_right s1.all hc
    exact hp.2.1
  by_cases ho : NoOverlap ((d0 :: rest).map (abs h))
  swap
  · rw [if_neg (fun x => ho x.2), (C22_concatView_errors wcs).1 (fun x => ho (hov.2 x))]
  rw [if_pos ⟨hn, ho⟩]
  obtain ⟨c0, crest, hp0, hprest, rfl⟩ : ∃ c0 crest, _ ∧ List.Forall₂ _ rest crest ∧ cs = c0 :: crest := by
    have := s1.all
    rw [List.forall₂_cons_left_iff] at this
    exact this
  have hrest' : ∀ c ∈ crest, ∃ d ∈ rest, c.idx = Idx.mk' (List.range d.numRows) := by
    intro c hc
    obtain ⟨d, hd, hp⟩ := forall₂_mem_right hprest hc
    exact ⟨d, hd, hp.2.2.2.2.1⟩
  have hr : ∀ c ∈ crest, c.rows = c0.rows := by
    intro c hc
    obtain ⟨d, hd, hp⟩ := hrest' c hc
    simp only [DF.rows, hp, hn d hd, hp0.2.2.2.2.1]
  obtain ⟨r, h', e2, sp⟩ := columnConcatView_ok wcs (hov.1 ho) hr
  rw [e2]
  obtain ⟨t1, t2, _, t4⟩ := sp.shows hr
  have hrow0 : c0.rows = List.range d0.numRows := by simp [DF.rows, hp0.2.2.2.2.1, Idx.mk', Idx.rows]
  have hlen : ∀ c ∈ c0 :: crest, ∀ q s, AMap.get (h1.tab c.tab) q = some s → s.len = d0.numRows := by
    intro c hc q s hq
    obtain ⟨d, hd, hp⟩ := forall₂_mem_right s1.all hc
    rw [hp.2.2.2.2.2.2.2.2 q s hq]
    rcases List.mem_cons.1 hd with rfl | hd
    · rfl
    · exact hn d hd
  have wr : r.WF h' := sp.wf wcs hlen (by rw [hrow0]; intro i hi; exact List.mem_range.1 hi) (fun _ => hrow0)
  have hle := s1.ext.next_le
  have hb : ∀ k c, ((abs h1 c0).beside (crest.map (abs h1))).col k c = ((abs h d0).beside (rest.map (abs h))).col k c := by
    intro k c
    simp only [ADF.beside]
    have : ∀ {ds cs : List DF}, List.Forall₂ (fun d c => abs h1 c = { abs h d with enc := none }) ds cs →
        (cs.map (abs h1)).findSome? (fun a => a.col k c) = (ds.map (abs h)).findSome? (fun a => a.col k c) := by
      intro ds cs hx
      induction hx with
      | nil => rfl
      | cons hp _ ih => simp only [List.map_cons, List.findSome?_cons, hp, ih]
    exact this (s1.all.imp fun d c hp => hp.2.2.2.1)
  have hbs : ∀ c, ((abs h1 c0).beside (crest.map (abs h1))).isStr c = ((abs h d0).beside (rest.map (abs h))).isStr c := by
    intro c
    simp only [ADF.beside]
    have : ∀ {ds cs : List DF}, List.Forall₂ (fun d c => abs h1 c = { abs h d with enc := none }) ds cs →
        (cs.map (abs h1)).any (fun a => a.isStr c) = (ds.map (abs h)).any (fun a => a.isStr c) := by
      intro ds cs hx
      induction hx with
      | nil => rfl
      | cons hp _ ih => simp only [List.map_cons, List.any_cons, hp, ih]
    exact this (s1.all.imp fun d c hp => hp.2.2.2.1)
  have h0s : abs h1 c0 = { abs h d0 with enc := none } := hp0.2.2.2.1
  refine ⟨_, h', rfl, s1.ext.trans sp.ext, ?_, ?_, ?_, ?_, ?_, sp.enc, ?_, sp.maps, rfl, sp.rt.trans s1.rt, ?_⟩
  · exact ⟨⟨wr.tab_lt, (fun i hi => nomatch hi), wr.str_lt, wr.keys, wr.slices⟩, wr.idx_len, wr.rect⟩
  · refine ⟨Nat.le_trans hle sp.tab.1, ?_, ?_⟩
    · rintro i (hi | hi)
      · cases hi
      · exact Nat.le_trans hle (sp.hdr i (Or.inr hi)).1
    · rintro i ⟨q, s, hq, hs, rfl⟩
      simp only at hq
      rw [sp.get] at hq
      obtain ⟨c, hc, hg⟩ := findSome_mem hq
      obtain ⟨d, hd, hp⟩ := forall₂_mem_right s1.all hc
      exact hp.2.2.1.arr _ ⟨q, s, hg, hs, rfl⟩
  · exact t1.trans (by rw [h0s])
  · intro k c; exact (t2 k c).trans (hb k c)
  · intro c
    refine (t4 c).trans ?_
    rw [hbs c, h0s]
  · exact sp.view.trans hp0.2.2.2.2.2.1
  · have m : c0.MaskWF h1 := hp0.2.2.2.2.2.2.2.1
    refine ⟨?_, ?_, ?_⟩
    · simp only [DF.numRows, DF.rows, sp.idx, sp.mask]; exact m.len_ge
    · simp only [sp.mask]; exact m.len_le
    · simp only [sp.mask]
      refine m.valid.imp id ?_
      rintro ⟨a, b⟩
      have := sp.ext.next_le
      exact ⟨by omega, by rw [sp.ext.msk _ a]; exact b⟩

/-- C23: `ColumnCopyConcat` of a non-empty list returns an error exactly when the numbers of rows differ
or a column name occurs twice; otherwise the result shows all the columns of all the dataframes, whatever
their row positions were, is consistent, and no dataframe changes. The empty list panics. What is missing:
the string marks of the other dataframes are lost when the first one has none (`C22_marks_refuted`). -/
theorem C23_copyConcat_partial {h : Heap F} {d0 : DF} {rest : List DF} (wfs : ∀ d ∈ d0 :: rest, d.WF h) :
    (columnCopyConcat (d0 :: rest) h = .ok none ↔
      (∃ d ∈ rest, (abs h d).nRows ≠ (abs h d0).nRows) ∨ ¬ NoOverlap ((d0 :: rest).map (abs h))) ∧
    ((∀ d ∈ rest, (abs h d).nRows = (abs h d0).nRows) → NoOverlap ((d0 :: rest).map (abs h)) →
      ∃ r h', columnCopyConcat (d0 :: rest) h = .ok (some (r, h')) ∧
        (abs h' r).nRows = (abs h d0).nRows ∧
        (∀ k c, (abs h' r).col k c = ((abs h d0).beside (rest.map (abs h))).col k c) ∧
        ((∃ y, (abs h d0).isStr y = true) →
          ∀ c, (abs h' r).isStr c = ((abs h d0).beside (rest.map (abs h))).isStr c) ∧
        r.WF h' ∧ r.indexViewed = false ∧
        ∀ d : DF, d.WF h → abs h' d = abs h d ∧ locs h' d = locs h d ∧ d.WF h') := by
  classical
  have sp := columnCopyConcat_spec wfs
  constructor
  · constructor
    · intro e
      by_contra hc
      rw [not_or, not_not] at hc
      rw [if_pos] at sp
      · obtain ⟨r, h', e', _⟩ := sp
        rw [e] at e'; cases e'
      · refine ⟨fun d hd => by_contra fun hne => hc.1 ⟨d, hd, hne⟩, hc.2⟩
    · intro hx
      rw [if_neg] at sp
      · exact sp
      · rintro ⟨h1, h2⟩
        rcases hx with ⟨d, hd, hne⟩ | hx
        · exact hne (h1 d hd)
        · exact hx h2
  · intro h1 h2
    rw [if_pos ⟨h1, h2⟩] at sp
    obtain ⟨r, h', e, sp⟩ := sp
    refine ⟨r, h', e, sp.nRows, sp.cols, ?_, sp.wf, sp.view, fun d wd => ⟨abs_ext sp.ext wd.toWF, locs_ext sp.ext wd.toWF, wd.ext sp.ext⟩⟩
    intro hy c
    rw [Bool.eq_iff_iff, sp.str c]
    exact ⟨fun x => x.2, fun x => ⟨hy, x⟩⟩

/-- C23, isolation: whatever in-place operations are applied, in any order, to the result and to any
dataframe that existed before, the next operation on one of the two is invisible in the other. -/
theorem C23_copyConcat_isolated [GoFloat F] {dfs : List DF} {r d a b : DF} {h h' h2 : Heap F} {es : List (Bool × Edit F)}
    (wfs : ∀ d ∈ dfs, d.WF h) (hc : columnCopyConcat dfs h = .ok (some (r, h'))) (wd : d.WF h)
    (hr : runPair es (d, r) h' = .ok ((a, b), h2)) :
    (∀ (e : Edit F) a' h3, e.run a h2 = .ok (a', h3) → abs h3 b = abs h2 b) ∧
    (∀ (e : Edit F) b' h3, e.run b h2 = .ok (b', h3) → abs h3 a = abs h2 a) := by
  classical
  cases dfs with
  | nil => simp [columnCopyConcat] at hc
  | cons d0 rest =>
    have sp := columnCopyConcat_spec wfs
    split at sp
    · obtain ⟨r', h'', e, sp⟩ := sp
      rw [hc] at e; cases e
      obtain ⟨wa, wb, ap⟩ := runPair_apart (wd.toWF.ext sp.ext) sp.wf.toWF (sp.new.apart wd.toWF sp.ext).symm hr
      constructor
      · intro e a' h3 hx
        exact ((Edit.foot wa hx).other_abs wb ap.toStructApart ap.arr).1
      · intro e b' h3 hx
        exact ((Edit.foot wb hx).other_abs wa ap.symm.toStructApart ap.symm.arr).1
    · rw [hc] at sp; cases sp

/-- `ColumnSmartConcat` is `ColumnConcatView` when that succeeds, otherwise `ColumnCopyConcat`: dataframes
with equal row positions share memory with the result, and it fails exactly when the copy fails. -/
theorem C23_smartConcat {h : Heap F} {d0 : DF} {rest : List DF} (wfs : ∀ d ∈ d0 :: rest, d.WF h) :
    (NoOverlap ((d0 :: rest).map (abs h)) → (∀ d ∈ rest, d.rows = d0.rows) →
      columnSmartConcat (d0 :: rest) h = columnConcatView (d0 :: rest) h) ∧
    (columnConcatView (d0 :: rest) h = .ok none → columnSmartConcat (d0 :: rest) h = columnCopyConcat (d0 :: rest) h) ∧
    (¬ NoOverlap ((d0 :: rest).map (abs h)) → columnSmartConcat (d0 :: rest) h = .ok none) := by
  refine ⟨?_, ?_, ?_⟩
  · intro ov hr
    obtain ⟨r, h', e, _⟩ := columnConcatView_ok wfs ov hr
    unfold columnSmartConcat
    rw [e]
  · intro e; unfold columnSmartConcat; rw [e]
  · intro ov
    unfold columnSmartConcat
    rw [(C22_concatView_errors wfs).1 ov]
    exact (C23_copyConcat_partial wfs).1.2 (Or.inr ov)

/-! ### Disagreements and examples -/

namespace Demo

/-- The demo dataframe and, from a second builder, a dataframe with two rows. -/
def twoLens : Except Abort ((DF × DF) × Heap Int) := do
  let b := build [.add .float b!"z" [.float 5, .float 3]] h
  let (q, h) ← b.1.toDataFrame b.2
  return ((df, q), h)

/-- An 8-row dataframe with two columns. -/
def ops8 : List (BOp Int) :=
  [.add .int b!"p" ((List.range 8).map fun (i : Nat) => .int i), .add .int b!"q" ((List.range 8).map fun (i : Nat) => .int (10 * i))]

/-- Rows 0, 7 of column `p`, and rows 1, 0 of column `q`. -/
def collide : Except Abort ((DF × DF) × Heap Int) := do
  let (d, h) ← (build ops8 heap0).1.toDataFrame (build ops8 heap0).2
  let (p, h) := d.columnView [b!"p"] h
  let (q, h) := d.columnView [b!"q"] h
  let (p, h) ← p.indexView [0, 7] h
  let (q, h) ← q.indexView [1, 0] h
  return ((p, q), h)

/-- Column `a` first, the string column `s` second. -/
def intThenString : (DF × DF) × Heap Int :=
  let (p, h) := df.columnView [b!"a"] h
  let (q, h) := df.columnView [b!"s"] h
  ((p, q), h)

end Demo

/-- C22 is false of the code: dataframes of 4 and of 2 rows are concatenated without an error, and the
result has an unreadable cell. -/
theorem C22_rows_refuted : ∃ (a b r : DF) (h h' : Heap Int), a.WF h ∧ b.WF h ∧
    (abs h a).nRows = 4 ∧ (abs h b).nRows = 2 ∧ columnConcatView [a, b] h = .ok (some (r, h')) ∧
    (abs h' r).col .float b!"z" = some [some (.float 5), some (.float 3), none, none] := by
  have hd : okAnd Demo.twoLens (fun p => p.1.1.checkWF p.2 4 && p.1.2.checkWF p.2 2 &&
      decide ((abs p.2 p.1.1).nRows = 4) && decide ((abs p.2 p.1.2).nRows = 2) &&
      okAnd (columnConcatView [p.1.1, p.1.2] p.2) (fun o => match o with
        | some q => decide ((abs q.2 q.1).col .float b!"z" = some [some (.float 5), some (.float 3), none, none])
        | none => false)) = true := by decide
  obtain ⟨⟨⟨a, b⟩, h⟩, _, hx⟩ := okAnd_iff.1 hd
  simp only [Bool.and_eq_true, decide_eq_true_eq] at hx
  obtain ⟨⟨⟨⟨h1, h2⟩, h3⟩, h4⟩, h5⟩ := hx
  obtain ⟨o, e, ho⟩ := okAnd_iff.1 h5
  cases o with
  | none => cases ho
  | some q => exact ⟨a, b, q.1, h, q.2, DF.wf_of_check 4 h1, DF.wf_of_check 2 h2, h3, h4, e, by simpa using ho⟩

/-- C22 is false of the code: inner indices 0, 7 and 1, 0 have the same hash, so two dataframes whose
indices differ are concatenated without an error, and the second one's rows are replaced by others. -/
theorem C22_hash_refuted : ∃ (a b r : DF) (h h' : Heap Int), a.WF h ∧ b.WF h ∧
    a.indexViewed = true ∧ b.indexViewed = true ∧ a.rows = [0, 7] ∧ b.rows = [1, 0] ∧
    columnConcatView [a, b] h = .ok (some (r, h')) ∧
    (abs h b).col .int b!"q" = some [some (.int 10), some (.int 0)] ∧
    (abs h' r).col .int b!"q" = some [some (.int 0), some (.int 70)] := by
  have hd : okAnd Demo.collide (fun p => p.1.1.checkWF p.2 8 && p.1.2.checkWF p.2 8 &&
      p.1.1.indexViewed && p.1.2.indexViewed && decide (p.1.1.rows = [0, 7]) && decide (p.1.2.rows = [1, 0]) &&
      okAnd (columnConcatView [p.1.1, p.1.2] p.2) (fun o => match o with
        | some q => decide ((abs q.2 q.1).col .int b!"q" = some [some (.int 0), some (.int 70)])
        | none => false) && decide ((abs p.2 p.1.2).col .int b!"q" = some [some (.int 10), some (.int 0)])) = true := by decide
  obtain ⟨⟨⟨a, b⟩, h⟩, _, hx⟩ := okAnd_iff.1 hd
  simp only [Bool.and_eq_true, decide_eq_true_eq] at hx
  obtain ⟨⟨⟨⟨⟨⟨⟨h1, h2⟩, h3⟩, h4⟩, h5⟩, h6⟩, h7⟩, h8⟩ := hx
  obtain ⟨o, e, ho⟩ := okAnd_iff.1 h7
  cases o with
  | none => cases ho
  | some q => exact ⟨a, b, q.1, h, q.2, DF.wf_of_check 8 h1, DF.wf_of_check 8 h2, h3, h4, h5, h6, e, h8, by simpa using ho⟩

/-- C22, C23 are false of the code: string marks are lost when the first dataframe has no string column. -/
theorem C22_marks_refuted : ∃ (a b : DF) (h : Heap Int), a.WF h ∧ b.WF h ∧ (abs h b).isStr b!"s" = true ∧
    (∃ r h', columnConcatView [a, b] h = .ok (some (r, h')) ∧ ((abs h' r).col .obj b!"s").isSome ∧ (abs h' r).isStr b!"s" = false) ∧
    (∃ r h', columnCopyConcat [a, b] h = .ok (some (r, h')) ∧ ((abs h' r).col .obj b!"s").isSome ∧ (abs h' r).isStr b!"s" = false) := by
  refine ⟨Demo.intThenString.1.1, Demo.intThenString.1.2, Demo.intThenString.2, DF.wf_of_check 4 (by decide),
    DF.wf_of_check 4 (by decide), by decide, ?_, ?_⟩
  · have hd : okAnd (columnConcatView [Demo.intThenString.1.1, Demo.intThenString.1.2] Demo.intThenString.2)
      (fun o => match o with | some p => ((abs p.2 p.1).col .obj b!"s").isSome && !(abs p.2 p.1).isStr b!"s" | none => false) = true := by decide
    obtain ⟨o, e, ho⟩ := okAnd_iff.1 hd
    cases o with
    | none => cases ho
    | some p => exact ⟨p.1, p.2, e, by simpa using ho⟩
  · have hd : okAnd (columnCopyConcat [Demo.intThenString.1.1, Demo.intThenString.1.2] Demo.intThenString.2)
      (fun o => match o with | some p => ((abs p.2 p.1).col .obj b!"s").isSome && !(abs p.2 p.1).isStr b!"s" | none => false) = true := by decide
    obtain ⟨o, e, ho⟩ := okAnd_iff.1 hd
    cases o with
    | none => cases ho
    | some p => exact ⟨p.1, p.2, e, by simpa using ho⟩

-- `C22_one_row_differs` applies: rows 0, 1, 2 of column `a` beside rows 0, 3, 2 of column `x` are rejected
example : ∃ (a b : DF) (g : Heap Int), a.rows = [0] ++ 1 :: [2] ∧ b.rows = [0] ++ 3 :: [2] ∧ columnConcatView [a, b] g = .ok none := by
  have key : okAnd ((Demo.df.columnView [b!"a"] Demo.h).1.indexView [0, 1, 2] (Demo.df.columnView [b!"a"] Demo.h).2) (fun p =>
      okAnd ((Demo.df.columnView [b!"x"] p.2).1.indexView [0, 3, 2] (Demo.df.columnView [b!"x"] p.2).2) (fun q =>
        p.1.checkWF q.2 4 && q.1.checkWF q.2 4 && p.1.indexViewed && decide (p.1.rows = [0] ++ 1 :: [2]) &&
          decide (q.1.rows = [0] ++ 3 :: [2]))) = true := by decide
  obtain ⟨⟨a, h1⟩, _, k2⟩ := okAnd_iff.1 key
  obtain ⟨⟨b, h2⟩, _, k3⟩ := okAnd_iff.1 k2
  simp only [Bool.and_eq_true, decide_eq_true_eq] at k3
  obtain ⟨⟨⟨⟨w1, w2⟩, hv⟩, r1⟩, r2⟩ := k3
  refine ⟨a, b, h2, r1, r2, C22_one_row_differs (d := b) ?_ (by simp) ⟨a, by simp, hv⟩ r1 r2 (by decide) (by decide) (by decide)⟩
  intro x hx
  simp only [List.mem_cons, List.not_mem_nil, or_false] at hx
  rcases hx with rfl | rfl
  · exact DF.wf_of_check 4 w1
  · exact DF.wf_of_check 4 w2

-- the hypotheses of C22 and C23 are met: the string column first, then the int column
example : ∃ r h', columnConcatView [Demo.intThenString.1.2, Demo.intThenString.1.1] Demo.intThenString.2 = .ok (some (r, h')) ∧
    (abs h' r).col .int b!"a" = some [some (.int 10), some (.int 20), some (.int 30), some (.int 40)] ∧
    (abs h' r).isStr b!"s" = true := by
  have w : ∀ d ∈ [Demo.intThenString.1.2, Demo.intThenString.1.1], d.WF Demo.intThenString.2 := by
    intro d hd
    simp only [List.mem_cons, List.not_mem_nil, or_false] at hd
    rcases hd with rfl | rfl <;> exact DF.wf_of_check 4 (by decide)
  obtain ⟨r, h', e, _, hc, _, hs, _⟩ := C22_concatView_shows_partial w ((C24_check_overlap w).1 (by decide)) (by decide)
  exact ⟨r, h', e, by rw [hc]; decide, by rw [hs ⟨b!"s", by decide⟩]; decide⟩

example : ∃ r h', columnCopyConcat [Demo.intThenString.1.2.reverseView, Demo.intThenString.1.1] Demo.intThenString.2 = .ok (some (r, h')) ∧
    (abs h' r).col .int b!"a" = some [some (.int 10), some (.int 20), some (.int 30), some (.int 40)] ∧
    (abs h' r).col .obj b!"s" = some [some .nil, some (.str b!"u"), some (.str b!"v"), some (.str b!"u")] := by
  have w : ∀ d ∈ [Demo.intThenString.1.2.reverseView, Demo.intThenString.1.1], d.WF Demo.intThenString.2 := by
    intro d hd
    simp only [List.mem_cons, List.not_mem_nil, or_false] at hd
    rcases hd with rfl | rfl <;> exact DF.wf_of_check 4 (by decide)
  obtain ⟨r, h', e, _, hc, _⟩ := (C23_copyConcat_partial w).2 (by decide) ((C24_check_overlap w).1 (by decide))
  exact ⟨r, h', e, by rw [hc]; decide, by rw [hc]; decide⟩

end Verif
