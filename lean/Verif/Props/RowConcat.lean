import Verif.Proofs.Concat
import Verif.Spec.Concat
import Verif.Props.ColumnView

/-! C21: `RowConcat`. -/

namespace Verif
open scoped Demo
variable {F : Type}

structure MakeSpec [GoFloat F] (n : Nat) (t : Table) (h : Heap F) (t' : Table) (h' : Heap F) : Prop where
  ext : Heap.Ext h h'
  tab : h'.tab = h.tab
  hdr : h'.hdr = h.hdr
  msk : h'.msk = h.msk
  rt : h'.rt = h.rt
  keys : AMap.keys t' = AMap.keys t
  fresh : ∀ e ∈ t', e.2.Valid h' ∧ e.2.len = n ∧ h.next ≤ e.2.arr
  pw : t'.Pairwise (fun a b => a.2.arr ≠ b.2.arr)

theorem makeCols_spec [GoFloat F] (n : Nat) (t : Table) (h : Heap F) :
    MakeSpec n t h (mapColsT (makeCol n) t h).1 (mapColsT (makeCol n) t h).2 := by
  induction t generalizing h with
  | nil => exact ⟨Heap.Ext.refl _, rfl, rfl, rfl, rfl, rfl, by simp [mapColsT], by simp [mapColsT]⟩
  | cons e t ih =>
    obtain ⟨k, s⟩ := e
    simp only [mapColsT, makeCol]
    have e1 := Heap.newArr_ext h (List.replicate n (k.1.zero : Val F))
    have v1 := Slice.valid_newArr h (List.replicate n (k.1.zero : Val F))
    have sp := ih (h.newArr (List.replicate n (k.1.zero : Val F))).2
    have ha : (h.newArr (List.replicate n (k.1.zero : Val F))).1.arr = h.next := rfl
    have hl : (h.newArr (List.replicate n (k.1.zero : Val F))).1.len = n := by simp [Heap.newArr]
    have hn : (h.newArr (List.replicate n (k.1.zero : Val F))).2.next = h.next + 1 := rfl
    have ht : (h.newArr (List.replicate n (k.1.zero : Val F))).2.tab = h.tab := rfl
    have hh : (h.newArr (List.replicate n (k.1.zero : Val F))).2.hdr = h.hdr := rfl
    have hm : (h.newArr (List.replicate n (k.1.zero : Val F))).2.msk = h.msk := rfl
    have hr : (h.newArr (List.replicate n (k.1.zero : Val F))).2.rt = h.rt := rfl
    generalize h.newArr (List.replicate n (k.1.zero : Val F)) = p at *
    refine ⟨e1.trans sp.ext, sp.tab.trans ht, sp.hdr.trans hh, sp.msk.trans hm, sp.rt.trans hr, ?_, ?_, ?_⟩
    · have := sp.keys
      simp only [AMap.keys, List.map_cons] at this ⊢
      rw [this]
    · intro e he
      rcases List.mem_cons.1 he with rfl | he
      · exact ⟨v1.ext sp.ext, hl, by simp only; omega⟩
      · obtain ⟨a, b, c⟩ := sp.fresh e he
        exact ⟨a, b, by omega⟩
    · refine List.pairwise_cons.2 ⟨?_, sp.pw⟩
      intro e he
      have := (sp.fresh e he).2.2
      simp only; omega

/-- What `RowConcat` returns, and the memory it uses. -/
structure RowConcatSpec (h : Heap F) (d0 : DF) (rest : List DF) (r : DF) (h' : Heap F) : Prop where
  ext : Heap.Ext h h'
  wf : r.WF h'
  mwf : r.MaskWF h'
  new : r.toRaw.NewSince h h'
  shows : abs h' r = (abs h d0).stack (rest.map (abs h))
  sep : r.toRaw.Sep
  maps : r.sharedMaps = false ∧ r.indexViewed = false
  cpu : r.maxCPU = d0.maxCPU
  rt : h'.rt = h.rt
  shared : r.shared = none

theorem rowConcat_spec [GoFloat F] {d0 : DF} {rest : List DF} {h : Heap F} (wfs : ∀ d ∈ d0 :: rest, d.WF h) :
    (∃ r h', rowConcat (d0 :: rest) h = .ok (some (r, h')) ∧ RowConcatSpec h d0 rest r h' ∧
      ∀ d ∈ rest, ∀ k c, ((abs h d0).col k c).isSome → ((abs h d).col k c).isSome) ∨
    (rowConcat (d0 :: rest) h = .ok none ∧
      ∃ d ∈ rest, ∃ k c, ((abs h d0).col k c).isSome ∧ (abs h d).col k c = none) := by
  have wd := wfs d0 (by simp)
  unfold rowConcat
  simp only
  obtain ⟨n, hn⟩ : ∃ n, n = ((d0 :: rest).map DF.numRows).sum := ⟨_, rfl⟩
  rw [← hn]
  have es := emptyDataFrame_spec h (n : Int) d0.maxCPU
  generalize emptyDataFrame h (n : Int) d0.maxCPU = p at es
  obtain ⟨r, h1⟩ := p
  simp only [Int.toNat_natCast] at es ⊢
  have mk := makeCols_spec n (h1.tab d0.tab) h1
  have ht0 : h1.tab d0.tab = h.tab d0.tab := es.ext.tab _ wd.tab_lt
  generalize mapColsT (makeCol n) (h1.tab d0.tab) h1 = p at mk
  obtain ⟨t, h2⟩ := p
  simp only at mk ⊢
  have hst0 : r.strHdr = none := by rw [es.rawE]
  have e3 : Heap.Ext h (h2.setTab r.tab t) := (es.ext.trans mk.ext).setTab (by rw [es.tab]; exact Nat.le_refl _) t
  have cl := concatLoop_spec (h0 := h) r n t (d0 :: rest) 0 r.strHdr (h2.setTab r.tab t) e3 (by simp) wfs
    (fun e he => by
      obtain ⟨a, b, c⟩ := mk.fresh e he
      have := es.ext.next_le
      exact ⟨⟨a.1, a.2⟩, b, by omega⟩) mk.pw (by rw [hst0]; simp) (by omega)
  have hkeys : ∀ k c, ((abs h d0).col k c).isSome ↔ (k, c) ∈ AMap.keys t := by
    intro k c
    rw [mk.keys, ht0, ← AMap.get_isSome_iff]
    simp [abs]
  rcases cl with ⟨st', h', e4, hs4, x4, t4, m4, r4, l4, n4, st4, ss4, mem4, c4⟩ | ⟨e4, d, hd, e, he, hnn⟩
  · left
    rw [e4]
    have hnd : (AMap.keys t).Nodup := by rw [mk.keys, ht0]; exact wd.keys
    have htab : h'.tab r.tab = t := by rw [t4]; simp
    have hlt2 : h2.next ≤ h'.next := n4
    have hval : ∀ e ∈ t, e.2.Valid h' := fun e he => (mk.fresh e he).1.of_len hlt2 (fun i hi => l4 i hi)
    have hget : ∀ q s, AMap.get t q = some s → s.Valid h' ∧ s.len = n ∧ h.next ≤ s.arr := by
      intro q s hq
      have hm := AMap.mem_of_get hq
      have := mk.fresh _ hm
      exact ⟨hval _ hm, this.2.1, Nat.le_trans es.ext.next_le this.2.2⟩
    have hrlt : r.tab < h'.next := by
      have := es.lt; have := mk.ext.next_le; rw [es.tab]; omega
    have hsh : r.shared = none := by rw [es.rawE]
    have hrows : DF.rows { r with strHdr := st' } = List.range n := es.rows
    refine ⟨_, h', rfl, ⟨x4, ?_, ?_, ?_, ?_, ?_, ⟨by rw [es.rawE], es.view⟩, by rw [es.rawE], by rw [r4]; exact mk.rt.trans es.rt, hsh⟩, ?_⟩
    · refine ⟨⟨hrlt, ?_, ?_, ?_, ?_⟩, es.idx, n, ?_, ?_, fun _ => hrows⟩
      · intro i hi; simp only [hsh] at hi; cases hi
      · intro i hi; exact (st4 i hi).2
      · simp only [htab]; exact hnd
      · intro q s hq; simp only [htab] at hq; exact (hget q s hq).1
      · intro q s hq; simp only [htab] at hq; exact (hget q s hq).2.1
      · intro i hi; rw [hrows] at hi; exact List.mem_range.1 hi
    · have m := es.mwf
      refine ⟨m.len_ge, m.len_le, m.valid.imp id ?_⟩
      rintro ⟨a, b⟩
      have := mk.ext.next_le
      refine ⟨by simp only; omega, ?_⟩
      simp only
      rw [m4]
      show _ ≤ (h2.msk _).length
      rw [mk.msk]; exact b
    · refine ⟨?_, ?_, ?_⟩
      · simp only [es.tab]; exact Nat.le_refl _
      · rintro i (hi | hi)
        · simp only [hsh] at hi; cases hi
        · exact (st4 i hi).1
      · rintro i ⟨q, s, hq, _, rfl⟩
        simp only [htab] at hq
        exact (hget q s hq).2.2
    · apply ADF.ext'
      · simp only [abs, ADF.stack, DF.numRows, hrows, List.length_range, hn, List.map_cons, List.map_map]
        rfl
      · intro k c
        simp only [abs, ADF.stack, htab]
        cases hg : AMap.get t (k, c) with
        | none =>
          have : AMap.get (h.tab d0.tab) (k, c) = none := by
            rw [AMap.get_eq_none_iff, ← ht0, ← mk.keys, ← AMap.get_eq_none_iff]; exact hg
          rw [this]; rfl
        | some s =>
          have hm := AMap.mem_of_get hg
          have : (AMap.get (h.tab d0.tab) (k, c)).isSome := by
            rw [AMap.get_isSome_iff, ← ht0, ← mk.keys, ← AMap.get_isSome_iff, hg]; rfl
          obtain ⟨s0, hs0⟩ := Option.isSome_iff_exists.1 this
          rw [hs0]
          simp only [Option.map_some, Option.some.injEq, hrows]
          have hcc : ∀ j, h'.cell s j = if 0 ≤ j ∧ j < 0 + n then ((colCat h (k, c) (d0 :: rest))[j - 0]?).join else (h2.setTab r.tab t).cell s j := by
            rw [hn]; exact c4 _ hm
          have hlen := colCat_length (h := h) (q := (k, c)) (ds := d0 :: rest) (fun d hd => hs4 d hd _ hm)
          have heq : List.flatMap (fun a => (a.col k c).getD []) (abs h d0 :: rest.map (abs h)) = colCat h (k, c) (d0 :: rest) := by
            simp only [colCat, List.flatMap_cons, List.flatMap_map]
          have heq' := heq
          simp only [abs] at heq'
          rw [heq']
          apply List.ext_getElem
          · simp only [List.length_map, List.length_range]; rw [hlen, hn]
          · intro j h1 h2
            simp only [List.length_map, List.length_range] at h1
            simp only [List.getElem_map, List.getElem_range]
            rw [hcc j, if_pos (by omega), Nat.sub_zero, List.getElem?_eq_getElem h2]
            rfl
      · intro x
        have hm : x ∈ hdrList h' st' ↔ ∃ d ∈ d0 :: rest, (abs h d).isStr x = true := by
          rw [mem4 x, hst0]; simp [hdrList]
        show decide (x ∈ hdrList h' st') = (abs h d0 :: rest.map (abs h)).any (·.isStr x)
        rw [Bool.eq_iff_iff, decide_eq_true_eq, hm]
        simp only [List.any_eq_true, List.mem_cons, List.mem_map]
        constructor
        · rintro ⟨d, rfl | hd, hx⟩
          · exact ⟨_, Or.inl rfl, hx⟩
          · exact ⟨_, Or.inr ⟨d, hd, rfl⟩, hx⟩
        · rintro ⟨a, rfl | ⟨d, hd, rfl⟩, hx⟩
          · exact ⟨d0, Or.inl rfl, hx⟩
          · exact ⟨d, Or.inr hd, hx⟩
      · show r.enc = none
        rw [es.rawE]
    · intro i hi
      simp only [hsh] at hi; cases hi
    · intro d hd k c hk
      obtain ⟨s, hs⟩ := Option.isSome_iff_exists.1 ((AMap.get_isSome_iff t (k, c)).2 ((hkeys k c).1 hk))
      exact hs4 d (by simp [hd]) _ (AMap.mem_of_get hs)
  · right
    rw [e4]
    have hk : (e.1.1, e.1.2) ∈ AMap.keys t := List.mem_map.2 ⟨e, he, rfl⟩
    have h0 := (hkeys e.1.1 e.1.2).2 hk
    refine ⟨rfl, d, ?_, e.1.1, e.1.2, h0, hnn⟩
    rcases List.mem_cons.1 hd with rfl | hd
    · rw [hnn] at h0; cases h0
    · exact hd

/-- C21: when every dataframe has the columns of the first one, `RowConcat` succeeds; the result has
these columns, its rows are the rows of the first dataframe, then of the second, ...; it is consistent,
and no dataframe that existed before changes. -/
theorem C21_rowConcat_stacks [GoFloat F] {d0 : DF} {rest : List DF} {h : Heap F} (wfs : ∀ d ∈ d0 :: rest, d.WF h)
    (hcols : ∀ d ∈ rest, ∀ k c, ((abs h d0).col k c).isSome → ((abs h d).col k c).isSome) :
    ∃ r h', rowConcat (d0 :: rest) h = .ok (some (r, h')) ∧ abs h' r = (abs h d0).stack (rest.map (abs h)) ∧
      r.WF h' ∧ r.MaskWF h' ∧
      ∀ d : DF, d.WF h → abs h' d = abs h d ∧ locs h' d = locs h d ∧ d.WF h' := by
  rcases rowConcat_spec wfs with ⟨r, h', e, sp, _⟩ | ⟨_, d, hd, k, c, h1, h2⟩
  · exact ⟨r, h', e, sp.shows, sp.wf, sp.mwf, fun d wd =>
      ⟨abs_ext sp.ext wd.toWF, locs_ext sp.ext wd.toWF, wd.ext sp.ext⟩⟩
  · have := hcols d hd k c h1; rw [h2] at this; cases this

/-- C21, errors: `RowConcat` never panics; it returns an error exactly when the list is empty or some
dataframe lacks a column of the first one (same name and type). What is missing for the full property:
a column that only a later dataframe has is not an error, see `C21_extra_columns_refuted`. -/
theorem C21_rowConcat_error_partial [GoFloat F] (dfs : List DF) (h : Heap F) (wfs : ∀ d ∈ dfs, d.WF h) :
    rowConcat dfs h = .ok none ↔ dfs = [] ∨ ∃ d0 rest, dfs = d0 :: rest ∧ ∃ d ∈ rest, ∃ k c,
      ((abs h d0).col k c).isSome ∧ (abs h d).col k c = none := by
  cases dfs with
  | nil => simp [rowConcat]
  | cons d0 rest =>
    constructor
    · intro e
      rcases rowConcat_spec wfs with ⟨r, h', e', _⟩ | ⟨_, hx⟩
      · rw [e] at e'; cases e'
      · exact Or.inr ⟨d0, rest, rfl, hx⟩
    · rintro (hx | ⟨_, _, hx, d, hd, k, c, h1, h2⟩)
      · cases hx
      · cases hx
        rcases rowConcat_spec wfs with ⟨r, h', e', _, hall⟩ | ⟨e', _⟩
        · have := hall d hd k c h1; rw [h2] at this; cases this
        · exact e'

/-- C21, isolation: whatever in-place operations are applied, in any order, to the result and to any
dataframe that existed before, the next operation on one of the two is invisible in the other. -/
theorem C21_rowConcat_isolated [GoFloat F] {dfs : List DF} {r d a b : DF} {h h' h2 : Heap F} {es : List (Bool × Edit F)}
    (wfs : ∀ d ∈ dfs, d.WF h) (hc : rowConcat dfs h = .ok (some (r, h'))) (wd : d.WF h)
    (hr : runPair es (d, r) h' = .ok ((a, b), h2)) :
    (∀ (e : Edit F) a' h3, e.run a h2 = .ok (a', h3) → abs h3 b = abs h2 b) ∧
    (∀ (e : Edit F) b' h3, e.run b h2 = .ok (b', h3) → abs h3 a = abs h2 a) := by
  cases dfs with
  | nil => simp [rowConcat] at hc
  | cons d0 rest =>
    rcases rowConcat_spec wfs with ⟨r', h'', e, sp, _⟩ | ⟨e, _⟩
    · rw [hc] at e; cases e
      obtain ⟨wa, wb, ap⟩ := runPair_apart (wd.toWF.ext sp.ext) sp.wf.toWF (sp.new.apart wd.toWF sp.ext).symm hr
      constructor
      · intro e a' h3 hx
        exact ((Edit.foot wa hx).other_abs wb ap.toStructApart ap.arr).1
      · intro e b' h3 hx
        exact ((Edit.foot wb hx).other_abs wa ap.symm.toStructApart ap.symm.arr).1
    · rw [hc] at e; cases e

/-- C21 is false of the code in one respect: when a later dataframe has a column that the first one
lacks, `RowConcat` returns no error and drops the column (whereas the opposite order is an error). -/
theorem C21_extra_columns_refuted : ∃ (a b : DF) (h : Heap Int), a.WF h ∧ b.WF h ∧
    (abs h a).col .float b!"x" = none ∧ ((abs h b).col .float b!"x").isSome ∧
    (∃ r h', rowConcat [a, b] h = .ok (some (r, h')) ∧ (abs h' r).col .float b!"x" = none) ∧
    rowConcat [b, a] h = .ok none := by
  have w := C18_columnView Demo.df_wf Demo.df_sep (cols := [b!"a"]) (by decide) (v := (Demo.df.columnView [b!"a"] Demo.h).1) (h' := (Demo.df.columnView [b!"a"] Demo.h).2) rfl
  have w1 := w.2.2.1
  have w2 := (w.2.2.2 Demo.df Demo.df_wf Demo.df_sep).2.2
  refine ⟨(Demo.df.columnView [b!"a"] Demo.h).1, Demo.df, (Demo.df.columnView [b!"a"] Demo.h).2, w1, w2, by decide, by decide, ?_, ?_⟩
  · have hd : okAnd (rowConcat [(Demo.df.columnView [b!"a"] Demo.h).1, Demo.df] (Demo.df.columnView [b!"a"] Demo.h).2)
      (fun o => match o with | some p => decide ((abs p.2 p.1).col .float b!"x" = none) | none => false) = true := by decide
    obtain ⟨o, e, ho⟩ := okAnd_iff.1 hd
    cases o with
    | none => cases ho
    | some p => exact ⟨p.1, p.2, e, by simpa using ho⟩
  · rw [C21_rowConcat_error_partial]
    · right
      exact ⟨_, _, rfl, (Demo.df.columnView [b!"a"] Demo.h).1, by simp, .float, b!"x", by decide, by decide⟩
    · intro d hd
      simp only [List.mem_cons, List.not_mem_nil, or_false] at hd
      rcases hd with rfl | rfl
      · exact w2
      · exact w1

-- the hypotheses are met
example : ∃ r h', rowConcat [Demo.df, Demo.df.reverseView] Demo.h = .ok (some (r, h')) ∧
    (abs h' r).col .int b!"a" = some [some (.int 10), some (.int 20), some (.int 30), some (.int 40),
      some (.int 40), some (.int 30), some (.int 20), some (.int 10)] := by
  obtain ⟨r, h', e, hs, _⟩ := C21_rowConcat_stacks (d0 := Demo.df) (rest := [Demo.df.reverseView]) (h := Demo.h) (by
    intro d hd
    simp only [List.mem_cons, List.not_mem_nil, or_false] at hd
    rcases hd with rfl | rfl
    · exact Demo.df_wf
    · exact (reverseView_step Demo.df_wf Demo.df_mwf).wf) (by
    intro d hd k c hk
    simp only [List.mem_singleton] at hd; subst hd
    simpa [abs, DF.reverseView, DF.view] using hk)
  exact ⟨r, h', e, by rw [hs]; decide⟩

end Verif
