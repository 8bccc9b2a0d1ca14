import Verif.Proofs.Apart

/-! `Copy`, `ShallowCopy`, `DetachedView`, `ColumnView`. -/

namespace Verif
variable {F : Type}

theorem gather_iff (h : Heap F) (s : Slice) (is : List Nat) (vs : List (Val F)) :
    gather h s is = .ok vs ↔ is.map (h.cell s) = vs.map some := by
  induction is generalizing vs with
  | nil => cases vs <;> simp [gather]
  | cons i is ih =>
    simp only [gather]
    cases hc : h.cell s i with
    | none => cases vs <;> simp [hc]
    | some v =>
      cases hg : gather h s is with
      | error e =>
        cases vs with
        | nil => simp
        | cons w ws =>
          simp only [List.map_cons, hc, List.cons.injEq, Option.some.injEq]
          constructor
          · intro hh; cases hh
          · rintro ⟨_, h2⟩
            rw [(ih ws).2 h2] at hg; cases hg
      | ok us =>
        have := (ih us).1 hg
        cases vs with
        | nil => simp
        | cons w ws =>
          simp only [List.map_cons, hc, List.cons.injEq, Option.some.injEq, Except.ok.injEq]
          constructor
          · rintro ⟨h1, h2⟩; subst h2; exact ⟨h1, this⟩
          · rintro ⟨h1, h2⟩
            refine ⟨h1, ?_⟩
            have h3 := (ih ws).2 h2
            rw [hg] at h3; cases h3; rfl

theorem gather_ok {h : Heap F} {s : Slice} (hv : s.Valid h) {is : List Nat} (hi : ∀ i ∈ is, i < s.len) :
    ∃ vs, gather h s is = .ok vs := by
  induction is with
  | nil => exact ⟨[], rfl⟩
  | cons i is ih =>
    obtain ⟨x, hx⟩ := hv.cell_some (hi i (by simp))
    obtain ⟨vs, hvs⟩ := ih (fun j hj => hi j (by simp [hj]))
    exact ⟨x :: vs, by simp [gather, hx, hvs]⟩

theorem read_range {h : Heap F} {s : Slice} (hv : s.Valid h) :
    (List.range s.len).map (h.cell s) = (h.read s).map some := by
  apply List.ext_getElem
  · simp [hv.read_length]
  · intro i h1 h2
    simp at h1 h2
    simp [Heap.cell_eq_read, List.getElem?_eq_getElem h2]

/-- `Copy` of one column. -/
theorem copyCol_spec {df : DF} {h : Heap F} {s : Slice} (hv : s.Valid h) (k : Key)
    (h1 : ∀ i ∈ df.rows, i < s.len) (h2 : df.indexViewed = false → df.rows = List.range s.len) :
    ∃ vs, copyCol df k s h = .ok (h.newArr vs) ∧ df.rows.map (h.cell s) = vs.map some := by
  unfold copyCol
  split
  · obtain ⟨vs, hvs⟩ := gather_ok hv h1
    exact ⟨vs, by rw [hvs], (gather_iff ..).1 hvs⟩
  · rename_i hi
    refine ⟨_, rfl, ?_⟩
    rw [h2 (by simpa using hi)]
    exact read_range hv

structure CopySpec (rows : List Nat) (t : Table) (h : Heap F) (t' : Table) (h' : Heap F) : Prop where
  ext : Heap.Ext h h'
  tab : h'.tab = h.tab
  hdr : h'.hdr = h.hdr
  msk : h'.msk = h.msk
  rt : h'.rt = h.rt
  keys : AMap.keys t' = AMap.keys t
  get : ∀ k, AMap.get t' k = none ∧ AMap.get t k = none ∨
    ∃ s s', AMap.get t k = some s ∧ AMap.get t' k = some s' ∧
      s'.len = rows.length ∧ s'.Valid h' ∧ h.next ≤ s'.arr ∧ (h'.read s').map some = rows.map (h.cell s)

theorem copyLoop_spec {df : DF} {N : Nat} (hr : ∀ i ∈ df.rows, i < N)
    (hv : df.indexViewed = false → df.rows = List.range N) (t : Table) (h : Heap F)
    (hn : (AMap.keys t).Nodup) (ht : ∀ k s, (k, s) ∈ t → s.Valid h ∧ s.len = N) :
    ∃ t' h', mapCols (copyCol df) t h = .ok (t', h') ∧ CopySpec df.rows t h t' h' := by
  induction t generalizing h with
  | nil => exact ⟨[], h, rfl, Heap.Ext.refl _, rfl, rfl, rfl, rfl, rfl, fun k => Or.inl ⟨rfl, rfl⟩⟩
  | cons e t ih =>
    obtain ⟨k, s⟩ := e
    obtain ⟨hs, hN⟩ := ht k s (by simp)
    obtain ⟨vs, hc, hvs⟩ := copyCol_spec (df := df) hs k (by rw [hN]; exact hr) (by rw [hN]; exact hv)
    have e1 := Heap.newArr_ext h vs
    obtain ⟨t', h', hm, sp⟩ := ih (h.newArr vs).2 (List.nodup_cons.1 hn).2
      (fun k s hm => ⟨(ht k s (by simp [hm])).1.ext e1, (ht k s (by simp [hm])).2⟩)
    refine ⟨(k, (h.newArr vs).1) :: t', h', ?_, ?_⟩
    · simp only [mapCols, hc, hm]
    · refine ⟨e1.trans sp.ext, by rw [sp.tab]; rfl, by rw [sp.hdr]; rfl, by rw [sp.msk]; rfl, by rw [sp.rt]; rfl, ?_, ?_⟩
      · have := sp.keys
        simp only [AMap.keys, List.map_cons] at this ⊢
        rw [this]
      · intro q
        rw [AMap.get_cons, AMap.get_cons]
        by_cases hq : k = q
        · subst hq
          right
          refine ⟨s, (h.newArr vs).1, by simp, by simp, ?_, (Slice.valid_newArr h vs).ext sp.ext, Nat.le_refl _, ?_⟩
          · have := congrArg List.length hvs
            simpa using this.symm
          · rw [Heap.read_congr (Or.inr (sp.ext.arr _ (by simp))), read_newArr, hvs]
        · rw [if_neg hq, if_neg hq]
          rcases sp.get q with h0 | ⟨s0, s', g1, g2, g3, g4, g5, g6⟩
          · exact Or.inl h0
          · right
            refine ⟨s0, s', g1, g2, g3, g4, Nat.le_trans e1.next_le g5, ?_⟩
            rw [g6, Heap.cell_congr ((ht q s0 (by simp [AMap.mem_of_get g1])).1.arr_eq e1)]

/-- The references of `r` are all new since `h`. -/
structure Raw.NewSince (h h' : Heap F) (r : Raw) : Prop where
  tab : h.next ≤ r.tab
  hdr : ∀ i, r.headers i → h.next ≤ i
  arr : ∀ i, r.arrays h' i → h.next ≤ i

theorem Raw.NewSince.apart {h h' : Heap F} {r d : Raw} (n : r.NewSince h h') (wf : d.WF h)
    (e : Heap.Ext h h') : r.Apart h' d := by
  refine ⟨⟨?_, ?_⟩, ?_⟩
  · have := wf.tab_lt; have := n.tab; omega
  · intro i hr hd
    have := n.hdr i hr; have := Raw.headers_lt wf hd; omega
  · rintro i hr ⟨k, s, hk, h1, rfl⟩
    rw [e.tab _ wf.tab_lt] at hk
    have := n.arr _ hr
    have := Raw.arrays_lt wf ⟨k, s, hk, h1, rfl⟩
    omega

/-- A heap where only new objects were written. -/
theorem Heap.Ext.setTab {h h1 : Heap F} (e : Heap.Ext h h1) {t : Nat} (ht : h.next ≤ t) (x : Table) :
    Heap.Ext h (h1.setTab t x) :=
  ⟨e.next_le, fun i hi => e.arr i hi, fun i hi => by rw [Heap.setTab_tab_ne _ _ (by omega)]; exact e.tab i hi,
    fun i hi => e.hdr i hi, fun i hi => e.msk i hi⟩

/-- `EmptyDataFrame`. -/
structure EmptySpec (h : Heap F) (n : Nat) (cpu : Int) (d : DF) (h' : Heap F) : Prop where
  ext : Heap.Ext h h'
  tab : d.tab = h.next
  tabE : h'.tab d.tab = []
  rawE : d.toRaw = { tab := h.next, shared := none, sharedMaps := false, enc := none, maxCPU := cpu, strHdr := none }
  rows : d.rows = List.range n
  idx : d.idx.len ≤ d.idx.data.length
  view : d.indexViewed = false
  mwf : d.MaskWF h'
  arr : h'.arr = h.arr
  hdr : h'.hdr = h.hdr
  lt : h.next < h'.next
  tabs : ∀ i, i ≠ h.next → h'.tab i = h.tab i
  ts : d.mThreadSafe = false
  idxE : d.idx = Idx.mk' (List.range n)
  rt : h'.rt = h.rt

theorem emptyDataFrame_spec (h : Heap F) (n : Int) (cpu : Int) :
    EmptySpec h n.toNat cpu (emptyDataFrame h n cpu).1 (emptyDataFrame h n cpu).2 := by
  unfold emptyDataFrame
  simp only
  split
  · refine ⟨(Heap.newTab_ext h []).trans (Heap.newMsk_ext _ _), rfl, ?_, rfl, ?_, ?_, rfl, ⟨?_, ?_, ?_⟩, rfl, rfl, ?_, ?_, rfl, rfl, rfl⟩
    · show (h.newTab []).2.tab h.next = []
      simp
    · simp [DF.rows, Idx.rows, Idx.mk']
    · simp [Idx.mk']
    · simp [DF.numRows, DF.rows, Idx.rows, Idx.mk']
    · simp
    · right; constructor
      · simp
      · show _ ≤ (if _ then _ else _ : List Bool).length
        simp
    · show h.next < h.next + 1 + 1; omega
    · intro i hi; simp [Heap.newTab, hi]
  · rename_i hn
    have h0 : n.toNat = 0 := by omega
    refine ⟨Heap.newTab_ext h [], rfl, by simp, rfl, ?_, ?_, rfl, ⟨?_, ?_, ?_⟩, rfl, rfl, ?_, ?_, rfl, ?_, rfl⟩
    · simp [DF.rows, Idx.rows, h0]
    · simp
    · simp [DF.numRows, DF.rows, Idx.rows]
    · simp [Slice.nil]
    · left; rfl
    · simp
    · intro i hi; simp [Heap.newTab, hi]
    · simp [h0, Idx.mk']

theorem DF.WF.table_mem {h : Heap F} {d : DF} (wf : d.WF h) : ∃ N,
    (∀ k s, (k, s) ∈ h.tab d.tab → s.Valid h ∧ s.len = N) ∧ (∀ i ∈ d.rows, i < N) ∧
      (d.indexViewed = false → d.rows = List.range N) := by
  obtain ⟨N, t, h2, h3⟩ := wf.tabOK
  exact ⟨N, fun k s hm => t.slices k s (AMap.get_of_mem wf.keys hm), h2, h3⟩

/-- `Copy`. -/
structure CopyDF (h : Heap F) (df : DF) (h' : Heap F) (c : DF) : Prop where
  ext : Heap.Ext h h'
  wf : c.WF h'
  mwf : c.MaskWF h'
  new : c.toRaw.NewSince h h'
  sep : ∀ i, c.shared = some i → c.strHdr ≠ some i
  shows : abs h' c = { abs h df with enc := none }
  idx : c.idx = Idx.mk' (List.range df.numRows)
  view : c.indexViewed = false
  maps : c.sharedMaps = false
  shared : c.shared = none
  cpu : c.maxCPU = df.maxCPU
  len : ∀ k s, AMap.get (h'.tab c.tab) k = some s → s.len = df.numRows
  rt : h'.rt = h.rt
  ts : c.mThreadSafe = df.mThreadSafe

theorem hdrCopy_spec (h : Heap F) (o : Option Nat) (ho : ∀ i, o = some i → i < h.next) :
    Heap.Ext h (hdrCopy h o).2 ∧ (hdrCopy h o).2.tab = h.tab ∧ (hdrCopy h o).2.arr = h.arr ∧
    (hdrCopy h o).2.msk = h.msk ∧
    (∀ i, (hdrCopy h o).1 = some i → h.next ≤ i ∧ i < (hdrCopy h o).2.next) ∧
    hdrList (hdrCopy h o).2 (hdrCopy h o).1 = hdrList h o ∧ (hdrCopy h o).2.rt = h.rt := by
  cases o with
  | none => exact ⟨Heap.Ext.refl _, rfl, rfl, rfl, by simp [hdrCopy], rfl, rfl⟩
  | some i =>
    refine ⟨Heap.newHdr_ext .., rfl, rfl, rfl, ?_, ?_, rfl⟩
    · intro j hj; simp [hdrCopy, Heap.newHdr] at hj ⊢; omega
    · simp [hdrCopy, hdrList]

theorem copy_spec {df : DF} {h : Heap F} (wf : df.WF h) :
    ∃ c h', df.copy h = .ok (c, h') ∧ CopyDF h df h' c := by
  obtain ⟨N, ht, hr, hv⟩ := wf.table_mem
  unfold DF.copy
  simp only
  have es := emptyDataFrame_spec h (df.idx.rows.length : Int) df.maxCPU
  generalize emptyDataFrame h (df.idx.rows.length : Int) df.maxCPU = p at es
  obtain ⟨r, h1⟩ := p
  simp only at es ⊢
  simp only [Int.toNat_natCast] at es
  have cs := hdrCopy_spec h1 df.strHdr (fun i hi => Nat.lt_of_lt_of_le (wf.str_lt i hi) es.ext.next_le)
  generalize hdrCopy h1 df.strHdr = p at cs
  obtain ⟨st, h2⟩ := p
  obtain ⟨ce, ct, ca, cm, cst, cl, crt⟩ := cs
  simp only at ce ct ca cm cst cl crt ⊢
  have e2 : Heap.Ext h h2 := es.ext.trans ce
  have t2 : h2.tab df.tab = h.tab df.tab := e2.tab _ wf.tab_lt
  rw [t2]
  obtain ⟨t', h3, hm, sp⟩ := copyLoop_spec hr hv (h.tab df.tab) h2 wf.keys
    (fun k s hm => ⟨(ht k s hm).1.ext e2, (ht k s hm).2⟩)
  rw [hm]
  have e3 : Heap.Ext h h3 := e2.trans sp.ext
  have htab : h.next ≤ r.tab := by rw [es.tab]; exact Nat.le_refl _
  have htab3 : r.tab < h3.next := by
    rw [es.tab]; exact Nat.lt_of_lt_of_le es.lt (Nat.le_trans ce.next_le sp.ext.next_le)
  have hget : ∀ k s', AMap.get t' k = some s' → s'.len = df.rows.length ∧ s'.Valid h3 ∧ h.next ≤ s'.arr := by
    intro k s' hk
    rcases sp.get k with ⟨h0, _⟩ | ⟨s0, s1, g1, g2, g3, g4, g5, g6⟩
    · rw [h0] at hk; cases hk
    · rw [g2] at hk; cases hk
      exact ⟨g3, g4, Nat.le_trans e2.next_le g5⟩
  have hrows : r.rows = List.range df.rows.length := es.rows
  have hsh : r.shared = none := by rw [es.rawE]
  refine ⟨_, _, rfl, ?_⟩
  refine ⟨e3.setTab htab _, ?_, ?_, ⟨htab, ?_, ?_⟩, ?_, ?_, ?_, es.view, ?_, hsh, ?_, ?_, ?_, rfl⟩
  · -- WF
    refine DF.WF.of_tabOK (N := df.rows.length) ⟨?_, ?_⟩ htab3 ?_ ?_ es.idx ?_ ?_
    · show (AMap.keys ((h3.setTab r.tab t').tab r.tab)).Nodup
      rw [Heap.setTab_tab, sp.keys]; exact wf.keys
    · intro k s hk
      change AMap.get ((h3.setTab r.tab t').tab r.tab) k = some s at hk
      rw [Heap.setTab_tab] at hk
      exact ⟨(hget k s hk).2.1, (hget k s hk).1⟩
    · intro i hi; change r.shared = some i at hi; rw [hsh] at hi; cases hi
    · intro i hi; exact Nat.lt_of_lt_of_le (cst i hi).2 sp.ext.next_le
    · intro i hi; change i ∈ r.rows at hi; rw [hrows] at hi; simpa using hi
    · intro _; exact hrows
  · refine ⟨es.mwf.len_ge, es.mwf.len_le, ?_⟩
    rcases es.mwf.valid with hh | ⟨a, b⟩
    · exact Or.inl hh
    · refine Or.inr ⟨Nat.lt_of_lt_of_le a (Nat.le_trans ce.next_le sp.ext.next_le), ?_⟩
      show _ ≤ (h3.msk r.mask.arr).length
      rw [sp.msk, cm]; exact b
  · rintro i (hi | hi)
    · change r.shared = some i at hi; rw [hsh] at hi; cases hi
    · exact Nat.le_trans es.ext.next_le (cst i hi).1
  · rintro i ⟨k, s, hk, h1, rfl⟩
    change AMap.get ((h3.setTab r.tab t').tab r.tab) k = some s at hk
    rw [Heap.setTab_tab] at hk
    exact (hget k s hk).2.2
  · intro i hi; change r.shared = some i at hi; rw [hsh] at hi; cases hi
  · -- shows
    refine ADF.ext' ?_ ?_ ?_ ?_
    · show r.rows.length = df.rows.length
      rw [hrows]; simp
    · intro k c
      show (AMap.get ((h3.setTab r.tab t').tab r.tab) (k, c)).map (fun s => r.rows.map (h3.cell s)) =
        (AMap.get (h.tab df.tab) (k, c)).map fun s => df.rows.map (h.cell s)
      rw [Heap.setTab_tab, hrows]
      rcases sp.get (k, c) with ⟨h0, h1⟩ | ⟨s0, s1, g1, g2, g3, g4, g5, g6⟩
      · rw [h0, h1]; rfl
      · rw [g1, g2]
        simp only [Option.map_some, Option.some.injEq]
        rw [← g3, read_range g4, g6, Heap.cell_congr ((ht _ s0 (AMap.mem_of_get g1)).1.arr_eq e2)]
    · intro c
      show decide (c ∈ hdrList (h3.setTab r.tab t') st) = decide (c ∈ hdrList h df.strHdr)
      have : hdrList (h3.setTab r.tab t') st = hdrList h df.strHdr := by
        have h1' : hdrList (h3.setTab r.tab t') st = hdrList h2 st := by
          cases st with
          | none => rfl
          | some i => show (h3.setTab r.tab t').hdr i = h2.hdr i; rw [Heap.setTab_hdr, sp.hdr]
        rw [h1', cl]
        cases hs : df.strHdr with
        | none => rfl
        | some i => exact es.ext.hdr i (wf.str_lt i hs)
      rw [this]
    · show r.enc = none
      rw [es.rawE]
  · exact es.idxE
  · show r.sharedMaps = false
    rw [es.rawE]
  · show r.maxCPU = df.maxCPU
    rw [es.rawE]
  · intro k s hk
    change AMap.get ((h3.setTab r.tab t').tab r.tab) k = some s at hk
    rw [Heap.setTab_tab] at hk
    exact (hget k s hk).1
  · show h3.rt = h.rt
    rw [sp.rt, crt, es.rt]

/-! ### ShallowCopy -/

structure ShallowSpec (h : Heap F) (df : DF) (h' : Heap F) (c : DF) : Prop where
  ext : Heap.Ext h h'
  wf : c.WF h'
  mwf : df.MaskWF h → c.MaskWF h'
  tabE : h'.tab c.tab = h.tab df.tab
  tab : h.next ≤ c.tab
  hdr : ∀ i, c.toRaw.headers i → h.next ≤ i
  sep : ∀ i, c.shared = some i → c.strHdr ≠ some i
  rows : c.idx = df.idx
  locs : locs h' c = { locs h df with enc := none }
  shows : abs h' c = { abs h df with enc := none }
  arr : h'.arr = h.arr
  maps : c.sharedMaps = false
  sh : ∀ x, x ∈ hdrList h' c.shared ↔ x ∈ tabNames (h.tab df.tab)
  cpu : c.maxCPU = df.maxCPU
  view : c.indexViewed = df.indexViewed
  mask : c.mask = df.mask
  enc : c.enc = none
  rt : h'.rt = h.rt
  ts : c.mThreadSafe = df.mThreadSafe

theorem shallowCopy_spec {df : DF} {h : Heap F} (wf : df.WF h) :
    ShallowSpec h df (df.shallowCopy h).2 (df.shallowCopy h).1 := by
  have es := emptyDataFrame_spec h (-1) df.maxCPU
  -- the heap steps
  have hdef : df.shallowCopy h =
      (let r0 := (emptyDataFrame h (-1) df.maxCPU).1
       let h1 := (emptyDataFrame h (-1) df.maxCPU).2
       let r := { r0 with mThreadSafe := df.mThreadSafe, idx := df.idx, mask := df.mask, indexViewed := df.indexViewed }
       r.withRaw (r.toRaw.transferFrom df.toRaw h1)) := rfl
  rw [hdef]
  generalize emptyDataFrame h (-1) df.maxCPU = p at es
  obtain ⟨r0, h1⟩ := p
  simp only at es ⊢
  have hown : r0.toRaw.own h1 = (r0.toRaw, h1) := by
    unfold Raw.own; rw [es.rawE]; rfl
  simp only [Raw.transferFrom, hown, Raw.transferCore, DF.withRaw]
  have hsh0 : r0.shared = none := by rw [es.rawE]
  have hst0 : r0.strHdr = none := by rw [es.rawE]
  have hcpu0 : r0.maxCPU = df.maxCPU := by rw [es.rawE]
  have henc0 : r0.enc = none := by rw [es.rawE]
  have hsm0 : r0.sharedMaps = false := by rw [es.rawE]
  have t1 : h1.tab df.tab = h.tab df.tab := es.ext.tab _ wf.tab_lt
  rw [hsh0, hst0, t1, es.tabE, tabSetAll_nil _ wf.keys]
  have htab : h.next ≤ r0.tab := by rw [es.tab]; exact Nat.le_refl _
  have e2 : Heap.Ext h (h1.setTab r0.tab (h.tab df.tab)) := es.ext.setTab htab _
  have tab2 : (h1.setTab r0.tab (h.tab df.tab)).tab r0.tab = h.tab df.tab := Heap.setTab_tab ..
  have arr2 : (h1.setTab r0.tab (h.tab df.tab)).arr = h.arr := es.arr
  have lt2 : h.next < (h1.setTab r0.tab (h.tab df.tab)).next := es.lt
  have msk2 : (h1.setTab r0.tab (h.tab df.tab)).msk = h1.msk := rfl
  have rt2 : (h1.setTab r0.tab (h.tab df.tab)).rt = h.rt := es.rt
  generalize h1.setTab r0.tab (h.tab df.tab) = h2 at e2 tab2 arr2 lt2 msk2 rt2
  generalize hcs : tabNames (h.tab df.tab) = cs
  have ae := hdrAddEach_frame (A := Nope) (T := Nope) (M := Nope) h2 none cs
  have at_ := hdrAddEach_tab h2 none cs
  have aa := hdrAddEach_arr h2 none cs
  have am := hdrAddEach_msk h2 none cs
  have art := hdrAddEach_rt h2 none cs
  have alt := hdrAddEach_lt (h := h2) (o := none) (by simp) cs
  have afst := fun i => hdrAddEach_fst h2 none cs (i := i)
  have amem := hdrAddEach_mem h2 none cs
  generalize hdrAddEach h2 none cs = p at ae at_ aa am art alt afst amem
  obtain ⟨sh, h3⟩ := p
  simp only at ae at_ aa am art alt afst amem ⊢
  have e23 : Heap.Ext h2 h3 := (ae.mono (fun _ _ => id) (fun _ _ => id) (by intro i _ hi; cases hi) (fun _ _ => id)).toExt
  have hl3 : hdrList h3 df.strHdr = hdrList h df.strHdr := by
    cases hs : df.strHdr with
    | none => rfl
    | some i => exact (e2.trans e23).hdr i (wf.str_lt i hs)
  rw [hl3]
  generalize hss : hdrList h df.strHdr = ss
  have be := hdrAddEach_frame (A := Nope) (T := Nope) (M := Nope) h3 none ss
  have bt := hdrAddEach_tab h3 none ss
  have ba := hdrAddEach_arr h3 none ss
  have bm := hdrAddEach_msk h3 none ss
  have brt := hdrAddEach_rt h3 none ss
  have blt := hdrAddEach_lt (h := h3) (o := none) (by simp) ss
  have bfst := fun i => hdrAddEach_fst h3 none ss (i := i)
  have bmem := hdrAddEach_mem h3 none ss
  generalize hdrAddEach h3 none ss = p at be bt ba bm brt blt bfst bmem
  obtain ⟨st, h4⟩ := p
  simp only at be bt ba bm brt blt bfst bmem ⊢
  have e34 : Heap.Ext h3 h4 := (be.mono (fun _ _ => id) (fun _ _ => id) (by intro i _ hi; cases hi) (fun _ _ => id)).toExt
  have e4 : Heap.Ext h h4 := e2.trans (e23.trans e34)
  have tab4 : h4.tab r0.tab = h.tab df.tab := by rw [bt, at_, tab2]
  have arr4 : h4.arr = h.arr := by rw [ba, aa, arr2]
  have hshge : ∀ i, sh = some i → i = h2.next := by
    intro i hi
    rcases afst i hi with hx | hx
    · cases hx
    · exact hx.2.1
  have hstge : ∀ i, st = some i → i = h3.next := by
    intro i hi
    rcases bfst i hi with hx | hx
    · cases hx
    · exact hx.2.1
  have hcell : ∀ s, h4.cell s = h.cell s := fun s => by unfold Heap.cell; rw [arr4]
  obtain ⟨N, tok, hN1, hN2⟩ := wf.tabOK
  have hloc : locs h4 { r0 with shared := sh, strHdr := st, idx := df.idx, mask := df.mask, indexViewed := df.indexViewed, mThreadSafe := df.mThreadSafe } = { locs h df with enc := none } := by
    refine ADF.ext' rfl ?_ ?_ henc0
    · intro k c
      show Option.map _ (AMap.get (h4.tab r0.tab) (k, c)) = _
      rw [tab4]; rfl
    · intro c
      show decide (c ∈ hdrList h4 st) = decide (c ∈ hdrList h df.strHdr)
      have := bmem c
      rw [← hss] at this
      have h0 : c ∉ hdrList h3 none := by simp [hdrList]
      exact decide_eq_decide.2 (this.trans ⟨fun x => x.resolve_left h0, Or.inr⟩)
  refine ⟨e4, ?_, ?_, tab4, htab, ?_, ?_, rfl, hloc, ?_, arr4, hsm0, ?_, hcpu0, rfl, rfl, henc0, by rw [brt, art, rt2], rfl⟩
  · refine DF.WF.of_tabOK (N := N) ⟨?_, ?_⟩ ?_ ?_ ?_ wf.idx_len hN1 hN2
    · show (AMap.keys (h4.tab r0.tab)).Nodup
      rw [tab4]; exact wf.keys
    · intro k s hk
      change AMap.get (h4.tab r0.tab) k = some s at hk
      rw [tab4] at hk
      exact ⟨(tok.slices k s hk).1.ext e4, (tok.slices k s hk).2⟩
    · show r0.tab < h4.next
      rw [es.tab]; exact Nat.lt_of_lt_of_le lt2 (Nat.le_trans e23.next_le e34.next_le)
    · intro i hi; exact Nat.lt_of_lt_of_le (alt i hi) e34.next_le
    · intro i hi; exact blt i hi
  · intro m
    refine ⟨m.len_ge, m.len_le, ?_⟩
    rcases m.valid with hh | ⟨a, b⟩
    · exact Or.inl hh
    · refine Or.inr ⟨Nat.lt_of_lt_of_le a e4.next_le, ?_⟩
      rw [e4.msk _ a]; exact b
  · rintro i (hi | hi)
    · have := hshge i hi; omega
    · have := hstge i hi; have := e23.next_le; omega
  · intro i hi hi'
    have h1 := hshge i hi
    have h2 := hstge i hi'
    have h3 := alt i hi
    omega
  · rw [abs_eq_locs, hloc, abs_eq_locs h df]
    refine ADF.ext' rfl ?_ (fun _ => rfl) rfl
    intro k c
    simp only [ADF.bindCells]
    have : h4.at = h.at := by funext l; simp [Heap.at, arr4]
    rw [this]
  · intro x
    have h34 : hdrList h4 sh = hdrList h3 sh := by
      cases hh : sh with
      | none => rfl
      | some i => exact e34.hdr i (alt i hh)
    show x ∈ hdrList h4 sh ↔ _
    rw [h34, amem, hcs]
    simp [hdrList]

end Verif
