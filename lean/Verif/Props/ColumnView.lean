import Verif.Props.Edits
import Verif.Proofs.Safe

/-! C18: `ColumnView`. -/

namespace Verif
variable {F : Type}

theorem mem_namesOf {t : Table} {k : Kind} {c : GoStr} : c ∈ namesOf t k ↔ (AMap.get t (k, c)).isSome := by
  rw [AMap.get_isSome_iff]
  simp only [namesOf, AMap.keys, List.mem_map, List.mem_filter, decide_eq_true_eq]
  constructor
  · rintro ⟨⟨⟨k', c'⟩, s⟩, ⟨hm, rfl⟩, rfl⟩; exact ⟨_, hm, rfl⟩
  · rintro ⟨⟨⟨k', c'⟩, s⟩, hm, he⟩
    cases he; exact ⟨_, ⟨hm, rfl⟩, rfl⟩

/-- What `ColumnView` does to the memory: new tables and headers only, except for the parent's list of
shared columns, which grows. -/
structure ColumnViewSpec (d : DF) (cols : List GoStr) (h : Heap F) (v : DF) (h' : Heap F) : Prop where
  frame : Heap.Frame Nope Nope (fun i => d.shared = some i) Nope h h'
  tab : ∀ q, AMap.get (h'.tab v.tab) q = if q.2 ∈ cols then AMap.get (h.tab d.tab) q else none
  keys : (AMap.keys (h.tab d.tab)).Nodup → (AMap.keys (h'.tab v.tab)).Nodup
  str : ∀ c, c ∈ hdrList h' v.strHdr ↔ c ∈ cols ∧ (AMap.get (h.tab d.tab) (.obj, c)).isSome ∧ c ∈ hdrList h d.strHdr
  tab_new : h.next ≤ v.tab ∧ v.tab < h'.next
  sh : ∀ i, v.shared = some i → (d.shared = some i ∨ h.next ≤ i) ∧ ((∀ j, d.shared = some j → j < h.next) → i < h'.next)
  shared : ∀ c, c ∈ hdrList h' v.shared ↔ c ∈ hdrList h d.shared ∨ c ∈ cols
  st : ∀ i, v.strHdr = some i → h.next ≤ i ∧ i < h'.next ∧ v.shared ≠ some i
  rest : v.idx = d.idx ∧ v.mask = d.mask ∧ v.indexViewed = d.indexViewed ∧ v.mThreadSafe = d.mThreadSafe ∧
    v.enc = d.enc ∧ v.maxCPU = d.maxCPU ∧ v.sharedMaps = false
  same : h'.arr = h.arr ∧ h'.msk = h.msk ∧ h'.rt = h.rt

theorem columnView_spec {d : DF} {h : Heap F} (wf : d.WF h) (sep : d.toRaw.Sep) {cols : List GoStr} (hne : cols ≠ []) :
    ColumnViewSpec d cols h (d.columnView cols h).1 (d.columnView cols h).2 := by
  obtain ⟨h1, hh1⟩ : ∃ h1, h1 = (h.newTab []).2 := ⟨_, rfl⟩
  have e1 : Heap.Ext h h1 := hh1 ▸ Heap.newTab_ext h []
  have n1 : h1.next = h.next + 1 := by rw [hh1]; rfl
  obtain ⟨p2, hp2⟩ : ∃ p2, p2 = hdrAdd h1 d.shared cols := ⟨_, rfl⟩
  obtain ⟨sel, hsel⟩ : ∃ sel, sel = (p2.2.tab d.tab).filter (fun e => decide (e.1.2 ∈ cols)) := ⟨_, rfl⟩
  obtain ⟨h3, hh3⟩ : ∃ h3, h3 = p2.2.setTab h.next sel := ⟨_, rfl⟩
  obtain ⟨ms, hms⟩ : ∃ ms, ms = (namesOf sel .obj).filter (fun c => decide (c ∈ hdrList p2.2 d.strHdr)) := ⟨_, rfl⟩
  obtain ⟨p4, hp4⟩ : ∃ p4, p4 = hdrAddEach h3 none ms := ⟨_, rfl⟩
  have key : d.columnView cols h = ({ d with tab := h.next, sharedMaps := false, shared := p2.1, strHdr := p4.1 }, p4.2) := by
    subst hp4 hms hh3 hsel hp2 hh1
    unfold DF.columnView
    rw [if_neg hne]
    rfl
  rw [key]
  have f2 : Heap.Frame Nope Nope (fun i => d.shared = some i) Nope h1 p2.2 := hp2 ▸ hdrAdd_frame h1 d.shared cols
  have t2 : p2.2.tab = h1.tab := hp2 ▸ hdrAdd_tab ..
  have n2 : h1.next ≤ p2.2.next := hp2 ▸ hdrAdd_next_le ..
  have tabd : h1.tab d.tab = h.tab d.tab := e1.tab _ wf.tab_lt
  have str2 : hdrList p2.2 d.strHdr = hdrList h d.strHdr := by
    rw [hdrList_frame f2 (o := d.strHdr) (fun i hi => ⟨by have := wf.str_lt i hi; omega, fun hs => sep i hs hi⟩)]
    exact hdrList_ext e1 wf.str_lt
  rw [t2, tabd] at hsel
  have n3 : h3.next = p2.2.next := by rw [hh3]; rfl
  have f4 : Heap.Ext h3 p4.2 := by
    have : Heap.Frame Nope Nope (fun i => (none : Option Nat) = some i) Nope h3 p4.2 := hp4 ▸ hdrAddEach_frame h3 none ms
    exact (this.mono (fun _ _ => id) (fun _ _ => id) (fun _ _ hx => by simp at hx) (fun _ _ => id)).toExt
  have n4 : h3.next ≤ p4.2.next := f4.next_le
  have t4 : p4.2.tab = h3.tab := hp4 ▸ hdrAddEach_tab ..
  have t3 : h3.tab h.next = sel := by simp [hh3]
  have getsel : ∀ q : Key, AMap.get sel q = if q.2 ∈ cols then AMap.get (h.tab d.tab) q else none := by
    intro q
    rw [hsel]
    have := AMap.get_filter (fun q : Key => decide (q.2 ∈ cols)) (h.tab d.tab) q
    simpa using this
  refine ⟨?_, ?_, ?_, ?_, ?_, ?_, ?_, ?_, ⟨rfl, rfl, rfl, rfl, rfl, rfl, rfl⟩, ?_⟩
  · have a := (e1.toFrame (A := Nope) (T := Nope) (H := fun i => d.shared = some i) (M := Nope)).trans f2
      (fun _ _ => id) (fun _ _ => id) (fun _ _ => id) (fun _ _ => id)
    have b : Heap.Frame Nope (· = h.next) (fun i => d.shared = some i) Nope p2.2 h3 := hh3 ▸ Heap.setTab_frame ..
    have c := a.trans b (fun _ _ => id) (fun i hi (hx : i = h.next) => by omega) (fun _ _ => id) (fun _ _ => id)
    exact c.trans (f4.toFrame (A := Nope) (T := Nope) (H := Nope) (M := Nope)) (fun _ _ => id) (fun _ _ => id)
      (fun _ _ => False.elim) (fun _ _ => id)
  · intro q
    simp only
    rw [t4, t3, getsel]
  · intro hk
    simp only
    rw [t4, t3, hsel]
    exact AMap.nodup_filter hk _
  · intro c
    simp only
    rw [hp4, hdrAddEach_mem]
    rw [show hdrList h3 (none : Option Nat) = [] from rfl]
    simp only [List.not_mem_nil, false_or, hms, List.mem_filter, str2, decide_eq_true_eq, mem_namesOf, getsel]
    by_cases hc : c ∈ cols <;> simp [hc]
  · exact ⟨Nat.le_refl _, by simp only; omega⟩
  · intro i hi
    simp only at hi
    rw [hp2, hdrAdd_fst] at hi
    cases hs : d.shared with
    | none => rw [hs] at hi; simp only [Option.getD_none, Option.some.injEq] at hi
              refine ⟨Or.inr (by omega), fun _ => ?_⟩
              have : p2.2.next = h1.next + 1 := by rw [hp2, hs]; rfl
              simp only; omega
    | some j => rw [hs] at hi; simp only [Option.getD_some, Option.some.injEq] at hi; subst hi
                refine ⟨Or.inl rfl, fun hj => ?_⟩
                have := hj _ rfl
                simp only; omega
  · intro c
    simp only
    have hlt : ∀ i, p2.1 = some i → i < h3.next := by
      intro i hi
      rw [n3]; rw [hp2] at hi ⊢
      exact hdrAdd_lt (h := h1) (fun j hj => by have := wf.shared_lt j hj; omega) cols i hi
    rw [hdrList_ext f4 hlt]
    have : hdrList h3 p2.1 = hdrList p2.2 p2.1 := by rw [hh3]; cases p2.1 <;> rfl
    rw [this, hp2, hdrAdd_mem, hdrList_ext e1 wf.shared_lt]
  · intro i hi
    simp only at hi ⊢
    rw [hp4] at hi
    rcases hdrAddEach_fst _ _ _ hi with h0 | ⟨_, h0, hc⟩
    · cases h0
    · have hlt := hdrAddEach_lt (h := h3) (o := none) (fun _ hx => by simp at hx) ms i hi
      refine ⟨by omega, hp4 ▸ hlt, fun hs => ?_⟩
      rw [hp2] at hs
      have := hdrAdd_lt (h := h1) (o := d.shared) (fun j hj => by have := wf.shared_lt j hj; omega) cols i hs
      rw [← hp2] at this; omega
  · refine ⟨?_, ?_, ?_⟩
    · rw [hp4, hdrAddEach_arr, hh3, Heap.setTab_arr, hp2, hdrAdd_arr, hh1]; rfl
    · rw [hp4, hdrAddEach_msk, hh3, Heap.setTab_msk, hp2, hdrAdd_msk, hh1]; rfl
    · rw [hp4, hdrAddEach_rt, hh3, Heap.setTab_rt, hp2, hdrAdd_rt, hh1]; rfl

theorem columnView_wf {d v : DF} {h h' : Heap F} {cols : List GoStr} (wf : d.WF h)
    (sp : ColumnViewSpec d cols h v h') : v.WF h' where
  tab_lt := sp.tab_new.2
  shared_lt i hi := (sp.sh i hi).2 wf.shared_lt
  str_lt i hi := (sp.st i hi).2.1
  keys := sp.keys wf.keys
  slices q s hq := by
    rw [sp.tab] at hq
    split at hq
    · exact (wf.slices q s hq).frame sp.frame (Or.inr id)
    · cases hq
  idx_len := by rw [sp.rest.1]; exact wf.idx_len
  rect := by
    obtain ⟨N, h1, h2, h3⟩ := wf.rect
    refine ⟨N, ?_, ?_, ?_⟩
    · intro q s hq
      rw [sp.tab] at hq
      split at hq
      · exact h1 q s hq
      · cases hq
    · simp only [DF.rows, sp.rest.1]; exact h2
    · simp only [DF.rows, sp.rest.1, sp.rest.2.2.1]; exact h3

theorem columnView_step {d : DF} {h : Heap F} (wf : d.WF h) (mwf : d.MaskWF h) (sep : d.toRaw.Sep)
    {cols : List GoStr} (hne : cols ≠ []) :
    StepOK h d (d.columnView cols h).2 (d.columnView cols h).1 := by
  have sp := columnView_spec wf sep hne
  generalize d.columnView cols h = p at sp ⊢
  have hs := Safe.hdrs sp.frame
  refine ⟨hs, columnView_wf wf sp, ?_, fun i hi => (sp.sh i hi).1, fun i hi => Or.inr (sp.st i hi).1,
    fun _ i hi hx => (sp.st i hx).2.2 hi⟩
  have m := mwf.safe hs
  obtain ⟨a, b, c⟩ := m
  obtain ⟨e1, e2, e3, _⟩ := sp.rest
  exact ⟨by rw [e2]; simp only [DF.numRows, DF.rows, e1]; exact a, by rw [e2]; exact b, by rw [e2]; exact c⟩

/-- C18. `ColumnView(cols...)` with at least one name shows exactly the named columns of `d` with the
same rows, values, types, marks and encoding, shares their memory cells, is consistent, and leaves what
every dataframe shows (`d` included) unchanged. The hypotheses on `shared`/`strHdr` say that no
dataframe uses `d`'s list of shared columns as its list of string columns; C19 proves it of every
dataframe made through the API. -/
theorem C18_columnView {d : DF} {h : Heap F} (wf : d.WF h) (sep : d.toRaw.Sep) {cols : List GoStr} (hne : cols ≠ [])
    {v : DF} {h' : Heap F} (he : d.columnView cols h = (v, h')) :
    abs h' v = (abs h d).project cols ∧ locs h' v = (locs h d).project cols ∧ v.WF h' ∧
    ∀ d2 : DF, d2.WF h → (∀ i, d.shared = some i → d2.strHdr ≠ some i) →
      abs h' d2 = abs h d2 ∧ locs h' d2 = locs h d2 ∧ d2.WF h' := by
  have sp := columnView_spec wf sep hne
  rw [he] at sp
  simp only at sp
  obtain ⟨e1, e2, e3, e4, e5, e6, e7⟩ := sp.rest
  have hrows : v.rows = d.rows := by simp only [DF.rows, e1]
  refine ⟨?_, ?_, columnView_wf wf sp, ?_⟩
  · apply ADF.ext'
    · simp [abs, ADF.project, DF.numRows, hrows]
    · intro k c
      simp only [abs, ADF.project, sp.tab, hrows]
      split
      · have : h'.cell = h.cell := by funext s i; simp only [Heap.cell, sp.same.1]
        rw [this]
      · rfl
    · intro c
      simp only [abs, ADF.project, sp.str]
      by_cases hc : c ∈ cols <;> simp [hc]
    · exact e5
  · apply ADF.ext'
    · simp [locs, ADF.project, DF.numRows, hrows]
    · intro k c
      simp only [locs, ADF.project, sp.tab, hrows]
      split <;> rfl
    · intro c
      simp only [locs, ADF.project, sp.str]
      by_cases hc : c ∈ cols <;> simp [hc]
    · exact e5
  · intro d2 w2 hs
    exact ⟨abs_frame sp.frame w2.toWF id (fun i hi hx => hs i hx hi) (fun _ _ _ => Or.inr id),
      locs_frame sp.frame w2.toWF id (fun i hi hx => hs i hx hi),
      w2.frame sp.frame id (fun _ _ _ => Or.inr id)⟩

/-- C18, no name: all the columns; nothing changes. -/
theorem C18_columnView_all {d : DF} {h : Heap F} (wf : d.WF h) :
    ∃ v, d.columnView [] h = (v, h) ∧ abs h v = abs h d ∧ locs h v = locs h d ∧ v.WF h :=
  ⟨d.view, rfl, rfl, rfl, view_wf wf⟩

example {v : DF} {h' : Heap Int} (e : Demo.df.columnView [b!"s", b!"nope", b!"x"] Demo.h = (v, h')) :
    (abs h' v).col .int b!"a" = none ∧ (abs h' v).isStr b!"s" = true ∧
    (abs h' v).col .float b!"x" = some [some (.float 5), some (.float 3), some (.float 9), some (.float 1)] := by
  rw [(C18_columnView Demo.df_wf Demo.df_sep (by decide) e).1]
  exact ⟨by decide, by decide, by decide⟩

end Verif
