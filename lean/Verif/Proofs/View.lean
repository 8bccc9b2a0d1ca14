import Verif.Proofs.Raw

namespace Verif
variable {F : Type}

/-! ### row positions -/

theorem Idx.rows_length_of_le {x : Idx} (h : x.len ≤ x.data.length) : x.rows.length = x.len := by
  simp [Idx.rows, Nat.min_eq_left h]

@[simp] theorem Idx.rows_mk' (l : List Nat) : (Idx.mk' l).rows = l := by simp [Idx.mk', Idx.rows]

theorem Idx.at_ok {x : Idx} {i : Int} (h0 : 0 ≤ i) (h1 : i < x.rows.length) :
    x.at i = .ok (x.rows[i.toNat]'(by omega)) := by
  unfold Idx.at
  rw [if_pos h0, List.getElem?_eq_getElem (by omega)]

theorem Idx.at_err {x : Idx} {i : Int} (h : ¬ (0 ≤ i ∧ i < x.rows.length)) :
    x.at i = .error .panic := by
  unfold Idx.at
  split
  · rename_i h0
    have : ¬ i < x.rows.length := fun h1 => h ⟨h0, h1⟩
    rw [List.getElem?_eq_none (by omega)]
  · rfl

/-- The rows of `rs` at the positions `is`. -/
def pick (rs : List Nat) (is : List Nat) : List Nat := is.map (fun i => rs.getD i 0)

@[simp] theorem pick_length (rs is : List Nat) : (pick rs is).length = is.length := by simp [pick]

theorem pickRows_ok (x : Idx) (is : List Int) (h : ∀ i ∈ is, 0 ≤ i ∧ i < x.rows.length) :
    pickRows x is = .ok (pick x.rows (is.map Int.toNat)) := by
  induction is with
  | nil => rfl
  | cons i is ih =>
    have hi := h i (by simp)
    simp only [pickRows, Idx.at_ok hi.1 hi.2, ih (fun j hj => h j (by simp [hj]))]
    simp [pick, List.getD_eq_getElem?_getD, List.getElem?_eq_getElem (show i.toNat < x.rows.length by omega)]

theorem pickRows_err (x : Idx) (is : List Int) (h : ∃ i ∈ is, ¬ (0 ≤ i ∧ i < x.rows.length)) :
    pickRows x is = .error .panic := by
  induction is with
  | nil => obtain ⟨i, hi, _⟩ := h; simp at hi
  | cons j js ih =>
    by_cases hj : 0 ≤ j ∧ j < x.rows.length
    · have : ∃ i ∈ js, ¬ (0 ≤ i ∧ i < x.rows.length) := by
        obtain ⟨i, hi, hn⟩ := h
        rcases List.mem_cons.1 hi with rfl | hi
        · exact absurd hj hn
        · exact ⟨i, hi, hn⟩
      simp only [pickRows, Idx.at_ok hj.1 hj.2, ih this]
    · simp only [pickRows, Idx.at_err hj]

theorem pick_mem {rs is : List Nat} (h : ∀ i ∈ is, i < rs.length) {x : Nat} (hx : x ∈ pick rs is) :
    x ∈ rs := by
  obtain ⟨i, hi, rfl⟩ := List.mem_map.1 hx
  have := h i hi
  rw [List.getD_eq_getElem?_getD, List.getElem?_eq_getElem this]
  simp

theorem pick_range' (rs : List Nat) (a n : Nat) (h : a + n ≤ rs.length) :
    pick rs (List.range' a n) = (rs.drop a).take n := by
  apply List.ext_getElem
  · simp; omega
  · intro i h1 h2
    simp only [pick, List.length_map, List.length_range'] at h1
    simp only [pick, List.getElem_map, List.getElem_range', List.getElem_take, List.getElem_drop]
    rw [List.getD_eq_getElem?_getD, List.getElem?_eq_getElem (by omega)]
    simp

theorem pick_range (rs : List Nat) : pick rs (List.range rs.length) = rs := by
  rw [List.range_eq_range', pick_range' _ _ _ (by omega)]
  simp

theorem pick_pick (rs is js : List Nat) (h : ∀ j ∈ js, j < is.length) :
    pick (pick rs is) js = pick rs (pick is js) := by
  unfold pick
  rw [List.map_map]
  apply List.map_congr_left
  intro j hj
  have := h j hj
  simp [List.getD_eq_getElem?_getD, List.getElem?_eq_getElem this]

theorem reverse_eq_pick (rs : List Nat) : rs.reverse = pick rs (List.range rs.length).reverse := by
  conv => lhs; rw [← pick_range rs]
  simp [pick]

/-! ### row views -/

/-- A dataframe over the same columns with the rows picked at `is` shows the selection `is`. -/
theorem locs_pick {h : Heap F} {d d' : DF} (ht : d'.tab = d.tab) (hs : d'.strHdr = d.strHdr)
    (he : d'.enc = d.enc) {is : List Nat} (hr : d'.rows = pick d.rows is)
    (hi : ∀ i ∈ is, i < d.numRows) : locs h d' = (locs h d).select is := by
  refine ADF.ext' ?_ ?_ ?_ he
  · simp [locs, ADF.select, DF.numRows, hr]
  · intro k c
    simp only [locs, ADF.select, ht, Option.map_map]
    congr 1
    funext s
    simp only [Function.comp, hr, pick, List.map_map]
    apply List.map_congr_left
    intro i him
    have := hi i him
    simp only [DF.numRows] at this
    simp [List.getD_eq_getElem?_getD, List.getElem?_eq_getElem this]
  · intro c; simp only [locs, ADF.select, hs]

/-- Selecting among existing rows keeps consistency (the result must be flagged as index-viewed). -/
theorem WF_pick {h : Heap F} {d d' : DF} (wf : d.WF h) (ht : d'.toRaw = { d.toRaw with sharedMaps := d'.sharedMaps })
    (hv : d'.indexViewed = true) (hl : d'.idx.len ≤ d'.idx.data.length)
    (hr : ∀ i ∈ d'.rows, i ∈ d.rows) : d'.WF h where
  tab_lt := by rw [ht]; exact wf.tab_lt
  shared_lt := by rw [ht]; exact wf.shared_lt
  str_lt := by rw [ht]; exact wf.str_lt
  keys := by rw [ht]; exact wf.keys
  slices := by rw [ht]; exact wf.slices
  idx_len := hl
  rect := by
    obtain ⟨N, h1, h2, _⟩ := wf.rect
    refine ⟨N, ?_, fun i hi => h2 i (hr i hi), ?_⟩
    · rw [ht]; exact h1
    · rw [hv]; intro hc; cases hc

theorem appendMask_frame {A T H : Nat → Prop} (h : Heap F) (s n) :
    Heap.Frame A T H (· = s.arr) h (h.appendMask s n).2 := by
  unfold Heap.appendMask
  split
  · exact Heap.setMsk_frame ..
  · exact (Heap.newMsk_ext ..).toFrame

theorem appendMask_tab (h : Heap F) (s n) : (h.appendMask s n).2.tab = h.tab := by
  unfold Heap.appendMask; split <;> rfl
theorem appendMask_arr (h : Heap F) (s n) : (h.appendMask s n).2.arr = h.arr := by
  unfold Heap.appendMask; split <;> rfl
theorem appendMask_hdr (h : Heap F) (s n) : (h.appendMask s n).2.hdr = h.hdr := by
  unfold Heap.appendMask; split <;> rfl

theorem abs_heap_congr {h h' : Heap F} (d : DF) (ht : h'.tab = h.tab) (ha : h'.arr = h.arr)
    (hh : h'.hdr = h.hdr) : abs h' d = abs h d := by
  have hc : h'.cell = h.cell := by funext s i; simp [Heap.cell, ha]
  have hl : hdrList h' = hdrList h := by funext o; cases o <;> simp [hdrList, hh]
  unfold abs
  rw [ht, hc]
  simp only [hl]

/-- Successful `IndexView`. -/
theorem indexView_spec (df : DF) (h : Heap F) (is : List Int)
    (hi : ∀ i ∈ is, 0 ≤ i ∧ i < df.numRows) :
    ∃ v h', df.indexView is h = .ok (v, h') ∧
      Heap.Frame Nope Nope Nope (· = df.mask.arr) h h' ∧
      h'.tab = h.tab ∧ h'.arr = h.arr ∧ h'.hdr = h.hdr ∧
      v.toRaw = { df.toRaw with sharedMaps := true } ∧
      v.idx = Idx.mk' (pick df.rows (is.map Int.toNat)) ∧ v.indexViewed = true ∧
      v.mThreadSafe = df.mThreadSafe ∧
      ((is.length ≤ df.numRows ∧ v.mask = df.mask ∧ h' = h) ∨
        (df.numRows < is.length ∧
          (v.mask, h') = h.appendMask df.mask (is.length - df.numRows))) := by
  unfold DF.indexView
  rw [pickRows_ok _ _ hi]
  simp only
  by_cases hl : df.numRows < is.length
  · rw [if_pos hl]
    refine ⟨_, _, rfl, appendMask_frame .., appendMask_tab .., appendMask_arr .., appendMask_hdr ..,
      rfl, rfl, rfl, rfl, Or.inr ⟨hl, rfl⟩⟩
  · rw [if_neg hl]
    exact ⟨_, _, rfl, Heap.Frame.refl .., rfl, rfl, rfl, rfl, rfl, rfl, rfl,
      Or.inl ⟨by omega, rfl, rfl⟩⟩

theorem indexView_err (df : DF) (h : Heap F) (is : List Int)
    (hi : ∃ i ∈ is, ¬ (0 ≤ i ∧ i < df.numRows)) : df.indexView is h = .error .panic := by
  unfold DF.indexView
  rw [pickRows_err _ _ hi]

theorem toNat_mem {is : List Int} {n : Nat} (hi : ∀ i ∈ is, 0 ≤ i ∧ i < n) :
    ∀ i ∈ is.map Int.toNat, i < n := by
  intro i him
  obtain ⟨j, hj, rfl⟩ := List.mem_map.1 him
  have := hi j hj
  omega

/-! ### cut -/

theorem Idx.reslice_rows {x : Idx} (hl : x.len ≤ x.data.length) {a b : Int} (ha : 0 ≤ a) (hab : a ≤ b)
    (hb : b ≤ x.rows.length) :
    ∃ y, x.reslice a b = .ok y ∧ y.rows = pick x.rows (rowRange a.toNat b.toNat) ∧
      y.len ≤ y.data.length ∧ y.len = (b - a).toNat := by
  have hlen := Idx.rows_length_of_le hl
  unfold Idx.reslice
  rw [if_pos ⟨ha, hab, by omega⟩]
  refine ⟨_, rfl, ?_, ?_, rfl⟩
  · simp only [Idx.rows, rowRange]
    rw [pick_range' _ _ _ (by simp; omega)]
    rw [List.drop_take, List.take_take]
    congr 1
    omega
  · simp only [List.length_drop]; omega

/-- The result of a legal `s[a:b]`. -/
def Slice.sub (s : Slice) (a b : Int) : Slice :=
  ⟨s.arr, s.off + a.toNat, (b - a).toNat, s.cap - a.toNat⟩

theorem mapCols_reslice {a b : Int} (t : Table) (h : Heap F)
    (hc : ∀ e ∈ t, 0 ≤ a ∧ a ≤ b ∧ b ≤ e.2.cap) :
    mapCols (resliceCol a b) t h =
    .ok (t.map (fun e => (e.1, e.2.sub a b)), h) := by
  induction t with
  | nil => rfl
  | cons e t ih =>
    obtain ⟨k, s⟩ := e
    have := hc (k, s) (by simp)
    simp only [mapCols, resliceCol, Slice.reslice, if_pos this]
    rw [ih (fun e he => hc e (by simp [he]))]
    rfl

theorem get_map_val {κ α β : Type} [DecidableEq κ] (f : κ → α → β) (t : AMap κ α) (k : κ) :
    AMap.get (t.map (fun e => (e.1, f e.1 e.2))) k = (AMap.get t k).map (f k) := by
  induction t with
  | nil => rfl
  | cons e t ih =>
    obtain ⟨k', v⟩ := e
    simp only [List.map_cons, AMap.get_cons, ih]
    by_cases hk : k' = k
    · subst hk; simp
    · simp [hk]

theorem keys_map_val {κ α β : Type} (f : κ → α → β) (t : AMap κ α) :
    AMap.keys (t.map (fun e => (e.1, f e.1 e.2))) = AMap.keys t := by
  simp [AMap.keys]

theorem tabNames_map_val (f : Key → Slice → Slice) (t : Table) :
    tabNames (t.map (fun e => (e.1, f e.1 e.2))) = tabNames t := by
  simp [tabNames]

/-- `cut` on a fresh view, inside the rows: it shows the range; nothing that exists is touched. -/
theorem cut_spec {df : DF} {h : Heap F} (wf : df.WF h) (hsm : df.sharedMaps = true)
    {a b : Int} (ha : 0 ≤ a) (hab : a ≤ b) (hb : b ≤ df.numRows) :
    ∃ v h', df.cut a b h = .ok (v, h') ∧ Heap.Ext h h' ∧ v.WF h' ∧ h'.rt = h.rt ∧
      locs h' v = (locs h df).select (rowRange a.toNat b.toNat) ∧
      v.mask = df.mask ∧ v.mThreadSafe = df.mThreadSafe ∧ h'.msk = h.msk ∧
      v.maxCPU = df.maxCPU ∧ v.strHdr = df.strHdr := by
  unfold DF.cut
  have hin : ∀ i ∈ rowRange a.toNat b.toNat, i < df.numRows := by
    intro i hi; simp [rowRange, List.mem_range'] at hi; omega
  simp only
  split
  · obtain ⟨y, hy, hrows, hyl, _⟩ := Idx.reslice_rows wf.idx_len ha hab hb
    rw [hy]
    refine ⟨_, _, rfl, Heap.Ext.refl _, ?_, rfl, ?_, rfl, rfl, rfl, rfl, rfl⟩
    · exact WF_pick wf rfl rfl hyl (fun i hi => pick_mem hin (show i ∈ pick df.rows _ from hrows ▸ hi))
    · exact locs_pick (d := df) (d' := { df with idx := y, indexViewed := true }) rfl rfl rfl hrows hin
  · rename_i hbr
    have hiv : df.indexViewed = false := by
      cases hx : df.indexViewed
      · rfl
      · simp [hx] at hbr
    obtain ⟨N, hN1, hN2, hN3⟩ := wf.rect
    have hrows := hN3 hiv
    have hNr : df.numRows = N := by simp [DF.numRows, hrows]
    have sp := own_spec wf.toWF
    generalize hraw : df.toRaw.own h = p at sp
    obtain ⟨raw, h1⟩ := p
    simp only at sp ⊢
    obtain ⟨y, hy, hyrows, hyl, _⟩ := Idx.reslice_rows wf.idx_len (a := 0) (b := b - a) (by omega) (by omega)
      (by have : df.numRows = df.idx.rows.length := rfl; omega)
    rw [hy]
    simp only
    have hcap : ∀ e ∈ h1.tab raw.tab, 0 ≤ a ∧ a ≤ b ∧ b ≤ e.2.cap := by
      intro e he
      rw [sp.tab] at he
      have hg := AMap.get_of_mem wf.keys (k := e.1) (v := e.2) (by simpa using he)
      have h3 := hN1 _ _ hg
      have h4 := (wf.slices _ _ hg).1
      refine ⟨ha, hab, ?_⟩; omega
    rw [mapCols_reslice _ _ hcap]
    simp only
    -- final heap
    generalize ht' : (h1.tab raw.tab).map (fun e => (e.1, e.2.sub a b)) = t'
    have hfresh := sp.fresh hsm
    have e2 : Heap.Ext h (h1.setTab raw.tab t') := Heap.Frame.toExt <|
      (sp.ext.toFrame (A := Nope) (T := Nope) (H := Nope) (M := Nope)).trans
        (Heap.setTab_frame (A := Nope) (H := Nope) (M := Nope) h1 raw.tab _)
        (fun _ _ => id) (fun i hi (e : i = raw.tab) => by have := hfresh.1; omega) (fun _ _ => id) (fun _ _ => id)
    have e3 : Heap.Ext h (hdrAddEach (h1.setTab raw.tab t') raw.shared (tabNames t')).2 := Heap.Frame.toExt <|
      (e2.toFrame (A := Nope) (T := Nope) (H := Nope) (M := Nope)).trans
        (hdrAddEach_frame (A := Nope) (T := Nope) (M := Nope) _ raw.shared _)
        (fun _ _ => id) (fun _ _ => id) (fun i hi (e : raw.shared = some i) => by
          have := hfresh.2.1 i e; omega) (fun _ _ => id)
    have hgetf : ∀ k, AMap.get t' k = (AMap.get (h.tab df.tab) k).map
        (fun (s : Slice) => s.sub a b) := by
      intro k
      rw [← ht', get_map_val (fun _ (s : Slice) => s.sub a b), sp.tab]
    have hyr : y.rows = List.range (b - a).toNat := by
      rw [hyrows]
      have : df.idx.rows = List.range N := hrows
      rw [this, rowRange, pick_range' _ _ _ (by simp; omega)]
      simp only [Int.toNat_zero, List.drop_zero, Nat.sub_zero]
      rw [List.take_range]; congr 1; omega
    refine ⟨_, _, rfl, e3, ⟨⟨?_, ?_, ?_, ?_, ?_⟩, ?_, ?_⟩, ?_, ?_, rfl, rfl, ?_, sp.cpu, sp.str⟩
    · exact Nat.lt_of_lt_of_le sp.wf.tab_lt (hdrAddEach_next_le (h1.setTab raw.tab t') _ _)
    · exact hdrAddEach_lt (h := h1.setTab raw.tab t') sp.wf.shared_lt _
    · intro i hi; exact Nat.lt_of_lt_of_le (sp.wf.str_lt i hi) (hdrAddEach_next_le (h1.setTab raw.tab t') _ _)
    · show (AMap.keys ((hdrAddEach _ _ _).2.tab raw.tab)).Nodup
      rw [hdrAddEach_tab, Heap.setTab_tab, ← ht']
      rw [keys_map_val (fun _ (s : Slice) => s.sub a b)]
      exact sp.wf.keys
    · intro k s hk
      change AMap.get ((hdrAddEach _ _ _).2.tab raw.tab) k = some s at hk
      rw [hdrAddEach_tab, Heap.setTab_tab, hgetf, Option.map_eq_some_iff] at hk
      obtain ⟨s0, hs0, rfl⟩ := hk
      have v0 := wf.slices _ _ hs0
      have l0 := hN1 _ _ hs0
      have v1 := v0.ext e3
      refine ⟨by have := v0.1; simp only [Slice.sub]; omega, ?_⟩
      rcases v1.2 with hc | ⟨hc1, hc2⟩
      · left; simp only [Slice.sub]; omega
      · by_cases hz : s0.cap - a.toNat = 0
        · left; exact hz
        · right; exact ⟨hc1, by simp only [Slice.sub]; omega⟩
    · exact hyl
    · refine ⟨(b - a).toNat, ?_, ?_, ?_⟩
      · intro k s hk
        change AMap.get ((hdrAddEach _ _ _).2.tab raw.tab) k = some s at hk
        rw [hdrAddEach_tab, Heap.setTab_tab, hgetf, Option.map_eq_some_iff] at hk
        obtain ⟨s0, hs0, rfl⟩ := hk
        rfl
      · intro i hi
        change i ∈ y.rows at hi
        rw [hyr] at hi; simpa using hi
      · intro _; exact hyr
    · rw [hdrAddEach_rt, Heap.setTab_rt, sp.rt]
    · refine ADF.ext' ?_ ?_ ?_ sp.enc
      · show y.rows.length = _
        rw [hyr]; simp [ADF.select, rowRange]; omega
      · intro k c
        simp only [locs, ADF.select, hdrAddEach_tab, Heap.setTab_tab, hgetf, Option.map_map]
        cases hg : AMap.get (h.tab df.tab) (k, c) with
        | none => rfl
        | some s =>
          simp only [Option.map_some, Function.comp, Option.some.injEq]
          show y.rows.map _ = _
          rw [hyr, hrows, rowRange]
          apply List.ext_getElem
          · simp; omega
          · intro i h1 h2
            simp only [List.length_map, List.length_range] at h1
            simp only [List.getElem_map, List.getElem_range, List.getElem_range']
            rw [List.getElem?_map, List.getElem?_range (by omega)]
            simp only [Option.map_some, Option.join_some]
            have l0 := hN1 _ _ hg
            rw [if_pos (show a.toNat + 1 * i < s.len by omega), if_pos (show i < (s.sub a b).len from h1)]
            show some (s.arr, s.off + a.toNat + i) = _
            congr 2; omega
      · intro c
        show decide _ = decide _
        apply decide_eq_decide.2
        show c ∈ hdrList _ raw.strHdr ↔ c ∈ hdrList h df.strHdr
        rw [sp.str]
        cases hst : df.strHdr with
        | none => rfl
        | some i => simp only [hdrList, e3.hdr i (wf.str_lt i hst)]
    · rw [hdrAddEach_msk, Heap.setTab_msk, sp.msk]

end Verif
