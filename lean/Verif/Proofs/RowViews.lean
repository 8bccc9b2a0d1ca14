import Verif.Proofs.View

namespace Verif
variable {F : Type}

/-- Nothing but mask arrays changed. -/
theorem others_of_maskFrame {M} {h h' : Heap F} (e : Heap.Frame Nope Nope Nope M h h') (d : DF)
    (wf : d.WF h) : abs h' d = abs h d ∧ locs h' d = locs h d ∧ d.WF h' :=
  ⟨abs_frame e wf.toWF id (fun _ _ => id) (fun _ _ _ => Or.inr id),
   locs_frame e wf.toWF id (fun _ _ => id),
   wf.frame e id (fun _ _ _ => Or.inr id)⟩

theorem others_of_ext {h h' : Heap F} (e : Heap.Ext h h') (d : DF)
    (wf : d.WF h) : abs h' d = abs h d ∧ locs h' d = locs h d ∧ d.WF h' :=
  ⟨abs_ext e wf.toWF, locs_ext e wf.toWF, wf.ext e⟩

/-- The generic way to obtain a row view: same columns, picked rows. -/
theorem rowView_pick {M} {h h' : Heap F} {d v : DF} (e : Heap.Frame Nope Nope Nope M h h')
    (wf : d.WF h) (ht : v.toRaw = { d.toRaw with sharedMaps := v.sharedMaps })
    (hv : v.indexViewed = true) (hl : v.idx.len ≤ v.idx.data.length) {is : List Nat}
    (hr : v.rows = pick d.rows is) (hi : ∀ i ∈ is, i < d.numRows) : RowView h d h' v is := by
  have wf' := (others_of_maskFrame e d wf).2.2
  have h1 : locs h' v = (locs h' d).select is :=
    locs_pick (by rw [ht]) (by rw [ht]) (by rw [ht]) hr hi
  have h2 : locs h' v = (locs h d).select is := by rw [h1, (others_of_maskFrame e d wf).2.1]
  refine ⟨?_, h2, ?_, others_of_maskFrame e⟩
  · exact abs_of_locs wf.toWF (fun i hi => e.arr i hi id) h2
  · exact WF_pick wf' ht hv hl (fun i hm => pick_mem hi (hr ▸ hm))

theorem indexView_rowView {df : DF} {h : Heap F} (wf : df.WF h) {is : List Int}
    (hi : ∀ i ∈ is, 0 ≤ i ∧ i < df.numRows) :
    ∃ v h', df.indexView is h = .ok (v, h') ∧ RowView h df h' v (is.map Int.toNat) ∧
      v.idx = Idx.mk' (pick df.rows (is.map Int.toNat)) ∧
      v.toRaw = { df.toRaw with sharedMaps := true } ∧ v.indexViewed = true ∧
      h'.tab = h.tab ∧ h'.arr = h.arr ∧ h'.hdr = h.hdr := by
  obtain ⟨v, h', he, fr, h1, h2, h3, ht, hidx, hv, _, _⟩ := indexView_spec df h is hi
  refine ⟨v, h', he, ?_, hidx, ht, hv, h1, h2, h3⟩
  refine rowView_pick fr wf (by rw [ht]) hv ?_ ?_ (toNat_mem hi)
  · rw [hidx]; simp [Idx.mk']
  · rw [DF.rows, hidx, Idx.rows_mk']

theorem cut_rowView {df : DF} {h : Heap F} (wf : df.WF h) (hsm : df.sharedMaps = true)
    {a b : Int} (ha : 0 ≤ a) (hab : a ≤ b) (hb : b ≤ df.numRows) :
    ∃ v h', df.cut a b h = .ok (v, h') ∧ RowView h df h' v (rowRange a.toNat b.toNat) ∧
      Heap.Ext h h' ∧ v.mask = df.mask ∧ h'.msk = h.msk ∧ v.mThreadSafe = df.mThreadSafe ∧
      v.maxCPU = df.maxCPU := by
  obtain ⟨v, h', he, ext, wf', _, hl, hm, hts, hmsk, hcpu, _⟩ := cut_spec wf hsm ha hab hb
  exact ⟨v, h', he, ⟨abs_of_locs wf.toWF ext.arr hl, hl, wf', others_of_ext ext⟩, ext, hm, hmsk, hts, hcpu⟩

theorem view_abs (h : Heap F) (df : DF) : abs h df.view = abs h df := rfl
theorem view_locs (h : Heap F) (df : DF) : locs h df.view = locs h df := rfl
theorem view_wf {h : Heap F} {df : DF} (wf : df.WF h) : df.view.WF h :=
  ⟨⟨wf.tab_lt, wf.shared_lt, wf.str_lt, wf.keys, wf.slices⟩, wf.idx_len, wf.rect⟩

theorem RowView.of_view {h h' : Heap F} {df v : DF} {is : List Nat} (r : RowView h df.view h' v is) :
    RowView h df h' v is := ⟨r.shows, r.shares, r.wf, r.others⟩

theorem select_select {C : Type} (a : ADF C) (is js : List Nat) (hj : ∀ j ∈ js, j < is.length) :
    (a.select is).select js = a.select (pick is js) := by
  refine ADF.ext' (by simp [ADF.select]) ?_ (fun _ => rfl) rfl
  intro k c
  simp only [ADF.select, Option.map_map]
  congr 1
  funext l
  simp only [Function.comp, pick, List.map_map]
  apply List.map_congr_left
  intro j hjm
  have := hj j hjm
  simp [List.getD_eq_getElem?_getD, List.getElem?_eq_getElem this]

theorem select_range_abs (h : Heap F) (df : DF) :
    (abs h df).select (List.range df.numRows) = abs h df := by
  refine ADF.ext' (by simp [ADF.select, abs]) ?_ (fun _ => rfl) rfl
  intro k c
  simp only [ADF.select, abs, Option.map_map]
  congr 1
  funext s
  simp only [Function.comp]
  apply List.ext_getElem
  · simp [DF.numRows]
  · intro i h1 h2
    simp at h1 h2
    simp [List.getElem?_eq_getElem h2]

theorem select_range_locs (h : Heap F) (df : DF) :
    (locs h df).select (List.range df.numRows) = locs h df := by
  refine ADF.ext' (by simp [ADF.select, locs]) ?_ (fun _ => rfl) rfl
  intro k c
  simp only [ADF.select, locs, Option.map_map]
  congr 1
  funext s
  simp only [Function.comp]
  apply List.ext_getElem
  · simp [DF.numRows]
  · intro i h1 h2
    simp at h1 h2
    simp [List.getElem?_eq_getElem h2]

theorem view_rowView {h : Heap F} {df : DF} (wf : df.WF h) :
    RowView h df h df.view (List.range df.numRows) :=
  ⟨by rw [select_range_abs]; rfl, by rw [select_range_locs]; rfl, view_wf wf,
   fun _ wd => ⟨rfl, rfl, wd⟩⟩

theorem RowView.trans {h h1 h2 : Heap F} {d v w : DF} {is js : List Nat}
    (a : RowView h d h1 v is) (b : RowView h1 v h2 w js) (hj : ∀ j ∈ js, j < is.length) :
    RowView h d h2 w (pick is js) where
  shows := by rw [b.shows, a.shows, select_select _ _ _ hj]
  shares := by rw [b.shares, a.shares, select_select _ _ _ hj]
  wf := b.wf
  others d wd := by
    obtain ⟨x1, x2, x3⟩ := a.others d wd
    obtain ⟨y1, y2, y3⟩ := b.others d x3
    exact ⟨y1.trans x1, y2.trans x2, y3⟩

theorem RowView.numRows {h h' : Heap F} {d v : DF} {is : List Nat} (a : RowView h d h' v is) :
    v.numRows = is.length := congrArg ADF.nRows a.shows

/-! ### masks -/

/-- The positions of the `true` values of a mask. -/
def truePos (m : List Bool) : List Nat := (List.range m.length).filter (fun i => m.getD i false)

/-- Same positions, computed along the list from position `j` on. -/
def truePosFrom : List Bool → Nat → List Nat
  | [], _ => []
  | b :: bs, j => if b then j :: truePosFrom bs (j + 1) else truePosFrom bs (j + 1)

theorem truePosFrom_eq (m : List Bool) (j : Nat) :
    truePosFrom m j = ((List.range m.length).filter (fun i => m.getD i false)).map (· + j) := by
  induction m generalizing j with
  | nil => rfl
  | cons b bs ih =>
    simp only [List.length_cons, List.range_succ_eq_map, List.filter_cons, List.filter_map, truePosFrom, ih]
    have e : ((fun i => (b :: bs).getD i false) ∘ Nat.succ) = fun i => bs.getD i false := by
      funext i; simp
    rw [e]
    cases b <;> simp [List.map_map, Function.comp_def] <;>
    · intro a _ _; omega

theorem truePos_eq (m : List Bool) : truePos m = truePosFrom m 0 := by
  rw [truePosFrom_eq]; simp [truePos]

theorem truePos_length_le (m : List Bool) : (truePos m).length ≤ m.length := by
  have := List.length_filter_le (fun i => m.getD i false) (List.range m.length)
  simpa [truePos] using this

theorem maskRows_ok (x : Idx) (m : List Bool) (j : Nat)
    (h : ∀ i ∈ truePosFrom m j, i < x.rows.length) :
    maskRows x m j = .ok (pick x.rows (truePosFrom m j)) := by
  induction m generalizing j with
  | nil => rfl
  | cons b bs ih =>
    cases b with
    | false =>
      simp only [truePosFrom] at h ⊢
      simp only [maskRows]
      simpa using ih _ (by simpa using h)
    | true =>
      simp only [truePosFrom, if_true] at h ⊢
      have hj := h j (by simp)
      simp only [maskRows, if_true, Idx.at_ok (x := x) (i := (j : Int)) (by omega) (by omega),
        ih (j + 1) (fun i hi => h i (by simp [hi]))]
      simp [pick, List.getD_eq_getElem?_getD, List.getElem?_eq_getElem hj]

theorem maskRows_err (x : Idx) (m : List Bool) (j : Nat)
    (h : ∃ i ∈ truePosFrom m j, ¬ i < x.rows.length) : maskRows x m j = .error .panic := by
  induction m generalizing j with
  | nil => obtain ⟨i, hi, _⟩ := h; simp [truePosFrom] at hi
  | cons b bs ih =>
    cases b with
    | false =>
      simp only [truePosFrom] at h
      simp only [maskRows]
      simpa using ih _ (by simpa using h)
    | true =>
      simp only [truePosFrom, if_true] at h
      by_cases hj : j < x.rows.length
      · have : ∃ i ∈ truePosFrom bs (j + 1), ¬ i < x.rows.length := by
          obtain ⟨i, hi, hn⟩ := h
          rcases List.mem_cons.1 hi with rfl | hi
          · exact absurd hj hn
          · exact ⟨i, hi, hn⟩
        simp only [maskRows, if_true, Idx.at_ok (x := x) (i := (j : Int)) (by omega) (by omega), ih _ this]
      · simp only [maskRows, if_true]
        rw [Idx.at_err (by omega)]

theorem maskView_rowView {df : DF} {h : Heap F} (wf : df.WF h) {m : List Bool}
    (hm : ∀ i ∈ truePos m, i < df.numRows) :
    ∃ v, df.maskView m = .ok v ∧ RowView h df h v (truePos m) ∧ v.mask = df.mask := by
  unfold DF.maskView
  rw [truePos_eq] at hm
  rw [maskRows_ok _ _ _ hm]
  refine ⟨_, rfl, ?_, rfl⟩
  rw [← truePos_eq] at hm ⊢
  refine rowView_pick (M := Nope) (Heap.Frame.refl ..) wf ?_ ?_ ?_ ?_ hm
  · rfl
  · rfl
  · simp
  · simp only [DF.rows, Idx.rows]
    rw [List.take_append_of_le_length (by simp)]
    exact List.take_of_length_le (by simp)

theorem maskView_err {df : DF} {m : List Bool} (hm : ∃ i ∈ truePos m, ¬ i < df.numRows) :
    df.maskView m = .error .panic := by
  unfold DF.maskView
  rw [truePos_eq] at hm
  rw [maskRows_err _ _ _ hm]

theorem reverseView_rowView {df : DF} {h : Heap F} (wf : df.WF h) :
    RowView h df h df.reverseView (List.range df.numRows).reverse := by
  refine rowView_pick (M := Nope) (Heap.Frame.refl ..) wf ?_ ?_ ?_ ?_ ?_
  · rfl
  · rfl
  · simp [DF.reverseView, Idx.mk']
  · simp only [DF.reverseView, DF.rows, Idx.rows_mk', DF.numRows]
    exact reverse_eq_pick _
  · intro i hi; simpa using hi

end Verif
