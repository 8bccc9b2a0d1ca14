import Verif.Proofs.Recover

/-! C83: what panicking in-place calls leave behind, for callers that recover from the panic, and that every dataframe stays
consistent. -/

namespace Verif
variable {F : Type}

/-! ### consistency -/

theorem encodeReached_quiet {cd : Codec} {d : DF} {new : Option Nat} {h : Heap F} {x : Abort}
    (e : d.encode cd new h = .error x) : Quiet h (d.encodeReached cd new h).2 := by
  unfold DF.encode at e
  split at e
  · cases e
  · split at e
    · rename_i y hy
      obtain ⟨_, _, _, _, _, _, _, _, _, ha, _⟩ := encodeLoop_panics h _ [] (AppliedN.refl _ _) (by simp) hy
      exact ha.quiet
    · cases e
    · cases e

/-- A panicking in-place call keeps everything consistent. -/
theorem Edit.reached_stepOK [GoFloat F] {e : Edit F} {d : DF} {h : Heap F} {x : Abort} (wf : d.WF h) (mwf : d.MaskWF h)
    (sep : d.toRaw.Sep) (lg : e.Legal (abs h d)) (he : e.run d h = .error x) :
    StepOK h d (e.reached d h).2 (e.reached d h).1 := by
  have fin : ∀ {d' : DF} {h' : Heap F}, Safe h h' → d'.idx = d.idx → d'.mask = d.mask → d'.WF h' → d'.toRaw.Sep →
      (∀ i, d'.shared = some i → d.shared = some i ∨ h.next ≤ i) →
      (∀ i, d'.strHdr = some i → d.strHdr = some i ∨ h.next ≤ i) → StepOK h d h' d' := by
    intro d' h' hs hi hm hw hsep h1 h2
    refine ⟨hs, hw, ?_, h1, h2, fun _ => hsep⟩
    have m := mwf.safe hs
    refine ⟨?_, by rw [hm]; exact m.len_le, by rw [hm]; exact m.valid⟩
    rw [hm]; simp only [DF.numRows, DF.rows, hi]; exact m.len_ge
  have quiet : ∀ {h' : Heap F}, Quiet h h' → StepOK h d h' d := fun q =>
    fin q.safe rfl rfl (wf.safe q.safe) sep (fun _ => Or.inl) (fun _ => Or.inl)
  cases e with
  | rename old new =>
    have f := Foot.own wf.toWF
    obtain ⟨_, _, hw⟩ := own_abs wf
    exact fin (Safe.ext (own_spec wf.toWF).ext) rfl rfl hw (own_sep wf.toWF sep) f.sh f.st
  | overwrite k c vals b =>
    have hne := hasColumn_iff.1 lg
    have key : ∃ d1 h1, (if (tabCol (h.tab d.tab) (k, c)).len = 0 then
        if k = .obj ∧ b = true then d.withRaw (d.toRaw.allocStrings [c] h) else d.withRaw (d.toRaw.alloc k [c] h)
        else (d, h)) = (d1, h1) ∧ Safe h h1 ∧ d1.WF h1 ∧ d1.toRaw.Sep ∧ d1.idx = d.idx ∧ d1.mask = d.mask ∧
        (∀ i, d1.shared = some i → d.shared = some i ∨ h.next ≤ i) ∧
        (∀ i, d1.strHdr = some i → d.strHdr = some i ∨ h.next ≤ i) := by
      split
      · split
        · obtain ⟨_, hw, hs⟩ := allocStrings_abs wf hne [c]
          have f := Foot.allocStrings wf.toWF [c]
          exact ⟨_, _, rfl, hs, hw, allocStrings_sep wf.toWF sep [c], rfl, rfl, f.sh, f.st⟩
        · obtain ⟨_, hw, hs⟩ := alloc_abs wf hne k [c]
          have f := Foot.alloc wf.toWF k [c]
          exact ⟨_, _, rfl, hs, hw, alloc_sep wf.toWF sep k [c], rfl, rfl, f.sh, f.st⟩
      · exact ⟨d, h, rfl, Safe.refl _, wf, sep, rfl, rfl, fun _ => Or.inl, fun _ => Or.inl⟩
    obtain ⟨d1, h1, e1, hs, hw, hsep, hi, hm, h2, h3⟩ := key
    have : (Edit.overwrite k c vals b).reached d h = (d1, overwriteReached (tabCol (h1.tab d1.tab) (k, c)) d1.rows vals h1) := by
      simp only [Edit.reached, DF.overwriteReached]
      rw [e1]
    rw [this]
    have q := overwriteReached_quiet (tabCol (h1.tab d1.tab) (k, c)) d1.rows vals h1
    exact fin (hs.trans q.safe) hi hm (hw.safe q.safe) hsep h2 h3
  | encode cd new =>
    have : ∃ y, d.encode cd new h = .error y := by
      simp only [Edit.run] at he
      split at he
      · exact ⟨_, by assumption⟩
      · cases he
    obtain ⟨y, hy⟩ := this
    exact quiet (encodeReached_quiet hy)
  | _ => exact quiet (Quiet.refl _)

theorem Call.reached_good [GoFloat F] {w : World F} {c : Call F} {x : Abort} (g : w.Good) (lg : c.Legal w)
    (e : c.run w = .error x) : (c.reached w).Good := by
  cases c with
  | edit i ed =>
    simp only [Call.reached]
    cases hd : w.dfs[i]? with
    | none => exact g
    | some d =>
      have hm := List.mem_of_getElem? hd
      simp only [Call.run, World.on, hd] at e
      split at e
      · rename_i y hy
        exact g.replace ((Edit.reached_stepOK (g.wf d hm) (g.mwf d hm) (g.sep d hm d hm) (lg d hd) hy).joins g hm) i
      · cases e
  | _ => exact g

theorem HistR.good [GoFloat F] {w w' : World F} {cs : List (Call F × Bool)} (hist : HistR w cs w') (g : w.Good) : w'.Good := by
  induction hist with
  | nil w => exact g
  | ran lg e _ ih => exact ih (Call.good g lg e)
  | panicked lg e _ _ ih => exact ih (Call.reached_good g lg e)

/-- **C83**, consistency. Take a program that starts without dataframes and performs any finite sequence of legal calls, and
that recovers from every panic and goes on. Every dataframe it holds has columns of one common length, shows only rows inside
that length, can be read at every row of every column without a panic, and has a mask with room for all its rows. -/
theorem C83_consistent [GoFloat F] {h : Heap F} {cs : List (Call F × Bool)} {w : World F}
    (hist : HistR ⟨h, []⟩ cs w) (d : DF) (hd : d ∈ w.dfs) :
    (∃ N, (∀ k s, AMap.get (w.h.tab d.tab) k = some s → s.len = N) ∧ (∀ i ∈ d.rows, i < N) ∧
      (d.indexViewed = false → d.rows = List.range N)) ∧
    (∀ k c (i : Int), ((abs w.h d).col k c).isSome → 0 ≤ i → i < (abs w.h d).nRows → ∃ v, d.get w.h k c i = .ok v) ∧
    d.numRows ≤ d.mask.len := by
  have g := hist.good (World.empty_good h)
  have wf := g.wf d hd
  exact ⟨wf.rect, fun k c i hc h0 hi => (get_total d w.h wf k c i).2 ⟨h0, hi, hc⟩, (g.mwf d hd).len_ge⟩

/-! ### what is left as it was -/

/-- The in-place calls that store values before they may panic. -/
def Edit.Stores : Edit F → Prop
  | .overwrite _ _ _ _ | .encode _ _ => True
  | _ => False

/-- **C83**, the calls that change nothing. After any history of legal calls with or without recovered panics, any in-place
call but `Overwrite*` and `Encode` that panics (`Set` with a wrong row or column, `Rename` of a column that does not exist)
leaves what every dataframe shows as it was, and the same memory cells behind it. -/
theorem C83_unchanged [GoFloat F] {h : Heap F} {cs : List (Call F × Bool)} {w : World F} {j : Nat} {ed : Edit F} {x : Abort}
    (hist : HistR ⟨h, []⟩ cs w) (hc : ¬ ed.Stores) (e : (Call.edit j ed).run w = .error x) :
    ((Call.edit j ed).reached w).dfs.length = w.dfs.length ∧
    ∀ (i : Nat) d d', w.dfs[i]? = some d → ((Call.edit j ed).reached w).dfs[i]? = some d' →
      abs ((Call.edit j ed).reached w).h d' = abs w.h d ∧ locs ((Call.edit j ed).reached w).h d' = locs w.h d := by
  have g := hist.good (World.empty_good h)
  cases hj : w.dfs[j]? with
  | none => simp only [Call.run, World.on, hj] at e; cases e
  | some d0 =>
    have hm := List.mem_of_getElem? hj
    have wf0 := g.wf d0 hm
    have hlt := (List.getElem?_eq_some_iff.1 hj).1
    have key : abs (ed.reached d0 w.h).2 (ed.reached d0 w.h).1 = abs w.h d0 ∧
        locs (ed.reached d0 w.h).2 (ed.reached d0 w.h).1 = locs w.h d0 ∧ Heap.Ext w.h (ed.reached d0 w.h).2 := by
      cases ed with
      | overwrite => exact absurd trivial hc
      | encode => exact absurd trivial hc
      | rename old new => exact ⟨(own_abs wf0).1, (own_abs wf0).2.1, (own_spec wf0.toWF).ext⟩
      | _ => exact ⟨rfl, rfl, Heap.Ext.refl _⟩
    obtain ⟨k1, k2, k3⟩ := key
    simp only [Call.reached, hj]
    refine ⟨by simp, ?_⟩
    intro i d d' h1 h2
    by_cases hij : i = j
    · subst hij
      rw [hj] at h1
      cases h1
      simp only [List.getElem?_set, if_true, hlt] at h2
      cases h2
      exact ⟨k1, k2⟩
    · simp only [List.getElem?_set, if_neg (Ne.symm hij)] at h2
      rw [h1] at h2
      cases h2
      have wf := (g.wf d (List.mem_of_getElem? h1)).toWF
      exact ⟨abs_ext k3 wf, locs_ext k3 wf⟩

/-! ### Overwrite -/

theorem overwriteReached_setRows {d : DF} {k : Kind} {c : GoStr} {s : Slice} (i : Nat) (vs : List (Val F)) {h h' : Heap F}
    (hs : AMap.get (h.tab d.tab) (k, c) = some s) (hl : vs.length ≤ (d.rows.drop i).length)
    (e : d.setRows k c i vs h = .ok h') : overwriteReached s (d.rows.drop i) vs h = h' := by
  induction vs generalizing i h with
  | nil =>
    simp only [DF.setRows] at e; cases e
    cases d.rows.drop i <;> rfl
  | cons v vs ih =>
    cases hr : d.rows.drop i with
    | nil => rw [hr] at hl; simp at hl
    | cons r rs =>
      have hr0 : d.rows[i]? = some r := by
        have := congrArg (fun l => l[0]?) hr
        simpa using this
      have hn' : d.rows.drop (i + 1) = rs := by rw [← List.tail_drop, hr]; rfl
      simp only [DF.setRows] at e
      rw [set_eq_write hs hr0] at e
      simp only [overwriteReached]
      split at e
      · cases e
      · rename_i h1 e1
        rw [e1]
        simp only
        rw [← hn']
        exact ih (i + 1) (by rw [(write_tab e1).1]; exact hs) (by rw [hn']; rw [hr] at hl; simpa using hl) e

/-- **C83**, `OverwriteX(col, values)` with fewer values than rows on an existing column. It panics, and has by then done
`for i, v := range values { df.Xs(col).Set(i, v) }`: row `a` reads the value given for the last position `b` that shows the
same row; every cell that is not behind one of the first `len(values)` rows, in this or any other dataframe, is unchanged,
and so is all structure. -/
theorem C83_overwrite_existing [GoFloat F] {d : DF} {h : Heap F} (wf : d.WF h) {k : Kind} {c : GoStr}
    {vals : List (Val F)} (asString : Bool) (hc : ((abs h d).col k c).isSome) (hl : vals.length < d.numRows) :
    d.overwrite k c vals asString h = .error .panic ∧
    ∃ h', (Edit.overwrite k c vals asString).reached d h = (d, h') ∧
      d.setRows k c 0 vals h = .ok h' ∧
      (∀ a b (ha : a < d.rows.length) (hb : b < vals.length), d.rows[b]'(Nat.lt_trans hb hl) = d.rows[a] →
        (∀ n (hn : n < vals.length), b < n → d.rows[n]'(Nat.lt_trans hn hl) ≠ d.rows[a]) →
        d.get h' k c a = .ok vals[b]) ∧
      (∀ d2 : DF, locs h' d2 = locs h d2 ∧ ∀ k' c' (j : Nat),
        (∀ n, n < vals.length → cellOf h d2 k' c' j ≠ cellOf h d k c n) →
        d2.get h' k' c' j = d2.get h k' c' j) := by
  refine ⟨C25_overwrite_short asString hl, ?_⟩
  obtain ⟨s, hs⟩ := col_isSome.1 hc
  have hpos : 0 < d.numRows := by omega
  have hlen : s.len ≠ 0 := by
    obtain ⟨N, h1, h2, _⟩ := wf.rect
    have := h2 (d.rows[0]'hpos) (List.getElem_mem _)
    rw [h1 _ _ hs]; omega
  have htc : tabCol (h.tab d.tab) (k, c) = s := by simp [tabCol, hs]
  obtain ⟨h', he⟩ := setRows_ok (i := 0) (vs := vals) wf hc (by omega)
  have hr := overwriteReached_setRows 0 vals hs (by simp only [List.drop_zero]; exact Nat.le_of_lt hl) he
  simp only [List.drop_zero] at hr
  refine ⟨h', by simp [Edit.reached, DF.overwriteReached, htc, hlen, hr], he, ?_, ?_⟩
  · intro a b ha hb hab hlast
    have hnl : vals.length < d.rows.length := hl
    have := setRows_last wf he (a := a) (b := b) (Nat.zero_le _) (by omega) (by omega) ha (by omega) hab
      (fun n hn h1 h2 => hlast n (by omega) h1)
    rw [this]; simp
  · intro d2
    refine ⟨(setRows_quiet he).locs d2, fun k' c' j hno => ?_⟩
    exact setRows_other wf he (fun n _ hn => Or.inr (hno n (by omega)))

/-- **C83**, `OverwriteX(col, values)` with fewer values than rows on a column that does not exist. It panics, and has by then
created the column: the first `len(values)` rows hold the values, the other rows zero values; no other column of this or any
other dataframe has changed, and every dataframe is consistent. -/
theorem C83_overwrite_creates [GoFloat F] {d : DF} {h : Heap F} (wf : d.WF h) {k : Kind} {c : GoStr}
    {vals : List (Val F)} (asString : Bool) (hc : (abs h d).col k c = none) (hne : (abs h d).hasColumn)
    (hl : vals.length < d.numRows) :
    d.overwrite k c vals asString h = .error .panic ∧
    ∃ d' h', (Edit.overwrite k c vals asString).reached d h = (d', h') ∧ d'.rows = d.rows ∧ d'.WF h' ∧
      ((abs h' d').col k c).isSome ∧
      (∀ x, (abs h' d').isStr x = ((abs h d).isStr x || decide (k = .obj ∧ asString = true ∧ x = c))) ∧
      (∀ a b (ha : a < d.rows.length) (hb : b < vals.length), d.rows[b]'(Nat.lt_trans hb hl) = d.rows[a] →
        (∀ n (hn : n < vals.length), b < n → d.rows[n]'(Nat.lt_trans hn hl) ≠ d.rows[a]) →
        d'.get h' k c a = .ok vals[b]) ∧
      (∀ a (ha : a < d.rows.length), (∀ n (hn : n < vals.length), d.rows[n]'(Nat.lt_trans hn hl) ≠ d.rows[a]) →
        d'.get h' k c a = .ok k.zero) ∧
      (∀ k' c', (k', c') ≠ (k, c) → (abs h' d').col k' c' = (abs h d).col k' c') ∧
      (∀ d2 : DF, d2.WF h → d2.WF h' ∧
        ∀ k' c', (k', c') ≠ (k, c) → (abs h' d2).col k' c' = (abs h d2).col k' c') := by
  refine ⟨C25_overwrite_short asString hl, ?_⟩
  have hnl : vals.length < d.rows.length := hl
  have hg : AMap.get (h.tab d.tab) (k, c) = none := col_eq_none.1 hc
  have htc : (tabCol (h.tab d.tab) (k, c)).len = 0 := by simp [tabCol, hg, Slice.nil]
  have step : ∃ r1 h1, (if k = .obj ∧ asString = true then d.withRaw (d.toRaw.allocStrings [c] h)
        else d.withRaw (d.toRaw.alloc k [c] h)) = ({ d with toRaw := r1 }, h1) ∧
      CreateSpec k c h d.toRaw h1 r1 ∧ DF.WF h1 { d with toRaw := r1 } ∧ Safe h h1 ∧
      (∀ x, (abs h1 { d with toRaw := r1 }).isStr x = ((abs h d).isStr x || decide (k = .obj ∧ asString = true ∧ x = c))) ∧
      (abs h1 { d with toRaw := r1 }).col k c = some (List.replicate d.numRows (some k.zero)) := by
    by_cases hk : k = .obj ∧ asString = true
    · obtain ⟨rfl, rfl⟩ := hk
      obtain ⟨g1, g2, g3⟩ := allocStrings_abs wf (tab_ne_nil_iff.2 hne) [c]
      refine ⟨_, _, by simp [DF.withRaw], create_allocStrings wf.toWF c, g2, g3, ?_, ?_⟩
      · intro x; rw [g1]; simp [ADF.markCols, ADF.allocCols, Bool.or_comm]
      · rw [g1]; simp [ADF.markCols, ADF.allocCols, abs]
    · obtain ⟨g1, g2, g3⟩ := alloc_abs wf (tab_ne_nil_iff.2 hne) k [c]
      refine ⟨_, _, by simp [DF.withRaw, hk], create_alloc wf.toWF k c, g2, g3, ?_, ?_⟩
      · intro x; rw [g1]
        have : ¬ (k = .obj ∧ asString = true ∧ x = c) := fun h => hk ⟨h.1, h.2.1⟩
        simp [ADF.allocCols, this]
      · rw [g1]; simp [ADF.allocCols, abs]
  obtain ⟨r1, h1, e1, cs, w1, sf, hmark, hzero⟩ := step
  obtain ⟨s, hs, hfresh, _⟩ := cs.new
  generalize hd1 : ({ d with toRaw := r1 } : DF) = d1 at *
  have htab1 : d1.tab = r1.tab := by rw [← hd1]
  have hrows1 : d1.rows = d.rows := by rw [← hd1]; rfl
  rw [← htab1] at hs
  have hc1 : ((abs h1 d1).col k c).isSome := col_isSome.2 ⟨s, hs⟩
  have htc1 : tabCol (h1.tab d1.tab) (k, c) = s := by simp [tabCol, hs]
  obtain ⟨h', he⟩ := setRows_ok (i := 0) (vs := vals) w1 hc1 (by show 0 + vals.length ≤ d1.rows.length; rw [hrows1]; omega)
  have hr := overwriteReached_setRows 0 vals hs (by simp only [List.drop_zero, hrows1]; omega) he
  simp only [List.drop_zero] at hr
  have hb1 : ∀ i ∈ d1.rows, i < s.len := by
    obtain ⟨N, g1, g2, _⟩ := w1.rect
    intro i hi; rw [g1 _ _ hs]; exact g2 i hi
  have hloop := overwriteReached_take (s := s) (is := d1.rows) (vs := vals) h1 (by rw [hrows1]; omega) hb1
  rw [hr] at hloop
  obtain ⟨q, hfr⟩ := overwriteLoop_frame hloop
  have hcells : ∀ (s' : Slice), s'.Valid h → h'.cell s' = h.cell s' := by
    intro s' v
    apply Heap.cell_congr
    rcases v.2 with h0 | ⟨h0, _⟩
    · left; have := v.1; omega
    · right; rw [hfr _ (by omega), cs.arr _ h0]
  refine ⟨d1, h', ?_, hrows1, w1.safe q.safe, ?_, ?_, ?_, ?_, ?_, ?_⟩
  · simp only [Edit.reached, DF.overwriteReached, htc, if_true]
    rw [e1]
    simp only [htc1, hr]
  · exact col_isSome.2 ⟨s, by rw [q.tab]; exact hs⟩
  · intro x
    rw [← hmark x]
    have : hdrList h' d1.strHdr = hdrList h1 d1.strHdr := by unfold hdrList; rw [q.hdr]
    simp only [abs, this]
  · intro a b ha hb hab hlast
    have := setRows_last w1 he (a := a) (b := b) (Nat.zero_le _) (by omega) (by rw [hrows1]; omega)
      (by rw [hrows1]; exact ha) (by rw [hrows1]; omega) (by simp only [hrows1]; exact hab)
      (fun n hn h1 h2 => by simp only [hrows1]; exact hlast n (by omega) h1)
    rw [this]; simp
  · intro a ha hno
    have h2 : d1.get h' k c a = d1.get h1 k c a := by
      refine setRows_other w1 he (fun n _ hn => Or.inr ?_)
      rw [cellOf_eq w1 hs (i := a) (by rw [hrows1]; exact ha), cellOf_eq w1 hs (i := n) (by rw [hrows1]; omega)]
      intro hx
      simp only [Option.some.injEq, Prod.mk.injEq, true_and] at hx
      refine hno n (by omega) ?_
      simp only [hrows1] at hx
      omega
    rw [h2, get_iff_abs]
    exact ⟨by omega, _, hzero, by simp [DF.numRows, ha]⟩
  · intro k' c' hne'
    have : (h'.tab d1.tab) = h1.tab r1.tab := by rw [q.tab, htab1]
    simp only [abs, this, cs.old _ hne', hrows1]
    cases hg' : AMap.get (h.tab d.tab) (k', c') with
    | none => rfl
    | some s' => simp [hcells s' (wf.slices _ _ hg')]
  · intro d2 w2
    refine ⟨(w2.safe sf).safe q.safe, fun k' c' hne' => ?_⟩
    simp only [abs, q.tab, cs.cols _ w2.tab_lt _ hne']
    cases hg' : AMap.get (h.tab d2.tab) (k', c') with
    | none => rfl
    | some s' => simp [hcells s' (w2.slices _ _ hg')]

/-! ### Encode -/

/-- How many times the memory cell `x` is visible in the columns `done` and in the first `n` rows of column `c`. -/
def occurrencesBefore (h : Heap F) (df : DF) (done : List GoStr) (c : GoStr) (n : Nat) (x : Nat × Nat) : Nat :=
  (done.map fun c => (((locs h df).col .obj c).getD []).count (some x)).sum +
    ((((locs h df).col .obj c).getD []).take n).count (some x)

/-- **C83**, `Encode`. When it panics, the dataframe records the old encoding, but the string columns taken before some column
`c` and the first `n` rows of `c` have been transcoded (each memory cell as many times as it is visible there) and nothing
else; the cause is row `n` of `c`, which exists and is neither a string nor nil, or a string column that does not exist. -/
theorem C83_encode {df : DF} {h : Heap F} {cd : Codec} {new : Option Nat} {x : Abort}
    (e : df.encode cd new h = .error x) :
    x = .panic ∧ ∃ h' done c rest n, df.encodeReached cd new h = (df, h') ∧
      hdrList h df.strHdr = done ++ c :: rest ∧ n < df.numRows ∧
      h' = { h with arr := h'.arr } ∧ (∀ d : DF, locs h' d = locs h d) ∧
      (∀ l, h'.at l = iterEnc (encVal cd df.enc new) (occurrencesBefore h df done c n l) (h.at l)) ∧
      ∀ v, df.get h .obj c n = .ok v → v ≠ .nil ∧ ∀ s, v ≠ .str s := by
  unfold DF.encode at e
  split at e
  · cases e
  split at e
  · rename_i y hy
    cases e
    obtain ⟨hx, mid, c, rest, pre, i, post, q1, q2, q3, q4, q5, q6⟩ :=
      encodeLoop_panics h _ [] (AppliedN.refl _ _) (by simp) hy
    simp only [List.nil_append] at q3 q4
    have hi : pre.length < df.rows.length := by rw [q2]; simp
    have hi0 : df.rows[pre.length] = i := by simp [q2]
    refine ⟨hx, _, mid, c, rest, pre.length, rfl, q1, hi, q3.same, fun d => q3.quiet.locs d, ?_, ?_⟩
    · intro l
      refine (q3.at_ l).trans ?_
      congr 1
      unfold occurrencesBefore colLocs
      rw [List.count_append, List.count_flatMap]
      congr 1
      · congr 1
        apply List.map_congr_left
        intro b hb
        have hpos : 0 < (tabCol (h.tab df.tab) (.obj, b)).len := by
          have := (q4 b hb i (by rw [q2]; simp)).1; omega
        have hget : AMap.get (h.tab df.tab) (.obj, b) = some (tabCol (h.tab df.tab) (.obj, b)) := by
          cases hg : AMap.get (h.tab df.tab) (.obj, b) with
          | none => simp [tabCol, hg, Slice.nil] at hpos
          | some s => simp [tabCol, hg]
        have : (locs h df).col .obj b = some ((df.rows.map (tabCol (h.tab df.tab) (.obj, b)).loc).map some) := by
          simp only [locs, hget, Option.map_some, Option.some.injEq, List.map_map]
          apply List.map_congr_left
          intro k hk
          simp [(q4 b hb k hk).1, Slice.loc]
        rw [this]
        simp only [Option.getD_some, Function.comp]
        exact (count_map_some _ l).symm
      · cases pre with
        | nil => simp
        | cons p pre =>
          have hpos : 0 < (tabCol (h.tab df.tab) (.obj, c)).len := by
            have := q5 p (by simp); omega
          have hget : AMap.get (h.tab df.tab) (.obj, c) = some (tabCol (h.tab df.tab) (.obj, c)) := by
            cases hg : AMap.get (h.tab df.tab) (.obj, c) with
            | none => simp [tabCol, hg, Slice.nil] at hpos
            | some s => simp [tabCol, hg]
          have : (((locs h df).col .obj c).getD []).take (p :: pre).length =
              ((p :: pre).map (tabCol (h.tab df.tab) (.obj, c)).loc).map some := by
            simp only [locs, hget, Option.map_some, Option.getD_some]
            rw [← List.map_take, q2]
            simp only [List.take_left', List.map_map]
            apply List.map_congr_left
            intro k hk
            simp [q5 k hk, Slice.loc]
          rw [this]
          exact (count_map_some _ l).symm
    · intro v hv
      have hns : ¬ Stringy (some v) := by
        intro hs
        obtain ⟨-, l, h1, h2⟩ := (get_iff_abs ..).1 hv
        simp only [abs, Option.map_eq_some_iff] at h1
        obtain ⟨s, hs1, rfl⟩ := h1
        simp only [Int.toNat_natCast, List.getElem?_map, List.getElem?_eq_getElem hi, hi0, Option.map_some,
          Option.some.injEq] at h2
        have htc : tabCol (h.tab df.tab) (.obj, c) = s := by simp [tabCol, hs1]
        rw [htc] at q6
        by_cases hlt : i < s.len
        · exact q6 ⟨hlt, by rw [← cell_eq_at hlt, h2]; exact hs⟩
        · rw [Heap.cell_none hlt] at h2; cases h2
      exact ⟨fun hx => hns (Or.inl (by rw [hx])), fun s hx => hns (Or.inr ⟨s, by rw [hx]⟩)⟩
  · cases e
  · cases e

/-! ### calls that return -/

theorem overwriteReached_run [GoFloat F] {d d' : DF} {h h' : Heap F} {k : Kind} {c : GoStr} {vals : List (Val F)} {b : Bool}
    (e : d.overwrite k c vals b h = .ok (d', h')) : d.overwriteReached k c vals b h = (d', h') := by
  unfold DF.overwrite at e
  unfold DF.overwriteReached
  dsimp only at e ⊢
  generalize (if (tabCol (h.tab d.tab) (k, c)).len = 0 then
      if k = .obj ∧ b = true then d.withRaw (d.toRaw.allocStrings [c] h) else d.withRaw (d.toRaw.alloc k [c] h)
      else (d, h)) = p at e ⊢
  split at e
  · cases e
  · rename_i h1 e1
    cases e
    rw [overwriteReached_ok e1]

theorem revertReached_run {cd : Codec} {old new : Option Nat} {tab : Nat} {rows : List Nat} {cs : List GoStr} {h h' : Heap F}
    (e : revertCols cd old new tab rows cs h = .ok h') : revertReached cd old new tab rows cs h = h' := by
  induction cs generalizing h with
  | nil => cases e; rfl
  | cons c cs ih =>
    simp only [revertCols] at e
    simp only [revertReached]
    split at e
    · cases e
    · rename_i o h1 e1; rw [e1]; exact ih e

theorem encodeLoopReached_run {cd : Codec} {old new : Option Nat} {tab : Nat} {rows : List Nat} {cs done : List GoStr}
    {h h' : Heap F} {b : Bool} (e : encodeLoop cd old new tab rows cs done h = .ok (b, h')) :
    encodeLoopReached cd old new tab rows cs done h = h' := by
  induction cs generalizing done h with
  | nil => cases e; rfl
  | cons c cs ih =>
    simp only [encodeLoop] at e
    simp only [encodeLoopReached]
    split at e
    · cases e
    · rename_i h1 e1; rw [e1]; exact ih e
    · rename_i w h1 e1
      rw [e1]
      simp only
      split at e
      · cases e
      · rename_i o h2 e2
        rw [e2]
        simp only
        split at e
        · cases e
        · rename_i h3 e3
          cases e
          exact revertReached_run e3

/-- **C83**, the functions that follow `Overwrite*` and `Encode` up to their panics agree with them when they return: they
leave the same memory (for `Encode`: also when it returns an error and takes its changes back). -/
theorem C83_returns [GoFloat F] (d : DF) (h : Heap F) :
    (∀ k c vals b d' h', d.overwrite k c vals b h = .ok (d', h') →
      (Edit.overwrite k c vals b).reached d h = (d', h')) ∧
    (∀ cd new err d' h', d.enc ≠ new → d.encode cd new h = .ok ((err, d'), h') →
      ((Edit.encode cd new).reached d h).2 = h') := by
  refine ⟨fun k c vals b d' h' e => overwriteReached_run e, fun cd new err d' h' hne e => ?_⟩
  unfold DF.encode at e
  rw [if_neg hne] at e
  simp only [Edit.reached, DF.encodeReached]
  split at e
  · cases e
  · rename_i h1 e1; cases e; exact encodeLoopReached_run e1
  · rename_i h1 e1; cases e; exact encodeLoopReached_run e1

/-! ### examples -/

namespace Demo

/-- A run of calls whose panics are recovered from; the world and which calls panicked. -/
def runRec (w : World Int) : List (Call Int) → Option (World Int × List (Call Int × Bool))
  | [] => some (w, [])
  | c :: cs => match c.run w with
    | .error .panic => (runRec (c.reached w) cs).map fun p => (p.1, (c, true) :: p.2)
    | .error _ => none
    | .ok w' => (runRec w' cs).map fun p => (p.1, (c, false) :: p.2)

theorem histR_of_run {w w' : World Int} {cs : List (Call Int)} {cbs : List (Call Int × Bool)} (e : runRec w cs = some (w', cbs))
    (lg : ∀ c ∈ cs, ∀ w, c.Legal w ∧ c.Recoverable) : HistR w cbs w' := by
  induction cs generalizing w cbs with
  | nil => cases e; exact .nil _
  | cons c cs ih =>
    simp only [runRec] at e
    split at e
    · rename_i h1
      obtain ⟨p, e1, e2⟩ := Option.map_eq_some_iff.1 e
      cases e2
      exact .panicked (lg c (by simp) w).1 h1 (lg c (by simp) w).2 (ih (by rw [e1]) (fun c hc => lg c (by simp [hc])))
    · cases e
    · rename_i w1 h1
      obtain ⟨p, e1, e2⟩ := Option.map_eq_some_iff.1 e
      cases e2
      exact .ran (lg c (by simp) w).1 h1 (ih (by rw [e1]) (fun c hc => lg c (by simp [hc])))

/-- `Set` of a row that does not exist, `Rename` of a column that does not exist, and an `Encode` that meets an integer in a
string column all panic; the program goes on with a view of the dataframe. -/
def recCalls : List (Call Int) :=
  [.build ops, .edit 0 (.set .int b!"a" 9 (.int 1)), .edit 0 (.rename b!"zzz" b!"y"), .edit 0 (.set .obj b!"s" 1 (.int 5)),
   .edit 0 (.encode cd (some 1)), .indexView 0 [2, 7], .indexView 0 [2, 0]]

theorem recCalls_legal : ∀ c ∈ recCalls, ∀ w, c.Legal w ∧ c.Recoverable := by
  intro c hc w
  simp only [recCalls, List.mem_cons, List.not_mem_nil, or_false] at hc
  rcases hc with rfl | rfl | rfl | rfl | rfl | rfl | rfl <;> simp [Call.Legal, Edit.Legal, Call.Recoverable]

-- C83 applies to a history with four recovered panics, and after it to a failing `Rename`
example : ∃ (w : World Int) (cbs : List (Call Int × Bool)), HistR ⟨heap0, []⟩ cbs w ∧
    cbs.map Prod.snd = [false, true, true, false, true, true, false] ∧ w.dfs.length = 2 ∧
    (∀ d ∈ w.dfs, d.numRows ≤ d.mask.len) ∧ (Call.edit 0 (.rename b!"zzz" b!"y")).run w = .error .panic := by
  have key : (match runRec ⟨heap0, []⟩ recCalls with
      | none => false
      | some p => decide (p.2.map Prod.snd = [false, true, true, false, true, true, false] ∧ p.1.dfs.length = 2) &&
        (match (Call.edit 0 (.rename b!"zzz" b!"y")).run p.1 with | .error .panic => true | _ => false)) = true := by decide +kernel
  split at key
  · cases key
  · rename_i p hp
    simp only [Bool.and_eq_true, decide_eq_true_eq] at key
    obtain ⟨⟨k1, k2⟩, k3⟩ := key
    have hist := histR_of_run hp recCalls_legal
    refine ⟨p.1, p.2, hist, k1, k2, fun d hd => (C83_consistent hist d hd).2.2, ?_⟩
    split at k3
    · assumption
    · cases k3

-- `Overwrite` with two values for four rows: `C83_overwrite_existing` and `C83_overwrite_creates` apply
example : df.numRows = 4 ∧ ((abs h df).col .int b!"a").isSome ∧ (abs h df).col .int b!"n" = none ∧ (abs h df).hasColumn :=
  ⟨by decide, by decide, by decide, .int, b!"a", by decide⟩

/-- **C83**: a recovered `OverwriteInts(a, {70, 71})` on four rows has stored both values. -/
theorem C83_half_overwritten :
    df.overwrite .int b!"a" [.int 70, .int 71] false h = .error .panic ∧
    ∃ h' : Heap Int, (Edit.overwrite .int b!"a" [.int 70, .int 71] false).reached df h = (df, h') ∧
      (abs h df).col .int b!"a" ≠ (abs h' df).col .int b!"a" ∧
      (((abs h' df).col .int b!"a").getD []).take 2 = [some (.int 70), some (.int 71)] ∧
      (((abs h' df).col .int b!"a").getD []).drop 2 = (((abs h df).col .int b!"a").getD []).drop 2 := by
  refine ⟨C25_overwrite_short _ (by decide), _, rfl, ?_⟩
  decide +kernel

/-- **C83**: a recovered `Encode` has transcoded the strings before the integer, while the dataframe still records the old
encoding. -/
theorem C83_half_encoded : ∃ h1 h2 : Heap Int, df.set h .obj b!"s" 1 (.int 5) = .ok h1 ∧
    df.encode cd (some 1) h1 = .error .panic ∧ df.encodeReached cd (some 1) h1 = (df, h2) ∧ df.enc = none ∧
    (abs h1 df).col .obj b!"s" = some [some (.str b!"u"), some (.int 5), some (.str b!"u"), some .nil] ∧
    (abs h2 df).col .obj b!"s" = some [some (.str (1 :: b!"u")), some (.int 5), some (.str b!"u"), some .nil] := by
  have key : okAnd (df.set h .obj b!"s" 1 (.int 5)) (fun h1 =>
      (match df.encode cd (some 1) h1 with | .error .panic => true | _ => false) && decide (df.enc = none ∧
      (abs h1 df).col .obj b!"s" = some [some (.str b!"u"), some (.int 5), some (.str b!"u"), some .nil] ∧
      (abs (df.encodeReached cd (some 1) h1).2 df).col .obj b!"s" =
        some [some (.str (1 :: b!"u")), some (.int 5), some (.str b!"u"), some .nil])) = true := by decide +kernel
  obtain ⟨h1, e1, e2⟩ := okAnd_iff.1 key
  simp only [Bool.and_eq_true, decide_eq_true_eq] at e2
  obtain ⟨e2, e3, e4, e5⟩ := e2
  refine ⟨h1, _, e1, ?_, rfl, e3, e4, e5⟩
  split at e2
  · assumption
  · cases e2

end Demo

end Verif
