import Verif.Proofs.Builder

/-! `Safe h h'`: going from `h` to `h'` keeps every consistent dataframe consistent. -/

namespace Verif
variable {F : Type}

/-- All the columns of a table exist and have length `N`. -/
structure TabOK (h : Heap F) (t : Nat) (N : Nat) : Prop where
  keys : (AMap.keys (h.tab t)).Nodup
  slices : ∀ k s, AMap.get (h.tab t) k = some s → s.Valid h ∧ s.len = N

structure Safe (h h' : Heap F) : Prop where
  next_le : h.next ≤ h'.next
  arr : ∀ i, i < h.next → (h'.arr i).length = (h.arr i).length
  msk : ∀ i, i < h.next → (h.msk i).length ≤ (h'.msk i).length
  tab : ∀ i, i < h.next → ∀ N, TabOK h i N → TabOK h' i N

theorem Slice.Valid.of_len {h h' : Heap F} {s : Slice} (v : s.Valid h) (hn : h.next ≤ h'.next)
    (ha : ∀ i, i < h.next → (h'.arr i).length = (h.arr i).length) : s.Valid h' :=
  ⟨v.1, v.2.imp id fun ⟨h1, h2⟩ => ⟨by omega, by rw [ha _ h1]; exact h2⟩⟩

theorem Safe.valid {h h' : Heap F} (e : Safe h h') {s : Slice} (v : s.Valid h) : s.Valid h' :=
  v.of_len e.next_le e.arr

theorem Safe.refl (h : Heap F) : Safe h h :=
  ⟨Nat.le_refl _, fun _ _ => rfl, fun _ _ => Nat.le_refl _, fun _ _ _ => id⟩

theorem Safe.trans {h1 h2 h3 : Heap F} (a : Safe h1 h2) (b : Safe h2 h3) : Safe h1 h3 where
  next_le := Nat.le_trans a.next_le b.next_le
  arr i hi := (b.arr i (Nat.lt_of_lt_of_le hi a.next_le)).trans (a.arr i hi)
  msk i hi := Nat.le_trans (a.msk i hi) (b.msk i (Nat.lt_of_lt_of_le hi a.next_le))
  tab i hi N t := b.tab i (Nat.lt_of_lt_of_le hi a.next_le) N (a.tab i hi N t)

/-- Tables are untouched and arrays keep their lengths. -/
theorem Safe.of_tab {h h' : Heap F} (hn : h.next ≤ h'.next)
    (ha : ∀ i, i < h.next → (h'.arr i).length = (h.arr i).length)
    (hm : ∀ i, i < h.next → (h.msk i).length ≤ (h'.msk i).length)
    (ht : ∀ i, i < h.next → h'.tab i = h.tab i) : Safe h h' where
  next_le := hn
  arr := ha
  msk := hm
  tab i hi N t := ⟨by rw [ht i hi]; exact t.keys, fun k s hk => by
    rw [ht i hi] at hk
    exact ⟨(t.slices k s hk).1.of_len hn ha, (t.slices k s hk).2⟩⟩

theorem Safe.ext {h h' : Heap F} (e : Heap.Ext h h') : Safe h h' :=
  Safe.of_tab e.next_le (fun i hi => by rw [e.arr i hi]) (fun i hi => by rw [e.msk i hi]; exact Nat.le_refl _)
    e.tab

/-- Only headers change. -/
theorem Safe.hdrs {H} {h h' : Heap F} (e : Heap.Frame Nope Nope H Nope h h') : Safe h h' :=
  Safe.of_tab e.next_le (fun i hi => by rw [e.arr i hi id]) (fun i hi => by rw [e.msk i hi id]; exact Nat.le_refl _)
    (fun i hi => e.tab i hi id)

theorem DF.WF.tabOK {h : Heap F} {d : DF} (wf : d.WF h) :
    ∃ N, TabOK h d.tab N ∧ (∀ i ∈ d.rows, i < N) ∧ (d.indexViewed = false → d.rows = List.range N) := by
  obtain ⟨N, h1, h2, h3⟩ := wf.rect
  exact ⟨N, ⟨wf.keys, fun k s hk => ⟨wf.slices k s hk, h1 k s hk⟩⟩, h2, h3⟩

theorem DF.WF.of_tabOK {h : Heap F} {d : DF} {N : Nat} (t : TabOK h d.tab N)
    (h1 : d.tab < h.next) (h2 : ∀ i, d.shared = some i → i < h.next)
    (h3 : ∀ i, d.strHdr = some i → i < h.next) (h4 : d.idx.len ≤ d.idx.data.length)
    (h5 : ∀ i ∈ d.rows, i < N) (h6 : d.indexViewed = false → d.rows = List.range N) : d.WF h :=
  ⟨⟨h1, h2, h3, t.keys, fun k s hk => (t.slices k s hk).1⟩, h4, N, fun k s hk => (t.slices k s hk).2, h5, h6⟩

theorem DF.WF.safe {h h' : Heap F} {d : DF} (wf : d.WF h) (e : Safe h h') : d.WF h' := by
  obtain ⟨N, t, h2, h3⟩ := wf.tabOK
  have hn := e.next_le
  exact DF.WF.of_tabOK (e.tab _ wf.tab_lt N t) (Nat.lt_of_lt_of_le wf.tab_lt hn)
    (fun i hi => Nat.lt_of_lt_of_le (wf.shared_lt i hi) hn) (fun i hi => Nat.lt_of_lt_of_le (wf.str_lt i hi) hn)
    wf.idx_len h2 h3

theorem DF.MaskWF.safe {h h' : Heap F} {d : DF} (m : d.MaskWF h) (e : Safe h h') : d.MaskWF h' where
  len_ge := m.len_ge
  len_le := m.len_le
  valid := m.valid.imp id fun ⟨h1, h2⟩ => ⟨Nat.lt_of_lt_of_le h1 e.next_le, Nat.le_trans h2 (e.msk _ h1)⟩

/-- Mask arrays only grow or keep their length when a mask is extended. -/
theorem appendMask_safe (h : Heap F) (s : Slice) (n : Nat) :
    Safe h (h.appendMask s n).2 := by
  unfold Heap.appendMask
  split
  · rename_i hc
    refine Safe.of_tab (Nat.le_refl _) (fun _ _ => rfl) ?_ (fun _ _ => rfl)
    intro i hi
    simp only [Heap.setMsk]
    split
    · subst i
      simp only [List.length_append, List.length_take, List.length_drop, List.length_replicate]
      omega
    · exact Nat.le_refl _
  · exact Safe.ext (Heap.newMsk_ext ..)

theorem appendMask_len (h : Heap F) (s : Slice) (n : Nat)
    (hl : s.len ≤ s.cap) (v : s.cap = 0 ∨ s.arr < h.next ∧ s.off + s.cap ≤ (h.msk s.arr).length) :
    (h.appendMask s n).1.len = s.len + n ∧ (h.appendMask s n).1.len ≤ (h.appendMask s n).1.cap ∧
    ((h.appendMask s n).1.cap = 0 ∨ (h.appendMask s n).1.arr < (h.appendMask s n).2.next ∧
      (h.appendMask s n).1.off + (h.appendMask s n).1.cap ≤
        ((h.appendMask s n).2.msk (h.appendMask s n).1.arr).length) := by
  unfold Heap.appendMask
  split
  · rename_i hc
    refine ⟨rfl, hc, ?_⟩
    rcases v with v | ⟨v1, v2⟩
    · exact Or.inl v
    · right
      refine ⟨v1, ?_⟩
      simp only [Heap.setMsk, if_true, List.length_append, List.length_take, List.length_drop,
        List.length_replicate]
      omega
  · have : (h.readMask s).length = s.len := by
      unfold Heap.readMask
      simp only [List.length_take, List.length_drop]
      rcases v with v | ⟨_, v2⟩ <;> omega
    simp only [Heap.newMsk, List.length_append, List.length_replicate, this]
    exact ⟨trivial, by omega, Or.inr ⟨by omega, by simp [this]; omega⟩⟩

/-! ### one-step summary used by the state machine -/

/-- `v` in `h'` was made from `d` in `h` by one library call: everything stays consistent, and the
headers of `v` are `d`'s or new. -/
structure StepOK (h : Heap F) (d : DF) (h' : Heap F) (v : DF) : Prop where
  safe : Safe h h'
  wf : v.WF h'
  mwf : v.MaskWF h'
  sh : ∀ i, v.shared = some i → d.shared = some i ∨ h.next ≤ i
  st : ∀ i, v.strHdr = some i → d.strHdr = some i ∨ h.next ≤ i
  sep : (∀ i, d.shared = some i → d.strHdr ≠ some i) → ∀ i, v.shared = some i → v.strHdr ≠ some i

/-- A view over the same headers. -/
theorem StepOK.of_view {h h' : Heap F} {d v : DF} (e : Safe h h') (wf : v.WF h')
    (m : v.MaskWF h') (hs : v.shared = d.shared) (ht : v.strHdr = d.strHdr) : StepOK h d h' v :=
  ⟨e, wf, m, fun i hi => Or.inl (hs ▸ hi), fun i hi => Or.inl (ht ▸ hi), fun s i hi => by
    rw [ht]; exact s i (hs ▸ hi)⟩

theorem indexView_step {df : DF} {h : Heap F} (wf : df.WF h) (mwf : df.MaskWF h) {is : List Int}
    (hi : ∀ i ∈ is, 0 ≤ i ∧ i < df.numRows) :
    ∃ v h', df.indexView is h = .ok (v, h') ∧ RowView h df h' v (is.map Int.toNat) ∧
      StepOK h df h' v ∧ v.idx = Idx.mk' (pick df.rows (is.map Int.toNat)) ∧
      v.toRaw = { df.toRaw with sharedMaps := true } ∧ v.indexViewed = true ∧
      v.mThreadSafe = df.mThreadSafe := by
  obtain ⟨v, h', he, fr, h1, h2, h3, ht, hidx, hv, hts, hm⟩ := indexView_spec df h is hi
  obtain ⟨v', h'', he', r, _⟩ := indexView_rowView wf hi
  rw [he] at he'
  cases he'
  refine ⟨v, h', he, r, ?_, hidx, ht, hv, hts⟩
  have hn : v.numRows = is.length := by simpa using r.numRows
  rcases hm with ⟨hle, hm, hh⟩ | ⟨hlt, hm⟩
  · subst hh
    refine StepOK.of_view (Safe.refl _) r.wf ⟨?_, ?_, ?_⟩ (by rw [ht]) (by rw [ht])
    · rw [hn, hm]; have := mwf.len_ge; omega
    · rw [hm]; exact mwf.len_le
    · rw [hm]; exact mwf.valid
  · have hs := appendMask_safe h df.mask (is.length - df.numRows)
    have hl := appendMask_len h df.mask (is.length - df.numRows) mwf.len_le mwf.valid
    rw [← hm] at hs hl
    obtain ⟨l1, l2, l3⟩ := hl
    refine StepOK.of_view hs r.wf ⟨?_, l2, l3⟩ (by rw [ht]) (by rw [ht])
    rw [hn]; simp only at l1; rw [l1]; have := mwf.len_ge; omega

theorem maskView_step {df : DF} {h : Heap F} (wf : df.WF h) (mwf : df.MaskWF h) {m : List Bool} {v : DF}
    (he : df.maskView m = .ok v) : StepOK h df h v := by
  have hin : ∀ i ∈ truePos m, i < df.numRows := by
    intro i hi
    refine Classical.byContradiction fun hn => ?_
    rw [maskView_err ⟨i, hi, hn⟩] at he; cases he
  obtain ⟨v', he', r, hm⟩ := maskView_rowView wf hin
  rw [he] at he'; cases he'
  have hraw : v.shared = df.shared ∧ v.strHdr = df.strHdr := by
    unfold DF.maskView at he
    split at he
    · cases he
    · cases he; exact ⟨rfl, rfl⟩
  refine StepOK.of_view (Safe.refl _) r.wf ⟨?_, by rw [hm]; exact mwf.len_le, by rw [hm]; exact mwf.valid⟩
    hraw.1 hraw.2
  rw [r.numRows, hm]
  have hnd : (truePos m).Nodup := List.Nodup.sublist List.filter_sublist List.nodup_range
  have : (truePos m).length ≤ df.numRows := by
    have hsub : ∀ x ∈ truePos m, x ∈ List.range df.numRows := fun x hx => by simpa using hin x hx
    have := List.Nodup.length_le_of_subset hnd hsub
    simpa using this
  have := mwf.len_ge
  omega

theorem view_step {df : DF} {h : Heap F} (wf : df.WF h) (mwf : df.MaskWF h) : StepOK h df h df.view :=
  StepOK.of_view (Safe.refl _) (view_wf wf) ⟨mwf.len_ge, mwf.len_le, mwf.valid⟩ rfl rfl

theorem reverseView_step {df : DF} {h : Heap F} (wf : df.WF h) (mwf : df.MaskWF h) :
    StepOK h df h df.reverseView := by
  have r := reverseView_rowView wf (df := df) (h := h)
  refine StepOK.of_view (Safe.refl _) r.wf ⟨?_, mwf.len_le, mwf.valid⟩ rfl rfl
  have := r.numRows
  simp at this
  rw [this]; exact mwf.len_ge

theorem cut_step {df : DF} {h : Heap F} (wf : df.WF h) (mwf : df.MaskWF h) (hsm : df.sharedMaps = true)
    {a b : Int} (ha : 0 ≤ a) (hab : a ≤ b) (hb : b ≤ df.numRows) :
    ∃ v h', df.cut a b h = .ok (v, h') ∧ RowView h df h' v (rowRange a.toNat b.toNat) ∧
      StepOK h df h' v ∧ Heap.Ext h h' := by
  obtain ⟨v, h', he, r, ext, hm, hmsk, _⟩ := cut_rowView wf hsm ha hab hb
  refine ⟨v, h', he, r, ?_, ext⟩
  have mw : v.MaskWF h' := by
    refine ⟨?_, by rw [hm]; exact mwf.len_le, ?_⟩
    · rw [r.numRows, hm]; have := mwf.len_ge; simp [rowRange]; omega
    · rw [hm, hmsk]; exact mwf.valid.imp id fun ⟨x, y⟩ => ⟨Nat.lt_of_lt_of_le x ext.next_le, y⟩
  -- the headers
  unfold DF.cut at he
  simp only at he
  split at he
  · split at he
    · cases he
    · cases he; exact StepOK.of_view (Safe.ext ext) r.wf mw rfl rfl
  · have sp := own_spec wf.toWF
    generalize hraw : df.toRaw.own h = p at sp he
    obtain ⟨raw, h1⟩ := p
    simp only at sp he
    split at he
    · cases he
    · split at he
      · cases he
      · cases he
        have hfr := sp.fresh hsm
        have key : ∀ (H : Heap F) (cs : List GoStr), h.next ≤ H.next → ∀ i, (hdrAddEach H raw.shared cs).1 = some i → h.next ≤ i := by
          intro H cs hH i hi
          rcases hdrAddEach_fst _ _ _ hi with hx | ⟨_, hx, _⟩
          · exact hfr.2.1 i hx
          · omega
        rename_i t hh hmc _
        have hH : h.next ≤ (hh.setTab raw.tab t).next := by
          have hl : ∀ (t : Table) (g g' : Heap F) t', mapCols (resliceCol a b) t g = .ok (t', g') → g' = g := by
            intro t
            induction t with
            | nil => intro g g' t' hx; simp [mapCols] at hx; exact hx.2.symm
            | cons e t ih =>
              intro g g' t' hx
              obtain ⟨k, s⟩ := e
              simp only [mapCols, resliceCol] at hx
              cases hr : s.reslice a b with
              | error e => rw [hr] at hx; cases hx
              | ok s' =>
                rw [hr] at hx
                simp only at hx
                cases hm2 : mapCols (resliceCol a b) t g with
                | error e => rw [hm2] at hx; cases hx
                | ok q =>
                  obtain ⟨t2, g2⟩ := q
                  rw [hm2] at hx
                  simp only [Except.ok.injEq, Prod.mk.injEq] at hx
                  rw [← hx.2]; exact ih g g2 t2 hm2
          have := hl _ _ _ _ hmc
          subst this
          exact sp.ext.next_le
        refine ⟨Safe.ext ext, r.wf, mw, fun i hi => Or.inr (key _ _ hH i hi), ?_, ?_⟩
        · intro i hi; left; show df.strHdr = some i; rw [← sp.str]; exact hi
        · intro _ i hi he2
          have h1 := key _ _ hH i hi
          have h2 := wf.str_lt i (by rw [← sp.str]; exact he2)
          omega

end Verif
