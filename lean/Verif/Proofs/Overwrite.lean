import Verif.Props.Writes
import Verif.Proofs.EditAbs

/-! `Overwrite*` as a sequence of `Set` calls. -/

namespace Verif
variable {F : Type}

theorem set_eq_write {d : DF} {h : Heap F} {k : Kind} {c : GoStr} {s : Slice} {i r : Nat} {v : Val F}
    (hs : AMap.get (h.tab d.tab) (k, c) = some s) (hr : d.rows[i]? = some r) :
    d.set h k c i v = h.write s r v := by
  unfold DF.set
  rw [hs]
  obtain ⟨hlt, hr⟩ := List.getElem?_eq_some_iff.1 hr
  have hlt' : i < d.idx.rows.length := hlt
  rw [Idx.at_ok (x := d.idx) (i := (i : Int)) (by omega) (by omega)]
  simp only [Int.toNat_natCast]
  simp only [DF.rows] at hr
  rw [hr]

/-- The loop of `Overwrite*` is a sequence of `Set` calls. -/
theorem overwriteLoop_eq {d : DF} {k : Kind} {c : GoStr} {s : Slice} (i : Nat) (vs : List (Val F)) (h : Heap F)
    (hs : AMap.get (h.tab d.tab) (k, c) = some s) (hl : (d.rows.drop i).length ≤ vs.length) :
    overwriteLoop s (d.rows.drop i) vs h = d.setRows k c i (vs.take (d.rows.drop i).length) h := by
  generalize hn : (d.rows.drop i) = rs at hl
  induction rs generalizing i vs h with
  | nil => simp [overwriteLoop, DF.setRows]
  | cons r rs ih =>
    cases vs with
    | nil => simp at hl
    | cons v vs =>
      simp only [List.length_cons, List.take_succ_cons, DF.setRows, overwriteLoop]
      have hr : d.rows[i]? = some r := by
        have := congrArg (fun l => l[0]?) hn
        simpa using this
      have hn' : d.rows.drop (i + 1) = rs := by
        rw [← List.tail_drop, hn]; rfl
      rw [set_eq_write hs hr]
      cases hw : h.write s r v with
      | error e => rfl
      | ok h1 =>
        simp only
        exact ih (i + 1) vs h1 (by rw [(write_tab hw).1]; exact hs) hn' (by simpa using hl)

theorem set_same {d : DF} {h h' : Heap F} {k : Kind} {c : GoStr} {i : Nat} {v : Val F}
    (e : d.set h k c i v = .ok h') : h'.tab = h.tab ∧ h'.hdr = h.hdr ∧ h'.msk = h.msk ∧ h'.next = h.next ∧
      (∀ j, (h'.arr j).length = (h.arr j).length) ∧ h'.rt = h.rt := by
  unfold DF.set at e
  split at e
  · cases e
  · split at e
    · cases e
    · obtain ⟨a, b, c, r, d⟩ := write_tab e
      refine ⟨a, b, c, d, ?_, r⟩
      unfold Heap.write at e
      split at e
      · cases e
        intro j; simp only [Heap.setArr]; split
        · subst j; simp
        · rfl
      · cases e

/-- No structure changes, arrays keep their lengths. -/
structure Quiet (h h' : Heap F) : Prop where
  tab : h'.tab = h.tab
  hdr : h'.hdr = h.hdr
  msk : h'.msk = h.msk
  next : h'.next = h.next
  len : ∀ j, (h'.arr j).length = (h.arr j).length
  rt : h'.rt = h.rt

theorem Quiet.refl (h : Heap F) : Quiet h h := ⟨rfl, rfl, rfl, rfl, fun _ => rfl, rfl⟩
theorem Quiet.trans {h1 h2 h3 : Heap F} (a : Quiet h1 h2) (b : Quiet h2 h3) : Quiet h1 h3 :=
  ⟨b.tab.trans a.tab, b.hdr.trans a.hdr, b.msk.trans a.msk, b.next.trans a.next,
    fun j => (b.len j).trans (a.len j), b.rt.trans a.rt⟩
theorem Quiet.safe {h h' : Heap F} (q : Quiet h h') : Safe h h' :=
  Safe.of_tab (by rw [q.next]; exact Nat.le_refl _) (fun i _ => q.len i)
    (fun i _ => by rw [q.msk]; exact Nat.le_refl _) (fun i _ => by rw [q.tab])
theorem Quiet.locs {h h' : Heap F} (q : Quiet h h') (d : DF) : locs h' d = locs h d := by
  refine ADF.ext' rfl ?_ ?_ rfl
  · intro k c; simp only [Verif.locs, q.tab]
  · intro c; simp only [Verif.locs]; unfold hdrList; rw [q.hdr]
theorem Quiet.cellOf {h h' : Heap F} (q : Quiet h h') (d : DF) (k c i) : cellOf h' d k c i = cellOf h d k c i := by
  unfold Verif.cellOf; rw [q.locs]

theorem set_quiet {d : DF} {h h' : Heap F} {k : Kind} {c : GoStr} {i : Nat} {v : Val F}
    (e : d.set h k c i v = .ok h') : Quiet h h' := by
  obtain ⟨a, b, c, d, f, r⟩ := set_same e; exact ⟨a, b, c, d, f, r⟩

theorem setRows_quiet {d : DF} {k : Kind} {c : GoStr} {i : Nat} {vs : List (Val F)} {h h' : Heap F}
    (e : d.setRows k c i vs h = .ok h') : Quiet h h' := by
  induction vs generalizing i h with
  | nil => simp [DF.setRows] at e; subst e; exact Quiet.refl _
  | cons v vs ih =>
    simp only [DF.setRows] at e
    split at e
    · cases e
    · rename_i h1 h2; exact (set_quiet h2).trans (ih e)

theorem setRows_ok {d : DF} {k : Kind} {c : GoStr} {i : Nat} {vs : List (Val F)} {h : Heap F} (wf : d.WF h)
    (hc : ((abs h d).col k c).isSome) (hl : i + vs.length ≤ d.numRows) :
    ∃ h', d.setRows k c i vs h = .ok h' := by
  induction vs generalizing i h with
  | nil => exact ⟨h, rfl⟩
  | cons v vs ih =>
    simp only [List.length_cons] at hl
    obtain ⟨h1, e1⟩ := (set_total wf k c (i : Int) v).2
      ⟨by omega, by show (i : Int) < (d.numRows : Int); omega, hc⟩
    have q := set_quiet e1
    obtain ⟨h', e2⟩ := ih (i := i + 1) (h := h1) (wf.safe q.safe)
      (by simpa [abs, q.tab] using hc) (by omega)
    exact ⟨h', by simp only [DF.setRows, e1, e2]⟩

/-- Cells not behind the rows written are unchanged. -/
theorem setRows_other {d : DF} {k : Kind} {c : GoStr} {i : Nat} {vs : List (Val F)} {h h' : Heap F} (wf : d.WF h)
    (e : d.setRows k c i vs h = .ok h') {d2 : DF} {k' : Kind} {c' : GoStr} {j : Nat}
    (hno : ∀ n, i ≤ n → n < i + vs.length → cellOf h d k c n = none ∨ cellOf h d2 k' c' j ≠ cellOf h d k c n) :
    d2.get h' k' c' j = d2.get h k' c' j := by
  induction vs generalizing i h with
  | nil => simp [DF.setRows] at e; subst e; rfl
  | cons v vs ih =>
    simp only [DF.setRows] at e
    split at e
    · cases e
    · rename_i h1 e1
      have q := set_quiet e1
      obtain ⟨l, hl, hall⟩ := C12_set_all_observers wf e1
      rw [ih (wf.safe q.safe) e (fun n h1' h2' => by
        rw [q.cellOf, q.cellOf]
        exact hno n (by omega) (by simp only [List.length_cons]; omega))]
      rw [(hall d2).2, if_neg]
      intro hx
      rcases hno i (Nat.le_refl _) (by simp) with h0 | h0
      · rw [hl] at h0; cases h0
      · rw [hl, hx] at h0; exact h0 rfl

theorem cellOf_eq {d : DF} {h : Heap F} (wf : d.WF h) {k : Kind} {c : GoStr} {s : Slice}
    (hs : AMap.get (h.tab d.tab) (k, c) = some s) {i : Nat} (hi : i < d.rows.length) :
    cellOf h d k c i = some (s.arr, s.off + d.rows[i]) := by
  have hlt : d.rows[i] < s.len := by
    obtain ⟨N, h1, h2, _⟩ := wf.rect
    rw [h1 _ _ hs]; exact h2 _ (List.getElem_mem _)
  simp [cellOf, locs, hs, List.getElem?_map, List.getElem?_eq_getElem hi, hlt]

/-- After writing the rows `i, i+1, ...` in order, a row reads the last value written to it. -/
theorem setRows_last {d : DF} {k : Kind} {c : GoStr} {i : Nat} {vs : List (Val F)} {h h' : Heap F} (wf : d.WF h)
    (e : d.setRows k c i vs h = .ok h') {a b : Nat} (hb : i ≤ b) (hb2 : b < i + vs.length)
    (hbn : b < d.rows.length) (han : a < d.rows.length) (hn : i + vs.length ≤ d.rows.length)
    (hab : d.rows[b] = d.rows[a])
    (hlast : ∀ n (hn' : n < d.rows.length), b < n → n < i + vs.length → d.rows[n] ≠ d.rows[a]) :
    d.get h' k c a = .ok (vs[b - i]'(by omega)) := by
  have hcol : ∃ s, AMap.get (h.tab d.tab) (k, c) = some s := by
    cases vs with
    | nil => simp at hb2; omega
    | cons v vs =>
      simp only [DF.setRows] at e
      split at e
      · cases e
      · rename_i h1 e1
        unfold DF.set at e1
        split at e1
        · cases e1
        · rename_i s hs; exact ⟨s, hs⟩
  obtain ⟨s, hs⟩ := hcol
  induction vs generalizing i h with
  | nil => simp at hb2; omega
  | cons v vs ih =>
    simp only [DF.setRows] at e
    simp only [List.length_cons] at hb2 hn hlast
    split at e
    · cases e
    · rename_i h1 e1
      have q := set_quiet e1
      have w1 := wf.safe q.safe
      by_cases hbi : b = i
      · subst hbi
        obtain ⟨l, hl, hall⟩ := C12_set_all_observers wf e1
        have hs1 : AMap.get (h1.tab d.tab) (k, c) = some s := by rw [q.tab]; exact hs
        rw [setRows_other w1 e (d2 := d) (k' := k) (c' := c) (j := a) (fun n hn1 hn2 => by
          right
          rw [cellOf_eq w1 hs1 han, cellOf_eq w1 hs1 (by omega : n < d.rows.length)]
          have := hlast n (by omega) (by omega) (by omega)
          intro hx
          simp only [Option.some.injEq, Prod.mk.injEq, true_and] at hx
          exact this (by omega))]
        have hl' := hl
        rw [cellOf_eq wf hs hbn] at hl'
        rw [(hall d).2, cellOf_eq wf hs han, ← hab, hl', if_pos rfl]
        simp
      · have := ih (i := i + 1) (h := h1) w1 e (by omega) (by omega) (by omega)
          (fun n hn' h1' h2' => hlast n hn' h1' (by omega)) (by rw [q.tab]; exact hs)
        rw [this]
        have hidx : b - i = (b - (i + 1)) + 1 := by omega
        simp only [hidx, List.getElem_cons_succ]

end Verif
