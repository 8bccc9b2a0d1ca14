import Verif.Proofs.Overwrite
import Verif.Proofs.Copy

/-! `RowConcat`, `ColumnConcatView`, `ColumnCopyConcat`: what the loops do. -/

namespace Verif
variable {F : Type}

/-- Only the column arrays in `A` change (and keep their lengths). -/
structure Only (A : Nat → Prop) (h h' : Heap F) : Prop extends Quiet h h' where
  arr : ∀ i, ¬ A i → h'.arr i = h.arr i

theorem Only.refl (A : Nat → Prop) (h : Heap F) : Only A h h := ⟨Quiet.refl h, fun _ _ => rfl⟩
theorem Only.trans {A : Nat → Prop} {h1 h2 h3 : Heap F} (a : Only A h1 h2) (b : Only A h2 h3) : Only A h1 h3 :=
  ⟨a.toQuiet.trans b.toQuiet, fun i hi => (b.arr i hi).trans (a.arr i hi)⟩
theorem Only.mono {A B : Nat → Prop} {h1 h2 : Heap F} (a : Only A h1 h2) (hAB : ∀ i, A i → B i) : Only B h1 h2 :=
  ⟨a.toQuiet, fun i hi => a.arr i (fun x => hi (hAB i x))⟩
theorem Only.ext {A : Nat → Prop} {h0 h h' : Heap F} (e : Heap.Ext h0 h) (o : Only A h h')
    (hA : ∀ i, A i → h0.next ≤ i) : Heap.Ext h0 h' :=
  ⟨by rw [o.next]; exact e.next_le, fun i hi => by rw [o.arr i (fun x => by have := hA i x; omega)]; exact e.arr i hi,
    fun i hi => by rw [o.tab]; exact e.tab i hi, fun i hi => by rw [o.hdr]; exact e.hdr i hi,
    fun i hi => by rw [o.msk]; exact e.msk i hi⟩
theorem Only.valid {A : Nat → Prop} {h h' : Heap F} (o : Only A h h') {s : Slice} (v : s.Valid h) : s.Valid h' :=
  v.of_len (by rw [o.next]; exact Nat.le_refl _) (fun i _ => o.len i)
theorem Only.cell {A : Nat → Prop} {h h' : Heap F} (o : Only A h h') {s : Slice} (hs : s.len = 0 ∨ ¬ A s.arr) :
    h'.cell s = h.cell s := Heap.cell_congr (hs.imp id (o.arr _))

theorem write_only {h h' : Heap F} {s : Slice} {i : Nat} {v : Val F} (e : h.write s i v = .ok h') :
    Only (· = s.arr) h h' := by
  obtain ⟨a, b, c, d, n⟩ := write_tab e
  unfold Heap.write at e
  split at e
  · cases e
    refine ⟨⟨a, b, c, n, fun j => ?_, d⟩, fun i hi => ?_⟩
    · simp only [Heap.setArr]; split
      · subst j; simp
      · rfl
    · simp only [Heap.setArr]; rw [if_neg hi]
  · cases e

theorem write_cell_same {h h' : Heap F} {s : Slice} {i : Nat} {v : Val F} (hv : s.Valid h)
    (e : h.write s i v = .ok h') (j : Nat) : h'.cell s j = if j = i then some v else h.cell s j := by
  unfold Heap.write at e
  split at e
  · rename_i hi
    cases e
    obtain ⟨v1, v2⟩ := hv
    have hlen : s.off + s.cap ≤ (h.arr s.arr).length := by rcases v2 with h0 | h0 <;> omega
    unfold Heap.cell
    simp only [Heap.setArr, if_true]
    by_cases hj : j < s.len
    · rw [if_pos hj, if_pos hj, List.getElem?_set]
      by_cases hji : j = i
      · subst hji; simp; omega
      · rw [if_neg (by omega), if_neg hji]
    · rw [if_neg hj, if_neg hj, if_neg (by omega)]
  · cases e

/-- concat.go:43-45. -/
theorem copyRows_spec (src dst : Slice) (off : Nat) (rows : List Nat) (h : Heap F) (hs : src.Valid h)
    (hd : dst.Valid h) (hr : ∀ i ∈ rows, i < src.len) (hne : src.len ≠ 0 → src.arr ≠ dst.arr)
    (hb : off + rows.length ≤ dst.len) :
    ∃ h', copyRows src dst off rows h = .ok h' ∧ Only (· = dst.arr) h h' ∧
      ∀ j, h'.cell dst j = if off ≤ j ∧ j < off + rows.length then (rows[j - off]?).bind (h.cell src) else h.cell dst j := by
  induction rows generalizing off h with
  | nil => exact ⟨h, rfl, Only.refl _ _, fun j => by rw [if_neg]; simp⟩
  | cons i is ih =>
    simp only [List.length_cons] at hb
    obtain ⟨x, hx⟩ := hs.cell_some (hr i (by simp))
    have hw : ∃ h1, h.write dst off x = .ok h1 := by
      unfold Heap.write; rw [if_pos (by omega)]; exact ⟨_, rfl⟩
    obtain ⟨h1, e1⟩ := hw
    have o1 := write_only e1
    have hne' := hne (by have := hr i (by simp); omega)
    have hc1 : h1.cell src = h.cell src := o1.cell (Or.inr (fun e => hne' e))
    obtain ⟨h', e', o', c'⟩ := ih (off + 1) h1 (o1.valid hs) (o1.valid hd) (fun j hj => hr j (by simp [hj])) (by omega)
    refine ⟨h', by simp only [copyRows, hx, e1, e'], o1.trans o', fun j => ?_⟩
    rw [c' j, hc1, write_cell_same hd e1 j]
    simp only [List.length_cons]
    by_cases h1 : off + 1 ≤ j ∧ j < off + 1 + is.length
    · rw [if_pos h1, if_pos (by omega)]
      have : j - off = (j - (off + 1)) + 1 := by omega
      rw [this, List.getElem?_cons_succ]
    · rw [if_neg h1]
      by_cases hj : j = off
      · subst hj
        rw [if_pos rfl, if_pos (by omega)]
        simp [hx]
      · rw [if_neg hj, if_neg (by omega)]

/-- concat.go:41-76: one dataframe. -/
theorem concatCols_spec (srcTab : Table) (rows : List Nat) (off n : Nat) (t : Table) (h : Heap F)
    (hdst : ∀ e ∈ t, e.2.Valid h ∧ e.2.len = n) (hp : t.Pairwise (fun a b => a.2.arr ≠ b.2.arr))
    (hsrc : ∀ q s, AMap.get srcTab q = some s → s.Valid h ∧ (∀ i ∈ rows, i < s.len) ∧
      ∀ e ∈ t, s.len ≠ 0 → s.arr ≠ e.2.arr) (hb : off + rows.length ≤ n) :
    (∃ h', concatCols srcTab rows off t h = .ok (some h') ∧ (∀ e ∈ t, (AMap.get srcTab e.1).isSome) ∧
      Only (fun i => ∃ e ∈ t, e.2.arr = i) h h' ∧
      ∀ e ∈ t, ∀ s, AMap.get srcTab e.1 = some s → ∀ j, h'.cell e.2 j =
        if off ≤ j ∧ j < off + rows.length then (rows[j - off]?).bind (h.cell s) else h.cell e.2 j) ∨
    (concatCols srcTab rows off t h = .ok none ∧ ∃ e ∈ t, AMap.get srcTab e.1 = none) := by
  induction t generalizing h with
  | nil => exact Or.inl ⟨h, rfl, by simp, Only.refl _ _, by simp⟩
  | cons e t ih =>
    obtain ⟨k, dst⟩ := e
    obtain ⟨hp1, hp2⟩ := List.pairwise_cons.1 hp
    cases hg : AMap.get srcTab k with
    | none => right; exact ⟨by simp only [concatCols, hg], (k, dst), by simp, hg⟩
    | some s =>
      obtain ⟨hsv, hsr, hsa⟩ := hsrc k s hg
      obtain ⟨hdv, hdn⟩ := hdst (k, dst) (by simp)
      obtain ⟨h1, e1, o1, c1⟩ := copyRows_spec s dst off rows h hsv hdv hsr (hsa (k, dst) (by simp))
        (by simp only at hdn; omega)
      have hih := ih h1 (fun e he => ⟨o1.valid (hdst e (by simp [he])).1, (hdst e (by simp [he])).2⟩) hp2
        (fun q s hq => ⟨o1.valid (hsrc q s hq).1, (hsrc q s hq).2.1, fun e he => (hsrc q s hq).2.2 e (by simp [he])⟩)
      rcases hih with ⟨h', e2, ha, o2, c2⟩ | ⟨e2, ex⟩
      · left
        refine ⟨h', by simp only [concatCols, hg, e1, e2], ?_, ?_, ?_⟩
        · intro e he
          rcases List.mem_cons.1 he with rfl | he
          · simp [hg]
          · exact ha e he
        · refine (o1.mono ?_).trans (o2.mono ?_)
          · rintro i rfl; exact ⟨(k, dst), by simp, rfl⟩
          · rintro i ⟨e, he, rfl⟩; exact ⟨e, by simp [he], rfl⟩
        · intro e he s' hs' j
          rcases List.mem_cons.1 he with rfl | he
          · rw [hg] at hs'; cases hs'
            rw [o2.cell (Or.inr ?_), c1 j]
            rintro ⟨e', he', h0⟩
            exact hp1 e' he' h0.symm
          · rw [c2 e he s' hs' j]
            rw [o1.cell (s := e.2) (Or.inr (fun h0 => hp1 e he h0.symm))]
            have : rows.length = 0 ∨ h1.cell s' = h.cell s' := by
              by_cases hl : rows.length = 0
              · exact Or.inl hl
              · right
                apply o1.cell
                right
                obtain ⟨hv', hr', ha'⟩ := hsrc _ _ hs'
                intro h0
                apply ha' (k, dst) (by simp) _ h0
                cases rows with
                | nil => simp at hl
                | cons r rs => have := hr' r (by simp); omega
            rcases this with h0 | h0
            · rw [if_neg (by omega), if_neg (by omega)]
            · rw [h0]
      · right
        obtain ⟨e, he, hn⟩ := ex
        exact ⟨by simp only [concatCols, hg, e1, e2], e, by simp [he], hn⟩

theorem hdrAnd_one (h : Heap F) (o o' : Option Nat) (ho : ∀ i, o = some i → i < h.next)
    (ho' : ∀ i, o' = some i → i < h.next) :
    (∃ i, (hdrAnd h o [o']).1 = some i ∧ i < (hdrAnd h o [o']).2.next ∧ (o = some i ∨ o = none ∧ h.next ≤ i)) ∧
    (∀ x, x ∈ hdrList (hdrAnd h o [o']).2 (hdrAnd h o [o']).1 ↔ x ∈ hdrList h o ∨ x ∈ hdrList h o') ∧
    Heap.Frame Nope Nope (fun i => o = some i) Nope h (hdrAnd h o [o']).2 ∧
    (hdrAnd h o [o']).2.tab = h.tab ∧ (hdrAnd h o [o']).2.arr = h.arr ∧ (hdrAnd h o [o']).2.msk = h.msk ∧
    (hdrAnd h o [o']).2.rt = h.rt := by
  cases o with
  | none =>
    refine ⟨⟨h.next, rfl, ?_, Or.inr ⟨rfl, Nat.le_refl _⟩⟩, ?_, ?_, rfl, rfl, rfl, rfl⟩
    · show h.next < h.next + 1; omega
    · intro x
      have : hdrList (h.newHdr []).2 o' = hdrList h o' := hdrList_ext (Heap.newHdr_ext h []) ho'
      simp only [hdrAnd, List.foldl_cons, List.foldl_nil, this]
      simp [hdrList, Heap.newHdr, mem_sinsertAll]
    · simp only [hdrAnd, List.foldl_cons, List.foldl_nil]
      have e1 := Heap.newHdr_ext h []
      refine (e1.toFrame (A := Nope) (T := Nope) (H := fun i => (none : Option Nat) = some i) (M := Nope)).trans
        (Heap.setHdr_frame (A := Nope) (T := Nope) (M := Nope) _ h.next _) (fun _ _ => id) (fun _ _ => id) ?_ (fun _ _ => id)
      intro i hi (hx : i = h.next); omega
  | some i =>
    refine ⟨⟨i, rfl, ho i rfl, Or.inl rfl⟩, ?_, ?_, rfl, rfl, rfl, rfl⟩
    · intro x
      simp [hdrAnd, hdrList, mem_sinsertAll]
    · simp only [hdrAnd, List.foldl_cons, List.foldl_nil]
      exact (Heap.setHdr_frame (A := Nope) (T := Nope) (M := Nope) h i _).mono (fun _ _ => id) (fun _ _ => id)
        (fun j _ (hx : j = i) => by rw [hx]) (fun _ _ => id)

/-- The cells of the column `q` of several dataframes, one after the other. -/
def colCat (h : Heap F) (q : Key) (ds : List DF) : List (Option (Val F)) :=
  ds.flatMap fun d => ((abs h d).col q.1 q.2).getD []

theorem colCat_length {h : Heap F} {q : Key} {ds : List DF} (hd : ∀ d ∈ ds, ((abs h d).col q.1 q.2).isSome) :
    (colCat h q ds).length = (ds.map DF.numRows).sum := by
  induction ds with
  | nil => rfl
  | cons d ds ih =>
    simp only [colCat, List.flatMap_cons, List.length_append, List.map_cons, List.sum_cons]
    rw [← ih (fun d hd' => hd d (by simp [hd']))]
    obtain ⟨l, hl⟩ := Option.isSome_iff_exists.1 (hd d (by simp))
    simp only [hl, Option.getD_some, colCat]
    simp only [abs, Option.map_eq_some_iff] at hl
    obtain ⟨s, _, rfl⟩ := hl
    simp [DF.numRows]

/-- concat.go:37-78. -/
theorem concatLoop_spec {h0 : Heap F} (res : DF) (n : Nat) (t : Table) (ds : List DF) (off : Nat) (st : Option Nat)
    (h : Heap F) (e0 : Heap.Ext h0 h) (htab : h.tab res.tab = t)
    (wfs : ∀ d ∈ ds, d.WF h0) (hdst : ∀ e ∈ t, e.2.Valid h ∧ e.2.len = n ∧ h0.next ≤ e.2.arr)
    (hp : t.Pairwise (fun a b => a.2.arr ≠ b.2.arr))
    (hst : ∀ i, st = some i → h0.next ≤ i ∧ i < h.next) (hb : off + (ds.map DF.numRows).sum ≤ n) :
    (∃ st' h', concatLoop res ds off st h = .ok (some (st', h')) ∧
      (∀ d ∈ ds, ∀ e ∈ t, ((abs h0 d).col e.1.1 e.1.2).isSome) ∧
      Heap.Ext h0 h' ∧ h'.tab = h.tab ∧ h'.msk = h.msk ∧ h'.rt = h.rt ∧ (∀ i, i < h.next → (h'.arr i).length = (h.arr i).length) ∧
      h.next ≤ h'.next ∧
      (∀ i, st' = some i → h0.next ≤ i ∧ i < h'.next) ∧ (ds ≠ [] → st'.isSome) ∧
      (∀ x, x ∈ hdrList h' st' ↔ x ∈ hdrList h st ∨ ∃ d ∈ ds, (abs h0 d).isStr x = true) ∧
      ∀ e ∈ t, ∀ j, h'.cell e.2 j = if off ≤ j ∧ j < off + (ds.map DF.numRows).sum
        then ((colCat h0 e.1 ds)[j - off]?).join else h.cell e.2 j) ∨
    (concatLoop res ds off st h = .ok none ∧ ∃ d ∈ ds, ∃ e ∈ t, (abs h0 d).col e.1.1 e.1.2 = none) := by
  induction ds generalizing off st h with
  | nil =>
    left
    refine ⟨st, h, rfl, by simp, e0, rfl, rfl, rfl, fun _ _ => rfl, Nat.le_refl _, hst, by simp, by simp, ?_⟩
    intro e he j
    rw [if_neg]; simp
  | cons d ds ih =>
    have wd := wfs d (by simp)
    simp only [List.map_cons, List.sum_cons] at hb
    have hd_str : ∀ i, d.strHdr = some i → i < h.next := fun i hi => Nat.lt_of_lt_of_le (wd.str_lt i hi) e0.next_le
    obtain ⟨⟨i1, hi1, hi1lt, hi1o⟩, hmem, hf, ht, ha, hm, hrt⟩ := hdrAnd_one h st d.strHdr (fun i hi => (hst i hi).2) hd_str
    simp only [concatLoop]
    generalize hdrAnd h st [d.strHdr] = p at hi1 hi1lt hmem hf ht ha hm hrt
    obtain ⟨st1, h1⟩ := p
    simp only at hi1 hi1lt hmem hf ht ha hm hrt ⊢
    have hn1 : h.next ≤ h1.next := hf.next_le
    have e1 : Heap.Ext h0 h1 := by
      have f1 := (e0.toFrame (A := Nope) (T := Nope) (H := Nope) (M := Nope)).trans hf (fun _ _ => id) (fun _ _ => id)
        (fun i hi (hx : st = some i) => by have := (hst i hx).1; omega) (fun _ _ => id)
      exact f1.toExt
    have htd : h1.tab d.tab = h0.tab d.tab := e1.tab _ wd.tab_lt
    obtain ⟨N, tok, hrows, _⟩ := wd.tabOK
    have hcell1 : ∀ s, h1.cell s = h.cell s := fun s => Heap.cell_congr (Or.inr (by rw [ha]))
    have hdv : ∀ e ∈ t, e.2.Valid h1 ∧ e.2.len = n := fun e he =>
      ⟨(hdst e he).1.of_len hn1 (fun i _ => by rw [ha]), (hdst e he).2.1⟩
    have hcc := concatCols_spec (h1.tab d.tab) d.rows off n (h1.tab res.tab) h1 (by rw [ht, htab]; exact hdv)
      (by rw [ht, htab]; exact hp) (by
        intro q s hq
        rw [htd] at hq
        obtain ⟨v1, v2⟩ := tok.slices q s hq
        refine ⟨v1.ext e1, by rw [v2]; exact hrows, ?_⟩
        intro e he hl h0'
        rw [ht, htab] at he
        have := (hdst e he).2.2
        rcases v1.2 with hc | hc
        · have := v1.1; omega
        · omega) (by have : d.rows.length = d.numRows := rfl; omega)
    rw [ht, htab] at hcc
    rw [ht, htab]
    have htd' : h.tab d.tab = h0.tab d.tab := by rw [← ht]; exact htd
    rcases hcc with ⟨h2, e2, hsome, o2, c2⟩ | ⟨e2, e, he, hn⟩
    · rw [e2]
      simp only
      have e02 : Heap.Ext h0 h2 := Only.ext e1 o2 (by rintro i ⟨e, he, rfl⟩; exact (hdst e he).2.2)
      have hih := ih (off + d.numRows) st1 h2 e02 (by rw [o2.tab, ht, htab]) (fun d hd => wfs d (by simp [hd]))
        (fun e he => ⟨o2.valid (hdv e he).1, (hdv e he).2, (hdst e he).2.2⟩)
        (fun i hi => by
          rw [hi1] at hi; cases hi
          refine ⟨?_, by rw [o2.next]; exact hi1lt⟩
          rcases hi1o with hx | ⟨_, hx⟩
          · exact (hst _ hx).1
          · have := e0.next_le; omega) (by omega)
      rcases hih with ⟨st', h', e3, hs3, x3, t3, m3, r3, l3, n3, st3, ss3, mem3, c3⟩ | ⟨e3, d', hd', e, he, hn⟩
      · left
        refine ⟨st', h', e3, ?_, x3, ?_, by rw [m3, o2.msk, hm], by rw [r3, o2.rt, hrt], ?_, ?_, st3, ?_, ?_, ?_⟩
        · intro d' hd' e he
          rcases List.mem_cons.1 hd' with rfl | hd'
          · have := hsome e he
            rw [htd'] at this
            simpa [abs] using this
          · exact hs3 d' hd' e he
        · rw [t3, o2.tab, ht]
        · intro i hi
          rw [l3 i (by rw [o2.next]; omega), o2.len, ha]
        · rw [o2.next] at n3; omega
        · intro _
          by_cases hds : ds = []
          · subst hds
            simp only [concatLoop] at e3
            cases e3
            simp [hi1]
          · exact ss3 hds
        · intro x
          rw [mem3]
          have hx2 : hdrList h2 st1 = hdrList h1 st1 := by
            rw [hi1]; simp only [hdrList]; rw [o2.hdr]
          rw [hx2, hmem, hdrList_ext e0 wd.str_lt]
          simp only [List.mem_cons, exists_eq_or_imp]
          have : (abs h0 d).isStr x = true ↔ x ∈ hdrList h0 d.strHdr := by simp [abs]
          rw [this, or_assoc]
        · intro e he j
          rw [c3 e he j]
          simp only [List.map_cons, List.sum_cons]
          obtain ⟨s, hs⟩ := Option.isSome_iff_exists.1 (hsome e he)
          rw [c2 e he s hs j]
          rw [htd'] at hs
          have hcol : (abs h0 d).col e.1.1 e.1.2 = some (d.rows.map (h0.cell s)) := by
            simp only [abs]; rw [hs]; rfl
          have hcs : h1.cell s = h0.cell s := Heap.cell_congr ((wd.slices _ s hs).arr_eq e1)
          have hcat : colCat h0 e.1 (d :: ds) = d.rows.map (h0.cell s) ++ colCat h0 e.1 ds := by
            simp only [colCat, List.flatMap_cons, hcol, Option.getD_some]
          rw [hcat]
          have hlen : (d.rows.map (h0.cell s)).length = d.numRows := by simp [DF.numRows]
          have hlen' : d.rows.length = d.numRows := rfl
          by_cases hj1 : off + d.numRows ≤ j ∧ j < off + d.numRows + (ds.map DF.numRows).sum
          · rw [if_pos hj1, if_pos (by omega), List.getElem?_append_right (by omega), hlen]
            congr 2; omega
          · rw [if_neg hj1]
            by_cases hj2 : off ≤ j ∧ j < off + d.numRows
            · rw [if_pos (by omega), if_pos (by omega), List.getElem?_append_left (by omega), hcs, List.getElem?_map]
              cases d.rows[j - off]? <;> rfl
            · rw [if_neg (by omega), if_neg (by omega), hcell1]
      · right
        exact ⟨e3, d', by simp [hd'], e, he, hn⟩
    · right
      rw [e2]
      refine ⟨rfl, d, by simp, e, he, ?_⟩
      rw [htd'] at hn
      simp [abs, hn]

end Verif
