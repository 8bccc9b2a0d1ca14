import Verif.Proofs.Copy

/-! What the structural edits show. -/

namespace Verif
variable {F : Type}

theorem hdrList_ext {h h' : Heap F} (e : Heap.Ext h h') {o : Option Nat} (ho : ∀ i, o = some i → i < h.next) :
    hdrList h' o = hdrList h o := by
  cases o with
  | none => rfl
  | some i => exact e.hdr i (ho i rfl)

/-- Reallocating the maps shows nothing. -/
theorem own_abs {d : DF} {h : Heap F} (wf : d.WF h) :
    abs (d.toRaw.own h).2 { d with toRaw := (d.toRaw.own h).1 } = abs h d ∧
    locs (d.toRaw.own h).2 { d with toRaw := (d.toRaw.own h).1 } = locs h d ∧
    DF.WF (d.toRaw.own h).2 { d with toRaw := (d.toRaw.own h).1 } := by
  have sp := own_spec wf.toWF
  generalize d.toRaw.own h = p at sp
  obtain ⟨r, h1⟩ := p
  simp only at sp ⊢
  have hl : locs h1 { d with toRaw := r } = locs h d := by
    refine ADF.ext' rfl ?_ ?_ sp.enc
    · intro k c
      show Option.map _ (AMap.get (h1.tab r.tab) (k, c)) = _
      rw [sp.tab]; rfl
    · intro c
      show decide (c ∈ hdrList h1 r.strHdr) = _
      rw [sp.str, hdrList_ext sp.ext wf.str_lt]; rfl
  refine ⟨?_, hl, ⟨sp.wf, wf.idx_len, ?_⟩⟩
  · rw [abs_eq_locs, hl, abs_eq_locs h d]
    have : h1.at = h.at := by funext l; simp [Heap.at, sp.arr]
    rw [this]
  · show ∃ N, (∀ k s, AMap.get (h1.tab r.tab) k = some s → s.len = N) ∧ _
    rw [sp.tab]; exact wf.rect

theorem rows_read {h : Heap F} {s : Slice} {rows : List Nat} {xs : List (Val F)} (hr : h.read s = xs) :
    rows.map (h.cell s) = rows.map (fun i => xs[i]?) := by
  congr 1; funext i; rw [Heap.cell_eq_read, hr]

theorem rows_replicate {h : Heap F} {s : Slice} {rows : List Nat} {n : Nat} {x : Val F}
    (hr : h.read s = List.replicate n x) (hn : ∀ i ∈ rows, i < n) :
    rows.map (h.cell s) = List.replicate rows.length (some x) := by
  rw [rows_read hr]
  apply List.ext_getElem
  · simp
  · intro i h1 h2
    simp only [List.length_map] at h1
    have := hn rows[i] (List.getElem_mem _)
    simp [List.getElem?_replicate, this]

theorem DF.WF.numAllocated {h : Heap F} {d : DF} (wf : d.WF h) (hne : h.tab d.tab ≠ []) {N : Nat}
    (hN : ∀ k s, AMap.get (h.tab d.tab) k = some s → s.len = N) : numAllocatedRows (h.tab d.tab) = N :=
  numAllocatedRows_of_len (fun e hm => hN e.1 e.2 (AMap.get_of_mem wf.keys hm)) hne

theorem DF.WF.rect_ne {h : Heap F} {d : DF} (wf : d.WF h) (hne : h.tab d.tab ≠ []) :
    TabOK h d.tab (numAllocatedRows (h.tab d.tab)) ∧ (∀ i ∈ d.rows, i < numAllocatedRows (h.tab d.tab)) ∧
      (d.indexViewed = false → d.rows = List.range (numAllocatedRows (h.tab d.tab))) := by
  obtain ⟨N, t, h2, h3⟩ := wf.tabOK
  have := wf.numAllocated hne (fun k s hk => (t.slices k s hk).2)
  rw [this]; exact ⟨t, h2, h3⟩

/-! ### alloc -/

theorem allocLoop_abs [GoFloat F] {d : DF} {h : Heap F} (wf : d.WF h) (hne : h.tab d.tab ≠ []) (k : Kind)
    (cols : List GoStr) :
    abs (allocLoop k (numAllocatedRows (h.tab d.tab)) d.tab cols h) d = (abs h d).allocCols k cols ∧
    d.WF (allocLoop k (numAllocatedRows (h.tab d.tab)) d.tab cols h) ∧
    Safe h (allocLoop k (numAllocatedRows (h.tab d.tab)) d.tab cols h) := by
  obtain ⟨tok, h2, h3⟩ := wf.rect_ne hne
  generalize hN : numAllocatedRows (h.tab d.tab) = N at tok h2 h3 ⊢
  have sp := allocLoop_spec k N d.tab cols h
  generalize allocLoop k N d.tab cols h = h' at sp
  have hsafe : Safe h h' := Safe.of_table sp.frame (fun _ M tM => by
    refine sp.tabOK tM (fun _ => ?_)
    have : numAllocatedRows (h.tab d.tab) = M :=
      wf.numAllocated hne (fun k s hk => (tM.slices k s hk).2)
    omega)
  refine ⟨?_, wf.safe hsafe, hsafe⟩
  refine ADF.ext' rfl ?_ ?_ rfl
  · intro k' c
    show (AMap.get (h'.tab d.tab) (k', c)).map _ = if k' = k ∧ c ∈ cols then _ else (abs h d).col k' c
    split
    · rename_i hc
      obtain ⟨rfl, hc⟩ := hc
      obtain ⟨s, g1, g2, g3, g4, g5⟩ := sp.new c hc
      rw [g1]
      simp only [Option.map_some, Option.some.injEq]
      exact rows_replicate g5 h2
    · rename_i hc
      rw [sp.old (k', c) hc]
      simp only [abs]
      cases hg : AMap.get (h.tab d.tab) (k', c) with
      | none => rfl
      | some s =>
        simp only [Option.map_some, Option.some.injEq]
        rw [Heap.cell_congr ((tok.slices _ _ hg).1.arr_eq_frame sp.frame (Or.inr id))]
  · intro c
    show decide (c ∈ hdrList h' d.strHdr) = decide (c ∈ hdrList h d.strHdr)
    have : hdrList h' d.strHdr = hdrList h d.strHdr := by
      unfold hdrList; rw [sp.hdr]
    rw [this]

theorem alloc_abs [GoFloat F] {d : DF} {h : Heap F} (wf : d.WF h) (hne : h.tab d.tab ≠ []) (k : Kind)
    (cols : List GoStr) :
    abs (d.toRaw.alloc k cols h).2 { d with toRaw := (d.toRaw.alloc k cols h).1 } = (abs h d).allocCols k cols ∧
    DF.WF (d.toRaw.alloc k cols h).2 { d with toRaw := (d.toRaw.alloc k cols h).1 } ∧
    Safe h (d.toRaw.alloc k cols h).2 := by
  unfold Raw.alloc
  by_cases hc : cols = []
  · subst hc
    simp only [if_true, allocLoop, List.foldl_nil]
    refine ⟨?_, wf, Safe.refl _⟩
    refine ADF.ext' rfl ?_ (fun _ => rfl) rfl
    intro k' c
    simp [ADF.allocCols]
  · simp only [if_neg hc]
    have sp := own_spec wf.toWF
    obtain ⟨ha, _, hw⟩ := own_abs wf
    generalize d.toRaw.own h = p at sp ha hw
    obtain ⟨r, h1⟩ := p
    simp only at sp ha hw ⊢
    have hne1 : h1.tab r.tab ≠ [] := by rw [sp.tab]; exact hne
    obtain ⟨ga, gw, gs⟩ := allocLoop_abs (d := { d with toRaw := r }) hw hne1 k cols
    exact ⟨by rw [← ha]; exact ga, gw, (Safe.ext sp.ext).trans gs⟩

theorem hdrAddEach_str_abs {d : DF} {h : Heap F} (wf : d.WF h) (cols : List GoStr) :
    abs (hdrAddEach h d.strHdr cols).2 { d with strHdr := (hdrAddEach h d.strHdr cols).1 } = (abs h d).markCols cols ∧
    DF.WF (hdrAddEach h d.strHdr cols).2 { d with strHdr := (hdrAddEach h d.strHdr cols).1 } ∧
    Safe h (hdrAddEach h d.strHdr cols).2 := by
  have hs : Safe h (hdrAddEach h d.strHdr cols).2 := Safe.hdrs (hdrAddEach_frame ..)
  have ht := hdrAddEach_tab h d.strHdr cols
  have ha := hdrAddEach_arr h d.strHdr cols
  refine ⟨?_, ?_, hs⟩
  · refine ADF.ext' rfl ?_ ?_ rfl
    · intro k c
      simp only [abs, ht, ADF.markCols]
      congr 1; funext s; congr 1; unfold Heap.cell; rw [ha]
    · intro c
      simp only [abs, ADF.markCols]
      have hm := hdrAddEach_mem h d.strHdr cols c
      show decide (c ∈ hdrList (hdrAddEach h d.strHdr cols).2 (hdrAddEach h d.strHdr cols).1) = _
      rw [Bool.eq_iff_iff]
      simp only [decide_eq_true_eq, Bool.or_eq_true, hm]
      exact Or.comm
  · have w := wf.safe hs
    refine ⟨⟨w.tab_lt, w.shared_lt, hdrAddEach_lt wf.str_lt cols, w.keys, w.slices⟩, w.idx_len, w.rect⟩

theorem allocStrings_abs [GoFloat F] {d : DF} {h : Heap F} (wf : d.WF h) (hne : h.tab d.tab ≠ [])
    (cols : List GoStr) :
    abs (d.toRaw.allocStrings cols h).2 { d with toRaw := (d.toRaw.allocStrings cols h).1 } =
      ((abs h d).allocCols .obj cols).markCols cols ∧
    DF.WF (d.toRaw.allocStrings cols h).2 { d with toRaw := (d.toRaw.allocStrings cols h).1 } ∧
    Safe h (d.toRaw.allocStrings cols h).2 := by
  unfold Raw.allocStrings
  have h0 : abs (if cols = [] then (d.toRaw, h) else d.toRaw.own h).2
        { d with toRaw := (if cols = [] then (d.toRaw, h) else d.toRaw.own h).1 } = abs h d ∧
      DF.WF (if cols = [] then (d.toRaw, h) else d.toRaw.own h).2
        { d with toRaw := (if cols = [] then (d.toRaw, h) else d.toRaw.own h).1 } ∧
      (if cols = [] then (d.toRaw, h) else d.toRaw.own h).2.tab (if cols = [] then (d.toRaw, h) else d.toRaw.own h).1.tab = h.tab d.tab ∧
      Safe h (if cols = [] then (d.toRaw, h) else d.toRaw.own h).2 := by
    split
    · exact ⟨rfl, wf, rfl, Safe.refl _⟩
    · have sp := own_spec wf.toWF
      obtain ⟨ha, _, hw⟩ := own_abs wf
      exact ⟨ha, hw, sp.tab, Safe.ext sp.ext⟩
  generalize (if cols = [] then (d.toRaw, h) else d.toRaw.own h) = p at h0
  obtain ⟨r, h1⟩ := p
  simp only at h0 ⊢
  obtain ⟨ha, hw, ht, hs⟩ := h0
  obtain ⟨ga, gw, gs⟩ := alloc_abs (d := { d with toRaw := r }) hw (by show h1.tab r.tab ≠ []; rw [ht]; exact hne) .obj cols
  simp only at ga gw gs
  generalize r.alloc .obj cols h1 = p at ga gw gs
  obtain ⟨r2, h2⟩ := p
  simp only at ga gw gs ⊢
  obtain ⟨ka, kw, ks⟩ := hdrAddEach_str_abs (d := { d with toRaw := r2 }) gw cols
  simp only at ka kw ks
  refine ⟨?_, kw, (hs.trans gs).trans ks⟩
  rw [← ha, ← ga, ← ka]

/-! ### conversions -/

theorem convLoop_abs {d : DF} {h : Heap F} (wf : d.WF h) (kOld kErase : Kind) (f : Val F → Val F)
    (cols : List GoStr) (hne : kErase ≠ .float) (hnd : cols.Nodup)
    (hcol : ∀ c ∈ cols, ((abs h d).col kOld c).isSome) :
    abs (convLoop kOld kErase f d.tab cols h) d = (abs h d).convCols kOld kErase f cols ∧
    d.WF (convLoop kOld kErase f d.tab cols h) ∧ Safe h (convLoop kOld kErase f d.tab cols h) := by
  obtain ⟨N, tok, h2, h3⟩ := wf.tabOK
  have sp := convLoop_spec kOld kErase f d.tab cols h hne hnd wf.tab_lt (fun c hc => by
    have := hcol c hc
    simp only [abs, Option.isSome_map] at this
    obtain ⟨s, hs⟩ := Option.isSome_iff_exists.1 this
    exact ⟨s, hs, wf.slices _ _ hs⟩)
  generalize convLoop kOld kErase f d.tab cols h = h' at sp
  have hsafe : Safe h h' := Safe.of_table sp.frame (fun _ M tM => sp.tabOK tM)
  refine ⟨?_, wf.safe hsafe, hsafe⟩
  refine ADF.ext' rfl ?_ ?_ rfl
  · intro k c
    show (AMap.get (h'.tab d.tab) (k, c)).map _ = _
    simp only [ADF.convCols]
    split
    · rename_i hc
      obtain ⟨hc, rfl⟩ := hc
      obtain ⟨s, g1, g2, g3, s0, g4, g5, g6⟩ := sp.new c hc
      rw [g1]
      simp only [abs, g4, Option.map_some, Option.some.injEq]
      rw [rows_read g6]
      simp only [List.map_map]
      congr 1
      funext i
      simp [Heap.cell_eq_read]
    · rename_i hc
      split
      · rename_i hc2
        obtain ⟨hc2, rfl⟩ := hc2
        rw [sp.erased c hc2]; rfl
      · rename_i hc2
        rw [sp.old (k, c) (by rintro ⟨h1 | h1, h2⟩; exact hc ⟨h2, h1⟩; exact hc2 ⟨h2, h1⟩)]
        simp only [abs]
        cases hg : AMap.get (h.tab d.tab) (k, c) with
        | none => rfl
        | some s =>
          simp only [Option.map_some, Option.some.injEq]
          rw [Heap.cell_congr ((tok.slices _ _ hg).1.arr_eq_frame sp.frame (Or.inr id))]
  · intro c
    show decide (c ∈ hdrList h' d.strHdr) = decide (c ∈ hdrList h d.strHdr)
    have : hdrList h' d.strHdr = hdrList h d.strHdr := by
      unfold hdrList; rw [sp.hdr]
    rw [this]

theorem conv_abs {d : DF} {h : Heap F} (wf : d.WF h) (kOld kErase : Kind) (f : Val F → Val F)
    (cols : List GoStr) (hne : kErase ≠ .float) (hnd : cols.Nodup)
    (hcol : ∀ c ∈ cols, ((abs h d).col kOld c).isSome) :
    abs (convLoop kOld kErase f (d.toRaw.own h).1.tab cols (d.toRaw.own h).2) { d with toRaw := (d.toRaw.own h).1 } =
      (abs h d).convCols kOld kErase f cols ∧
    DF.WF (convLoop kOld kErase f (d.toRaw.own h).1.tab cols (d.toRaw.own h).2) { d with toRaw := (d.toRaw.own h).1 } ∧
    Safe h (convLoop kOld kErase f (d.toRaw.own h).1.tab cols (d.toRaw.own h).2) := by
  have sp := own_spec wf.toWF
  obtain ⟨ha, _, hw⟩ := own_abs wf
  generalize d.toRaw.own h = p at sp ha hw
  obtain ⟨r, h1⟩ := p
  simp only at sp ha hw ⊢
  obtain ⟨ga, gw, gs⟩ := convLoop_abs (d := { d with toRaw := r }) hw kOld kErase f cols hne hnd (by rw [ha]; exact hcol)
  exact ⟨by rw [← ha]; exact ga, gw, (Safe.ext sp.ext).trans gs⟩

/-! ### drop -/

theorem drop_step {d : DF} {h : Heap F} (wf : d.WF h) (c : GoStr)
    (sep : ∀ i, d.shared = some i → d.strHdr ≠ some i) :
    abs (d.toRaw.drop [c] h) d = (abs h d).dropCols [c] ∧ d.WF (d.toRaw.drop [c] h) ∧
      Safe h (d.toRaw.drop [c] h) ∧ locs (d.toRaw.drop [c] h) d = (locs h d).dropCols [c] := by
  have f := Foot.drop wf.toWF [c]
  have hd : d.toRaw.drop [c] h = (hdrRemove (hdrRemove h d.shared [c]) d.strHdr [c]).setTab d.tab
      (tabEraseName (h.tab d.tab) c) := by
    simp only [Raw.drop, List.foldl_cons, List.foldl_nil, hdrRemove_tab]
  have ht : (d.toRaw.drop [c] h).tab d.tab = tabEraseName (h.tab d.tab) c := by rw [hd]; simp
  have hnx : (d.toRaw.drop [c] h).next = h.next := by rw [hd]; simp [hdrRemove_next]
  have harr : (d.toRaw.drop [c] h).arr = h.arr := by rw [hd]; simp [hdrRemove_arr]
  have hmsk : (d.toRaw.drop [c] h).msk = h.msk := by rw [hd]; simp [hdrRemove_msk]
  have hsafe : Safe h (d.toRaw.drop [c] h) := by
    refine ⟨by omega, fun i hi => by rw [harr], fun i hi => by rw [hmsk]; exact Nat.le_refl _, ?_⟩
    intro i hi N tok
    by_cases hid : i = d.tab
    · subst hid
      refine ⟨by rw [ht]; exact AMap.nodup_filter tok.keys _, ?_⟩
      intro k s hk
      rw [ht, get_tabEraseName] at hk
      split at hk
      · cases hk
      · exact ⟨(tok.slices k s hk).1.of_len (by omega) (fun j _ => by rw [harr]), (tok.slices k s hk).2⟩
    · have : (d.toRaw.drop [c] h).tab i = h.tab i := f.frame.tab i hi hid
      refine ⟨by rw [this]; exact tok.keys, fun k s hk => ?_⟩
      rw [this] at hk
      exact ⟨(tok.slices k s hk).1.of_len (by omega) (fun j _ => by rw [harr]), (tok.slices k s hk).2⟩
  have hstr : ∀ x, x ∈ hdrList (d.toRaw.drop [c] h) d.strHdr ↔ x ∈ hdrList h d.strHdr ∧ x ∉ [c] := by
    intro x
    have : hdrList (d.toRaw.drop [c] h) d.strHdr = hdrList (hdrRemove (hdrRemove h d.shared [c]) d.strHdr [c]) d.strHdr := by
      rw [hd]; rfl
    rw [this, hdrRemove_mem]
    have h2 : hdrList (hdrRemove h d.shared [c]) d.strHdr = hdrList h d.strHdr :=
      hdrList_frame (hdrRemove_frame (A := Nope) (T := Nope) (M := Nope) h d.shared [c])
        (fun i hi => ⟨wf.str_lt i hi, fun hs => sep i hs hi⟩)
    rw [h2]
  refine ⟨?_, wf.safe hsafe, hsafe, ?_⟩
  · refine ADF.ext' rfl ?_ ?_ rfl
    · intro k x
      simp only [abs, ADF.dropCols, ht, get_tabEraseName, List.mem_singleton]
      split
      · rfl
      · congr 1; funext s; congr 1; unfold Heap.cell; rw [harr]
    · intro x
      simp only [abs, ADF.dropCols]
      rw [Bool.eq_iff_iff]
      simp only [decide_eq_true_eq, Bool.and_eq_true, Bool.not_eq_true', decide_eq_false_iff_not, hstr]
      exact And.comm
  · refine ADF.ext' rfl ?_ ?_ rfl
    · intro k x
      simp only [locs, ADF.dropCols, ht, get_tabEraseName, List.mem_singleton]
      split <;> rfl
    · intro x
      simp only [locs, ADF.dropCols]
      rw [Bool.eq_iff_iff]
      simp only [decide_eq_true_eq, Bool.and_eq_true, Bool.not_eq_true', decide_eq_false_iff_not, hstr]
      exact And.comm

theorem dropCols_cons {C : Type} (a : ADF C) (c : GoStr) (cs : List GoStr) :
    (a.dropCols [c]).dropCols cs = a.dropCols (c :: cs) := by
  refine ADF.ext' rfl ?_ ?_ rfl
  · intro k x
    simp only [ADF.dropCols, List.mem_cons, List.not_mem_nil, or_false]
    by_cases h1 : x ∈ cs <;> by_cases h2 : x = c <;> simp [h1, h2]
  · intro x
    simp only [ADF.dropCols, List.mem_cons, List.not_mem_nil, or_false]
    by_cases h1 : x ∈ cs <;> by_cases h2 : x = c <;> simp [h1, h2]

theorem drop_abs {d : DF} {h : Heap F} (wf : d.WF h) (cols : List GoStr)
    (sep : ∀ i, d.shared = some i → d.strHdr ≠ some i) :
    abs (d.toRaw.drop cols h) d = (abs h d).dropCols cols ∧ d.WF (d.toRaw.drop cols h) ∧
      Safe h (d.toRaw.drop cols h) ∧ locs (d.toRaw.drop cols h) d = (locs h d).dropCols cols := by
  induction cols generalizing h with
  | nil =>
    refine ⟨?_, wf, Safe.refl _, ?_⟩ <;> refine ADF.ext' rfl ?_ ?_ rfl <;> simp [ADF.dropCols, Raw.drop]
  | cons c cs ih =>
    have hstep : d.toRaw.drop (c :: cs) h = d.toRaw.drop cs (d.toRaw.drop [c] h) := rfl
    obtain ⟨a1, w1, s1, l1⟩ := drop_step wf c sep
    obtain ⟨a2, w2, s2, l2⟩ := ih w1
    rw [hstep]
    exact ⟨by rw [a2, a1, dropCols_cons], w2, s1.trans s2, by rw [l2, l1, dropCols_cons]⟩

/-! ### rename -/

theorem renameKind_none {t : Table} {c : GoStr} : renameKind t c = none ↔ ∀ k, AMap.get t (k, c) = none := by
  unfold renameKind
  constructor
  · intro h k
    split at h <;> try cases h
    split at h <;> try cases h
    split at h <;> try cases h
    split at h <;> try cases h
    cases k <;> simp_all
  · intro h
    simp [h]

theorem renameKind_some {t : Table} {c : GoStr} {k : Kind} (h : renameKind t c = some k) :
    ∃ s, AMap.get t (k, c) = some s := by
  unfold renameKind at h
  split at h
  · cases h; exact Option.isSome_iff_exists.1 (by assumption)
  · split at h
    · cases h; exact Option.isSome_iff_exists.1 (by assumption)
    · split at h
      · cases h; exact Option.isSome_iff_exists.1 (by assumption)
      · split at h
        · cases h; exact Option.isSome_iff_exists.1 (by assumption)
        · cases h

theorem renameKind_eq {t : Table} {c : GoStr} {k : Kind} {s : Slice} (hk : AMap.get t (k, c) = some s)
    (hu : ∀ k', k' ≠ k → AMap.get t (k', c) = none) : renameKind t c = some k := by
  unfold renameKind
  cases k <;> simp [hk, hu]


/-- Changing the `shared` header shows nothing. -/
theorem shared_abs {d : DF} {h h1 : Heap F} (wf : d.WF h) (sep : ∀ i, d.shared = some i → d.strHdr ≠ some i)
    (f : Heap.Frame Nope Nope (fun i => d.shared = some i) Nope h h1) (ha : h1.arr = h.arr) {sh : Option Nat}
    (hsh : ∀ i, sh = some i → i < h1.next) :
    abs h1 { d with shared := sh } = abs h d ∧ locs h1 { d with shared := sh } = locs h d ∧
      DF.WF h1 { d with shared := sh } ∧ Safe h h1 := by
  have hs : Safe h h1 := Safe.hdrs f
  have ht : h1.tab d.tab = h.tab d.tab := f.tab _ wf.tab_lt id
  have hstr : hdrList h1 d.strHdr = hdrList h d.strHdr :=
    hdrList_frame f (fun i hi => ⟨wf.str_lt i hi, fun x => sep i x hi⟩)
  have w := wf.safe hs
  refine ⟨?_, ?_, ⟨⟨w.tab_lt, hsh, w.str_lt, w.keys, w.slices⟩, w.idx_len, w.rect⟩, hs⟩
  · refine ADF.ext' rfl ?_ ?_ rfl
    · intro k c
      simp only [abs, ht]
      congr 1; funext s; congr 1; unfold Heap.cell; rw [ha]
    · intro c
      simp only [abs, hstr]
  · refine ADF.ext' rfl ?_ ?_ rfl
    · intro k c
      simp only [locs, ht]; rfl
    · intro c
      simp only [locs, hstr]

/-- Replacing the string header. -/
theorem str_abs {d : DF} {h h1 : Heap F} (wf : d.WF h)
    (f : Heap.Frame Nope Nope (fun i => d.strHdr = some i) Nope h h1) (ha : h1.arr = h.arr) {st : Option Nat}
    (hst : ∀ i, st = some i → i < h1.next) :
    abs h1 { d with strHdr := st } = { abs h d with isStr := fun c => decide (c ∈ hdrList h1 st) } ∧
    locs h1 { d with strHdr := st } = { locs h d with isStr := fun c => decide (c ∈ hdrList h1 st) } ∧
      DF.WF h1 { d with strHdr := st } ∧ Safe h h1 := by
  have hs : Safe h h1 := Safe.hdrs f
  have ht : h1.tab d.tab = h.tab d.tab := f.tab _ wf.tab_lt id
  have w := wf.safe hs
  refine ⟨?_, ?_, ⟨⟨w.tab_lt, w.shared_lt, hst, w.keys, w.slices⟩, w.idx_len, w.rect⟩, hs⟩
  · refine ADF.ext' rfl ?_ ?_ rfl
    · intro k c
      simp only [abs, ht]
      congr 1; funext s; congr 1; unfold Heap.cell; rw [ha]
    · intro c; rfl
  · refine ADF.ext' rfl ?_ ?_ rfl
    · intro k c
      simp only [locs, ht]; rfl
    · intro c; rfl

theorem rename_abs {d : DF} {h : Heap F} (wf : d.WF h) (old new : GoStr)
    (sep : ∀ i, d.shared = some i → d.strHdr ≠ some i) {k : Kind} (hk : renameKind (h.tab d.tab) old = some k) :
    ∃ r' h', d.toRaw.rename old new h = .ok (r', h') ∧
      abs h' { d with toRaw := r' } = (abs h d).renameCol k old new ∧
      locs h' { d with toRaw := r' } = (locs h d).renameCol k old new ∧
      DF.WF h' { d with toRaw := r' } ∧ Safe h h' := by
  have sp := own_spec wf.toWF
  obtain ⟨ha, hl, hw⟩ := own_abs wf
  have hsep1 : ∀ i, (d.toRaw.own h).1.shared = some i → (d.toRaw.own h).1.strHdr ≠ some i := by
    intro i hi
    rw [sp.str]
    cases hs : d.sharedMaps
    · rw [(sp.same hs).1] at hi; exact sep i hi
    · intro hx
      have := (sp.fresh hs).2.1 i hi
      have := wf.str_lt i hx
      omega
  unfold Raw.rename
  simp only
  generalize d.toRaw.own h = p at sp ha hl hw hsep1
  obtain ⟨r, h1⟩ := p
  simp only at sp ha hl hw hsep1 ⊢
  rw [sp.tab, hk]
  obtain ⟨s, hs⟩ := renameKind_some hk
  simp only [hs]
  -- the table
  have hget : ∀ q, AMap.get (AMap.erase (AMap.set (h.tab d.tab) (k, new) s) (k, old)) q =
      if (k, old) = q then none else if (k, new) = q then some s else AMap.get (h.tab d.tab) q := by
    intro q; rw [AMap.get_erase, AMap.get_set]
  generalize hT : AMap.erase (AMap.set (h.tab d.tab) (k, new) s) (k, old) = T at hget
  have hTk : (AMap.keys T).Nodup := by rw [← hT]; exact AMap.nodup_erase (AMap.nodup_set wf.keys _ _) _
  have hsafe2 : Safe h1 (h1.setTab r.tab T) := by
    refine Safe.of_table (t := r.tab) (Heap.setTab_frame (H := Nope) h1 r.tab T) (fun _ N tok => ⟨by rw [Heap.setTab_tab]; exact hTk, ?_⟩)
    intro q x hx
    have ts := tok.slices
    rw [sp.tab] at ts
    rw [Heap.setTab_tab, hget] at hx
    split at hx
    · cases hx
    · split at hx
      · cases hx; exact ts _ _ hs
      · exact ts _ _ hx
  have hw2 := hw.safe hsafe2
  have ha2 : abs (h1.setTab r.tab T) { d with toRaw := r } =
      { (abs h d).renameCol k old new with isStr := (abs h d).isStr } := by
    rw [← ha]
    refine ADF.ext' rfl ?_ ?_ rfl
    · intro k' c
      simp only [abs, Heap.setTab_tab, hget, ADF.renameCol, Prod.mk.injEq, sp.tab]
      by_cases h1' : k' = k ∧ c = old
      · rw [if_pos h1', if_pos ⟨h1'.1.symm, h1'.2.symm⟩]; rfl
      · rw [if_neg h1', if_neg (fun x => h1' ⟨x.1.symm, x.2.symm⟩)]
        by_cases h2' : k' = k ∧ c = new
        · rw [if_pos h2', if_pos ⟨h2'.1.symm, h2'.2.symm⟩, hs]; rfl
        · rw [if_neg h2', if_neg (fun x => h2' ⟨x.1.symm, x.2.symm⟩)]; rfl
    · intro c; rfl
  have hl2 : locs (h1.setTab r.tab T) { d with toRaw := r } =
      { (locs h d).renameCol k old new with isStr := (locs h d).isStr } := by
    rw [← hl]
    refine ADF.ext' rfl ?_ ?_ rfl
    · intro k' c
      simp only [locs, Heap.setTab_tab, hget, ADF.renameCol, Prod.mk.injEq, sp.tab]
      by_cases h1' : k' = k ∧ c = old
      · rw [if_pos h1', if_pos ⟨h1'.1.symm, h1'.2.symm⟩]; rfl
      · rw [if_neg h1', if_neg (fun x => h1' ⟨x.1.symm, x.2.symm⟩)]
        by_cases h2' : k' = k ∧ c = new
        · rw [if_pos h2', if_pos ⟨h2'.1.symm, h2'.2.symm⟩, hs]
        · rw [if_neg h2', if_neg (fun x => h2' ⟨x.1.symm, x.2.symm⟩)]
    · intro c; rfl
  have hcontains : hdrContains (h1.setTab r.tab T) r.strHdr old = (abs h d).isStr old := by
    unfold hdrContains
    have : hdrList (h1.setTab r.tab T) r.strHdr = hdrList h d.strHdr := by
      have h2 : hdrList (h1.setTab r.tab T) r.strHdr = hdrList h1 r.strHdr := rfl
      rw [h2, sp.str, hdrList_ext sp.ext wf.str_lt]
    rw [this]; rfl
  have hstrS : (locs h d).isStr = (abs h d).isStr := rfl
  generalize h1.setTab r.tab T = h2 at hsafe2 hw2 ha2 hl2 hcontains
  -- the string marks
  have stage3 : ∃ r2 h3, (if k = .obj ∧ hdrContains h2 r.strHdr old = true then
        ({ r with strHdr := (hdrAdd (hdrRemove h2 r.strHdr [old]) r.strHdr [new]).1 },
          (hdrAdd (hdrRemove h2 r.strHdr [old]) r.strHdr [new]).2)
       else (r, h2)) = (r2, h3) ∧ abs h3 { d with toRaw := r2 } = (abs h d).renameCol k old new ∧
       locs h3 { d with toRaw := r2 } = (locs h d).renameCol k old new ∧
       DF.WF h3 { d with toRaw := r2 } ∧ Safe h2 h3 ∧ (∀ i, r2.shared = some i → r2.strHdr ≠ some i) := by
    rw [hcontains]
    by_cases hc : k = .obj ∧ (abs h d).isStr old = true
    · rw [if_pos hc]
      refine ⟨_, _, rfl, ?_⟩
      have hmem : ∀ x, x ∈ hdrList (hdrAdd (hdrRemove h2 r.strHdr [old]) r.strHdr [new]).2
          (hdrAdd (hdrRemove h2 r.strHdr [old]) r.strHdr [new]).1 ↔ (x ∈ hdrList h2 r.strHdr ∧ x ≠ old) ∨ x = new := by
        intro x; rw [hdrAdd_mem, hdrRemove_mem]; simp
      have hfr : Heap.Frame Nope Nope (fun i => r.strHdr = some i) Nope h2
          (hdrAdd (hdrRemove h2 r.strHdr [old]) r.strHdr [new]).2 :=
        (hdrRemove_frame h2 r.strHdr [old]).trans (hdrAdd_frame _ _ _) (fun _ _ => id) (fun _ _ => id) (fun _ _ => id) (fun _ _ => id)
      have har : (hdrAdd (hdrRemove h2 r.strHdr [old]) r.strHdr [new]).2.arr = h2.arr := by
        rw [hdrAdd_arr, hdrRemove_arr]
      have hlt := hdrAdd_lt (h := hdrRemove h2 r.strHdr [old]) (o := r.strHdr)
        (fun i hi => by rw [hdrRemove_next]; exact hw2.str_lt i hi) [new]
      have hfst := hdrAdd_fst (hdrRemove h2 r.strHdr [old]) r.strHdr [new]
      generalize hdrAdd (hdrRemove h2 r.strHdr [old]) r.strHdr [new] = p at hmem hfr har hlt hfst
      obtain ⟨st, h3⟩ := p
      simp only at hmem hfr har hlt hfst ⊢
      obtain ⟨sa, sl, sw, ss⟩ := str_abs (d := { d with toRaw := r }) (st := st) hw2 hfr har hlt
      have hfun : (fun c => decide (c ∈ hdrList h3 st)) = ((abs h d).renameCol k old new).isStr := by
        funext c
        simp only [ADF.renameCol]
        rw [if_pos hc, Bool.eq_iff_iff]
        have : c ∈ hdrList h2 r.strHdr ↔ (abs h d).isStr c = true := by
          have := congrArg (fun a => a.isStr c) ha2
          simp only [abs] at this
          rw [← decide_eq_true_iff (p := c ∈ hdrList h2 r.strHdr), this]; simp [abs]
        simp only [decide_eq_true_eq, Bool.or_eq_true, Bool.and_eq_true, Bool.not_eq_true', decide_eq_false_iff_not, hmem, this]
        constructor
        · rintro (⟨h1, h2⟩ | h1)
          · exact Or.inr ⟨h2, h1⟩
          · exact Or.inl h1
        · rintro (h1 | ⟨h1, h2⟩)
          · exact Or.inr h1
          · exact Or.inl ⟨h2, h1⟩
      refine ⟨?_, ?_, sw, ss, ?_⟩
      · refine sa.trans ?_
        rw [ha2, hfun]
      · refine sl.trans ?_
        rw [hl2, hfun]; rfl
      · intro i hi
        show st ≠ some i
        rw [hfst]
        intro hx
        simp only [Option.some.injEq] at hx
        have h1 := hw2.shared_lt i hi
        cases hst : r.strHdr with
        | none =>
          rw [hst] at hx
          simp only [Option.getD_none] at hx
          rw [hdrRemove_next] at hx
          omega
        | some j =>
          rw [hst] at hx
          simp only [Option.getD_some] at hx
          subst hx
          exact hsep1 j hi hst
    · rw [if_neg hc]
      refine ⟨_, _, rfl, ?_, ?_, hw2, Safe.refl _, hsep1⟩
      · rw [ha2]
        refine ADF.ext' rfl (fun _ _ => rfl) ?_ rfl
        intro c; simp only [ADF.renameCol]; rw [if_neg hc]
      · rw [hl2]
        refine ADF.ext' rfl (fun _ _ => rfl) ?_ rfl
        intro c; simp only [ADF.renameCol, hstrS]; rw [if_neg hc]
  obtain ⟨r2, h3, hr2, ha3, hl3, hw3, hs3, hsep3⟩ := stage3
  rw [hr2]
  simp only
  have hsafe3 : Safe h h3 := ((Safe.ext sp.ext).trans hsafe2).trans hs3
  split
  · -- move the shared mark
    have hfr : Heap.Frame Nope Nope (fun i => r2.shared = some i) Nope h3
        (hdrAdd (hdrRemove h3 r2.shared [old]) r2.shared [new]).2 :=
      (hdrRemove_frame h3 r2.shared [old]).trans (hdrAdd_frame _ _ _) (fun _ _ => id) (fun _ _ => id) (fun _ _ => id) (fun _ _ => id)
    have har : (hdrAdd (hdrRemove h3 r2.shared [old]) r2.shared [new]).2.arr = h3.arr := by
      rw [hdrAdd_arr, hdrRemove_arr]
    have hlt := hdrAdd_lt (h := hdrRemove h3 r2.shared [old]) (o := r2.shared)
      (fun i hi => by rw [hdrRemove_next]; exact hw3.shared_lt i hi) [new]
    obtain ⟨sa, sl, sw, ss⟩ := shared_abs (d := { d with toRaw := r2 }) hw3 hsep3 hfr har hlt
    exact ⟨_, _, rfl, sa.trans ha3, sl.trans hl3, sw, hsafe3.trans ss⟩
  · exact ⟨_, _, rfl, ha3, hl3, hw3, hsafe3⟩

theorem rename_err {d : DF} {h : Heap F} (wf : d.WF h) (old new : GoStr)
    (hk : renameKind (h.tab d.tab) old = none) : d.toRaw.rename old new h = .error .panic := by
  have sp := own_spec wf.toWF
  unfold Raw.rename
  simp only
  generalize d.toRaw.own h = p at sp
  obtain ⟨r, h1⟩ := p
  simp only at sp ⊢
  rw [sp.tab, hk]

end Verif
