import Verif.Proofs.Safe

/-! In-place edits of the column tables: `Alloc*`, `IntToFloats`, `BoolToFloats`, `Rename`, `Drop`,
`Unshare`. -/

namespace Verif
variable {F : Type}

/-- A heap change that only touches table `t` (and headers in `H`), keeping its columns consistent. -/
theorem Safe.of_table {H} {h h' : Heap F} {t : Nat} (e : Heap.Frame Nope (· = t) H Nope h h')
    (ht : t < h.next → ∀ N, TabOK h t N → TabOK h' t N) : Safe h h' where
  next_le := e.next_le
  arr i hi := by rw [e.arr i hi id]
  msk i hi := by rw [e.msk i hi id]; exact Nat.le_refl _
  tab i hi N tok := by
    by_cases hi' : i = t
    · subst hi'; exact ht hi N tok
    · refine ⟨by rw [e.tab i hi hi']; exact tok.keys, fun k s hk => ?_⟩
      rw [e.tab i hi hi'] at hk
      exact ⟨(tok.slices k s hk).1.of_len e.next_le (fun j hj => by rw [e.arr j hj id]), (tok.slices k s hk).2⟩

/-! ### alloc -/

/-- After `allocLoop`: the columns asked for are new and zero, the others are the same. -/
structure AllocSpec [GoFloat F] (k : Kind) (n tab : Nat) (cols : List GoStr) (h h' : Heap F) : Prop where
  frame : Heap.Frame Nope (· = tab) Nope Nope h h'
  keys : (AMap.keys (h.tab tab)).Nodup → (AMap.keys (h'.tab tab)).Nodup
  new : ∀ c ∈ cols, ∃ s, AMap.get (h'.tab tab) (k, c) = some s ∧ s.Valid h' ∧ s.len = n ∧
    h.next ≤ s.arr ∧ h'.read s = List.replicate n k.zero
  old : ∀ q : Key, ¬ (q.1 = k ∧ q.2 ∈ cols) → AMap.get (h'.tab tab) q = AMap.get (h.tab tab) q
  hdr : h'.hdr = h.hdr
  msk : h'.msk = h.msk
  rt : h'.rt = h.rt

theorem allocLoop_spec [GoFloat F] (k : Kind) (n tab : Nat) (cols : List GoStr) (h : Heap F) :
    AllocSpec k n tab cols h (allocLoop k n tab cols h) := by
  induction cols generalizing h with
  | nil =>
    exact ⟨Heap.Frame.refl .., id, by simp, fun _ _ => rfl, rfl, rfl, rfl⟩
  | cons c cs ih =>
    -- the heap after one step
    generalize hs : h.newArr (List.replicate n k.zero) = p
    obtain ⟨s, h1⟩ := p
    generalize hg : h1.setTab tab (AMap.set (h1.tab tab) (k, c) s) = h2
    have hstep : allocLoop k n tab (c :: cs) h = allocLoop k n tab cs h2 := by
      simp only [allocLoop, List.foldl_cons]
      rw [hs]; simp only [hg]
    rw [hstep]
    have sp := ih h2
    have e1 : Heap.Ext h h1 := by have := Heap.newArr_ext h (List.replicate n (k.zero : Val F)); rw [hs] at this; exact this
    have ht1 : h1.tab = h.tab := by have : (h.newArr (List.replicate n k.zero)).2.tab = h.tab := rfl; rw [hs] at this; exact this
    have f12 : Heap.Frame Nope (· = tab) Nope Nope h h2 := by
      rw [← hg]
      exact (e1.toFrame (A := Nope) (T := (· = tab)) (H := Nope) (M := Nope)).trans
        (Heap.setTab_frame h1 tab _) (fun _ _ => id) (fun _ _ => id) (fun _ _ => id) (fun _ _ => id)
    have ht2 : h2.tab tab = AMap.set (h.tab tab) (k, c) s := by rw [← hg, Heap.setTab_tab, ht1]
    have hv : s.Valid h1 := by have := Slice.valid_newArr h (List.replicate n (k.zero : Val F)); rw [hs] at this; exact this
    have hr : h1.read s = List.replicate n k.zero := by have := read_newArr h (List.replicate n (k.zero : Val F)); rw [hs] at this; exact this
    have hsd : s = ⟨h.next, 0, n, n⟩ := by
      have : s = (h.newArr (List.replicate n k.zero)).1 := by rw [hs]
      rw [this]; simp [Heap.newArr]
    have hn2 : h.next < h2.next := by
      have : h1.next = h.next + 1 := by
        have : h1 = (h.newArr (List.replicate n k.zero)).2 := by rw [hs]
        rw [this]; rfl
      rw [← hg]; simp [this]
    refine ⟨f12.trans sp.frame (fun _ _ => id) (fun _ _ => id) (fun _ _ => id) (fun _ _ => id), ?_, ?_, ?_, ?_, ?_, ?_⟩
    · intro hk; apply sp.keys; rw [ht2]; exact AMap.nodup_set hk _ _
    · intro c' hc'
      by_cases hcs : c' ∈ cs
      · obtain ⟨s', g1, g2, g3, g4, g5⟩ := sp.new c' hcs
        exact ⟨s', g1, g2, g3, by omega, g5⟩
      · have hcc : c' = c := by
          rcases List.mem_cons.1 hc' with h | h
          · exact h
          · exact absurd h hcs
        subst hcc
        have hget := sp.old (k, c') (by simp [hcs])
        rw [ht2, AMap.get_set, if_pos rfl] at hget
        have hv2 : s.Valid h2 := by rw [← hg]; exact hv
        have harr : (allocLoop k n tab cs h2).arr s.arr = h2.arr s.arr := sp.frame.arr _ (by rw [hsd]; exact hn2) id
        refine ⟨s, hget, ?_, by rw [hsd], by rw [hsd]; exact Nat.le_refl _, ?_⟩
        · exact hv2.frame sp.frame (Or.inr id)
        · rw [Heap.read_congr (Or.inr harr), ← hg]; exact hr
    · intro q hq
      have : ¬ (q.1 = k ∧ q.2 ∈ cs) := fun ⟨a, b⟩ => hq ⟨a, by simp [b]⟩
      rw [sp.old q this, ht2, AMap.get_set, if_neg]
      rintro rfl; exact hq ⟨rfl, by simp⟩
    · rw [sp.hdr, ← hg]; have : (h.newArr (List.replicate n k.zero)).2.hdr = h.hdr := rfl; rw [hs] at this; exact this
    · rw [sp.msk, ← hg]; have : (h.newArr (List.replicate n k.zero)).2.msk = h.msk := rfl; rw [hs] at this; exact this
    · rw [sp.rt, ← hg]; have : (h.newArr (List.replicate n k.zero)).2.rt = h.rt := rfl; rw [hs] at this; exact this

theorem AllocSpec.tabOK [GoFloat F] {k : Kind} {n tab : Nat} {cols : List GoStr} {h h' : Heap F}
    (sp : AllocSpec k n tab cols h h') {N : Nat} (t : TabOK h tab N) (hn : cols ≠ [] → n = N) :
    TabOK h' tab N := by
  refine ⟨sp.keys t.keys, ?_⟩
  intro q s hq
  by_cases hc : q.1 = k ∧ q.2 ∈ cols
  · obtain ⟨s', g1, g2, g3, _⟩ := sp.new q.2 hc.2
    have : q = (k, q.2) := by rw [← hc.1]
    rw [this, g1] at hq
    cases hq
    exact ⟨g2, by rw [g3]; exact hn (by rintro rfl; simp at hc)⟩
  · rw [sp.old q hc] at hq
    exact ⟨(t.slices q s hq).1.frame sp.frame (Or.inr id), (t.slices q s hq).2⟩

/-! ### conversions -/

/-- The loops of `IntToFloats` and `BoolToFloats`. -/
def convLoop (kOld kErase : Kind) (f : Val F → Val F) (tab : Nat) (cols : List GoStr) (h : Heap F) : Heap F :=
  cols.foldl (fun h c =>
    let old := tabCol (h.tab tab) (kOld, c)
    let (s, h) := h.newArr ((h.read old).map f)
    h.setTab tab (AMap.set (AMap.erase (h.tab tab) (kErase, c)) (.float, c) s)) h

theorem intToFloats_eq [GoFloat F] (data : Raw) (cols : List GoStr) (h : Heap F) :
    data.intToFloats cols h =
      ((data.own h).1, convLoop .int .int intToFloatVal (data.own h).1.tab cols (data.own h).2) := rfl

theorem boolToFloats_eq [GoFloat F] (data : Raw) (cols : List GoStr) (h : Heap F) :
    data.boolToFloats cols h =
      ((data.own h).1, convLoop .bool .int boolToFloatVal (data.own h).1.tab cols (data.own h).2) := rfl

structure ConvSpec (kOld kErase : Kind) (f : Val F → Val F) (tab : Nat) (cols : List GoStr) (h h' : Heap F) :
    Prop where
  frame : Heap.Frame Nope (· = tab) Nope Nope h h'
  keys : (AMap.keys (h.tab tab)).Nodup → (AMap.keys (h'.tab tab)).Nodup
  new : ∀ c ∈ cols, ∃ s, AMap.get (h'.tab tab) (.float, c) = some s ∧ s.Valid h' ∧
    h.next ≤ s.arr ∧ ∃ s0, AMap.get (h.tab tab) (kOld, c) = some s0 ∧ s.len = s0.len ∧
      h'.read s = (h.read s0).map f
  erased : ∀ c ∈ cols, AMap.get (h'.tab tab) (kErase, c) = none
  old : ∀ q : Key, ¬ ((q.1 = .float ∨ q.1 = kErase) ∧ q.2 ∈ cols) →
    AMap.get (h'.tab tab) q = AMap.get (h.tab tab) q
  hdr : h'.hdr = h.hdr
  msk : h'.msk = h.msk
  rt : h'.rt = h.rt

theorem convLoop_spec (kOld kErase : Kind) (f : Val F → Val F) (tab : Nat) (cols : List GoStr) (h : Heap F)
    (hne : kErase ≠ .float) (hnd : cols.Nodup) (htab : tab < h.next)
    (hcol : ∀ c ∈ cols, ∃ s, AMap.get (h.tab tab) (kOld, c) = some s ∧ s.Valid h) :
    ConvSpec kOld kErase f tab cols h (convLoop kOld kErase f tab cols h) := by
  induction cols generalizing h with
  | nil => exact ⟨Heap.Frame.refl .., id, by simp, by simp, fun _ _ => rfl, rfl, rfl, rfl⟩
  | cons c cs ih =>
    obtain ⟨s0, hs0, hv0⟩ := hcol c (by simp)
    have htc : tabCol (h.tab tab) (kOld, c) = s0 := by simp [tabCol, hs0]
    generalize hs : h.newArr ((h.read s0).map f) = p
    obtain ⟨s, h1⟩ := p
    generalize hg : h1.setTab tab (AMap.set (AMap.erase (h1.tab tab) (kErase, c)) (.float, c) s) = h2
    have hstep : convLoop kOld kErase f tab (c :: cs) h = convLoop kOld kErase f tab cs h2 := by
      simp only [convLoop, List.foldl_cons]
      rw [htc, hs]; simp only [hg]
    rw [hstep]
    have h1e : h1 = (h.newArr ((h.read s0).map f)).2 := by rw [hs]
    have hse : s = (h.newArr ((h.read s0).map f)).1 := by rw [hs]
    have e1 : Heap.Ext h h1 := by rw [h1e]; exact Heap.newArr_ext ..
    have ht1 : h1.tab = h.tab := by rw [h1e]; rfl
    have f12 : Heap.Frame Nope (· = tab) Nope Nope h h2 := by
      rw [← hg]
      exact (e1.toFrame (A := Nope) (T := (· = tab)) (H := Nope) (M := Nope)).trans
        (Heap.setTab_frame h1 tab _) (fun _ _ => id) (fun _ _ => id) (fun _ _ => id) (fun _ _ => id)
    have ht2 : h2.tab tab = AMap.set (AMap.erase (h.tab tab) (kErase, c)) (.float, c) s := by
      rw [← hg, Heap.setTab_tab, ht1]
    have hv : s.Valid h2 := by
      rw [← hg, hse, h1e]; exact Slice.valid_newArr h ((h.read s0).map f)
    have hr : h2.read s = (h.read s0).map f := by
      rw [← hg, hse, h1e]; exact read_newArr h ((h.read s0).map f)
    have hsarr : s.arr = h.next := by rw [hse]; rfl
    have hslen : s.len = s0.len := by rw [hse]; simp [Heap.newArr, hv0.read_length]
    have hn2 : h.next < h2.next := by
      rw [← hg, h1e]; simp [Heap.newArr]
    have hget2 : ∀ q, AMap.get (h2.tab tab) q =
        if (Kind.float, c) = q then some s else if (kErase, c) = q then none else AMap.get (h.tab tab) q := by
      intro q; rw [ht2, AMap.get_set, AMap.get_erase]
    rw [List.nodup_cons] at hnd
    have sp := ih h2 hnd.2 (by have := f12.next_le; omega) (by
      intro c' hc'
      obtain ⟨s', hs', hv'⟩ := hcol c' (by simp [hc'])
      have hcc : c' ≠ c := by rintro rfl; exact hnd.1 hc'
      refine ⟨s', ?_, hv'.frame f12 (Or.inr id)⟩
      rw [hget2, if_neg (by simp [Ne.symm hcc]), if_neg (by simp [Ne.symm hcc])]
      exact hs')
    refine ⟨f12.trans sp.frame (fun _ _ => id) (fun _ _ => id) (fun _ _ => id) (fun _ _ => id), ?_, ?_, ?_, ?_, ?_, ?_, ?_⟩
    · intro hk; apply sp.keys; rw [ht2]; exact AMap.nodup_set (AMap.nodup_erase hk _) _ _
    · intro c' hc'
      by_cases hcs : c' ∈ cs
      · have hcc : c' ≠ c := by rintro rfl; exact hnd.1 hcs
        obtain ⟨s', g1, g2, g4, s0', g5, g6, g7⟩ := sp.new c' hcs
        refine ⟨s', g1, g2, by omega, s0', ?_, g6, ?_⟩
        · rw [hget2, if_neg (by simp [Ne.symm hcc]), if_neg (by simp [Ne.symm hcc])] at g5; exact g5
        · rw [g7]
          obtain ⟨s'', hs'', hv''⟩ := hcol c' (by simp [hcs])
          rw [hget2, if_neg (by simp [Ne.symm hcc]), if_neg (by simp [Ne.symm hcc]), hs''] at g5
          cases g5
          rw [Heap.read_congr (hv''.arr_eq_frame f12 (Or.inr id))]
      · have hcc : c' = c := by
          rcases List.mem_cons.1 hc' with h | h
          · exact h
          · exact absurd h hcs
        subst hcc
        have hget := sp.old (.float, c') (by simp [hcs])
        rw [hget2, if_pos rfl] at hget
        have harr := sp.frame.arr s.arr (by rw [hsarr]; exact hn2) id
        exact ⟨s, hget, hv.frame sp.frame (Or.inr id), by omega, s0, hs0, hslen,
          by rw [Heap.read_congr (Or.inr harr), hr]⟩
    · intro c' hc'
      by_cases hcs : c' ∈ cs
      · exact sp.erased c' hcs
      · have hcc : c' = c := by
          rcases List.mem_cons.1 hc' with h | h
          · exact h
          · exact absurd h hcs
        subst hcc
        rw [sp.old (kErase, c') (by simp [hcs]), hget2, if_neg (by simp [Ne.symm hne]), if_pos rfl]
    · intro q hq
      rw [sp.old q (fun ⟨a, b⟩ => hq ⟨a, by simp [b]⟩), hget2, if_neg, if_neg]
      · rintro rfl; exact hq ⟨Or.inr rfl, by simp⟩
      · rintro rfl; exact hq ⟨Or.inl rfl, by simp⟩
    · rw [sp.hdr, ← hg, h1e]; rfl
    · rw [sp.msk, ← hg, h1e]; rfl
    · rw [sp.rt, ← hg, h1e]; rfl

theorem ConvSpec.tabOK {kOld kErase : Kind} {f : Val F → Val F} {tab : Nat} {cols : List GoStr} {h h' : Heap F}
    (sp : ConvSpec kOld kErase f tab cols h h') {N : Nat} (t : TabOK h tab N) : TabOK h' tab N := by
  refine ⟨sp.keys t.keys, ?_⟩
  intro q s hq
  by_cases hc : (q.1 = .float ∨ q.1 = kErase) ∧ q.2 ∈ cols
  · by_cases hfl : q.1 = .float
    · obtain ⟨s', g1, g2, _, s0, g4, g5, _⟩ := sp.new q.2 hc.2
      have : q = (.float, q.2) := by rw [← hfl]
      rw [this, g1] at hq
      cases hq
      exact ⟨g2, by rw [g5]; exact (t.slices _ _ g4).2⟩
    · have : q = (kErase, q.2) := by
        rcases hc.1 with h | h
        · exact absurd h hfl
        · rw [← h]
      rw [this, sp.erased q.2 hc.2] at hq; cases hq
  · rw [sp.old q hc] at hq
    exact ⟨(t.slices q s hq).1.frame sp.frame (Or.inr id), (t.slices q s hq).2⟩

end Verif
