import Verif.Props.ColumnView
import Verif.Props.Headers
import Verif.Proofs.Overwrite

/-! Lemmas for `HashStringsView`. -/

namespace Verif
variable {F : Type}

/-- Columns made by one `Alloc*` loop have different arrays. -/
theorem allocLoop_distinct [GoFloat F] (k : Kind) (n tab : Nat) (cols : List GoStr) (h : Heap F) :
    ∀ c ∈ cols, ∀ c' ∈ cols, c ≠ c' → ∀ s s', AMap.get ((allocLoop k n tab cols h).tab tab) (k, c) = some s →
      AMap.get ((allocLoop k n tab cols h).tab tab) (k, c') = some s' → s.arr ≠ s'.arr := by
  induction cols generalizing h with
  | nil => simp
  | cons c0 cs ih =>
    obtain ⟨h2, hh2⟩ : ∃ h2, h2 = ((h.newArr (List.replicate n (k.zero : Val F))).2.setTab tab
      (AMap.set (h.tab tab) (k, c0) (h.newArr (List.replicate n (k.zero : Val F))).1)) := ⟨_, rfl⟩
    have hstep : allocLoop k n tab (c0 :: cs) h = allocLoop k n tab cs h2 := by
      rw [hh2]; rfl
    rw [hstep]
    have sp := allocLoop_spec k n tab cs h2
    have hn : h2.next = h.next + 1 := by rw [hh2]; rfl
    have ht : h2.tab tab = AMap.set (h.tab tab) (k, c0) (h.newArr (List.replicate n (k.zero : Val F))).1 := by
      rw [hh2, Heap.setTab_tab]
    have hd : ∀ c, c ∉ cs → c = c0 → ∀ s, AMap.get ((allocLoop k n tab cs h2).tab tab) (k, c) = some s → s.arr = h.next := by
      rintro c hc rfl s hs
      rw [sp.old (k, c) (by simp [hc]), ht, AMap.get_set, if_pos rfl] at hs
      cases hs; rfl
    have hin : ∀ c ∈ cs, ∀ s, AMap.get ((allocLoop k n tab cs h2).tab tab) (k, c) = some s → h.next < s.arr := by
      intro c hc s hs
      obtain ⟨s', g1, _, _, g4, _⟩ := sp.new c hc
      rw [g1] at hs; cases hs; omega
    intro c hc c' hc' hne s s' hs hs'
    by_cases h1 : c ∈ cs <;> by_cases h3 : c' ∈ cs
    · exact ih h2 c h1 c' h3 hne s s' hs hs'
    · have e1 := hin c h1 s hs
      have e2 := hd c' h3 (by simpa [h3] using hc') s' hs'
      omega
    · have e1 := hd c h1 (by simpa [h1] using hc) s hs
      have e2 := hin c' h3 s' hs'
      omega
    · exact absurd ((by simpa [h1] using hc : c = c0).trans (by simpa [h3] using hc' : c' = c0).symm) hne

theorem write_ok {h : Heap F} {s : Slice} {i : Nat} (hi : i < s.len) (v : Val F) :
    h.write s i v = .ok (h.setArr s.arr ((h.arr s.arr).set (s.off + i) v)) := by
  unfold Heap.write; rw [if_pos hi]

theorem write_quiet {h h' : Heap F} {s : Slice} {i : Nat} {v : Val F} (e : h.write s i v = .ok h') : Quiet h h' := by
  obtain ⟨a, b, c, r, d⟩ := write_tab e
  refine ⟨a, b, c, d, ?_, r⟩
  unfold Heap.write at e
  split at e
  · cases e
    intro j; simp only [Heap.setArr]; split
    · subst j; simp
    · rfl
  · cases e

theorem write_arr_ne {h h' : Heap F} {s : Slice} {i : Nat} {v : Val F} (e : h.write s i v = .ok h') {j : Nat}
    (hj : j ≠ s.arr) : h'.arr j = h.arr j := by
  unfold Heap.write at e
  split at e
  · cases e; simp [Heap.setArr, hj]
  · cases e

theorem write_cell {h h' : Heap F} {s : Slice} {i : Nat} {v : Val F} (e : h.write s i v = .ok h') (hv : s.Valid h)
    (j : Nat) : h'.cell s j = if j = i then some v else h.cell s j := by
  unfold Heap.write at e
  split at e
  · rename_i hi
    cases e
    have hlen : s.off + i < (h.arr s.arr).length := by
      rcases hv.2 with hc | ⟨_, hc⟩
      · have := hv.1; omega
      · have := hv.1; omega
    simp only [Heap.cell, Heap.setArr, if_true, List.getElem?_set]
    by_cases hj : j = i
    · subst hj; simp [hi, hlen]
    · have : i ≠ j := fun e => hj e.symm
      simp [hj, this]
  · cases e

theorem Quiet.valid {h h' : Heap F} (q : Quiet h h') {s : Slice} (v : s.Valid h) : s.Valid h' := by
  refine ⟨v.1, v.2.imp id ?_⟩
  rintro ⟨a, b⟩
  exact ⟨by rw [q.next]; exact a, by rw [q.len]; exact b⟩

/-- One column of `HashStringsView`. -/
theorem hashColumn_spec {src dst : Slice} {rows : List Nat} {h : Heap F} (vs : src.Valid h) (vd : dst.Valid h)
    (hn : src.len = 0 ∨ src.arr ≠ dst.arr) (hs : ∀ i ∈ rows, i < src.len) (hd : ∀ i ∈ rows, i < dst.len) :
    ∃ h', hashColumn src dst rows h = .ok h' ∧ Quiet h h' ∧ (∀ j, j ≠ dst.arr → h'.arr j = h.arr j) ∧
      ∀ i, h'.cell dst i = if i ∈ rows then (h.cell src i).map (fun v => .int (hashVal v)) else h.cell dst i := by
  induction rows generalizing h with
  | nil => exact ⟨h, rfl, Quiet.refl h, fun _ _ => rfl, by simp⟩
  | cons i is ih =>
    obtain ⟨v, hv⟩ := vs.cell_some (hs i (by simp))
    have hw := write_ok (h := h) (hd i (by simp)) (.int (hashVal v))
    obtain ⟨h1, hh1⟩ : ∃ h1, h1 = h.setArr dst.arr ((h.arr dst.arr).set (dst.off + i) (.int (hashVal v))) := ⟨_, rfl⟩
    rw [← hh1] at hw
    have q1 := write_quiet hw
    have hcs : h1.cell src = h.cell src := by
      apply Heap.cell_congr
      rcases hn with hn | hn
      · exact Or.inl hn
      · exact Or.inr (write_arr_ne hw hn)
    obtain ⟨h2, e2, q2, a2, c2⟩ := ih (q1.valid vs) (q1.valid vd) (fun j hj => hs j (by simp [hj]))
      (fun j hj => hd j (by simp [hj]))
    refine ⟨h2, ?_, q1.trans q2, ?_, ?_⟩
    · simp only [hashColumn, hv, hw]; exact e2
    · intro j hj; rw [a2 j hj, write_arr_ne hw hj]
    · intro j
      rw [c2, hcs, write_cell hw vd]
      by_cases h1 : j ∈ is
      · simp [h1]
      · by_cases h2 : j = i
        · subst h2; simp [h1, hv]
        · simp [h1, h2]

/-- The first half of `HashStringsView`: the result before the hashing starts. -/
def DF.hashPrep [GoFloat F] (df : DF) (cols : List GoStr) (h : Heap F) : DF × Heap F :=
  let (hd, h) := header h df.tab
  let (hd, h) := hdrExcept h hd cols
  let others := hdrList h hd
  let (r, h) := df.columnView others h
  (r, allocLoop .int (numAllocatedRows (h.tab df.tab)) r.tab cols h)

theorem hashStringsView_eq [GoFloat F] (df : DF) {cols : List GoStr} (hne : cols ≠ []) (order : List GoStr) (h : Heap F) :
    df.hashStringsView cols order h =
      match runQueue cols order df.maxCPU (fun c g =>
        hashColumn (tabCol (g.tab df.tab) (.obj, c)) (tabCol (g.tab (df.hashPrep cols h).1.tab) (.int, c)) df.rows g)
        (df.hashPrep cols h).2 with
      | .error e => .error e
      | .ok h' => .ok ((df.hashPrep cols h).1, h') := by
  unfold DF.hashStringsView
  rw [if_neg hne]
  rfl

/-- What the first half does when some column is left out of the hashing. -/
structure PrepSpec (df : DF) (cols : List GoStr) (h : Heap F) (r : DF) (h1 : Heap F) : Prop where
  frame : Heap.Frame Nope Nope (fun i => df.shared = some i) Nope h h1
  tab_new : h.next ≤ r.tab ∧ r.tab < h1.next
  keys : (AMap.keys (h1.tab r.tab)).Nodup
  new : ∀ c ∈ cols, ∃ s, AMap.get (h1.tab r.tab) (.int, c) = some s ∧ s.Valid h1 ∧
    s.len = numAllocatedRows (h.tab df.tab) ∧ h.next ≤ s.arr
  gone : ∀ c ∈ cols, ∀ k, k ≠ .int → AMap.get (h1.tab r.tab) (k, c) = none
  old : ∀ k c, c ∉ cols → AMap.get (h1.tab r.tab) (k, c) = AMap.get (h.tab df.tab) (k, c)
  distinct : ∀ c ∈ cols, ∀ c' ∈ cols, c ≠ c' → ∀ s s', AMap.get (h1.tab r.tab) (.int, c) = some s →
      AMap.get (h1.tab r.tab) (.int, c') = some s' → s.arr ≠ s'.arr
  str : ∀ c, c ∈ hdrList h1 r.strHdr ↔ c ∉ cols ∧ (AMap.get (h.tab df.tab) (.obj, c)).isSome ∧ c ∈ hdrList h df.strHdr
  sh : ∀ i, r.shared = some i → (df.shared = some i ∨ h.next ≤ i) ∧ i < h1.next
  st : ∀ i, r.strHdr = some i → h.next ≤ i ∧ i < h1.next ∧ r.shared ≠ some i
  rest : r.idx = df.idx ∧ r.mask = df.mask ∧ r.indexViewed = df.indexViewed ∧ r.mThreadSafe = df.mThreadSafe ∧
    r.enc = df.enc ∧ r.maxCPU = df.maxCPU ∧ r.sharedMaps = false

theorem hashPrep_spec [GoFloat F] {df : DF} {h : Heap F} (wf : df.WF h) (sep : df.toRaw.Sep) {cols : List GoStr}
    (ho : ∃ k c, c ∉ cols ∧ (AMap.get (h.tab df.tab) (k, c)).isSome) :
    PrepSpec df cols h (df.hashPrep cols h).1 (df.hashPrep cols h).2 := by
  obtain ⟨ok, hm⟩ := header_spec h df.tab
  unfold DF.hashPrep
  generalize header h df.tab = p at ok hm
  obtain ⟨hd, ha⟩ := p
  simp only at hm ok ⊢
  obtain ⟨hb, hhb⟩ : ∃ hb, hb = hdrRemove ha hd cols := ⟨_, rfl⟩
  have e1 : (hdrExcept ha hd cols) = (hd, hb) := by rw [hhb]; rfl
  rw [e1]
  simp only
  have hext : Heap.Ext h hb := by
    rw [hhb]
    cases hd with
    | none => exact ok.ext
    | some i =>
      have := ok.new i rfl
      have f : Heap.Frame Nope Nope (· = i) Nope ha (ha.setHdr i (sremove (ha.hdr i) cols)) := Heap.setHdr_frame ..
      exact ((ok.ext.toFrame (A := Nope) (T := Nope) (H := Nope) (M := Nope)).trans f (fun _ _ => id) (fun _ _ => id)
        (fun j hj (hx : j = i) => by omega) (fun _ _ => id)).toExt
  have hmem : ∀ x, x ∈ hdrList hb hd ↔ (∃ k, (AMap.get (h.tab df.tab) (k, x)).isSome) ∧ x ∉ cols := by
    intro x
    rw [← hm x, hhb]
    cases hd with
    | none => simp [hdrList]
    | some i => simp [hdrList, hdrRemove, sremove]
  generalize hoth : hdrList hb hd = others at hmem
  have hne : others ≠ [] := by
    obtain ⟨k, c, hc, hk⟩ := ho
    have : c ∈ others := (hmem c).2 ⟨⟨k, hk⟩, hc⟩
    intro e; rw [e] at this; cases this
  have tabb : hb.tab df.tab = h.tab df.tab := hext.tab _ wf.tab_lt
  have sp := columnView_spec (wf.ext hext) sep hne
  generalize df.columnView others hb = q at sp
  obtain ⟨r, hc⟩ := q
  simp only at sp ⊢
  have n1 := hext.next_le
  have n2 := sp.frame.next_le
  have tabc : hc.tab df.tab = h.tab df.tab := by
    rw [sp.frame.tab _ (by have := wf.tab_lt; omega) id, tabb]
  rw [tabc]
  have al := allocLoop_spec .int (numAllocatedRows (h.tab df.tab)) r.tab cols hc
  have dist := allocLoop_distinct .int (numAllocatedRows (h.tab df.tab)) r.tab cols hc
  generalize allocLoop .int (numAllocatedRows (h.tab df.tab)) r.tab cols hc = h1 at al dist
  have n3 := al.frame.next_le
  have hcol : ∀ k c, c ∈ others ∨ AMap.get (h.tab df.tab) (k, c) = none ∨ c ∈ cols := by
    intro k c
    by_cases h1 : c ∈ cols
    · simp [h1]
    · cases hg : AMap.get (h.tab df.tab) (k, c) with
      | none => simp
      | some s => left; exact (hmem c).2 ⟨⟨k, by simp [hg]⟩, h1⟩
  refine ⟨?_, ⟨by have := sp.tab_new.1; omega, by have := sp.tab_new.2; omega⟩, ?_, ?_, ?_, ?_, dist, ?_, ?_, ?_, sp.rest⟩
  · have a := (hext.toFrame (A := Nope) (T := Nope) (H := fun i => df.shared = some i) (M := Nope)).trans sp.frame
      (fun _ _ => id) (fun _ _ => id) (fun _ _ => id) (fun _ _ => id)
    exact a.trans al.frame (fun _ _ => id) (fun i hi (hx : i = r.tab) => by have := sp.tab_new.1; omega)
      (fun _ _ => False.elim) (fun _ _ => id)
  · exact al.keys (sp.keys (by rw [tabb]; exact wf.keys))
  · intro c hcc
    obtain ⟨s, g1, g2, g3, g4, _⟩ := al.new c hcc
    exact ⟨s, g1, g2, g3, by omega⟩
  · intro c hcc k hk
    rw [al.old (k, c) (by simp [hk]), sp.tab, if_neg]
    intro hx; exact ((hmem c).1 hx).2 hcc
  · intro k c hcc
    rw [al.old (k, c) (by simp [hcc]), sp.tab, tabb]
    rcases hcol k c with h1 | h1 | h1
    · rw [if_pos h1]
    · rw [h1]; simp
    · exact absurd h1 hcc
  · intro c
    have : hdrList h1 r.strHdr = hdrList hc r.strHdr := by unfold hdrList; rw [al.hdr]
    rw [this, sp.str, tabb, hdrList_ext hext wf.str_lt, hmem]
    constructor
    · rintro ⟨a, b, c⟩; exact ⟨a.2, b, c⟩
    · rintro ⟨a, b, c⟩; exact ⟨⟨⟨_, b⟩, a⟩, b, c⟩
  · intro i hi
    obtain ⟨a, b⟩ := sp.sh i hi
    refine ⟨a.imp id (fun x => by omega), ?_⟩
    have := b (fun j hj => by have := wf.shared_lt j hj; omega)
    omega
  · intro i hi
    obtain ⟨a, b, c⟩ := sp.st i hi
    exact ⟨by omega, by omega, c⟩

end Verif
