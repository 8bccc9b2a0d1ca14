import Verif.Proofs.Edit

/-! Footprints: what an in-place operation on a dataframe may touch, and what the result refers to. -/

namespace Verif
variable {F : Type}

/-- The column arrays of a structure. -/
def Raw.arrays (h : Heap F) (r : Raw) (i : Nat) : Prop :=
  ∃ k s, AMap.get (h.tab r.tab) k = some s ∧ s.len ≠ 0 ∧ s.arr = i

/-- The header maps of a structure. -/
def Raw.headers (r : Raw) (i : Nat) : Prop := r.shared = some i ∨ r.strHdr = some i

/-- An in-place operation turned `r` (in `h`) into `r'` (in `h'`): it only wrote the arrays `A`, the
table and the headers of `r`, and `r'` refers to nothing but what `r` referred to and new objects. -/
structure Foot (A : Nat → Prop) (h : Heap F) (r : Raw) (h' : Heap F) (r' : Raw) : Prop where
  frame : Heap.Frame A (· = r.tab) r.headers Nope h h'
  len : ∀ i, i < h.next → (h'.arr i).length = (h.arr i).length
  wf : r'.WF h'
  tab : r'.tab = r.tab ∨ h.next ≤ r'.tab
  sh : ∀ i, r'.shared = some i → r.shared = some i ∨ h.next ≤ i
  st : ∀ i, r'.strHdr = some i → r.strHdr = some i ∨ h.next ≤ i
  arrs : ∀ i, r'.arrays h' i → r.arrays h i ∨ h.next ≤ i

theorem Foot.headers {A : Nat → Prop} {h h' : Heap F} {r r' : Raw} (f : Foot A h r h' r') :
    ∀ i, r'.headers i → r.headers i ∨ h.next ≤ i := by
  rintro i (hi | hi)
  · exact (f.sh i hi).imp Or.inl id
  · exact (f.st i hi).imp Or.inr id

theorem Foot.refl (A : Nat → Prop) {h : Heap F} {r : Raw} (wf : r.WF h) : Foot A h r h r :=
  ⟨Heap.Frame.refl .., fun _ _ => rfl, wf, Or.inl rfl, fun _ => Or.inl, fun _ => Or.inl, fun _ => Or.inl⟩

theorem Foot.trans {A A' : Nat → Prop} {h h1 h2 : Heap F} {r r1 r2 : Raw}
    (a : Foot A h r h1 r1) (b : Foot A' h1 r1 h2 r2) (hA : ∀ i, i < h.next → A' i → A i) :
    Foot A h r h2 r2 where
  frame := a.frame.trans b.frame hA
    (fun i hi (e : i = r1.tab) => by
      rcases a.tab with h | h
      · exact e.trans h
      · omega)
    (fun i hi e => by
      rcases a.headers i e with h | h
      · exact h
      · omega)
    (fun _ _ => id)
  len i hi := (b.len i (Nat.lt_of_lt_of_le hi a.frame.next_le)).trans (a.len i hi)
  wf := b.wf
  tab := by
    have := a.frame.next_le
    rcases b.tab with h | h
    · rw [h]; exact a.tab
    · right; omega
  sh i hi := by
    have := a.frame.next_le
    rcases b.sh i hi with h | h
    · exact a.sh i h
    · right; omega
  st i hi := by
    have := a.frame.next_le
    rcases b.st i hi with h | h
    · exact a.st i h
    · right; omega
  arrs i hi := by
    have := a.frame.next_le
    rcases b.arrs i hi with h | h
    · exact a.arrs i h
    · right; omega

theorem Foot.mono {A A' : Nat → Prop} {h h' : Heap F} {r r' : Raw} (f : Foot A h r h' r')
    (hA : ∀ i, i < h.next → A i → A' i) : Foot A' h r h' r' :=
  { f with frame := f.frame.mono hA (fun _ _ => id) (fun _ _ => id) (fun _ _ => id) }

theorem Foot.structural {A : Nat → Prop} {h h' : Heap F} {r r' : Raw} (f : Foot Nope h r h' r') :
    Foot A h r h' r' := f.mono (fun _ _ => False.elim)

/-- Sequence of two operations that may write the arrays of the structure. -/
theorem Foot.trans' {h h1 h2 : Heap F} {r r1 r2 : Raw}
    (a : Foot (r.arrays h) h r h1 r1) (b : Foot (r1.arrays h1) h1 r1 h2 r2) :
    Foot (r.arrays h) h r h2 r2 :=
  a.trans b (fun i hi hx => by
    rcases a.arrs i hx with h | h
    · exact h
    · omega)

theorem Foot.own {h : Heap F} {r : Raw} (wf : r.WF h) : Foot Nope h r (r.own h).2 (r.own h).1 := by
  have sp := own_spec wf
  refine ⟨sp.ext.toFrame, fun i hi => by rw [sp.arr], sp.wf, ?_, ?_, ?_, ?_⟩
  · cases hs : r.sharedMaps
    · left; rw [(sp.same hs).1]
    · right; exact (sp.fresh hs).1
  · intro i hi
    cases hs : r.sharedMaps
    · left; rw [(sp.same hs).1] at hi; exact hi
    · right; exact (sp.fresh hs).2.1 i hi
  · intro i hi; left; rw [← sp.str]; exact hi
  · rintro i ⟨k, s, hk, h1, h2⟩
    rw [sp.tab] at hk
    exact Or.inl ⟨k, s, hk, h1, h2⟩

/-- Replace the table by one made of old columns and columns over new arrays. -/
theorem Foot.table {h h1 : Heap F} {r : Raw} (wf : r.WF h) (e : Heap.Ext h h1) (t : Table)
    (hk : (AMap.keys t).Nodup)
    (hs : ∀ k s, AMap.get t k = some s → (∃ k0 s0, AMap.get (h.tab r.tab) k0 = some s0 ∧ s0.arr = s.arr ∧
      (s.len ≠ 0 → s0.len ≠ 0) ∧ s.Valid h) ∨ (h.next ≤ s.arr ∧ s.Valid h1)) :
    Foot Nope h r (h1.setTab r.tab t) r where
  frame := (e.toFrame (A := Nope) (T := (· = r.tab)) (H := r.headers) (M := Nope)).trans
        (Heap.setTab_frame h1 r.tab t) (fun _ _ => id) (fun _ _ => id) (fun _ _ => id) (fun _ _ => id)
  len i hi := by simp [e.arr i hi]
  wf := by
    have hn := e.next_le
    refine ⟨Nat.lt_of_lt_of_le wf.tab_lt hn, fun i hi => Nat.lt_of_lt_of_le (wf.shared_lt i hi) hn,
      fun i hi => Nat.lt_of_lt_of_le (wf.str_lt i hi) hn, by simpa using hk, ?_⟩
    intro k s hq
    rw [Heap.setTab_tab] at hq
    rcases hs k s hq with ⟨_, _, _, _, _, v⟩ | ⟨_, v⟩
    · exact (v.ext e : s.Valid h1)
    · exact v
  tab := Or.inl rfl
  sh _ := Or.inl
  st _ := Or.inl
  arrs := by
    rintro i ⟨k, s, hk, h1, h2⟩
    rw [Heap.setTab_tab] at hk
    rcases hs k s hk with ⟨k0, s0, g1, g2, g3, _⟩ | ⟨g, _⟩
    · left; exact ⟨k0, s0, g1, g3 h1, g2.trans h2⟩
    · right; omega

/-- Only headers of the structure change. -/
theorem Foot.hdrs {h h1 : Heap F} {r : Raw} (wf : r.WF h) (f : Heap.Frame Nope Nope r.headers Nope h h1)
    {sh st : Option Nat} (hsh : ∀ i, sh = some i → (r.shared = some i ∨ h.next ≤ i) ∧ i < h1.next)
    (hst : ∀ i, st = some i → (r.strHdr = some i ∨ h.next ≤ i) ∧ i < h1.next) :
    Foot Nope h r h1 { r with shared := sh, strHdr := st } where
  frame := f.mono (fun _ _ => id) (fun _ _ => False.elim) (fun _ _ => id) (fun _ _ => id)
  len i hi := by rw [f.arr i hi id]
  wf := by
    have ht : h1.tab r.tab = h.tab r.tab := f.tab _ wf.tab_lt id
    refine ⟨Nat.lt_of_lt_of_le wf.tab_lt f.next_le, fun i hi => (hsh i hi).2, fun i hi => (hst i hi).2,
      by show (AMap.keys (h1.tab r.tab)).Nodup; rw [ht]; exact wf.keys, ?_⟩
    intro k s hk
    change AMap.get (h1.tab r.tab) k = some s at hk
    rw [ht] at hk
    exact (wf.slices k s hk).frame f (Or.inr id)
  tab := Or.inl rfl
  sh i hi := (hsh i hi).1
  st i hi := (hst i hi).1
  arrs := by
    rintro i ⟨k, s, hk, h1', h2⟩
    change AMap.get (h1.tab r.tab) k = some s at hk
    rw [f.tab _ wf.tab_lt id] at hk
    exact Or.inl ⟨k, s, hk, h1', h2⟩

theorem Foot.hdrRemove_shared {h : Heap F} {r : Raw} (wf : r.WF h) (cs) :
    Foot Nope h r (hdrRemove h r.shared cs) r :=
  Foot.hdrs wf ((hdrRemove_frame h r.shared cs).mono (fun _ _ => id) (fun _ _ => id) (fun _ _ => Or.inl) (fun _ _ => id))
    (fun i hi => ⟨Or.inl hi, by rw [hdrRemove_next]; exact wf.shared_lt i hi⟩)
    (fun i hi => ⟨Or.inl hi, by rw [hdrRemove_next]; exact wf.str_lt i hi⟩)

theorem Foot.hdrRemove_str {h : Heap F} {r : Raw} (wf : r.WF h) (cs) :
    Foot Nope h r (hdrRemove h r.strHdr cs) r :=
  Foot.hdrs wf ((hdrRemove_frame h r.strHdr cs).mono (fun _ _ => id) (fun _ _ => id) (fun _ _ => Or.inr) (fun _ _ => id))
    (fun i hi => ⟨Or.inl hi, by rw [hdrRemove_next]; exact wf.shared_lt i hi⟩)
    (fun i hi => ⟨Or.inl hi, by rw [hdrRemove_next]; exact wf.str_lt i hi⟩)

theorem Foot.hdrAddEach_str {h : Heap F} {r : Raw} (wf : r.WF h) (cs) :
    Foot Nope h r (hdrAddEach h r.strHdr cs).2 { r with strHdr := (hdrAddEach h r.strHdr cs).1 } :=
  Foot.hdrs wf ((hdrAddEach_frame h r.strHdr cs).mono (fun _ _ => id) (fun _ _ => id) (fun _ _ => Or.inr) (fun _ _ => id))
    (fun i hi => ⟨Or.inl hi, Nat.lt_of_lt_of_le (wf.shared_lt i hi) (hdrAddEach_next_le h r.strHdr cs)⟩)
    (fun i hi => ⟨(hdrAddEach_fst _ _ _ hi).imp id (fun x => by omega), hdrAddEach_lt wf.str_lt cs i hi⟩)

theorem Foot.hdrAddEach_shared {h : Heap F} {r : Raw} (wf : r.WF h) (cs) :
    Foot Nope h r (hdrAddEach h r.shared cs).2 { r with shared := (hdrAddEach h r.shared cs).1 } :=
  Foot.hdrs wf ((hdrAddEach_frame h r.shared cs).mono (fun _ _ => id) (fun _ _ => id) (fun _ _ => Or.inl) (fun _ _ => id))
    (fun i hi => ⟨(hdrAddEach_fst _ _ _ hi).imp id (fun x => by omega), hdrAddEach_lt wf.shared_lt cs i hi⟩)
    (fun i hi => ⟨Or.inl hi, Nat.lt_of_lt_of_le (wf.str_lt i hi) (hdrAddEach_next_le h r.shared cs)⟩)

theorem hdrAdd_eq_each {h : Heap F} {o : Option Nat} (c : GoStr) : hdrAdd h o [c] = hdrAddEach h o [c] := rfl

/-! ### the edits -/

/-- One new column in place of columns that may be removed. -/
theorem Foot.newCol {h : Heap F} {r : Raw} (wf : r.WF h) (xs : List (Val F)) (t : Table) (q : Key)
    (hk : (AMap.keys t).Nodup) (ht : ∀ k s, AMap.get t k = some s → AMap.get (h.tab r.tab) k = some s) :
    Foot Nope h r ((h.newArr xs).2.setTab r.tab (AMap.set t q (h.newArr xs).1)) r := by
  refine Foot.table wf (Heap.newArr_ext ..) _ (AMap.nodup_set hk _ _) ?_
  intro k s hs
  rw [AMap.get_set] at hs
  split at hs
  · cases hs
    right; exact ⟨Nat.le_refl _, Slice.valid_newArr ..⟩
  · left; exact ⟨k, s, ht k s hs, rfl, id, wf.slices k s (ht k s hs)⟩

theorem Foot.allocLoop [GoFloat F] {h : Heap F} {r : Raw} (wf : r.WF h) (k : Kind) (n : Nat) (cols : List GoStr) :
    Foot Nope h r (allocLoop k n r.tab cols h) r := by
  induction cols generalizing h with
  | nil => exact Foot.refl _ wf
  | cons c cs ih =>
    have f1 := Foot.newCol wf (List.replicate n (k.zero : Val F)) (h.tab r.tab) (k, c) wf.keys (fun _ _ => id)
    exact f1.trans (ih f1.wf) (fun _ _ => id)

theorem Foot.convLoop {h : Heap F} {r : Raw} (wf : r.WF h) (kO kE : Kind) (f : Val F → Val F) (cols : List GoStr) :
    Foot Nope h r (convLoop kO kE f r.tab cols h) r := by
  induction cols generalizing h with
  | nil => exact Foot.refl _ wf
  | cons c cs ih =>
    have f1 := Foot.newCol wf ((h.read (tabCol (h.tab r.tab) (kO, c))).map f) (AMap.erase (h.tab r.tab) (kE, c)) (.float, c)
      (AMap.nodup_erase wf.keys _) (fun k s hs => by
        rw [AMap.get_erase] at hs
        split at hs
        · cases hs
        · exact hs)
    exact f1.trans (ih f1.wf) (fun _ _ => id)

theorem Foot.ownIf {h : Heap F} {r : Raw} (wf : r.WF h) (cols : List GoStr) :
    Foot Nope h r (if cols = [] then (r, h) else r.own h).2 (if cols = [] then (r, h) else r.own h).1 := by
  split
  · exact Foot.refl _ wf
  · exact Foot.own wf

theorem Foot.alloc [GoFloat F] {h : Heap F} {r : Raw} (wf : r.WF h) (k : Kind) (cols : List GoStr) :
    Foot Nope h r (r.alloc k cols h).2 (r.alloc k cols h).1 := by
  have f1 := Foot.ownIf wf cols
  exact f1.trans (Foot.allocLoop f1.wf k _ cols) (fun _ _ => id)

theorem Foot.allocStrings [GoFloat F] {h : Heap F} {r : Raw} (wf : r.WF h) (cols : List GoStr) :
    Foot Nope h r (r.allocStrings cols h).2 (r.allocStrings cols h).1 := by
  have f1 := Foot.ownIf wf cols
  have f2 := f1.trans (Foot.alloc f1.wf .obj cols) (fun _ _ => id)
  exact f2.trans (Foot.hdrAddEach_str f2.wf cols) (fun _ _ => id)

theorem Foot.intToFloats [GoFloat F] {h : Heap F} {r : Raw} (wf : r.WF h) (cols : List GoStr) :
    Foot Nope h r (r.intToFloats cols h).2 (r.intToFloats cols h).1 := by
  have f1 := Foot.own wf
  rw [intToFloats_eq]
  exact f1.trans (Foot.convLoop f1.wf ..) (fun _ _ => id)

theorem Foot.boolToFloats [GoFloat F] {h : Heap F} {r : Raw} (wf : r.WF h) (cols : List GoStr) :
    Foot Nope h r (r.boolToFloats cols h).2 (r.boolToFloats cols h).1 := by
  have f1 := Foot.own wf
  rw [boolToFloats_eq]
  exact f1.trans (Foot.convLoop f1.wf ..) (fun _ _ => id)

theorem get_tabEraseName (t : Table) (c : GoStr) (q : Key) :
    AMap.get (tabEraseName t c) q = if q.2 = c then none else AMap.get t q := by
  unfold tabEraseName
  have := AMap.get_filter (fun k : Key => decide (k.2 ≠ c)) t q
  rw [this]
  by_cases hc : q.2 = c <;> simp [hc]

theorem Foot.drop {h : Heap F} {r : Raw} (wf : r.WF h) (cols : List GoStr) :
    Foot Nope h r (r.drop cols h) r := by
  induction cols generalizing h with
  | nil => exact Foot.refl _ wf
  | cons c cs ih =>
    have f1 := Foot.hdrRemove_shared wf [c]
    have f2 := f1.trans (Foot.hdrRemove_str f1.wf [c]) (fun _ _ => id)
    have f3 := f2.trans (Foot.table f2.wf (Heap.Ext.refl _) (tabEraseName _ c)
      (AMap.nodup_filter f2.wf.keys _) (fun k s hs => by
        rw [get_tabEraseName] at hs
        split at hs
        · cases hs
        · left; exact ⟨k, s, hs, rfl, id, f2.wf.slices k s hs⟩)) (fun _ _ => id)
    exact f3.trans (ih f3.wf) (fun _ _ => id)

theorem Foot.rename {h h' : Heap F} {r r' : Raw} (wf : r.WF h) {old new : GoStr}
    (e : r.rename old new h = .ok (r', h')) : Foot Nope h r h' r' := by
  have f1 := Foot.own wf
  unfold Raw.rename at e
  simp only at e
  generalize r.own h = p at f1 e
  obtain ⟨r1, h1⟩ := p
  simp only at f1 e
  split at e
  · cases e
  · rename_i k hk
    split at e
    · cases e
    · rename_i s hs
      have f2 := f1.trans (Foot.table f1.wf (Heap.Ext.refl _)
        (AMap.erase (AMap.set (h1.tab r1.tab) (k, new) s) (k, old))
        (AMap.nodup_erase (AMap.nodup_set f1.wf.keys _ _) _) (fun q s' hq => by
          rw [AMap.get_erase] at hq
          split at hq
          · cases hq
          · rw [AMap.get_set] at hq
            left
            split at hq
            · cases hq; exact ⟨_, _, hs, rfl, id, f1.wf.slices _ _ hs⟩
            · exact ⟨_, _, hq, rfl, id, f1.wf.slices _ _ hq⟩)) (fun _ _ => id)
      generalize h1.setTab r1.tab (AMap.erase (AMap.set (h1.tab r1.tab) (k, new) s) (k, old)) = h2 at f2 e
      -- the string mark
      have f3 : Foot Nope h r
          (if k = .obj ∧ hdrContains h2 r1.strHdr old then
            ({ r1 with strHdr := (hdrAdd (hdrRemove h2 r1.strHdr [old]) r1.strHdr [new]).1 },
              (hdrAdd (hdrRemove h2 r1.strHdr [old]) r1.strHdr [new]).2)
           else (r1, h2)).2
          (if k = .obj ∧ hdrContains h2 r1.strHdr old then
            ({ r1 with strHdr := (hdrAdd (hdrRemove h2 r1.strHdr [old]) r1.strHdr [new]).1 },
              (hdrAdd (hdrRemove h2 r1.strHdr [old]) r1.strHdr [new]).2)
           else (r1, h2)).1 := by
        split
        · have g1 := f2.trans (Foot.hdrRemove_str f2.wf [old]) (fun _ _ => id)
          rw [hdrAdd_eq_each]
          exact g1.trans (Foot.hdrAddEach_str g1.wf [new]) (fun _ _ => id)
        · exact f2
      generalize (if k = .obj ∧ hdrContains h2 r1.strHdr old then
            ({ r1 with strHdr := (hdrAdd (hdrRemove h2 r1.strHdr [old]) r1.strHdr [new]).1 },
              (hdrAdd (hdrRemove h2 r1.strHdr [old]) r1.strHdr [new]).2)
           else (r1, h2)) = p at f3 e
      obtain ⟨r2, h3⟩ := p
      simp only at f3 e
      split at e
      · cases e
        have g1 := f3.trans (Foot.hdrRemove_shared f3.wf [old]) (fun _ _ => id)
        rw [hdrAdd_eq_each]
        exact g1.trans (Foot.hdrAddEach_shared g1.wf [new]) (fun _ _ => id)
      · cases e; exact f3

theorem mapColsT_keys (f : Key → Slice → Heap F → Slice × Heap F) (t : Table) (h : Heap F) :
    AMap.keys (mapColsT f t h).1 = AMap.keys t := by
  induction t generalizing h with
  | nil => rfl
  | cons e t ih =>
    obtain ⟨k, s⟩ := e
    simp only [mapColsT, AMap.keys, List.map_cons]
    have := ih (f k s h).2
    simp only [AMap.keys] at this
    rw [this]

/-- What the loop of `Unshare` does to the columns. -/
structure UnshareSpec (sh cs : List GoStr) (t : Table) (h : Heap F) (t' : Table) (h' : Heap F) : Prop where
  ext : Heap.Ext h h'
  tab : h'.tab = h.tab
  hdr : h'.hdr = h.hdr
  msk : h'.msk = h.msk
  rt : h'.rt = h.rt
  keys : AMap.keys t' = AMap.keys t
  get : ∀ k, AMap.get t' k = none ∧ AMap.get t k = none ∨
    ∃ s s', AMap.get t k = some s ∧ AMap.get t' k = some s' ∧
      (if k.2 ∈ sh ∧ k.2 ∈ cs then
          s'.len = s.len ∧ s'.Valid h' ∧ h.next ≤ s'.arr ∧ h'.read s' = h.read s
        else s' = s)
  distinct : ∀ q q' s s', q ≠ q' → AMap.get t' q = some s → AMap.get t' q' = some s' →
    (q.2 ∈ sh ∧ q.2 ∈ cs) → (q'.2 ∈ sh ∧ q'.2 ∈ cs) → s.arr ≠ s'.arr

theorem unshareLoop_spec (sh cs : List GoStr) (t : Table) (h : Heap F)
    (hn : (AMap.keys t).Nodup) (hv : ∀ k s, (k, s) ∈ t → s.Valid h) :
    UnshareSpec sh cs t h (mapColsT (unshareCol sh cs) t h).1 (mapColsT (unshareCol sh cs) t h).2 := by
  induction t generalizing h with
  | nil => exact ⟨Heap.Ext.refl _, rfl, rfl, rfl, rfl, rfl, fun k => Or.inl ⟨rfl, rfl⟩, fun _ _ _ _ _ h1 => by cases h1⟩
  | cons e t ih =>
    obtain ⟨k, s⟩ := e
    have hs : s.Valid h := hv k s (by simp)
    simp only [mapColsT]
    have h1ext : Heap.Ext h (unshareCol sh cs k s h).2 := by
      unfold unshareCol; split
      · exact Heap.newArr_ext ..
      · exact Heap.Ext.refl _
    have hm : (unshareCol sh cs k s h).2.tab = h.tab ∧ (unshareCol sh cs k s h).2.hdr = h.hdr ∧
        (unshareCol sh cs k s h).2.msk = h.msk ∧ (unshareCol sh cs k s h).2.rt = h.rt := by
      unfold unshareCol; split
      · exact ⟨rfl, rfl, rfl, rfl⟩
      · exact ⟨rfl, rfl, rfl, rfl⟩
    have hcol : if k.2 ∈ sh ∧ k.2 ∈ cs then
          (unshareCol sh cs k s h).1.len = s.len ∧ (unshareCol sh cs k s h).1.Valid (unshareCol sh cs k s h).2 ∧
          h.next ≤ (unshareCol sh cs k s h).1.arr ∧
          (unshareCol sh cs k s h).2.read (unshareCol sh cs k s h).1 = h.read s ∧
          (unshareCol sh cs k s h).1.arr < (unshareCol sh cs k s h).2.next
        else (unshareCol sh cs k s h).1 = s := by
      unfold unshareCol; split
      · exact ⟨by simp [hs.read_length], Slice.valid_newArr .., Nat.le_refl _, read_newArr .., by simp⟩
      · rfl
    generalize unshareCol sh cs k s h = p at h1ext hm hcol
    obtain ⟨s1, h1⟩ := p
    simp only at h1ext hm hcol
    have hn' : (AMap.keys t).Nodup := (List.nodup_cons.1 hn).2
    have hkt : k ∉ AMap.keys t := (List.nodup_cons.1 hn).1
    have sp := ih h1 hn' (fun k s hm => (hv k s (by simp [hm])).ext h1ext)
    refine ⟨h1ext.trans sp.ext, by rw [sp.tab, hm.1], by rw [sp.hdr, hm.2.1], by rw [sp.msk, hm.2.2.1],
      by rw [sp.rt, hm.2.2.2], ?_, ?_, ?_⟩
    · simp only [AMap.keys, List.map_cons]
      have := sp.keys
      simp only [AMap.keys] at this
      rw [this]
    · intro q
      rw [AMap.get_cons, AMap.get_cons]
      by_cases hq : k = q
      · subst hq
        right
        refine ⟨s, s1, by simp, by simp, ?_⟩
        split at hcol
        · rename_i hc
          rw [if_pos hc]
          obtain ⟨c1, c2, c3, c4, c5⟩ := hcol
          refine ⟨c1, c2.ext sp.ext, c3, ?_⟩
          rw [Heap.read_congr (Or.inr (sp.ext.arr _ c5)), c4]
        · rename_i hc
          rw [if_neg hc]; exact hcol
      · rw [if_neg hq, if_neg hq]
        rcases sp.get q with h0 | ⟨s0, s', g1, g2, g3⟩
        · exact Or.inl h0
        · right
          refine ⟨s0, s', g1, g2, ?_⟩
          split at g3
          · rename_i hc
            rw [if_pos hc]
            refine ⟨g3.1, g3.2.1, Nat.le_trans h1ext.next_le g3.2.2.1, ?_⟩
            rw [g3.2.2.2]
            exact Heap.read_congr ((hv q s0 (by simp [AMap.mem_of_get g1])).arr_eq h1ext)
          · rename_i hc
            rw [if_neg hc]; exact g3
    · -- a new array for every column
      have hlate : ∀ q' s', AMap.get (mapColsT (unshareCol sh cs) t h1).1 q' = some s' → (q'.2 ∈ sh ∧ q'.2 ∈ cs) → h1.next ≤ s'.arr := by
        intro q' s' hq' hc
        rcases sp.get q' with ⟨h0, _⟩ | ⟨s0, s2, g1, g2, g3⟩
        · rw [h0] at hq'; cases hq'
        · rw [g2] at hq'; cases hq'
          rw [if_pos hc] at g3; exact g3.2.2.1
      intro q q' s2 s2' hne h1q h2q c1 c2
      rw [AMap.get_cons] at h1q h2q
      by_cases hq : k = q
      · subst hq
        rw [if_pos rfl] at h1q; cases h1q
        rw [if_neg hne] at h2q
        rw [if_pos c1] at hcol
        have := hlate q' s2' h2q c2
        have := hcol.2.2.2.2
        simp only; omega
      · rw [if_neg hq] at h1q
        by_cases hq' : k = q'
        · subst hq'
          rw [if_pos rfl] at h2q; cases h2q
          rw [if_pos c2] at hcol
          have := hlate q s2 h1q c1
          have := hcol.2.2.2.2
          simp only; omega
        · rw [if_neg hq'] at h2q
          exact sp.distinct q q' s2 s2' hne h1q h2q c1 c2

theorem Foot.unshare {h : Heap F} {r : Raw} (wf : r.WF h) (cols : List GoStr) :
    Foot Nope h r (r.unshare cols h).2 (r.unshare cols h).1 := by
  unfold Raw.unshare
  split
  · exact Foot.refl _ wf
  · have f1 := Foot.own wf
    generalize r.own h = p at f1
    obtain ⟨r1, h1⟩ := p
    simp only at f1 ⊢
    generalize (if cols.length = 0 ∨ cols.length = numColumns (h1.tab r1.tab) then tabNames (h1.tab r1.tab) else cols) = cs
    have sp := unshareLoop_spec (hdrList h1 r1.shared) cs (h1.tab r1.tab) h1 f1.wf.keys
      (fun k s hm => f1.wf.slices k s (AMap.get_of_mem f1.wf.keys hm))
    generalize mapColsT (unshareCol (hdrList h1 r1.shared) cs) (h1.tab r1.tab) h1 = p at sp
    obtain ⟨t', h2⟩ := p
    simp only at sp ⊢
    have f2 := f1.trans (Foot.table f1.wf sp.ext t' (by rw [sp.keys]; exact f1.wf.keys) (fun k s hs => by
      rcases sp.get k with ⟨h0, _⟩ | ⟨s0, s', g1, g2, g3⟩
      · rw [h0] at hs; cases hs
      · rw [g2] at hs; cases hs
        split at g3
        · right; exact ⟨g3.2.2.1, g3.2.1⟩
        · subst g3; left; exact ⟨k, _, g1, rfl, id, f1.wf.slices _ _ g1⟩)) (fun _ _ => id)
    exact f2.trans (Foot.hdrRemove_shared f2.wf _) (fun _ _ => id)

/-! ### cell writes -/

theorem Foot.write {h h' : Heap F} {r : Raw} (wf : r.WF h) {q : Key} {s : Slice}
    (hs : AMap.get (h.tab r.tab) q = some s) {i : Nat} {v : Val F} (e : h.write s i v = .ok h') :
    Foot (r.arrays h) h r h' r := by
  unfold Heap.write at e
  split at e
  · rename_i hi
    cases e
    have hlen : ∀ j, ((h.setArr s.arr ((h.arr s.arr).set (s.off + i) v)).arr j).length = (h.arr j).length := by
      intro j
      simp only [Heap.setArr]
      split
      · subst j; simp
      · rfl
    refine ⟨?_, fun j _ => hlen j, ?_, Or.inl rfl, fun _ => Or.inl, fun _ => Or.inl, fun _ => Or.inl⟩
    · refine (Heap.setArr_frame h s.arr _).mono ?_ (fun _ _ => id) (fun _ _ => id) (fun _ _ => id)
      rintro j _ rfl
      exact ⟨q, s, hs, by omega, rfl⟩
    · exact ⟨wf.tab_lt, wf.shared_lt, wf.str_lt, wf.keys, fun k s hk => (wf.slices k s hk).of_len (Nat.le_refl _) (fun j _ => hlen j)⟩
  · cases e

theorem write_tab {h h' : Heap F} {s : Slice} {i : Nat} {v : Val F} (e : h.write s i v = .ok h') :
    h'.tab = h.tab ∧ h'.hdr = h.hdr ∧ h'.msk = h.msk ∧ h'.rt = h.rt ∧ h'.next = h.next := by
  unfold Heap.write at e
  split at e
  · cases e; exact ⟨rfl, rfl, rfl, rfl, rfl⟩
  · cases e

theorem Foot.overwriteLoop {r : Raw} {q : Key} {s : Slice} {is : List Nat} {vs : List (Val F)} {h h' : Heap F}
    (wf : r.WF h) (hs : AMap.get (h.tab r.tab) q = some s) (e : overwriteLoop s is vs h = .ok h') :
    Foot (r.arrays h) h r h' r := by
  induction is generalizing vs h with
  | nil => simp [Verif.overwriteLoop] at e; subst e; exact Foot.refl _ wf
  | cons i is ih =>
    cases vs with
    | nil => simp [Verif.overwriteLoop] at e
    | cons v vs =>
      simp only [Verif.overwriteLoop] at e
      split at e
      · cases e
      · rename_i h1 hw
        have f1 := Foot.write wf hs hw
        have ht := (write_tab hw).1
        have f2 := ih f1.wf (by rw [ht]; exact hs) e
        exact f1.trans' f2

theorem overwriteLoop_nil {s : Slice} (hs : s.len = 0) {is : List Nat} {vs : List (Val F)} {h h' : Heap F}
    (e : overwriteLoop s is vs h = .ok h') : h' = h := by
  cases is with
  | nil => simp [Verif.overwriteLoop] at e; exact e.symm
  | cons i is =>
    cases vs with
    | nil => simp [Verif.overwriteLoop] at e
    | cons v vs => simp [Verif.overwriteLoop, Heap.write, hs] at e

theorem Foot.overwriteLoop' {r : Raw} {q : Key} {is : List Nat} {vs : List (Val F)} {h h' : Heap F}
    (wf : r.WF h) (e : Verif.overwriteLoop (tabCol (h.tab r.tab) q) is vs h = .ok h') :
    Foot (r.arrays h) h r h' r := by
  cases hg : AMap.get (h.tab r.tab) q with
  | some s =>
    have : tabCol (h.tab r.tab) q = s := by simp [tabCol, hg]
    rw [this] at e
    exact Foot.overwriteLoop wf hg e
  | none =>
    have : tabCol (h.tab r.tab) q = Slice.nil := by simp [tabCol, hg]
    rw [this] at e
    rw [overwriteLoop_nil rfl e]; exact Foot.refl _ wf

theorem Foot.overwrite [GoFloat F] {h h' : Heap F} {d d' : DF} (wf : d.toRaw.WF h) {k : Kind} {c : GoStr}
    {vals : List (Val F)} {b : Bool} (e : d.overwrite k c vals b h = .ok (d', h')) :
    Foot (d.toRaw.arrays h) h d.toRaw h' d'.toRaw ∧ d'.idx = d.idx ∧ d'.mask = d.mask ∧
      d'.indexViewed = d.indexViewed ∧ d'.mThreadSafe = d.mThreadSafe := by
  unfold DF.overwrite at e
  simp only at e
  have f1 : Foot Nope h d.toRaw
      (if (tabCol (h.tab d.tab) (k, c)).len = 0 then
        if k = .obj ∧ b then d.withRaw (d.toRaw.allocStrings [c] h) else d.withRaw (d.toRaw.alloc k [c] h)
       else (d, h)).2
      (if (tabCol (h.tab d.tab) (k, c)).len = 0 then
        if k = .obj ∧ b then d.withRaw (d.toRaw.allocStrings [c] h) else d.withRaw (d.toRaw.alloc k [c] h)
       else (d, h)).1.toRaw := by
    split
    · split
      · exact Foot.allocStrings wf [c]
      · exact Foot.alloc wf k [c]
    · exact Foot.refl _ wf
  have hp : (if (tabCol (h.tab d.tab) (k, c)).len = 0 then
        if k = .obj ∧ b then d.withRaw (d.toRaw.allocStrings [c] h) else d.withRaw (d.toRaw.alloc k [c] h)
       else (d, h)).1.idx = d.idx ∧ (if (tabCol (h.tab d.tab) (k, c)).len = 0 then
        if k = .obj ∧ b then d.withRaw (d.toRaw.allocStrings [c] h) else d.withRaw (d.toRaw.alloc k [c] h)
       else (d, h)).1.mask = d.mask ∧ (if (tabCol (h.tab d.tab) (k, c)).len = 0 then
        if k = .obj ∧ b then d.withRaw (d.toRaw.allocStrings [c] h) else d.withRaw (d.toRaw.alloc k [c] h)
       else (d, h)).1.indexViewed = d.indexViewed ∧ (if (tabCol (h.tab d.tab) (k, c)).len = 0 then
        if k = .obj ∧ b then d.withRaw (d.toRaw.allocStrings [c] h) else d.withRaw (d.toRaw.alloc k [c] h)
       else (d, h)).1.mThreadSafe = d.mThreadSafe := by
    split
    · split <;> exact ⟨rfl, rfl, rfl, rfl⟩
    · exact ⟨rfl, rfl, rfl, rfl⟩
  generalize (if (tabCol (h.tab d.tab) (k, c)).len = 0 then
        if k = .obj ∧ b then d.withRaw (d.toRaw.allocStrings [c] h) else d.withRaw (d.toRaw.alloc k [c] h)
       else (d, h)) = p at f1 hp e
  obtain ⟨d1, h1⟩ := p
  simp only at f1 hp e
  split at e
  · cases e
  · rename_i h2 hw
    cases e
    exact ⟨(f1.structural).trans' (Foot.overwriteLoop' f1.wf hw), hp⟩

/-! ### Encode -/

theorem cell_lt {h : Heap F} {s : Slice} {i : Nat} {v : Val F} (e : h.cell s i = some v) : i < s.len := by
  unfold Heap.cell at e
  split at e
  · assumption
  · cases e

theorem Foot.inplaceEncoding {cd : Codec} {fr to : Option Nat} {r : Raw} {q : Key} {is : List Nat} {j : Nat}
    {h h' : Heap F} {o : Option Nat} {s : Slice}
    (wf : r.WF h) (hs : s = tabCol (h.tab r.tab) q)
    (e : inplaceEncoding cd fr to s is j h = .ok (o, h')) :
    Foot (r.arrays h) h r h' r ∧ h'.tab = h.tab := by
  induction is generalizing j h with
  | nil => simp [Verif.inplaceEncoding] at e; obtain ⟨_, rfl⟩ := e; exact ⟨Foot.refl _ wf, rfl⟩
  | cons i is ih =>
    simp only [Verif.inplaceEncoding] at e
    split at e
    · cases e
    · exact ih wf hs e
    · rename_i v hc
      split at e
      · cases e; exact ⟨Foot.refl _ wf, rfl⟩
      · rename_i w _
        split at e
        · cases e
        · rename_i h1 hw
          have hg : AMap.get (h.tab r.tab) q = some s := by
            cases hg : AMap.get (h.tab r.tab) q with
            | none =>
              have h0 : s = Slice.nil := by rw [hs]; simp [tabCol, hg]
              have := cell_lt hc
              rw [h0] at this; simp [Slice.nil] at this
            | some s' => rw [hs]; simp [tabCol, hg]
          have f1 := Foot.write wf hg hw
          have ht := (write_tab hw).1
          have f2 := ih f1.wf (by rw [ht]; exact hs) e
          exact ⟨f1.trans' f2.1, f2.2.trans ht⟩
    · cases e

theorem Foot.revertCols {cd : Codec} {fr to : Option Nat} {r : Raw} {rows : List Nat} {cs : List GoStr}
    {h h' : Heap F} (wf : r.WF h) (e : revertCols cd fr to r.tab rows cs h = .ok h') :
    Foot (r.arrays h) h r h' r ∧ h'.tab = h.tab := by
  induction cs generalizing h with
  | nil => simp [Verif.revertCols] at e; subst e; exact ⟨Foot.refl _ wf, rfl⟩
  | cons c cs ih =>
    simp only [Verif.revertCols] at e
    split at e
    · cases e
    · rename_i h1 hw
      obtain ⟨f1, t1⟩ := Foot.inplaceEncoding wf rfl hw
      obtain ⟨f2, t2⟩ := ih f1.wf e
      exact ⟨f1.trans' f2, t2.trans t1⟩

theorem Foot.encodeLoop {cd : Codec} {old new : Option Nat} {r : Raw} {rows : List Nat} {cs done : List GoStr}
    {h h' : Heap F} {b : Bool} (wf : r.WF h) (e : encodeLoop cd old new r.tab rows cs done h = .ok (b, h')) :
    Foot (r.arrays h) h r h' r := by
  induction cs generalizing h done with
  | nil => simp [Verif.encodeLoop] at e; obtain ⟨_, rfl⟩ := e; exact Foot.refl _ wf
  | cons c cs ih =>
    simp only [Verif.encodeLoop] at e
    split at e
    · cases e
    · rename_i h1 hw
      have f1 := (Foot.inplaceEncoding wf rfl hw).1
      exact f1.trans' (ih f1.wf e)
    · rename_i w h1 hw
      have f1 := (Foot.inplaceEncoding wf rfl hw).1
      split at e
      · cases e
      · rename_i h2 hw2
        have f2 := f1.trans' (Foot.inplaceEncoding f1.wf rfl hw2).1
        split at e
        · cases e
        · rename_i h3 hw3
          cases e
          exact f2.trans' (Foot.revertCols f2.wf hw3).1

theorem Foot.enc {A : Nat → Prop} {h h' : Heap F} {r r' : Raw} (f : Foot A h r h' r') (e : Option Nat) (n : Int) :
    Foot A h r h' { r' with enc := e, maxCPU := n } :=
  ⟨f.frame, f.len, ⟨f.wf.tab_lt, f.wf.shared_lt, f.wf.str_lt, f.wf.keys, f.wf.slices⟩, f.tab, f.sh, f.st, f.arrs⟩

theorem Foot.encode {cd : Codec} {h h' : Heap F} {d d' : DF} {b : Bool} (wf : d.toRaw.WF h) {new : Option Nat}
    (e : d.encode cd new h = .ok ((b, d'), h')) :
    Foot (d.toRaw.arrays h) h d.toRaw h' d'.toRaw := by
  unfold DF.encode at e
  split at e
  · cases e; exact Foot.refl _ wf
  · split at e
    · cases e
    · rename_i h1 hl
      cases e; exact Foot.encodeLoop wf hl
    · rename_i h1 hl
      cases e
      exact (Foot.encodeLoop wf hl).enc new d.maxCPU

theorem Foot.set {h h' : Heap F} {d : DF} (wf : d.toRaw.WF h) {k : Kind} {c : GoStr} {row : Int} {v : Val F}
    (e : d.set h k c row v = .ok h') : Foot (d.toRaw.arrays h) h d.toRaw h' d.toRaw := by
  unfold DF.set at e
  split at e
  · cases e
  · rename_i s hs
    split at e
    · cases e
    · exact Foot.write wf hs e

end Verif
