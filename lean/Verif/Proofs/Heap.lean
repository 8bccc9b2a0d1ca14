import Verif.Proofs.AMap
import Verif.Spec.ADF

namespace Verif
variable {F : Type}

/-- Objects outside the given sets of ids are unchanged. -/
structure Heap.Frame (A T H M : Nat → Prop) (h h' : Heap F) : Prop where
  next_le : h.next ≤ h'.next
  arr : ∀ i, i < h.next → ¬ A i → h'.arr i = h.arr i
  tab : ∀ i, i < h.next → ¬ T i → h'.tab i = h.tab i
  hdr : ∀ i, i < h.next → ¬ H i → h'.hdr i = h.hdr i
  msk : ∀ i, i < h.next → ¬ M i → h'.msk i = h.msk i

abbrev Nope : Nat → Prop := fun _ => False

namespace Heap

theorem Ext.toFrame {A T H M : Nat → Prop} {h h' : Heap F} (e : Ext h h') : Frame A T H M h h' :=
  ⟨e.next_le, fun i hi _ => e.arr i hi, fun i hi _ => e.tab i hi, fun i hi _ => e.hdr i hi,
   fun i hi _ => e.msk i hi⟩

theorem Frame.toExt {h h' : Heap F} (e : Frame Nope Nope Nope Nope h h') : Ext h h' :=
  ⟨e.next_le, fun i hi => e.arr i hi id, fun i hi => e.tab i hi id, fun i hi => e.hdr i hi id,
   fun i hi => e.msk i hi id⟩

theorem Ext.refl (h : Heap F) : Ext h h :=
  ⟨Nat.le_refl _, fun _ _ => rfl, fun _ _ => rfl, fun _ _ => rfl, fun _ _ => rfl⟩

theorem Frame.refl (A T H M : Nat → Prop) (h : Heap F) : Frame A T H M h h := (Ext.refl h).toFrame

theorem Ext.trans {h1 h2 h3 : Heap F} (a : Ext h1 h2) (b : Ext h2 h3) : Ext h1 h3 where
  next_le := Nat.le_trans a.next_le b.next_le
  arr i hi := (b.arr i (Nat.lt_of_lt_of_le hi a.next_le)).trans (a.arr i hi)
  tab i hi := (b.tab i (Nat.lt_of_lt_of_le hi a.next_le)).trans (a.tab i hi)
  hdr i hi := (b.hdr i (Nat.lt_of_lt_of_le hi a.next_le)).trans (a.hdr i hi)
  msk i hi := (b.msk i (Nat.lt_of_lt_of_le hi a.next_le)).trans (a.msk i hi)

/-- Compose frames: the second frame may also touch anything that did not exist before the first. -/
theorem Frame.trans {A T H M A' T' H' M' : Nat → Prop} {h1 h2 h3 : Heap F}
    (a : Frame A T H M h1 h2) (b : Frame A' T' H' M' h2 h3)
    (hA : ∀ i, i < h1.next → A' i → A i) (hT : ∀ i, i < h1.next → T' i → T i)
    (hH : ∀ i, i < h1.next → H' i → H i) (hM : ∀ i, i < h1.next → M' i → M i) :
    Frame A T H M h1 h3 where
  next_le := Nat.le_trans a.next_le b.next_le
  arr i hi n := (b.arr i (Nat.lt_of_lt_of_le hi a.next_le) (fun x => n (hA i hi x))).trans (a.arr i hi n)
  tab i hi n := (b.tab i (Nat.lt_of_lt_of_le hi a.next_le) (fun x => n (hT i hi x))).trans (a.tab i hi n)
  hdr i hi n := (b.hdr i (Nat.lt_of_lt_of_le hi a.next_le) (fun x => n (hH i hi x))).trans (a.hdr i hi n)
  msk i hi n := (b.msk i (Nat.lt_of_lt_of_le hi a.next_le) (fun x => n (hM i hi x))).trans (a.msk i hi n)

theorem Frame.mono {A T H M A' T' H' M' : Nat → Prop} {h1 h2 : Heap F}
    (a : Frame A T H M h1 h2)
    (hA : ∀ i, i < h1.next → A i → A' i) (hT : ∀ i, i < h1.next → T i → T' i)
    (hH : ∀ i, i < h1.next → H i → H' i) (hM : ∀ i, i < h1.next → M i → M' i) :
    Frame A' T' H' M' h1 h2 where
  next_le := a.next_le
  arr i hi n := a.arr i hi (fun x => n (hA i hi x))
  tab i hi n := a.tab i hi (fun x => n (hT i hi x))
  hdr i hi n := a.hdr i hi (fun x => n (hH i hi x))
  msk i hi n := a.msk i hi (fun x => n (hM i hi x))

theorem newArr_ext (h : Heap F) (xs) : Ext h (h.newArr xs).2 where
  next_le := Nat.le_succ _
  arr i hi := by simp [newArr, Nat.ne_of_lt hi]
  tab _ _ := rfl
  hdr _ _ := rfl
  msk _ _ := rfl

theorem newTab_ext (h : Heap F) (t) : Ext h (h.newTab t).2 where
  next_le := Nat.le_succ _
  arr _ _ := rfl
  tab i hi := by simp [newTab, Nat.ne_of_lt hi]
  hdr _ _ := rfl
  msk _ _ := rfl

theorem newHdr_ext (h : Heap F) (t) : Ext h (h.newHdr t).2 where
  next_le := Nat.le_succ _
  arr _ _ := rfl
  tab _ _ := rfl
  hdr i hi := by simp [newHdr, Nat.ne_of_lt hi]
  msk _ _ := rfl

theorem newMsk_ext (h : Heap F) (t) : Ext h (h.newMsk t).2 where
  next_le := Nat.le_succ _
  arr _ _ := rfl
  tab _ _ := rfl
  hdr _ _ := rfl
  msk i hi := by simp [newMsk, Nat.ne_of_lt hi]

theorem setTab_frame {A H M : Nat → Prop} (h : Heap F) (id : Nat) (t) :
    Frame A (· = id) H M h (h.setTab id t) where
  next_le := Nat.le_refl _
  arr _ _ _ := rfl
  tab i _ n := by simp [setTab]; intro e; exact absurd e n
  hdr _ _ _ := rfl
  msk _ _ _ := rfl

theorem setHdr_frame {A T M : Nat → Prop} (h : Heap F) (id : Nat) (t) :
    Frame A T (· = id) M h (h.setHdr id t) where
  next_le := Nat.le_refl _
  arr _ _ _ := rfl
  tab _ _ _ := rfl
  hdr i _ n := by simp [setHdr]; intro e; exact absurd e n
  msk _ _ _ := rfl

theorem setArr_frame {T H M : Nat → Prop} (h : Heap F) (id : Nat) (t) :
    Frame (· = id) T H M h (h.setArr id t) where
  next_le := Nat.le_refl _
  arr i _ n := by simp [setArr]; intro e; exact absurd e n
  tab _ _ _ := rfl
  hdr _ _ _ := rfl
  msk _ _ _ := rfl

theorem setMsk_frame {A T H : Nat → Prop} (h : Heap F) (id : Nat) (t) :
    Frame A T H (· = id) h (h.setMsk id t) where
  next_le := Nat.le_refl _
  arr _ _ _ := rfl
  tab _ _ _ := rfl
  hdr _ _ _ := rfl
  msk i _ n := by simp [setMsk]; intro e; exact absurd e n

@[simp] theorem setTab_tab (h : Heap F) (id t) : (h.setTab id t).tab id = t := by simp [setTab]
theorem setTab_tab_ne (h : Heap F) {id i : Nat} (t) (n : i ≠ id) :
    (h.setTab id t).tab i = h.tab i := by simp [setTab, n]
@[simp] theorem setTab_hdr (h : Heap F) (id t) : (h.setTab id t).hdr = h.hdr := rfl
@[simp] theorem setTab_arr (h : Heap F) (id t) : (h.setTab id t).arr = h.arr := rfl
@[simp] theorem setTab_msk (h : Heap F) (id t) : (h.setTab id t).msk = h.msk := rfl
@[simp] theorem setTab_next (h : Heap F) (id t) : (h.setTab id t).next = h.next := rfl
@[simp] theorem setTab_rt (h : Heap F) (id t) : (h.setTab id t).rt = h.rt := rfl
@[simp] theorem setHdr_hdr (h : Heap F) (id t) : (h.setHdr id t).hdr id = t := by simp [setHdr]
@[simp] theorem setHdr_tab (h : Heap F) (id t) : (h.setHdr id t).tab = h.tab := rfl
@[simp] theorem setHdr_arr (h : Heap F) (id t) : (h.setHdr id t).arr = h.arr := rfl
@[simp] theorem setHdr_msk (h : Heap F) (id t) : (h.setHdr id t).msk = h.msk := rfl
@[simp] theorem setHdr_next (h : Heap F) (id t) : (h.setHdr id t).next = h.next := rfl
@[simp] theorem setHdr_rt (h : Heap F) (id t) : (h.setHdr id t).rt = h.rt := rfl
@[simp] theorem setArr_tab (h : Heap F) (id t) : (h.setArr id t).tab = h.tab := rfl
@[simp] theorem setArr_hdr (h : Heap F) (id t) : (h.setArr id t).hdr = h.hdr := rfl
@[simp] theorem setArr_msk (h : Heap F) (id t) : (h.setArr id t).msk = h.msk := rfl
@[simp] theorem setArr_next (h : Heap F) (id t) : (h.setArr id t).next = h.next := rfl
@[simp] theorem setArr_rt (h : Heap F) (id t) : (h.setArr id t).rt = h.rt := rfl
@[simp] theorem setArr_arr (h : Heap F) (id t) : (h.setArr id t).arr id = t := by simp [setArr]
@[simp] theorem newArr_tab (h : Heap F) (xs) : (h.newArr xs).2.tab = h.tab := rfl
@[simp] theorem newArr_hdr (h : Heap F) (xs) : (h.newArr xs).2.hdr = h.hdr := rfl
@[simp] theorem newArr_msk (h : Heap F) (xs) : (h.newArr xs).2.msk = h.msk := rfl
@[simp] theorem newArr_next (h : Heap F) (xs) : (h.newArr xs).2.next = h.next + 1 := rfl
@[simp] theorem newArr_rt (h : Heap F) (xs) : (h.newArr xs).2.rt = h.rt := rfl
@[simp] theorem newArr_fst (h : Heap F) (xs) : (h.newArr xs).1 = ⟨h.next, 0, xs.length, xs.length⟩ := rfl
@[simp] theorem newArr_arr (h : Heap F) (xs) : (h.newArr xs).2.arr h.next = xs := by simp [newArr]
@[simp] theorem newTab_fst (h : Heap F) (t) : (h.newTab t).1 = h.next := rfl
@[simp] theorem newTab_tab (h : Heap F) (t) : (h.newTab t).2.tab h.next = t := by simp [newTab]
@[simp] theorem newTab_arr (h : Heap F) (t) : (h.newTab t).2.arr = h.arr := rfl
@[simp] theorem newTab_hdr (h : Heap F) (t) : (h.newTab t).2.hdr = h.hdr := rfl
@[simp] theorem newTab_msk (h : Heap F) (t) : (h.newTab t).2.msk = h.msk := rfl
@[simp] theorem newTab_next (h : Heap F) (t) : (h.newTab t).2.next = h.next + 1 := rfl
@[simp] theorem newTab_rt (h : Heap F) (t) : (h.newTab t).2.rt = h.rt := rfl
@[simp] theorem newHdr_fst (h : Heap F) (t) : (h.newHdr t).1 = h.next := rfl
@[simp] theorem newHdr_hdr (h : Heap F) (t) : (h.newHdr t).2.hdr h.next = t := by simp [newHdr]
@[simp] theorem newHdr_arr (h : Heap F) (t) : (h.newHdr t).2.arr = h.arr := rfl
@[simp] theorem newHdr_tab (h : Heap F) (t) : (h.newHdr t).2.tab = h.tab := rfl
@[simp] theorem newHdr_msk (h : Heap F) (t) : (h.newHdr t).2.msk = h.msk := rfl
@[simp] theorem newHdr_next (h : Heap F) (t) : (h.newHdr t).2.next = h.next + 1 := rfl
@[simp] theorem newHdr_rt (h : Heap F) (t) : (h.newHdr t).2.rt = h.rt := rfl
@[simp] theorem newMsk_fst (h : Heap F) (m) : (h.newMsk m).1 = ⟨h.next, 0, m.length, m.length⟩ := rfl
@[simp] theorem newMsk_arr (h : Heap F) (t) : (h.newMsk t).2.arr = h.arr := rfl
@[simp] theorem newMsk_tab (h : Heap F) (t) : (h.newMsk t).2.tab = h.tab := rfl
@[simp] theorem newMsk_hdr (h : Heap F) (t) : (h.newMsk t).2.hdr = h.hdr := rfl
@[simp] theorem newMsk_next (h : Heap F) (t) : (h.newMsk t).2.next = h.next + 1 := rfl
@[simp] theorem newMsk_rt (h : Heap F) (t) : (h.newMsk t).2.rt = h.rt := rfl
@[simp] theorem newMsk_msk (h : Heap F) (t) : (h.newMsk t).2.msk h.next = t := by simp [newMsk]

theorem cell_congr {h h' : Heap F} {s : Slice} (e : s.len = 0 ∨ h'.arr s.arr = h.arr s.arr) :
    h'.cell s = h.cell s := by
  funext i
  unfold cell
  rcases e with e | e
  · simp [e]
  · rw [e]

theorem read_congr {h h' : Heap F} {s : Slice} (e : s.len = 0 ∨ h'.arr s.arr = h.arr s.arr) :
    h'.read s = h.read s := by
  unfold read
  rcases e with e | e
  · simp [e]
  · rw [e]

theorem cell_eq_read (h : Heap F) (s : Slice) (i : Nat) : h.cell s i = (h.read s)[i]? := by
  unfold cell read
  rw [List.getElem?_take]
  split
  · rw [List.getElem?_drop]
  · rfl

end Heap

theorem Slice.Valid.read_length {h : Heap F} {s : Slice} (v : s.Valid h) : (h.read s).length = s.len := by
  unfold Heap.read
  rw [List.length_take, List.length_drop]
  obtain ⟨h1, h2⟩ := v
  rcases h2 with h2 | ⟨_, h2⟩ <;> omega

theorem Slice.Valid.cell_some {h : Heap F} {s : Slice} (v : s.Valid h) {i : Nat} (hi : i < s.len) :
    ∃ x, h.cell s i = some x := by
  rw [Heap.cell_eq_read]
  have := v.read_length
  exact ⟨_, List.getElem?_eq_getElem (by omega)⟩

theorem Heap.cell_none {h : Heap F} {s : Slice} {i : Nat} (hi : ¬ i < s.len) : h.cell s i = none := by
  simp [Heap.cell, hi]

theorem Slice.Valid.frame {A T H M} {h h' : Heap F} {s : Slice} (v : s.Valid h)
    (e : Heap.Frame A T H M h h') (hA : s.cap = 0 ∨ ¬ A s.arr) : s.Valid h' := by
  refine ⟨v.1, ?_⟩
  rcases v.2 with hc | ⟨h1, h2⟩
  · exact Or.inl hc
  · rcases hA with hA | hA
    · exact Or.inl hA
    · exact Or.inr ⟨Nat.lt_of_lt_of_le h1 e.next_le, by rw [e.arr _ h1 hA]; exact h2⟩

theorem Slice.Valid.ext {h h' : Heap F} {s : Slice} (v : s.Valid h) (e : Heap.Ext h h') : s.Valid h' :=
  v.frame (A := Nope) (T := Nope) (H := Nope) (M := Nope) e.toFrame (Or.inr id)

theorem Slice.Valid.arr_eq {h h' : Heap F} {s : Slice} (v : s.Valid h) (e : Heap.Ext h h') :
    s.len = 0 ∨ h'.arr s.arr = h.arr s.arr := by
  rcases v.2 with hc | ⟨h1, _⟩
  · exact Or.inl (by have := v.1; omega)
  · exact Or.inr (e.arr _ h1)

theorem Slice.Valid.arr_eq_frame {A T H M} {h h' : Heap F} {s : Slice} (v : s.Valid h)
    (e : Heap.Frame A T H M h h') (hA : s.len = 0 ∨ ¬ A s.arr) :
    s.len = 0 ∨ h'.arr s.arr = h.arr s.arr := by
  rcases v.2 with hc | ⟨h1, _⟩
  · exact Or.inl (by have := v.1; omega)
  · rcases hA with hA | hA
    · exact Or.inl hA
    · exact Or.inr (e.arr _ h1 hA)

theorem Slice.valid_newArr (h : Heap F) (xs) : (h.newArr xs).1.Valid (h.newArr xs).2 := by
  refine ⟨by simp, Or.inr ⟨by simp, by simp⟩⟩

theorem read_newArr (h : Heap F) (xs) : (h.newArr xs).2.read (h.newArr xs).1 = xs := by
  simp [Heap.read]

theorem ADF.ext' {C : Type} {a b : ADF C} (h1 : a.nRows = b.nRows) (h2 : ∀ k c, a.col k c = b.col k c)
    (h3 : ∀ c, a.isStr c = b.isStr c) (h4 : a.enc = b.enc) : a = b := by
  cases a; cases b
  simp only [ADF.mk.injEq]
  exact ⟨h1, funext fun k => funext fun c => h2 k c, funext h3, h4⟩

/-- The content of a memory cell. -/
def Heap.at (h : Heap F) (l : Nat × Nat) : Option (Val F) := (h.arr l.1)[l.2]?

/-- Replace the cells of a dataframe by what `f` gives for them. -/
def ADF.bindCells {C D : Type} (a : ADF C) (f : C → Option D) : ADF D where
  nRows := a.nRows
  col k c := (a.col k c).map fun l => l.map fun x => x.bind f
  isStr := a.isStr
  enc := a.enc

theorem abs_eq_locs (h : Heap F) (d : DF) : abs h d = (locs h d).bindCells h.at := by
  refine ADF.ext' rfl ?_ (fun _ => rfl) rfl
  intro k c
  simp only [abs, locs, ADF.bindCells, Option.map_map]
  congr 1
  funext s
  simp only [Function.comp, List.map_map]
  apply List.map_congr_left
  intro r _
  simp only [Function.comp, Heap.cell]
  split
  · rfl
  · rfl

theorem select_bindCells {C D : Type} (a : ADF C) (f : C → Option D) (is : List Nat) :
    (a.bindCells f).select is = (a.select is).bindCells f := by
  refine ADF.ext' rfl ?_ (fun _ => rfl) rfl
  intro k c
  simp only [ADF.select, ADF.bindCells, Option.map_map]
  congr 1
  funext l
  simp only [Function.comp, List.map_map]
  apply List.map_congr_left
  intro i _
  simp only [Function.comp, List.getElem?_map]
  cases l[i]? <;> rfl

/-- Row selections at the level of memory cells are row selections at the level of values. -/
theorem abs_of_locs {h h' : Heap F} {d d' : DF} {is : List Nat} (wf : d.toRaw.WF h)
    (ha : ∀ i, i < h.next → h'.arr i = h.arr i)
    (hl : locs h' d' = (locs h d).select is) : abs h' d' = (abs h d).select is := by
  rw [abs_eq_locs, abs_eq_locs, select_bindCells, hl]
  refine ADF.ext' rfl ?_ (fun _ => rfl) rfl
  intro k c
  simp only [ADF.select, ADF.bindCells, locs, Option.map_map]
  cases hs : AMap.get (h.tab d.tab) (k, c) with
  | none => rfl
  | some s =>
    simp only [Option.map_some, Function.comp, List.map_map, Option.some.injEq]
    apply List.map_congr_left
    intro i _
    simp only [Function.comp, List.getElem?_map]
    cases d.rows[i]? with
    | none => rfl
    | some r =>
      simp only [Option.map_some, Option.join_some]
      split
      · rename_i hr
        simp only [Option.bind_some, Heap.at]
        have v := wf.slices _ _ hs
        rcases v.2 with hc | ⟨hc, _⟩
        · have := v.1; omega
        · rw [ha _ hc]
      · rfl

/-- What a dataframe shows only depends on the objects it refers to. -/
theorem abs_frame {A T H M} {h h' : Heap F} {d : DF} (e : Heap.Frame A T H M h h')
    (wf : d.toRaw.WF h) (hT : ¬ T d.tab) (hH : ∀ i, d.strHdr = some i → ¬ H i)
    (hA : ∀ k s, AMap.get (h.tab d.tab) k = some s → s.len = 0 ∨ ¬ A s.arr) :
    abs h' d = abs h d := by
  have ht := e.tab _ wf.tab_lt hT
  refine ADF.ext' rfl ?_ ?_ rfl
  · intro k c
    simp only [abs, ht]
    cases hs : AMap.get (h.tab d.tab) (k, c) with
    | none => rfl
    | some s =>
      simp only [Option.map_some]
      rw [Heap.cell_congr ((wf.slices _ _ hs).arr_eq_frame e (hA _ _ hs))]
  · intro c
    simp only [abs]
    cases hs : d.strHdr with
    | none => rfl
    | some i =>
      have := e.hdr _ (wf.str_lt _ hs) (hH _ hs)
      exact decide_eq_decide.2 (by simp only [hdrList]; rw [this])

theorem locs_frame {A T H M} {h h' : Heap F} {d : DF} (e : Heap.Frame A T H M h h')
    (wf : d.toRaw.WF h) (hT : ¬ T d.tab) (hH : ∀ i, d.strHdr = some i → ¬ H i) :
    locs h' d = locs h d := by
  have ht := e.tab _ wf.tab_lt hT
  refine ADF.ext' rfl ?_ ?_ rfl
  · intro k c
    simp only [locs, ht]
  · intro c
    simp only [locs]
    cases hs : d.strHdr with
    | none => rfl
    | some i =>
      have := e.hdr _ (wf.str_lt _ hs) (hH _ hs)
      exact decide_eq_decide.2 (by simp only [hdrList]; rw [this])

theorem locs_ext {h h' : Heap F} {d : DF} (e : Heap.Ext h h') (wf : d.toRaw.WF h) :
    locs h' d = locs h d :=
  locs_frame (A := Nope) (T := Nope) (H := Nope) (M := Nope) e.toFrame wf id (fun _ _ => id)

theorem abs_ext {h h' : Heap F} {d : DF} (e : Heap.Ext h h') (wf : d.toRaw.WF h) :
    abs h' d = abs h d :=
  abs_frame (A := Nope) (T := Nope) (H := Nope) (M := Nope) e.toFrame wf id (fun _ _ => id)
    (fun _ _ _ => Or.inr id)

theorem Raw.WF.frame {A T H M} {h h' : Heap F} {r : Raw} (e : Heap.Frame A T H M h h')
    (wf : r.WF h) (hT : ¬ T r.tab)
    (hA : ∀ k s, AMap.get (h.tab r.tab) k = some s → s.cap = 0 ∨ ¬ A s.arr) : r.WF h' where
  tab_lt := Nat.lt_of_lt_of_le wf.tab_lt e.next_le
  shared_lt i hi := Nat.lt_of_lt_of_le (wf.shared_lt i hi) e.next_le
  str_lt i hi := Nat.lt_of_lt_of_le (wf.str_lt i hi) e.next_le
  keys := by rw [e.tab _ wf.tab_lt hT]; exact wf.keys
  slices k s hs := by
    rw [e.tab _ wf.tab_lt hT] at hs
    exact (wf.slices k s hs).frame e (hA k s hs)

theorem Raw.WF.ext {h h' : Heap F} {r : Raw} (wf : r.WF h) (e : Heap.Ext h h') : r.WF h' :=
  wf.frame (A := Nope) (T := Nope) (H := Nope) (M := Nope) e.toFrame id (fun _ _ _ => Or.inr id)

theorem DF.WF.frame {A T H M} {h h' : Heap F} {d : DF} (e : Heap.Frame A T H M h h')
    (wf : d.WF h) (hT : ¬ T d.tab)
    (hA : ∀ k s, AMap.get (h.tab d.tab) k = some s → s.cap = 0 ∨ ¬ A s.arr) : d.WF h' where
  toWF := wf.toWF.frame e hT hA
  idx_len := wf.idx_len
  rect := by rw [e.tab _ wf.tab_lt hT]; exact wf.rect

theorem DF.WF.ext {h h' : Heap F} {d : DF} (wf : d.WF h) (e : Heap.Ext h h') : d.WF h' :=
  wf.frame (A := Nope) (T := Nope) (H := Nope) (M := Nope) e.toFrame id (fun _ _ _ => Or.inr id)

/-- In a consistent dataframe every cell of every column can be read. -/
theorem DF.WF.cells {h : Heap F} {d : DF} (wf : d.WF h) {k : Kind} {c : GoStr} {l}
    (hl : (abs h d).col k c = some l) : l.length = (abs h d).nRows ∧ none ∉ l := by
  simp only [abs, Option.map_eq_some_iff] at hl
  obtain ⟨s, hs, rfl⟩ := hl
  obtain ⟨N, h1, h2, _⟩ := wf.rect
  refine ⟨by simp [abs, DF.numRows], ?_⟩
  intro hm
  obtain ⟨i, hi, he⟩ := List.mem_map.1 hm
  obtain ⟨x, hx⟩ := (wf.slices _ _ hs).cell_some (i := i) (by rw [h1 _ _ hs]; exact h2 i hi)
  simp [hx] at he

end Verif
