import Verif.Proofs.Foot
import Verif.Spec.Edit

/-! Two dataframes without common footprint stay that way, and operations on one of them are not
visible in the other. -/

namespace Verif
variable {F : Type}

theorem Edit.foot [GoFloat F] {e : Edit F} {d d' : DF} {h h' : Heap F} (wf : d.toRaw.WF h)
    (he : e.run d h = .ok (d', h')) : Foot (d.toRaw.arrays h) h d.toRaw h' d'.toRaw := by
  cases e with
  | set k c row v =>
    simp only [Edit.run] at he
    split at he
    · cases he
    · cases he; exact Foot.set wf (by assumption)
  | setString c row v =>
    simp only [Edit.run] at he
    split at he
    · cases he
    · rename_i hx hs
      cases he
      unfold DF.setString at hs
      split at hs
      · cases hs
      · split at hs
        · exact Foot.set wf hs
        · cases hs
  | rename old new =>
    simp only [Edit.run] at he
    split at he
    · cases he
    · rename_i p hp
      cases he
      obtain ⟨r', h'⟩ := p
      exact (Foot.rename wf hp).structural
  | drop cols => cases he; exact (Foot.drop wf cols).structural
  | alloc k cols => cases he; exact (Foot.alloc wf k cols).structural
  | allocStrings cols => cases he; exact (Foot.allocStrings wf cols).structural
  | intToFloats cols => cases he; exact (Foot.intToFloats wf cols).structural
  | boolToFloats cols => cases he; exact (Foot.boolToFloats wf cols).structural
  | overwrite k c vals b => exact (Foot.overwrite wf he).1
  | encode cd new =>
    simp only [Edit.run] at he
    split at he
    · cases he
    · rename_i b d1 h1 hp
      cases he
      exact Foot.encode wf hp
  | unshare cols => cases he; exact (Foot.unshare wf cols).structural
  | setMaxCPU n => cases he; exact (Foot.refl _ wf).enc d.enc _
  | threadSafeMasking b => cases he; exact Foot.refl _ wf

theorem Edit.foot_structural [GoFloat F] {e : Edit F} (hs : e.structural = true) {d d' : DF} {h h' : Heap F}
    (wf : d.toRaw.WF h) (he : e.run d h = .ok (d', h')) : Foot Nope h d.toRaw h' d'.toRaw := by
  cases e with
  | set k c row v => cases hs
  | setString c row v => cases hs
  | rename old new =>
    simp only [Edit.run] at he
    split at he
    · cases he
    · rename_i p hp
      cases he
      obtain ⟨r', h'⟩ := p
      exact Foot.rename wf hp
  | drop cols => cases he; exact Foot.drop wf cols
  | alloc k cols => cases he; exact Foot.alloc wf k cols
  | allocStrings cols => cases he; exact Foot.allocStrings wf cols
  | intToFloats cols => cases he; exact Foot.intToFloats wf cols
  | boolToFloats cols => cases he; exact Foot.boolToFloats wf cols
  | overwrite k c vals b => cases hs
  | encode cd new => cases hs
  | unshare cols => cases he; exact Foot.unshare wf cols
  | setMaxCPU n => cases he; exact (Foot.refl _ wf).enc d.enc _
  | threadSafeMasking b => cases he; exact Foot.refl _ wf

/-- The structures of `a` and `b` have no map in common. -/
structure Raw.StructApart (a b : Raw) : Prop where
  tab : a.tab ≠ b.tab
  hdr : ∀ i, a.headers i → ¬ b.headers i

/-- Nor any column array. -/
structure Raw.Apart (h : Heap F) (a b : Raw) : Prop extends Raw.StructApart a b where
  arr : ∀ i, a.arrays h i → ¬ b.arrays h i

theorem Raw.StructApart.symm {a b : Raw} (s : a.StructApart b) : b.StructApart a :=
  ⟨s.tab.symm, fun i hb ha => s.hdr i ha hb⟩

theorem Raw.Apart.symm {h : Heap F} {a b : Raw} (s : a.Apart h b) : b.Apart h a :=
  ⟨s.toStructApart.symm, fun i hb ha => s.arr i ha hb⟩

theorem Raw.headers_lt {h : Heap F} {r : Raw} (wf : r.WF h) {i : Nat} (hi : r.headers i) : i < h.next := by
  rcases hi with hi | hi
  · exact wf.shared_lt i hi
  · exact wf.str_lt i hi

theorem Raw.arrays_lt {h : Heap F} {r : Raw} (wf : r.WF h) {i : Nat} (hi : r.arrays h i) : i < h.next := by
  obtain ⟨k, s, hk, h1, rfl⟩ := hi
  rcases (wf.slices k s hk).2 with h2 | h2
  · have := (wf.slices k s hk).1; omega
  · exact h2.1

theorem Foot.structApart {A : Nat → Prop} {h h' : Heap F} {a a' b : Raw} (f : Foot A h a h' a')
    (wb : b.WF h) (s : a.StructApart b) : a'.StructApart b := by
  refine ⟨?_, ?_⟩
  · rcases f.tab with h1 | h1
    · rw [h1]; exact s.tab
    · have := wb.tab_lt; omega
  · intro i ha hb
    rcases f.headers i ha with h1 | h1
    · exact s.hdr i h1 hb
    · have := Raw.headers_lt wb hb; omega

/-- The table of a structure that is apart is untouched. -/
theorem Foot.other_tab {A : Nat → Prop} {h h' : Heap F} {a a' b : Raw} (f : Foot A h a h' a')
    (wb : b.WF h) (s : a.StructApart b) : h'.tab b.tab = h.tab b.tab :=
  f.frame.tab _ wb.tab_lt (fun e => s.tab e.symm)

theorem Foot.other_wf {A : Nat → Prop} {h h' : Heap F} {a a' b : Raw} (f : Foot A h a h' a')
    (wb : b.WF h) (s : a.StructApart b) : b.WF h' := by
  have ht := f.other_tab wb s
  have hn := f.frame.next_le
  exact ⟨Nat.lt_of_lt_of_le wb.tab_lt hn, fun i hi => Nat.lt_of_lt_of_le (wb.shared_lt i hi) hn,
    fun i hi => Nat.lt_of_lt_of_le (wb.str_lt i hi) hn, by rw [ht]; exact wb.keys,
    fun k s hk => by rw [ht] at hk; exact (wb.slices k s hk).of_len hn f.len⟩

theorem Foot.other_arrays {A : Nat → Prop} {h h' : Heap F} {a a' b : Raw} (f : Foot A h a h' a')
    (wb : b.WF h) (s : a.StructApart b) (i : Nat) : b.arrays h' i ↔ b.arrays h i := by
  unfold Raw.arrays; rw [f.other_tab wb s]

theorem Foot.apart {h h' : Heap F} {a a' b : Raw} (f : Foot (a.arrays h) h a h' a')
    (wb : b.WF h) (s : a.Apart h b) : a'.Apart h' b := by
  refine ⟨f.structApart wb s.toStructApart, ?_⟩
  intro i ha hb
  rw [f.other_arrays wb s.toStructApart] at hb
  rcases f.arrs i ha with h1 | h1
  · exact s.arr i h1 hb
  · have := Raw.arrays_lt wb hb; omega

/-- Operations on a structure that is apart are not visible. -/
theorem Foot.other_abs {A : Nat → Prop} {h h' : Heap F} {a a' : Raw} {b : DF} (f : Foot A h a h' a')
    (wb : b.toRaw.WF h) (s : a.StructApart b.toRaw) (hA : ∀ i, A i → ¬ b.toRaw.arrays h i) :
    abs h' b = abs h b ∧ locs h' b = locs h b := by
  have hT : ¬ (b.tab = a.tab) := fun e => s.tab e.symm
  have hH : ∀ i, b.strHdr = some i → ¬ a.headers i := fun i hi ha => s.hdr i ha (Or.inr hi)
  refine ⟨abs_frame f.frame wb hT hH ?_, locs_frame f.frame wb hT hH⟩
  intro k s' hk
  by_cases h0 : s'.len = 0
  · exact Or.inl h0
  · right; intro ha; exact hA _ ha ⟨k, s', hk, h0, rfl⟩

theorem Foot.other_dfwf {A : Nat → Prop} {h h' : Heap F} {a a' : Raw} {b : DF} (f : Foot A h a h' a')
    (wb : b.WF h) (s : a.StructApart b.toRaw) : b.WF h' := by
  refine ⟨f.other_wf wb.toWF s, wb.idx_len, ?_⟩
  rw [f.other_tab wb.toWF s]; exact wb.rect

/-- A history of operations on two dataframes that are apart: at every moment an operation on one is
invisible in the other. -/
theorem runPair_apart [GoFloat F] {es : List (Bool × Edit F)} {a b a' b' : DF} {h h' : Heap F}
    (wa : a.toRaw.WF h) (wb : b.toRaw.WF h) (s : a.toRaw.Apart h b.toRaw)
    (he : runPair es (a, b) h = .ok ((a', b'), h')) :
    a'.toRaw.WF h' ∧ b'.toRaw.WF h' ∧ a'.toRaw.Apart h' b'.toRaw := by
  induction es generalizing a b h with
  | nil => simp [runPair] at he; obtain ⟨⟨rfl, rfl⟩, rfl⟩ := he; exact ⟨wa, wb, s⟩
  | cons x es ih =>
    obtain ⟨t, e⟩ := x
    cases t
    · simp only [runPair] at he
      split at he
      · cases he
      · rename_i b1 h1 hr
        have f := Edit.foot wb hr
        exact ih (f.other_wf wa s.symm.toStructApart) f.wf (f.apart wa s.symm).symm he
    · simp only [runPair] at he
      split at he
      · cases he
      · rename_i a1 h1 hr
        have f := Edit.foot wa hr
        exact ih f.wf (f.other_wf wb s.toStructApart) (f.apart wb s) he

theorem runPair_structApart [GoFloat F] {es : List (Bool × Edit F)} {a b a' b' : DF} {h h' : Heap F}
    (wa : a.toRaw.WF h) (wb : b.toRaw.WF h) (s : a.toRaw.StructApart b.toRaw)
    (he : runPair es (a, b) h = .ok ((a', b'), h')) :
    a'.toRaw.WF h' ∧ b'.toRaw.WF h' ∧ a'.toRaw.StructApart b'.toRaw := by
  induction es generalizing a b h with
  | nil => simp [runPair] at he; obtain ⟨⟨rfl, rfl⟩, rfl⟩ := he; exact ⟨wa, wb, s⟩
  | cons x es ih =>
    obtain ⟨t, e⟩ := x
    cases t
    · simp only [runPair] at he
      split at he
      · cases he
      · rename_i b1 h1 hr
        have f := Edit.foot wb hr
        exact ih (f.other_wf wa s.symm) f.wf (f.structApart wa s.symm).symm he
    · simp only [runPair] at he
      split at he
      · cases he
      · rename_i a1 h1 hr
        have f := Edit.foot wa hr
        exact ih f.wf (f.other_wf wb s) (f.structApart wb s) he

end Verif
