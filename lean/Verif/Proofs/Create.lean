import Verif.Proofs.EditAbs
import Verif.Proofs.Overwrite

/-! Creating a column: what `Alloc*` and `Overwrite*` do to the tables, precisely. -/

namespace Verif
variable {F : Type}

/-- `(k, c)` has become a new column of `r` (as `r1`); every table that existed keeps its other columns
and every array that existed is the same. -/
structure CreateSpec (k : Kind) (c : GoStr) (h : Heap F) (r : Raw) (h1 : Heap F) (r1 : Raw) : Prop where
  new : ∃ s, AMap.get (h1.tab r1.tab) (k, c) = some s ∧ h.next ≤ s.arr ∧ s.len = numAllocatedRows (h.tab r.tab)
  cols : ∀ t, t < h.next → ∀ q, q ≠ (k, c) → AMap.get (h1.tab t) q = AMap.get (h.tab t) q
  old : ∀ q, q ≠ (k, c) → AMap.get (h1.tab r1.tab) q = AMap.get (h.tab r.tab) q
  arr : ∀ i, i < h.next → h1.arr i = h.arr i
  notShared : r1.sharedMaps = false

theorem create_alloc [GoFloat F] {r : Raw} {h : Heap F} (wf : r.WF h) (k : Kind) (c : GoStr) :
    CreateSpec k c h r (r.alloc k [c] h).2 (r.alloc k [c] h).1 := by
  have e : r.alloc k [c] h = ((r.own h).1, allocLoop k (numAllocatedRows ((r.own h).2.tab (r.own h).1.tab)) (r.own h).1.tab [c] (r.own h).2) := rfl
  rw [e]
  have sp := own_spec wf
  generalize r.own h = p at sp
  obtain ⟨r1, h1⟩ := p
  simp only at sp ⊢
  have al := allocLoop_spec k (numAllocatedRows (h1.tab r1.tab)) r1.tab [c] h1
  have hn := sp.ext.next_le
  obtain ⟨s, g1, g2, g3, g4, _⟩ := al.new c (by simp)
  have hq : ∀ q : Key, q ≠ (k, c) → ¬ (q.1 = k ∧ q.2 ∈ [c]) := by
    rintro ⟨k', c'⟩ hne ⟨h1, h2⟩
    simp only [List.mem_singleton] at h1 h2
    exact hne (by rw [h1, h2])
  refine ⟨⟨s, g1, by omega, by rw [g3, sp.tab]⟩, ?_, ?_, ?_, sp.notShared⟩
  · intro t ht q hne
    by_cases htt : t = r1.tab
    · subst htt
      rw [al.old q (hq q hne), sp.ext.tab _ ht]
    · rw [al.frame.tab t (by omega) htt, sp.ext.tab t ht]
  · intro q hne
    rw [al.old q (hq q hne), sp.tab]
  · intro i hi
    rw [al.frame.arr i (by omega) id, sp.ext.arr i hi]

theorem create_allocStrings [GoFloat F] {r : Raw} {h : Heap F} (wf : r.WF h) (c : GoStr) :
    CreateSpec .obj c h r (r.allocStrings [c] h).2 (r.allocStrings [c] h).1 := by
  have sp := own_spec wf
  have e : r.allocStrings [c] h =
      (let p := (r.own h).1.alloc .obj [c] (r.own h).2
       let st := hdrAddEach p.2 p.1.strHdr [c]
       ({ p.1 with strHdr := st.1 }, st.2)) := rfl
  rw [e]
  generalize r.own h = p at sp
  obtain ⟨r1, h1⟩ := p
  simp only at sp ⊢
  have cs := create_alloc sp.wf .obj c
  generalize r1.alloc .obj [c] h1 = p at cs
  obtain ⟨r2, h2⟩ := p
  simp only at cs ⊢
  have ht := hdrAddEach_tab h2 r2.strHdr [c]
  have ha := hdrAddEach_arr h2 r2.strHdr [c]
  have hn := sp.ext.next_le
  obtain ⟨s, g1, g2, g3⟩ := cs.new
  refine ⟨⟨s, by rw [ht]; exact g1, by omega, by rw [g3, sp.tab]⟩, ?_, ?_, ?_, cs.notShared⟩
  · intro t htt q hq; rw [ht, cs.cols t (by omega) q hq, sp.ext.tab t htt]
  · intro q hq; rw [ht, cs.old q hq, sp.tab]
  · intro i hi; rw [ha, cs.arr i (by omega), sp.ext.arr i hi]

theorem overwriteLoop_frame {s : Slice} {is : List Nat} {vs : List (Val F)} {h h' : Heap F}
    (e : overwriteLoop s is vs h = .ok h') :
    Quiet h h' ∧ ∀ i, i ≠ s.arr → h'.arr i = h.arr i := by
  induction is generalizing vs h with
  | nil => simp [overwriteLoop] at e; subst e; exact ⟨Quiet.refl _, fun _ _ => rfl⟩
  | cons j is ih =>
    cases vs with
    | nil => simp [overwriteLoop] at e
    | cons v vs =>
      simp only [overwriteLoop] at e
      split at e
      · cases e
      · rename_i h1 hw
        obtain ⟨q, hh⟩ := ih e
        unfold Heap.write at hw
        split at hw
        · cases hw
          have q0 : Quiet h (h.setArr s.arr ((h.arr s.arr).set (s.off + j) v)) := by
            refine ⟨rfl, rfl, rfl, rfl, ?_, rfl⟩
            intro j
            simp only [Heap.setArr]
            split
            · subst j; simp
            · rfl
          refine ⟨q0.trans q, ?_⟩
          · intro i hi
            rw [hh i hi]; simp [Heap.setArr, hi]
        · cases hw

/-- With too few values the loop panics. -/
theorem overwriteLoop_short {s : Slice} {is : List Nat} {vs : List (Val F)} (h : Heap F)
    (hl : vs.length < is.length) : overwriteLoop s is vs h = .error .panic := by
  induction is generalizing vs h with
  | nil => simp at hl
  | cons i is ih =>
    cases vs with
    | nil => rfl
    | cons v vs =>
      simp only [overwriteLoop]
      cases hw : h.write s i v with
      | error e =>
        unfold Heap.write at hw
        split at hw
        · cases hw
        · cases hw; rfl
      | ok h1 => exact ih h1 (by simpa using hl)

end Verif
