import Verif.Proofs.RowViews

/-! Lemmas about `append`, the builder functions and `ToDataFrame`. -/

namespace Verif
variable {F : Type}

/-- Two column slices don't overlap: different arrays (or one has no room at all). -/
def Slice.Apart (s t : Slice) : Prop := s.cap = 0 ∨ t.cap = 0 ∨ s.arr ≠ t.arr

theorem Heap.append_read [GoFloat F] {h : Heap F} {z : Val F} {s : Slice} {xs} (v : s.Valid h) :
    (h.append z s xs).2.read (h.append z s xs).1 = h.read s ++ xs := by
  have hl := v.read_length
  unfold Heap.append
  split
  · rename_i hc
    simp only [Heap.read, Heap.setArr_arr]
    rcases v.2 with h0 | ⟨_, h2⟩
    · have : s.len = 0 := by have := v.1; omega
      have : xs = [] := by
        cases xs with
        | nil => rfl
        | cons x xs => simp at hc; omega
      subst this; simp [*]
    · rw [List.append_assoc, List.drop_append, List.drop_take, List.take_append]
      have e1 : ((h.arr s.arr).drop s.off).length = (h.arr s.arr).length - s.off := by simp
      rw [show s.off + s.len - s.off = s.len by omega]
      rw [List.take_take, show min (s.len + xs.length) s.len = s.len by omega]
      congr 1
      simp only [List.length_take]
      rw [show s.off - min (s.off + s.len) (h.arr s.arr).length = 0 by omega]
      simp only [List.drop_zero, List.length_drop]
      rw [show s.len + xs.length - min s.len ((h.arr s.arr).length - s.off) = xs.length by omega]
      simp
  · generalize h.read s = L
    simp only [Heap.newArr, Heap.read, if_true, List.drop_zero]
    exact List.take_left

theorem Heap.append_frame {T H M : Nat → Prop} (h : Heap F) (z s xs) :
    Heap.Frame (fun i => i = s.arr ∧ s.cap ≠ 0 ∧ xs ≠ []) T H M h (h.append z s xs).2 := by
  unfold Heap.append
  split
  · rename_i hc
    by_cases hx : xs = []
    · subst hx
      constructor <;> intros <;> simp [Heap.setArr]
      rintro rfl; rfl
    · refine (Heap.setArr_frame h s.arr _).mono ?_ (fun _ _ => id) (fun _ _ => id) (fun _ _ => id)
      intro i _ e
      refine ⟨e, ?_, hx⟩
      cases xs with
      | nil => exact absurd rfl hx
      | cons x xs => simp at hc; omega
  · exact (Heap.newArr_ext ..).toFrame

theorem Heap.append_next_le (h : Heap F) (z s xs) : h.next ≤ (h.append z s xs).2.next :=
  (Heap.append_frame (T := Nope) (H := Nope) (M := Nope) h z s xs).next_le

theorem Heap.append_tab (h : Heap F) (z s xs) : (h.append z s xs).2.tab = h.tab := by
  unfold Heap.append; split <;> rfl
theorem Heap.append_hdr (h : Heap F) (z s xs) : (h.append z s xs).2.hdr = h.hdr := by
  unfold Heap.append; split <;> rfl
theorem Heap.append_msk (h : Heap F) (z s xs) : (h.append z s xs).2.msk = h.msk := by
  unfold Heap.append; split <;> rfl
theorem Heap.append_rt (h : Heap F) (z s xs) : (h.append z s xs).2.rt = h.rt := by
  unfold Heap.append; split <;> rfl

theorem Heap.append_valid {h : Heap F} {z : Val F} {s : Slice} {xs} (v : s.Valid h) :
    (h.append z s xs).1.Valid (h.append z s xs).2 := by
  unfold Heap.append
  split
  · rename_i hc
    refine ⟨hc, ?_⟩
    rcases v.2 with h0 | ⟨h1, h2⟩
    · exact Or.inl h0
    · right
      refine ⟨h1, ?_⟩
      simp only [Heap.setArr_arr, List.length_append, List.length_take, List.length_drop]
      omega
  · simp only [Heap.newArr]
    exact ⟨by simp, Or.inr ⟨by simp, by simp⟩⟩

theorem Heap.append_len {h : Heap F} {z : Val F} {s : Slice} {xs} (v : s.Valid h) :
    (h.append z s xs).1.len = s.len + xs.length := by
  have hl := v.read_length
  unfold Heap.append
  split
  · rfl
  · simp [hl]

/-- `append` returns the same array or a new one. -/
theorem Heap.append_arr (h : Heap F) (z s xs) :
    ((h.append z s xs).1.arr = s.arr ∧ (h.append z s xs).1.cap = s.cap) ∨
      h.next ≤ (h.append z s xs).1.arr := by
  unfold Heap.append; split
  · exact Or.inl ⟨rfl, rfl⟩
  · exact Or.inr (by simp [Heap.newArr])

theorem Slice.nil_valid (h : Heap F) : Slice.nil.Valid h := ⟨by simp [Slice.nil], Or.inl rfl⟩

theorem tabCol_valid {h : Heap F} {r : Raw} (wf : r.WF h) (k) : (tabCol (h.tab r.tab) k).Valid h := by
  unfold tabCol
  cases hg : AMap.get (h.tab r.tab) k with
  | none => exact Slice.nil_valid h
  | some s => exact wf.slices _ _ hg

/-- A builder: its references are sound, and its columns do not overlap in memory. -/
structure BuilderOK (h : Heap F) (r : Raw) : Prop extends Raw.WF h r where
  apart : ∀ k k' s s', AMap.get (h.tab r.tab) k = some s → AMap.get (h.tab r.tab) k' = some s' →
    k ≠ k' → s.Apart s'

theorem Raw.add_spec [GoFloat F] {h : Heap F} {r : Raw} (b : BuilderOK h r) (k c vals) :
    BuilderOK (r.add k c vals h) r ∧
    (∀ q, (AMap.get ((r.add k c vals h).tab r.tab) q).map (r.add k c vals h).read =
      if q = (k, c) then some (h.read (tabCol (h.tab r.tab) (k, c)) ++ vals)
      else (AMap.get (h.tab r.tab) q).map h.read) ∧
    (r.add k c vals h).hdr = h.hdr := by
  have v := tabCol_valid b.toWF (k, c)
  generalize hh : h.append k.zero (tabCol (h.tab r.tab) (k, c)) vals = p
  obtain ⟨s, h1⟩ := p
  have hadd : r.add k c vals h = h1.setTab r.tab (AMap.set (h1.tab r.tab) (k, c) s) := by
    simp [Raw.add, hh]
  have fr := Heap.append_frame (T := Nope) (H := Nope) (M := Nope) h k.zero
    (tabCol (h.tab r.tab) (k, c)) vals
  have ht := Heap.append_tab h k.zero (tabCol (h.tab r.tab) (k, c)) vals
  have hv := Heap.append_valid (z := k.zero) (xs := vals) v
  have hr := Heap.append_read (z := k.zero) (xs := vals) v
  have ha := Heap.append_arr h k.zero (tabCol (h.tab r.tab) (k, c)) vals
  have hd := Heap.append_hdr h k.zero (tabCol (h.tab r.tab) (k, c)) vals
  rw [hh] at fr ht hv hr ha hd
  simp only at fr ht hv hr ha hd
  rw [hadd]
  -- the slices of the other columns are not touched
  have other : ∀ q s', AMap.get (h.tab r.tab) q = some s' → q ≠ (k, c) →
      s'.cap = 0 ∨ ¬ (s'.arr = (tabCol (h.tab r.tab) (k, c)).arr ∧ (tabCol (h.tab r.tab) (k, c)).cap ≠ 0 ∧ vals ≠ []) := by
    intro q s' hq hne
    cases hg : AMap.get (h.tab r.tab) (k, c) with
    | none => right; simp [tabCol, hg, Slice.nil]
    | some s0 =>
      have hap := b.apart _ _ _ _ hq hg hne
      simp only [tabCol, hg, Option.getD_some]
      rcases hap with h0 | h0 | h0
      · exact Or.inl h0
      · right; simp [h0]
      · right; simp [h0]
  have getnew : ∀ q, AMap.get ((h1.setTab r.tab (AMap.set (h1.tab r.tab) (k, c) s)).tab r.tab) q =
      if (k, c) = q then some s else AMap.get (h.tab r.tab) q := by
    intro q
    rw [Heap.setTab_tab, AMap.get_set, ht]
  refine ⟨⟨⟨?_, ?_, ?_, ?_, ?_⟩, ?_⟩, ?_, ?_⟩
  · exact Nat.lt_of_lt_of_le b.tab_lt fr.next_le
  · intro i hi; exact Nat.lt_of_lt_of_le (b.shared_lt i hi) fr.next_le
  · intro i hi; exact Nat.lt_of_lt_of_le (b.str_lt i hi) fr.next_le
  · rw [Heap.setTab_tab, ht]; exact AMap.nodup_set b.keys _ _
  · intro q s' hq
    rw [getnew] at hq
    split at hq
    · cases hq; exact hv
    · rename_i hne
      have := Slice.Valid.frame (b.slices _ _ hq) fr (other q s' hq (fun e => hne e.symm))
      exact this
  · have key : ∀ q s', AMap.get (h.tab r.tab) q = some s' → q ≠ (k, c) → s.Apart s' := by
      intro q s' hq hne
      rcases ha with ⟨ha1, ha2⟩ | ha
      · cases hg : AMap.get (h.tab r.tab) (k, c) with
        | none => left; rw [ha2]; simp [tabCol, hg, Slice.nil]
        | some s0 =>
          have hap := b.apart _ _ _ _ hg hq (fun e => hne e.symm)
          simp only [tabCol, hg, Option.getD_some] at ha1 ha2
          unfold Slice.Apart at hap ⊢
          rw [ha1, ha2]; exact hap
      · rcases (b.slices _ _ hq).2 with hc | ⟨hc, _⟩
        · exact Or.inr (Or.inl hc)
        · right; right; omega
    intro q q' s1 s2 h1' h2' hne
    rw [getnew] at h1' h2'
    split at h1'
    · cases h1'
      split at h2'
      · rename_i e1 e2; exact absurd (e1.symm.trans e2) hne
      · rename_i _ e2; exact key _ _ h2' (fun e => e2 e.symm)
    · rename_i e1
      split at h2'
      · cases h2'
        rcases key _ _ h1' (fun e => e1 e.symm) with hx | hx | hx
        · exact Or.inr (Or.inl hx)
        · exact Or.inl hx
        · exact Or.inr (Or.inr (Ne.symm hx))
      · exact b.apart _ _ _ _ h1' h2' hne
  · intro q
    rw [getnew]
    by_cases hq : q = (k, c)
    · subst hq; simp only [if_true, Option.map_some]
      rw [← hr]; rfl
    · rw [if_neg (fun e => hq e.symm), if_neg hq]
      cases hg : AMap.get (h.tab r.tab) q with
      | none => rfl
      | some s' =>
        simp only [Option.map_some, Option.some.injEq]
        apply Heap.read_congr
        show s'.len = 0 ∨ h1.arr s'.arr = h.arr s'.arr
        have vs := b.slices _ _ hg
        have := other q s' hg hq
        refine vs.arr_eq_frame fr ?_
        rcases this with h0 | h0
        · left; have := vs.1; omega
        · exact Or.inr h0
  · simpa using hd

/-! ### toDataFrame -/

theorem firstLen_of_len {t : Table} {N : Nat} (hN : ∀ e ∈ t, e.2.len = N) (k : Kind) :
    firstLen t k = none ∧ (∀ e ∈ t, e.1.1 ≠ k) ∨ firstLen t k = some N := by
  unfold firstLen
  cases hf : t.find? (fun e => decide (e.1.1 = k)) with
  | none =>
    left; refine ⟨rfl, ?_⟩
    intro e he
    have := List.find?_eq_none.1 hf e he
    simpa using this
  | some e => right; simp [hN e (List.mem_of_find?_eq_some hf)]

theorem numAllocatedRows_of_len {t : Table} {N : Nat} (hN : ∀ e ∈ t, e.2.len = N) (hne : t ≠ []) :
    numAllocatedRows t = N := by
  have f := fun k => firstLen_of_len hN k
  unfold numAllocatedRows
  rcases f .obj with ⟨h1, g1⟩ | h1
  · rw [h1]
    rcases f .float with ⟨h2, g2⟩ | h2
    · rw [h2]
      rcases f .int with ⟨h3, g3⟩ | h3
      · rw [h3]
        rcases f .bool with ⟨h4, g4⟩ | h4
        · rw [h4]
          cases t with
          | nil => exact absurd rfl hne
          | cons e t =>
            have := g1 e (by simp); have := g2 e (by simp); have := g3 e (by simp); have := g4 e (by simp)
            cases hk : e.1.1 <;> simp_all
        · rw [h4]
      · rw [h3]
    · rw [h2]
  · rw [h1]

theorem numAllocatedRows_nil : numAllocatedRows [] = 0 := rfl

theorem toDataFrame_ok {r : Raw} {h : Heap F} (wf : r.WF h) {N : Nat}
    (hN : ∀ k s, AMap.get (h.tab r.tab) k = some s → s.len = N) (hne : h.tab r.tab ≠ []) :
    ∃ df h', r.toDataFrame h = .ok (df, h') ∧ df.WF h' ∧ df.MaskWF h' ∧ Heap.Ext h h' ∧
      df.rows = List.range N ∧ df.indexViewed = false ∧ df.tab = r.tab ∧ df.strHdr = r.strHdr ∧
      df.enc = r.enc ∧ df.maxCPU = r.maxCPU ∧ h'.tab = h.tab ∧ h'.arr = h.arr ∧ h'.hdr = h.hdr := by
  have hN' : ∀ e ∈ h.tab r.tab, e.2.len = N := fun e he =>
    hN e.1 e.2 (AMap.get_of_mem wf.keys he)
  have hn := numAllocatedRows_of_len hN' hne
  unfold Raw.toDataFrame
  simp only [hn]
  rw [if_pos (by simpa using fun a b hm => hN' (a, b) hm)]
  refine ⟨_, _, rfl, ⟨⟨?_, ?_, ?_, ?_, ?_⟩, ?_, ?_⟩, ⟨?_, ?_, ?_⟩, Heap.newMsk_ext .., ?_, rfl, rfl, rfl, rfl, rfl,
    rfl, rfl, rfl⟩
  · exact Nat.lt_succ_of_lt wf.tab_lt
  · intro i hi; cases hi
  · intro i hi; exact Nat.lt_succ_of_lt (wf.str_lt i hi)
  · exact wf.keys
  · intro k s hk; exact (wf.slices k s hk).ext (Heap.newMsk_ext ..)
  · simp [Idx.mk']
  · refine ⟨N, hN, ?_, ?_⟩ <;> simp [DF.rows]
  · simp [DF.numRows, DF.rows]
  · simp
  · right; simp
  · simp [DF.rows]

/-- A builder without columns: `ToDataFrame` gives a dataframe without rows. -/
theorem toDataFrame_nil {r : Raw} {h : Heap F} (wf : r.WF h) (hne : h.tab r.tab = []) :
    ∃ df h', r.toDataFrame h = .ok (df, h') ∧ df.WF h' ∧ df.MaskWF h' ∧ Heap.Ext h h' ∧
      df.rows = [] ∧ df.tab = r.tab ∧ df.strHdr = r.strHdr ∧
      df.enc = r.enc ∧ h'.tab = h.tab ∧ h'.arr = h.arr ∧ h'.hdr = h.hdr := by
  unfold Raw.toDataFrame
  simp only [hne, numAllocatedRows_nil]
  refine ⟨_, _, rfl, ⟨⟨?_, ?_, ?_, ?_, ?_⟩, ?_, ?_⟩, ⟨?_, ?_, ?_⟩, Heap.newMsk_ext .., rfl, rfl, rfl, rfl,
    rfl, rfl, rfl⟩
  · exact Nat.lt_succ_of_lt wf.tab_lt
  · intro i hi; cases hi
  · intro i hi; exact Nat.lt_succ_of_lt (wf.str_lt i hi)
  · exact wf.keys
  · intro k s hk; exact (wf.slices k s hk).ext (Heap.newMsk_ext ..)
  · simp [Idx.mk']
  · refine ⟨0, ?_, ?_, ?_⟩
    · intro k s hk; rw [show (h.newMsk (List.replicate 0 false)).2.tab r.tab = [] from hne] at hk; simp at hk
    · simp [DF.rows, Idx.mk', Idx.rows]
    · intro _; rfl
  · simp [DF.numRows, DF.rows]
  · simp
  · right; simp

/-- Two columns of different lengths: `ToDataFrame` panics. -/
theorem toDataFrame_err {r : Raw} {h : Heap F} (_ : r.WF h) {k k' s s'}
    (h1 : AMap.get (h.tab r.tab) k = some s) (h2 : AMap.get (h.tab r.tab) k' = some s')
    (hne : s.len ≠ s'.len) : r.toDataFrame h = .error .panic := by
  unfold Raw.toDataFrame
  simp only
  rw [if_neg]
  intro hall
  rw [List.all_eq_true] at hall
  have a := hall _ (AMap.mem_of_get h1)
  have b := hall _ (AMap.mem_of_get h2)
  simp at a b
  omega

end Verif
