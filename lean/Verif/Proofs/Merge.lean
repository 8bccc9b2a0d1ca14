import Verif.Proofs.Builder
import Verif.Spec.Raw

/-! Lemmas about `MergeRawDataRows` and `MergeRawDataColumns`. -/

namespace Verif
variable {F : Type}

/-- A structure under construction whose table and arrays are all newer than `h0`. -/
structure MergeInv (h0 h : Heap F) (r : Raw) : Prop extends BuilderOK h r where
  ext : Heap.Ext h0 h
  newTab : h0.next ≤ r.tab
  fresh : ∀ k s, AMap.get (h.tab r.tab) k = some s → s.cap = 0 ∨ h0.next ≤ s.arr

theorem tabCol_fresh {h0 h : Heap F} {r : Raw} (m : MergeInv h0 h r) (k : Key) :
    (tabCol (h.tab r.tab) k).cap = 0 ∨ h0.next ≤ (tabCol (h.tab r.tab) k).arr := by
  unfold tabCol
  cases hg : AMap.get (h.tab r.tab) k with
  | none => exact Or.inl rfl
  | some s => exact m.fresh _ _ hg

theorem MergeInv.add [GoFloat F] {h0 h : Heap F} {r : Raw} (m : MergeInv h0 h r) (k c) (vals : List (Val F)) :
    MergeInv h0 (r.add k c vals h) r := by
  obtain ⟨b, _, _⟩ := Raw.add_spec m.toBuilderOK k c vals
  have hf := tabCol_fresh m (k, c)
  have fr := Heap.append_frame (T := Nope) (H := Nope) (M := Nope) h k.zero (tabCol (h.tab r.tab) (k, c)) vals
  have ht := Heap.append_tab h k.zero (tabCol (h.tab r.tab) (k, c)) vals
  have ha := Heap.append_arr h k.zero (tabCol (h.tab r.tab) (k, c)) vals
  generalize hh : h.append k.zero (tabCol (h.tab r.tab) (k, c)) vals = p at fr ht ha
  obtain ⟨s, h1⟩ := p
  have hadd : r.add k c vals h = h1.setTab r.tab (AMap.set (h1.tab r.tab) (k, c) s) := by
    simp [Raw.add, hh]
  dsimp only at fr ht ha
  refine ⟨b, ?_, m.newTab, ?_⟩
  · rw [hadd]
    apply Heap.Frame.toExt
    refine ((m.ext.toFrame (A := Nope) (T := Nope) (H := Nope) (M := Nope)).trans fr ?_
      (fun _ _ => id) (fun _ _ => id) (fun _ _ => id)).trans
      (Heap.setTab_frame (A := Nope) (H := Nope) (M := Nope) h1 r.tab _) (fun _ _ => id) ?_
      (fun _ _ => id) (fun _ _ => id)
    · rintro i hi ⟨rfl, h1, _⟩
      rcases hf with h2 | h2
      · exact h1 h2
      · exact absurd hi (by omega)
    · intro i hi e
      have := m.newTab
      exact absurd hi (by omega)
  · intro q s' hq
    rw [hadd, Heap.setTab_tab, AMap.get_set, ht] at hq
    split at hq
    · cases hq
      rcases ha with ⟨e1, e2⟩ | ha
      · rw [e1, e2]; exact hf
      · right; exact Nat.le_trans m.ext.next_le ha
    · exact m.fresh _ _ hq

theorem rawCol_add [GoFloat F] {h : Heap F} {r : Raw} (b : BuilderOK h r) (k c) (vals : List (Val F)) (k' c') :
    rawCol (r.add k c vals h) r k' c' =
      if k' = k ∧ c' = c then some ((rawCol h r k c).getD [] ++ vals) else rawCol h r k' c' := by
  have := (Raw.add_spec b k c vals).2.1 (k', c')
  unfold rawCol
  rw [this]
  simp only [Prod.mk.injEq]
  congr 3
  unfold tabCol
  cases AMap.get (h.tab r.tab) (k, c) with
  | none => simp [Heap.read, Slice.nil]
  | some s => rfl

/-- The loops over the columns of one source. -/
theorem appendCols_spec [GoFloat F] {h0 : Heap F} {r : Raw} (es : Table) (hn : (AMap.keys es).Nodup)
    (hv : ∀ e ∈ es, e.2.Valid h0) {h : Heap F} (m : MergeInv h0 h r) :
    MergeInv h0 (appendCols r.tab es h) r ∧
    ∀ k c, rawCol (appendCols r.tab es h) r k c =
      match AMap.get es (k, c) with
      | some s => some ((rawCol h r k c).getD [] ++ h0.read s)
      | none => rawCol h r k c := by
  induction es generalizing h with
  | nil => exact ⟨m, fun k c => rfl⟩
  | cons e es ih =>
    obtain ⟨⟨k0, c0⟩, s0⟩ := e
    have hr : h.read s0 = h0.read s0 := Heap.read_congr ((hv _ (List.mem_cons_self ..)).arr_eq m.ext)
    have hstep : appendCols r.tab (((k0, c0), s0) :: es) h
        = appendCols r.tab es (r.add k0 c0 (h.read s0) h) := rfl
    have hn' := List.nodup_cons.1 hn
    obtain ⟨m2, hc⟩ := ih hn'.2 (fun e he => hv e (List.mem_cons_of_mem _ he)) (m.add k0 c0 (h.read s0))
    rw [hstep]
    refine ⟨m2, ?_⟩
    intro k c
    rw [hc k c, AMap.get_cons, rawCol_add m.toBuilderOK, hr]
    by_cases hk : (k0, c0) = (k, c)
    · cases hk
      have hnone : AMap.get es (k0, c0) = none := (AMap.get_eq_none_iff _ _).2 hn'.1
      rw [hnone]
      simp
    · rw [if_neg hk, if_neg (fun e => hk (by rw [e.1, e.2]))]

/-- The loops over all the sources, as a fold on each column. -/
theorem appendAll_spec [GoFloat F] {h0 : Heap F} {r : Raw} (l : List Raw) (wf : ∀ d ∈ l, d.WF h0)
    {h : Heap F} (m : MergeInv h0 h r) :
    MergeInv h0 (l.foldl (fun h d => appendCols r.tab (h.tab d.tab) h) h) r ∧
    ∀ k c, rawCol (l.foldl (fun h d => appendCols r.tab (h.tab d.tab) h) h) r k c =
      l.foldl (fun acc d => match rawCol h0 d k c with
        | some xs => some (acc.getD [] ++ xs)
        | none => acc) (rawCol h r k c) := by
  induction l generalizing h with
  | nil => exact ⟨m, fun k c => rfl⟩
  | cons d l ih =>
    have wd := wf d (List.mem_cons_self ..)
    have ht : h.tab d.tab = h0.tab d.tab := m.ext.tab _ wd.tab_lt
    obtain ⟨m1, hc1⟩ := appendCols_spec (h.tab d.tab) (by rw [ht]; exact wd.keys)
      (fun e he => by
        rw [ht] at he
        exact wd.slices _ _ (AMap.get_of_mem wd.keys he)) m
    obtain ⟨m2, hc2⟩ := ih (fun d hd => wf d (List.mem_cons_of_mem _ hd)) m1
    refine ⟨m2, ?_⟩
    intro k c
    rw [List.foldl_cons, hc2 k c, List.foldl_cons, hc1 k c, ht]
    congr 1
    unfold rawCol
    cases AMap.get (h0.tab d.tab) (k, c) <;> rfl

theorem appendFold_some {l : List (Option (List (Val F)))} {acc : List (Val F)} :
    l.foldl (fun acc d => match d with | some xs => some (acc.getD [] ++ xs) | none => acc) (some acc)
      = some (acc ++ (l.filterMap id).flatten) := by
  induction l generalizing acc with
  | nil => simp
  | cons x l ih =>
    cases x with
    | none => simpa using ih
    | some xs => simp [ih]

theorem appendFold_none {l : List (Option (List (Val F)))} :
    l.foldl (fun acc d => match d with | some xs => some (acc.getD [] ++ xs) | none => acc) none
      = if l.any (·.isSome) then some ((l.filterMap id).flatten) else none := by
  induction l with
  | nil => simp
  | cons x l ih =>
    cases x with
    | none => simpa using ih
    | some xs => simp [appendFold_some]

/-- The preallocation. -/
theorem preallocCols_spec [GoFloat F] {h0 : Heap F} {r : Raw} (size : Nat) (es : Table)
    {h : Heap F} (m : MergeInv h0 h r) :
    MergeInv h0 (preallocCols r.tab size es h) r ∧
    ∀ k c, rawCol (preallocCols r.tab size es h) r k c =
      if (AMap.get es (k, c)).isSome then some [] else rawCol h r k c := by
  induction es generalizing h with
  | nil => exact ⟨m, fun k c => rfl⟩
  | cons e es ih =>
    obtain ⟨⟨k0, c0⟩, s0⟩ := e
    let z : List (Val F) := List.replicate size k0.zero
    let h1 := (h.newArr z).2.setTab r.tab (AMap.set (h.tab r.tab) (k0, c0) ⟨h.next, 0, 0, z.length⟩)
    have hstep : preallocCols r.tab size (((k0, c0), s0) :: es) h = preallocCols r.tab size es h1 := rfl
    have hget : ∀ q, AMap.get (h1.tab r.tab) q = if (k0, c0) = q then some ⟨h.next, 0, 0, z.length⟩
        else AMap.get (h.tab r.tab) q := by
      intro q
      show AMap.get (Heap.tab (Heap.setTab _ _ _) _) q = _
      rw [Heap.setTab_tab, AMap.get_set]
    have eA : Heap.Ext h (h.newArr z).2 := Heap.newArr_ext ..
    have hn1 : h1.next = h.next + 1 := rfl
    have harr : ∀ i, i < h.next → h1.arr i = h.arr i := eA.arr
    have m1 : MergeInv h0 h1 r := by
      refine ⟨⟨⟨?_, ?_, ?_, ?_, ?_⟩, ?_⟩, ?_, m.newTab, ?_⟩
      · have := m.tab_lt; omega
      · intro i hi; have := m.shared_lt i hi; omega
      · intro i hi; have := m.str_lt i hi; omega
      · show (AMap.keys (Heap.tab (Heap.setTab _ _ _) _)).Nodup
        rw [Heap.setTab_tab]; exact AMap.nodup_set m.keys _ _
      · intro q s hq
        rw [hget] at hq
        split at hq
        · cases hq
          refine ⟨Nat.zero_le _, Or.inr ⟨by dsimp only; omega, ?_⟩⟩
          show 0 + z.length ≤ ((h.newArr z).2.arr h.next).length
          rw [Heap.newArr_arr]; omega
        · have hx : s.Valid (h.newArr z).2 := (m.slices _ _ hq).ext eA
          exact hx
      · intro q q' s s' h1' h2' hne
        rw [hget] at h1' h2'
        have key : ∀ q s, AMap.get (h.tab r.tab) q = some s → s.cap = 0 ∨ s.arr ≠ h.next := by
          intro q s hq
          rcases (m.slices _ _ hq).2 with h0 | ⟨h0, _⟩
          · exact Or.inl h0
          · right; omega
        split at h1'
        · split at h2'
          · rename_i e1 e2; exact absurd (e1.symm.trans e2) hne
          · cases h1'
            rcases key _ _ h2' with hx | hx
            · exact Or.inr (Or.inl hx)
            · exact Or.inr (Or.inr (Ne.symm hx))
        · split at h2'
          · cases h2'
            rcases key _ _ h1' with hx | hx
            · exact Or.inl hx
            · exact Or.inr (Or.inr hx)
          · exact m.apart _ _ _ _ h1' h2' hne
      · refine ⟨?_, ?_, ?_, ?_, ?_⟩
        · have := m.ext.next_le; omega
        · intro i hi; rw [harr i (Nat.lt_of_lt_of_le hi m.ext.next_le)]; exact m.ext.arr i hi
        · intro i hi
          show (Heap.setTab _ _ _).tab i = _
          rw [Heap.setTab_tab_ne _ _ (by have := m.newTab; omega)]
          exact m.ext.tab i hi
        · exact m.ext.hdr
        · exact m.ext.msk
      · intro q s hq
        rw [hget] at hq
        split at hq
        · cases hq; right; exact m.ext.next_le
        · exact m.fresh _ _ hq
    obtain ⟨m2, hc⟩ := ih m1
    rw [hstep]
    refine ⟨m2, ?_⟩
    intro k c
    rw [hc, AMap.get_cons]
    by_cases hk : (k0, c0) = (k, c)
    · cases hk
      rw [if_pos rfl]
      simp only [Option.isSome_some, if_true]
      have : rawCol h1 r k0 c0 = some [] := by
        unfold rawCol; rw [hget, if_pos rfl]; simp [Heap.read]
      rw [this]; simp
    · rw [if_neg hk]
      have : rawCol h1 r k c = rawCol h r k c := by
        unfold rawCol
        rw [hget, if_neg hk]
        cases hg : AMap.get (h.tab r.tab) (k, c) with
        | none => rfl
        | some s =>
          simp only [Option.map_some, Option.some.injEq]
          have hx : s.len = 0 ∨ (h.newArr z).2.arr s.arr = h.arr s.arr := (m.slices _ _ hg).arr_eq eA
          exact Heap.read_congr hx
      rw [this]

theorem newRawData_inv (h : Heap F) : MergeInv h (newRawData h).2 (newRawData h).1 ∧
    ∀ k c, rawCol (newRawData h).2 (newRawData h).1 k c = none := by
  have ht : (newRawData h).2.tab (newRawData h).1.tab = [] := Heap.newTab_tab h []
  refine ⟨⟨⟨⟨?_, ?_, ?_, ?_, ?_⟩, ?_⟩, Heap.newTab_ext .., Nat.le_refl _, ?_⟩, ?_⟩
  · show h.next < h.next + 1; omega
  · intro i hi; cases hi
  · intro i hi; cases hi
  · rw [ht]; exact List.nodup_nil
  · intro k s hk; rw [ht] at hk; cases hk
  · intro k k' s s' hk; rw [ht] at hk; cases hk
  · intro k s hk; rw [ht] at hk; cases hk
  · intro k c; unfold rawCol; rw [ht]; rfl

theorem mergeRawDataRows_spec [GoFloat F] {h : Heap F} {l : List Raw} (wf : ∀ d ∈ l, d.WF h) :
    MergeInv h (mergeRawDataRows l h).2 (mergeRawDataRows l h).1 ∧
    (mergeRawDataRows l h).1 = (newRawData h).1 ∧
    ∀ k c, rawCol (mergeRawDataRows l h).2 (mergeRawDataRows l h).1 k c =
      if l.any (fun d => (rawCol h d k c).isSome) then some ((l.filterMap (rawCol h · k c)).flatten) else none := by
  obtain ⟨m0, hc0⟩ := newRawData_inv h
  cases l with
  | nil => exact ⟨m0, rfl, fun k c => by rw [show mergeRawDataRows [] h = newRawData h from rfl, hc0]; rfl⟩
  | cons d0 l =>
    obtain ⟨r, hr⟩ : ∃ r, r = (newRawData h).1 := ⟨_, rfl⟩
    obtain ⟨h1, hh1⟩ : ∃ h1, h1 = (newRawData h).2 := ⟨_, rfl⟩
    obtain ⟨size, hsize⟩ : ∃ n, n = ((d0 :: l).map fun d => numAllocatedRows (h1.tab d.tab)).sum := ⟨_, rfl⟩
    have hm : mergeRawDataRows (d0 :: l) h = (r, (d0 :: l).foldl (fun h d => appendCols r.tab (h.tab d.tab) h)
        (preallocCols r.tab size (h1.tab d0.tab) h1)) := by
      rw [hr, hsize, hh1]; rfl
    rw [← hr, ← hh1] at m0 hc0
    have wd0 := wf d0 (List.mem_cons_self ..)
    obtain ⟨m1, hc1⟩ := preallocCols_spec size (h1.tab d0.tab) m0
    obtain ⟨m2, hc2⟩ := appendAll_spec (d0 :: l) wf m1
    rw [hm]
    refine ⟨m2, hr, ?_⟩
    intro k c
    dsimp only
    rw [hc2, hc1, hc0]
    have hfold : ∀ (acc : Option (List (Val F))), (d0 :: l).foldl (fun acc d => match rawCol h d k c with
        | some xs => some (acc.getD [] ++ xs)
        | none => acc) acc =
        ((d0 :: l).map (rawCol h · k c)).foldl (fun acc d => match d with
          | some xs => some (acc.getD [] ++ xs) | none => acc) acc := by
      intro acc; rw [List.foldl_map]
    have hfm : ((d0 :: l).map (rawCol h · k c)).filterMap id = (d0 :: l).filterMap (rawCol h · k c) := by
      rw [List.filterMap_map]; rfl
    rw [hfold]
    have ht : h1.tab d0.tab = h.tab d0.tab := m0.ext.tab _ wd0.tab_lt
    rw [ht]
    by_cases hs : (AMap.get (h.tab d0.tab) (k, c)).isSome
    · rw [if_pos hs, appendFold_some, hfm, if_pos]
      · rfl
      · simp [rawCol, hs]
    · rw [if_neg hs, appendFold_none, hfm, List.any_map]
      rfl

end Verif
