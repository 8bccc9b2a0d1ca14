import Verif.Proofs.Heap

namespace Verif
variable {F : Type}

/-! ### header sets -/

theorem mem_sinsert {s : List GoStr} {c x : GoStr} : x ∈ sinsert s c ↔ x ∈ s ∨ x = c := by
  unfold sinsert; split
  · constructor
    · exact Or.inl
    · rintro (h | rfl)
      · exact h
      · assumption
  · simp

theorem mem_sinsertAll {s cs : List GoStr} {x : GoStr} : x ∈ sinsertAll s cs ↔ x ∈ s ∨ x ∈ cs := by
  unfold sinsertAll
  induction cs generalizing s with
  | nil => simp
  | cons c cs ih => simp only [List.foldl_cons, ih, mem_sinsert, List.mem_cons]; grind

theorem mem_sremove {s cs : List GoStr} {x : GoStr} : x ∈ sremove s cs ↔ x ∈ s ∧ x ∉ cs := by
  simp [sremove]

theorem hdrAdd_tab (h : Heap F) (o cs) : (hdrAdd h o cs).2.tab = h.tab := by cases o <;> rfl
theorem hdrAdd_arr (h : Heap F) (o cs) : (hdrAdd h o cs).2.arr = h.arr := by cases o <;> rfl
theorem hdrAdd_msk (h : Heap F) (o cs) : (hdrAdd h o cs).2.msk = h.msk := by cases o <;> rfl
theorem hdrAdd_rt (h : Heap F) (o cs) : (hdrAdd h o cs).2.rt = h.rt := by cases o <;> rfl
theorem hdrAdd_next_le (h : Heap F) (o cs) : h.next ≤ (hdrAdd h o cs).2.next := by
  cases o
  · exact Nat.le_succ _
  · exact Nat.le_refl _

theorem hdrAdd_fst (h : Heap F) (o cs) :
    (hdrAdd h o cs).1 = some (o.getD h.next) := by cases o <;> rfl

theorem hdrAdd_mem (h : Heap F) (o cs x) :
    x ∈ hdrList (hdrAdd h o cs).2 (hdrAdd h o cs).1 ↔ x ∈ hdrList h o ∨ x ∈ cs := by
  cases o with
  | none => simp [hdrAdd, hdrList, Heap.newHdr, mem_sinsertAll]
  | some i => simp [hdrAdd, hdrList, mem_sinsertAll]

theorem hdrAdd_frame {A T M : Nat → Prop} (h : Heap F) (o cs) :
    Heap.Frame A T (fun i => o = some i) M h (hdrAdd h o cs).2 := by
  cases o with
  | none => exact (Heap.newHdr_ext h _).toFrame
  | some i =>
    refine (Heap.setHdr_frame h i _).mono (fun _ _ => id) (fun _ _ => id) ?_ (fun _ _ => id)
    rintro j _ rfl; rfl

theorem hdrAdd_lt {h : Heap F} {o : Option Nat} (ho : ∀ i, o = some i → i < h.next) (cs) :
    ∀ i, (hdrAdd h o cs).1 = some i → i < (hdrAdd h o cs).2.next := by
  intro i hi
  cases o with
  | none => simp [hdrAdd, Heap.newHdr] at hi ⊢; omega
  | some j => simp [hdrAdd] at hi ⊢; subst hi; exact ho _ rfl

theorem hdrAddEach_tab (h : Heap F) (o cs) : (hdrAddEach h o cs).2.tab = h.tab := by
  cases cs
  · rfl
  · exact hdrAdd_tab ..
theorem hdrAddEach_arr (h : Heap F) (o cs) : (hdrAddEach h o cs).2.arr = h.arr := by
  cases cs
  · rfl
  · exact hdrAdd_arr ..
theorem hdrAddEach_msk (h : Heap F) (o cs) : (hdrAddEach h o cs).2.msk = h.msk := by
  cases cs
  · rfl
  · exact hdrAdd_msk ..
theorem hdrAddEach_rt (h : Heap F) (o cs) : (hdrAddEach h o cs).2.rt = h.rt := by
  cases cs
  · rfl
  · exact hdrAdd_rt ..
theorem hdrAddEach_next_le (h : Heap F) (o cs) : h.next ≤ (hdrAddEach h o cs).2.next := by
  cases cs
  · exact Nat.le_refl _
  · exact hdrAdd_next_le ..

theorem hdrAddEach_fst (h : Heap F) (o cs) {i} (hi : (hdrAddEach h o cs).1 = some i) :
    o = some i ∨ (o = none ∧ i = h.next ∧ cs ≠ []) := by
  cases cs with
  | nil => exact Or.inl hi
  | cons c cs =>
    simp only [hdrAddEach, hdrAdd_fst] at hi
    cases o with
    | none => simp at hi; simp [hi]
    | some j => simp at hi; simp [hi]

theorem hdrAddEach_mem (h : Heap F) (o cs x) :
    x ∈ hdrList (hdrAddEach h o cs).2 (hdrAddEach h o cs).1 ↔ x ∈ hdrList h o ∨ x ∈ cs := by
  cases cs with
  | nil => simp [hdrAddEach]
  | cons c cs => exact hdrAdd_mem ..

theorem hdrAddEach_frame {A T M : Nat → Prop} (h : Heap F) (o cs) :
    Heap.Frame A T (fun i => o = some i) M h (hdrAddEach h o cs).2 := by
  cases cs
  · exact Heap.Frame.refl ..
  · exact hdrAdd_frame ..

theorem hdrAddEach_lt {h : Heap F} {o : Option Nat} (ho : ∀ i, o = some i → i < h.next) (cs) :
    ∀ i, (hdrAddEach h o cs).1 = some i → i < (hdrAddEach h o cs).2.next := by
  cases cs
  · exact ho
  · exact hdrAdd_lt ho _

theorem hdrRemove_tab (h : Heap F) (o cs) : (hdrRemove h o cs).tab = h.tab := by cases o <;> rfl
theorem hdrRemove_arr (h : Heap F) (o cs) : (hdrRemove h o cs).arr = h.arr := by cases o <;> rfl
theorem hdrRemove_msk (h : Heap F) (o cs) : (hdrRemove h o cs).msk = h.msk := by cases o <;> rfl
theorem hdrRemove_rt (h : Heap F) (o cs) : (hdrRemove h o cs).rt = h.rt := by cases o <;> rfl
theorem hdrRemove_next (h : Heap F) (o cs) : (hdrRemove h o cs).next = h.next := by cases o <;> rfl

theorem hdrRemove_frame {A T M : Nat → Prop} (h : Heap F) (o cs) :
    Heap.Frame A T (fun i => o = some i) M h (hdrRemove h o cs) := by
  cases o with
  | none => exact Heap.Frame.refl ..
  | some i =>
    refine (Heap.setHdr_frame h i _).mono (fun _ _ => id) (fun _ _ => id) ?_ (fun _ _ => id)
    rintro j _ rfl; rfl

theorem hdrRemove_mem (h : Heap F) (o cs x) :
    x ∈ hdrList (hdrRemove h o cs) o ↔ x ∈ hdrList h o ∧ x ∉ cs := by
  cases o with
  | none => simp [hdrList]
  | some i => simp [hdrRemove, hdrList, mem_sremove]

theorem hdrList_frame {A T H M} {h h' : Heap F} (e : Heap.Frame A T H M h h') {o : Option Nat}
    (ho : ∀ i, o = some i → i < h.next ∧ ¬ H i) : hdrList h' o = hdrList h o := by
  cases o with
  | none => rfl
  | some i => exact e.hdr i (ho i rfl).1 (ho i rfl).2

/-! ### tables -/

theorem get_tabSetAll (t es : Table) (hn : (AMap.keys es).Nodup) (k : Key) :
    AMap.get (tabSetAll t es) k = (AMap.get es k).or (AMap.get t k) := by
  unfold tabSetAll
  induction es generalizing t with
  | nil => simp
  | cons e es ih =>
    obtain ⟨k', v⟩ := e
    simp only [AMap.keys, List.map_cons, List.nodup_cons] at hn
    simp only [List.foldl_cons]
    rw [ih _ hn.2, AMap.get_set, AMap.get_cons]
    by_cases hk : k' = k
    · subst hk
      have : AMap.get es k' = none := (AMap.get_eq_none_iff _ _).2 hn.1
      simp [this]
    · simp [hk]

theorem nodup_tabSetAll {t es : Table} (hn : (AMap.keys t).Nodup) :
    (AMap.keys (tabSetAll t es)).Nodup := by
  unfold tabSetAll
  induction es generalizing t with
  | nil => exact hn
  | cons e es ih => exact ih (AMap.nodup_set hn _ _)

theorem set_append_of_not_mem {κ α : Type} [DecidableEq κ] (t : AMap κ α) (k : κ) (v : α)
    (hk : k ∉ AMap.keys t) : AMap.set t k v = t ++ [(k, v)] := by
  induction t with
  | nil => rfl
  | cons e t ih =>
    obtain ⟨k', v'⟩ := e
    simp only [AMap.keys, List.map_cons, List.mem_cons, not_or] at hk
    simp only [AMap.set, Ne.symm hk.1, if_false, List.cons_append]
    rw [ih hk.2]

theorem tabSetAll_nil_aux (t es : Table) (hn : (AMap.keys (t ++ es)).Nodup) :
    tabSetAll t es = t ++ es := by
  unfold tabSetAll
  induction es generalizing t with
  | nil => simp
  | cons e es ih =>
    obtain ⟨k, v⟩ := e
    simp only [List.foldl_cons]
    have hk : k ∉ AMap.keys t := by
      simp only [AMap.keys, List.map_append, List.map_cons] at hn
      rw [List.nodup_append] at hn
      intro hm
      exact hn.2.2 k hm k (by simp) rfl
    rw [set_append_of_not_mem _ _ _ hk, ih]
    · simp
    · simpa [AMap.keys] using hn

theorem tabSetAll_nil (es : Table) (hn : (AMap.keys es).Nodup) : tabSetAll [] es = es := by
  rw [tabSetAll_nil_aux _ _ (by simpa using hn)]; rfl

theorem mem_tabNames {t : Table} {c : GoStr} :
    c ∈ tabNames t ↔ ∃ k, (AMap.get t (k, c)).isSome := by
  simp only [tabNames, List.mem_map, AMap.get_isSome_iff, AMap.keys]
  constructor
  · rintro ⟨⟨⟨k, c'⟩, s⟩, hm, rfl⟩; exact ⟨k, _, hm, rfl⟩
  · rintro ⟨k, e, hm, he⟩; exact ⟨e, hm, by rw [he]⟩

/-! ### own / reallocateMaps -/

/-- What `reallocateMaps` does: new maps with the same columns, nothing existing is touched. -/
structure OwnSpec (r : Raw) (h : Heap F) (r' : Raw) (h' : Heap F) : Prop where
  ext : Heap.Ext h h'
  wf : r'.WF h'
  tab : h'.tab r'.tab = h.tab r.tab
  str : r'.strHdr = r.strHdr
  enc : r'.enc = r.enc
  cpu : r'.maxCPU = r.maxCPU
  notShared : r'.sharedMaps = false
  arr : h'.arr = h.arr
  msk : h'.msk = h.msk
  rt : h'.rt = h.rt
  fresh : r.sharedMaps = true → h.next ≤ r'.tab ∧ (∀ i, r'.shared = some i → h.next ≤ i) ∧
    ∀ c, c ∈ hdrList h' r'.shared ↔ c ∈ tabNames (h.tab r.tab)
  same : r.sharedMaps = false → r' = r ∧ h' = h

theorem reallocateMaps_spec {r : Raw} {h : Heap F} (wf : r.WF h) (hs : r.sharedMaps = true) :
    OwnSpec r h (r.reallocateMaps h).1 (r.reallocateMaps h).2 := by
  -- unfold the three heap steps
  let h1 := (h.newTab []).2
  let h2 := h1.setTab h.next (tabSetAll (h1.tab h.next) (h1.tab r.tab))
  let h3 := (hdrAddEach h2 none (tabNames (h1.tab r.tab))).2
  let h4 := (hdrAddEach h3 none (hdrList h3 r.strHdr)).2
  have hr : r.reallocateMaps h =
      ({ r with tab := h.next, shared := (hdrAddEach h2 none (tabNames (h1.tab r.tab))).1,
                sharedMaps := false }, h4) := rfl
  have e1 : Heap.Ext h h1 := Heap.newTab_ext _ _
  have hne : r.tab ≠ h.next := Nat.ne_of_lt wf.tab_lt
  have t1 : h1.tab r.tab = h.tab r.tab := e1.tab _ wf.tab_lt
  have t1' : h1.tab h.next = [] := by simp [h1]
  have e2 : Heap.Ext h h2 := Heap.Frame.toExt <|
    (e1.toFrame (A := Nope) (T := Nope) (H := Nope) (M := Nope)).trans
      (Heap.setTab_frame (A := Nope) (H := Nope) (M := Nope) h1 h.next _)
      (fun _ _ => id) (fun i hi (e : i = h.next) => absurd e (Nat.ne_of_lt hi)) (fun _ _ => id) (fun _ _ => id)
  have e3 : Heap.Ext h h3 := e2.trans <| Heap.Frame.toExt <|
    (hdrAddEach_frame (A := Nope) (T := Nope) (M := Nope) h2 none _).mono (fun _ _ => id) (fun _ _ => id)
      (by intro i _ hi; cases hi) (fun _ _ => id)
  have e4' : Heap.Ext h3 h4 := Heap.Frame.toExt <|
    (hdrAddEach_frame (A := Nope) (T := Nope) (M := Nope) h3 none _).mono (fun _ _ => id) (fun _ _ => id)
      (by intro i _ hi; cases hi) (fun _ _ => id)
  have e4 : Heap.Ext h h4 := e3.trans e4'
  have ht : h4.tab h.next = h.tab r.tab := by
    simp only [h4, h3, hdrAddEach_tab, h2, Heap.setTab_tab]
    rw [t1, t1', tabSetAll_nil _ wf.keys]
  have hn1 : h1.next = h.next + 1 := rfl
  have hn2 : h2.next = h.next + 1 := rfl
  have hn3 : h.next + 1 ≤ h3.next := hn2 ▸ hdrAddEach_next_le h2 none _
  have hn4 : h3.next ≤ h4.next := hdrAddEach_next_le h3 none _
  have hsh : ∀ i, (hdrAddEach h2 none (tabNames (h1.tab r.tab))).1 = some i → i = h2.next := by
    intro i hi
    rcases hdrAddEach_fst _ _ _ hi with hx | hx
    · cases hx
    · exact hx.2.1
  have hshlt : ∀ i, (hdrAddEach h2 none (tabNames (h1.tab r.tab))).1 = some i → i < h3.next :=
    hdrAddEach_lt (by intro i hi; cases hi) _
  rw [hr]
  refine ⟨e4, ⟨?_, ?_, ?_, ?_, ?_⟩, ht, rfl, rfl, rfl, rfl, ?_, ?_, ?_, ?_, ?_⟩
  · show h.next < h4.next; omega
  · intro i hi; exact Nat.lt_of_lt_of_le (hshlt i hi) hn4
  · intro i hi; exact Nat.lt_of_lt_of_le (wf.str_lt i hi) e4.next_le
  · show (AMap.keys (h4.tab h.next)).Nodup
    rw [ht]; exact wf.keys
  · intro k s hk
    change AMap.get (h4.tab h.next) k = some s at hk
    rw [ht] at hk
    exact (wf.slices k s hk).ext e4
  · simp [h4, h3, h2, h1, hdrAddEach_arr]
  · simp [h4, h3, h2, h1, hdrAddEach_msk]
  · simp [h4, h3, h2, h1, hdrAddEach_rt]
  · intro _
    refine ⟨Nat.le_refl _, ?_, ?_⟩
    · intro i hi; have := hsh i hi; omega
    · intro c
      have h34 : hdrList h4 (hdrAddEach h2 none (tabNames (h1.tab r.tab))).1
          = hdrList h3 (hdrAddEach h2 none (tabNames (h1.tab r.tab))).1 := by
        cases hh : (hdrAddEach h2 none (tabNames (h1.tab r.tab))).1 with
        | none => rfl
        | some i => exact e4'.hdr i (hshlt i hh)
      show c ∈ hdrList h4 _ ↔ _
      rw [h34]
      show c ∈ hdrList (hdrAddEach h2 none _).2 _ ↔ _
      rw [hdrAddEach_mem]
      simp [hdrList, t1]
  · intro hf; rw [hs] at hf; cases hf

theorem own_spec {r : Raw} {h : Heap F} (wf : r.WF h) : OwnSpec r h (r.own h).1 (r.own h).2 := by
  unfold Raw.own
  split
  · exact reallocateMaps_spec wf (by assumption)
  · rename_i hs
    have hs' : r.sharedMaps = false := by simpa using hs
    exact ⟨Heap.Ext.refl _, wf, rfl, rfl, rfl, rfl, hs', rfl, rfl, rfl,
      fun hc => by rw [hs'] at hc; exact absurd hc (by decide), fun _ => ⟨rfl, rfl⟩⟩

end Verif
