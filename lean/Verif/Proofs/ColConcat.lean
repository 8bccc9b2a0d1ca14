import Verif.Proofs.Concat
import Verif.Spec.Concat
import Mathlib.Data.List.Nodup

/-! The loops of `CheckNoColumnOverlap`, `ColumnConcatView` and `ColumnCopyConcat`. -/

namespace Verif
variable {F : Type}

theorem overlapStep_eq (seen cs : List GoStr) :
    overlapStep seen cs = if cs.Nodup ∧ ∀ c ∈ cs, c ∉ seen then some (cs.reverse ++ seen) else none := by
  induction cs generalizing seen with
  | nil => simp [overlapStep]
  | cons c cs ih =>
    simp only [overlapStep]
    split
    · rename_i hc
      rw [if_neg]; rintro ⟨_, h2⟩; exact h2 c (by simp) hc
    · rename_i hc
      rw [ih]
      have : (cs.Nodup ∧ ∀ x ∈ cs, x ∉ c :: seen) ↔ ((c :: cs).Nodup ∧ ∀ x ∈ c :: cs, x ∉ seen) := by
        simp only [List.nodup_cons, List.mem_cons, not_or]
        constructor
        · rintro ⟨h1, h2⟩
          refine ⟨⟨fun hm => (h2 c hm).1 rfl, h1⟩, ?_⟩
          rintro x (rfl | hx)
          · exact hc
          · exact (h2 x hx).2
        · rintro ⟨⟨h1, h2⟩, h3⟩
          exact ⟨h2, fun x hx => ⟨fun e => h1 (e ▸ hx), h3 x (Or.inr hx)⟩⟩
      by_cases hp : cs.Nodup ∧ ∀ x ∈ cs, x ∉ c :: seen
      · rw [if_pos hp, if_pos (this.1 hp)]; simp
      · rw [if_neg hp, if_neg (fun x => hp (this.2 x))]

theorem overlapFold (names : List (List GoStr)) (seen : List GoStr) :
    (names.foldlM overlapStep seen).isSome ↔ names.flatten.Nodup ∧ ∀ c ∈ names.flatten, c ∉ seen := by
  induction names generalizing seen with
  | nil => simp
  | cons cs names ih =>
    simp only [List.foldlM_cons, List.flatten_cons]
    rw [overlapStep_eq]
    by_cases hp : cs.Nodup ∧ ∀ c ∈ cs, c ∉ seen
    · rw [if_pos hp]
      simp only [Option.bind_eq_bind, Option.bind_some]
      rw [ih, List.nodup_append]
      simp only [List.mem_append, List.mem_reverse, not_or]
      constructor
      · rintro ⟨h1, h2⟩
        refine ⟨⟨hp.1, h1, fun a ha b hb e => (h2 b hb).1 (e ▸ ha)⟩, ?_⟩
        rintro c (hc | hc)
        · exact hp.2 c hc
        · exact (h2 c hc).2
      · rintro ⟨⟨_, h1, h2⟩, h3⟩
        exact ⟨h1, fun c hc => ⟨fun hm => h2 c hm c hc rfl, h3 c (Or.inr hc)⟩⟩
    · rw [if_neg hp]
      simp only [Option.bind_eq_bind, Option.bind_none, Option.isSome_none, Bool.false_eq_true, false_iff]
      rintro ⟨h1, h2⟩
      exact hp ⟨(List.nodup_append.1 h1).1, fun c hc => h2 c (List.mem_append_left _ hc)⟩

theorem checkNoColumnOverlap_eq (h : Heap F) (dfs : List DF) :
    checkNoColumnOverlap h dfs = true ↔ (dfs.map fun d => tabNames (h.tab d.tab)).flatten.Nodup := by
  unfold checkNoColumnOverlap
  have := overlapFold (dfs.map fun d => tabNames (h.tab d.tab)) []
  rw [List.foldlM_map] at this
  rw [this]; simp

theorem tabNames_nodup {t : Table} (hk : (AMap.keys t).Nodup) :
    (tabNames t).Nodup ↔ ∀ k k' c, (AMap.get t (k, c)).isSome → (AMap.get t (k', c)).isSome → k = k' := by
  simp only [AMap.get_isSome_iff]
  have hm : tabNames t = (AMap.keys t).map (·.2) := by simp [tabNames, AMap.keys]
  rw [hm]
  generalize AMap.keys t = ks at hk
  rw [List.Nodup, List.pairwise_map]
  constructor
  · intro hp k k' c h1 h2
    by_cases he : k = k'
    · exact he
    · exfalso
      have hsym : ∀ a ∈ ks, ∀ b ∈ ks, a ≠ b → a.2 ≠ b.2 := by
        intro a ha b hb hab
        obtain ⟨i, hi, rfl⟩ := List.getElem_of_mem ha
        obtain ⟨j, hj, rfl⟩ := List.getElem_of_mem hb
        have hpg := List.pairwise_iff_getElem.1 hp
        rcases Nat.lt_trichotomy i j with hij | hij | hij
        · exact hpg i j hi hj hij
        · subst hij; exact absurd rfl hab
        · exact fun e => hpg j i hj hi hij e.symm
      exact hsym _ h1 _ h2 (fun e => he (congrArg Prod.fst e)) rfl
  · intro hx
    refine hk.imp_of_mem ?_
    intro a b ha hb hne he
    obtain ⟨k, c⟩ := a
    obtain ⟨k', c'⟩ := b
    simp only at he; subst he
    exact hne (by rw [hx k k' c ha hb])

theorem overlap_iff {h : Heap F} {dfs : List DF} (wfs : ∀ d ∈ dfs, d.WF h) :
    checkNoColumnOverlap h dfs = true ↔ NoOverlap (dfs.map (abs h)) := by
  rw [checkNoColumnOverlap_eq]
  have hcol : ∀ (d : DF) k c, ((abs h d).col k c).isSome ↔ (AMap.get (h.tab d.tab) (k, c)).isSome := by
    intro d k c; simp [abs]
  unfold NoOverlap
  rw [List.nodup_flatten]
  simp only [List.forall_mem_map]
  rw [and_comm]
  apply and_congr
  · rw [List.pairwise_map, List.pairwise_map]
    have : ∀ a b : DF, (List.Disjoint (tabNames (h.tab a.tab)) (tabNames (h.tab b.tab))) ↔
        ∀ k k' c, ((abs h a).col k c).isSome → ¬ ((abs h b).col k' c).isSome := by
      intro a b
      simp only [List.Disjoint, mem_tabNames, hcol]
      constructor
      · intro hd k k' c h1 h2; exact hd ⟨k, h1⟩ ⟨k', h2⟩
      · rintro hd c ⟨k, h1⟩ ⟨k', h2⟩; exact hd k k' c h1 h2
    simp only [this]
  · constructor
    · intro hx d hd k k' c h1 h2
      exact (tabNames_nodup (wfs d hd).keys).1 (hx d hd) k k' c ((hcol ..).1 h1) ((hcol ..).1 h2)
    · intro hx d hd
      exact (tabNames_nodup (wfs d hd).keys).2 (fun k k' c h1 h2 => hx d hd k k' c ((hcol ..).2 h1) ((hcol ..).2 h2))

/-! ### `ColumnConcatView` -/

theorem setTab_same (h : Heap F) (i : Nat) (t : Table) : (h.setTab i t).tab i = t := by simp [Heap.setTab]

/-- The column a name denotes after merging the columns of `ds` one after the other. -/
def mergedGet (h0 : Heap F) (q : Key) (ds : List DF) (acc : Option Slice) : Option Slice :=
  ds.foldl (fun acc d => (AMap.get (h0.tab d.tab) q).or acc) acc

structure MergeSpec (h0 h : Heap F) (ds : List DF) (r : DF) (r' : DF) (h' : Heap F) : Prop where
  ext : Heap.Ext h0 h'
  tab : ∀ q, AMap.get (h'.tab r.tab) q = mergedGet h0 q ds (AMap.get (h.tab r.tab) q)
  keys : (AMap.keys (h'.tab r.tab)).Nodup
  arr : h'.arr = h.arr
  msk : h'.msk = h.msk
  rt : h'.rt = h.rt
  next : h.next ≤ h'.next
  same : r' = { r with shared := r'.shared }
  sh : ∀ i, r'.shared = some i → h0.next ≤ i ∧ i < h'.next
  sep : r'.toRaw.Sep
  str : ∀ x, x ∈ hdrList h' r.strHdr ↔ x ∈ hdrList h r.strHdr ∨ (r.strHdr.isSome ∧ ∃ d ∈ ds, (abs h0 d).isStr x = true)

theorem mergeViews_spec {h0 : Heap F} (ds : List DF) (r : DF) (h : Heap F) (e0 : Heap.Ext h0 h)
    (wfs : ∀ d ∈ ds, d.WF h0) (hk : (AMap.keys (h.tab r.tab)).Nodup) (htab : h0.next ≤ r.tab ∧ r.tab < h.next)
    (hsh : ∀ i, r.shared = some i → h0.next ≤ i ∧ i < h.next)
    (hst : ∀ i, r.strHdr = some i → h0.next ≤ i ∧ i < h.next) (sep : r.toRaw.Sep) :
    MergeSpec h0 h ds r (mergeViews ds r h).1 (mergeViews ds r h).2 := by
  induction ds generalizing r h with
  | nil => exact ⟨e0, fun _ => rfl, hk, rfl, rfl, rfl, Nat.le_refl _, rfl, hsh, sep, by simp [mergeViews]⟩
  | cons d ds ih =>
    have wd := wfs d (by simp)
    simp only [mergeViews]
    have htd : h.tab d.tab = h0.tab d.tab := e0.tab _ wd.tab_lt
    obtain ⟨h1, hh1⟩ : ∃ h1, h1 = h.setTab r.tab (tabSetAll (h.tab r.tab) (h.tab d.tab)) := ⟨_, rfl⟩
    rw [← hh1]
    have n1 : h1.next = h.next := by rw [hh1]; rfl
    have e1 : Heap.Ext h0 h1 := by rw [hh1]; exact e0.setTab htab.1 _
    have t1 : ∀ q, AMap.get (h1.tab r.tab) q = (AMap.get (h0.tab d.tab) q).or (AMap.get (h.tab r.tab) q) := by
      intro q; rw [hh1]; rw [setTab_same]; rw [get_tabSetAll _ _ (by rw [htd]; exact wd.keys), htd]
    have k1 : (AMap.keys (h1.tab r.tab)).Nodup := by
      rw [hh1]; rw [setTab_same]; exact nodup_tabSetAll hk
    have f2 := hdrAddEach_frame (A := Nope) (T := Nope) (M := Nope) h1 r.shared (tabNames (h.tab d.tab))
    have lt2 := hdrAddEach_lt (h := h1) (o := r.shared) (fun i hi => by rw [n1]; exact (hsh i hi).2) (tabNames (h.tab d.tab))
    have fs2 := fun i => hdrAddEach_fst h1 r.shared (tabNames (h.tab d.tab)) (i := i)
    have t2 := hdrAddEach_tab h1 r.shared (tabNames (h.tab d.tab))
    have a2 := hdrAddEach_arr h1 r.shared (tabNames (h.tab d.tab))
    have m2 := hdrAddEach_msk h1 r.shared (tabNames (h.tab d.tab))
    have r2 := hdrAddEach_rt h1 r.shared (tabNames (h.tab d.tab))
    generalize hdrAddEach h1 r.shared (tabNames (h.tab d.tab)) = p at *
    obtain ⟨sh, h2⟩ := p
    simp only at f2 lt2 fs2 t2 a2 m2 r2 ⊢
    have n2 := f2.next_le
    have e2 : Heap.Ext h0 h2 := by
      have := (e1.toFrame (A := Nope) (T := Nope) (H := Nope) (M := Nope)).trans f2 (fun _ _ => id) (fun _ _ => id)
        (fun i hi (hx : r.shared = some i) => by have := (hsh i hx).1; omega) (fun _ _ => id)
      exact this.toExt
    have s2 : hdrList h2 r.strHdr = hdrList h r.strHdr := by
      rw [hdrList_frame f2 (o := r.strHdr) (fun i hi => ⟨by have := (hst i hi).2; omega, fun hx => sep i hx hi⟩)]
      rw [hh1]; cases r.strHdr <;> rfl
    have hd_str : ∀ i, d.strHdr = some i → i < h2.next := fun i hi => Nat.lt_of_lt_of_le (wd.str_lt i hi) e2.next_le
    obtain ⟨_, hmem, f3, t3, a3, m3, r3⟩ := hdrAnd_one h2 r.strHdr d.strHdr (fun i hi => by have := (hst i hi).2; omega) hd_str
    have hmem' : ∀ x, x ∈ hdrList (hdrAnd h2 r.strHdr [d.strHdr]).2 r.strHdr ↔ x ∈ hdrList h r.strHdr ∨
        (r.strHdr.isSome ∧ (abs h0 d).isStr x = true) := by
      intro x
      cases hr : r.strHdr with
      | none => simp [hdrList]
      | some i =>
        rw [hr] at hmem s2
        have h1 : (hdrAnd h2 (some i) [d.strHdr]).1 = some i := rfl
        rw [h1] at hmem
        rw [hmem x, s2, hdrList_ext e2 wd.str_lt]
        simp [abs]
    generalize hdrAnd h2 r.strHdr [d.strHdr] = p3 at hmem hmem' f3 t3 a3 m3 r3
    obtain ⟨st3, h3⟩ := p3
    simp only at hmem hmem' f3 t3 a3 m3 r3 ⊢
    have n3 := f3.next_le
    have e3 : Heap.Ext h0 h3 := by
      have := (e2.toFrame (A := Nope) (T := Nope) (H := Nope) (M := Nope)).trans f3 (fun _ _ => id) (fun _ _ => id)
        (fun i hi (hx : r.strHdr = some i) => by have := (hst i hx).1; omega) (fun _ _ => id)
      exact this.toExt
    have hsh' : ∀ i, sh = some i → h0.next ≤ i ∧ i < h3.next := by
      intro i hi
      refine ⟨?_, by have := lt2 i hi; omega⟩
      rcases fs2 i hi with hx | ⟨_, hx, _⟩
      · exact (hsh i hx).1
      · have := e1.next_le; omega
    have hsep' : ({ r with shared := sh } : DF).toRaw.Sep := by
      intro i hi hx
      simp only at hi hx
      rcases fs2 i hi with h0 | ⟨_, h0, _⟩
      · exact sep i h0 hx
      · have := (hst i hx).2; omega
    have sp := ih { r with shared := sh } h3 e3 (fun d hd => wfs d (by simp [hd])) (by rw [t3, t2]; exact k1)
      ⟨htab.1, by simp only; omega⟩ hsh' (fun i hi => ⟨(hst i hi).1, by have := (hst i hi).2; omega⟩) hsep'
    refine ⟨sp.ext, ?_, sp.keys, by rw [sp.arr, a3, a2, hh1]; rfl, by rw [sp.msk, m3, m2, hh1]; rfl,
      by rw [sp.rt, r3, r2, hh1]; rfl, by have := sp.next; omega, ?_, sp.sh, sp.sep, ?_⟩
    · intro q
      rw [sp.tab q]
      simp only [mergedGet, List.foldl_cons]
      rw [t3, t2, t1 q]
    · have := sp.same
      rw [this]
    · intro x
      have := sp.str x
      simp only at this
      rw [this, hmem' x]
      simp only [List.mem_cons, exists_eq_or_imp]
      constructor
      · rintro ((hx | ⟨h1, h2⟩) | ⟨h1, h2⟩)
        · exact Or.inl hx
        · exact Or.inr ⟨h1, Or.inl h2⟩
        · exact Or.inr ⟨h1, Or.inr h2⟩
      · rintro (hx | ⟨h1, h2 | h2⟩)
        · exact Or.inl (Or.inl hx)
        · exact Or.inl (Or.inr ⟨h1, h2⟩)
        · exact Or.inr ⟨h1, h2⟩

theorem mergedGet_mem {h0 : Heap F} {q : Key} {ds : List DF} {acc : Option Slice} {s : Slice}
    (e : mergedGet h0 q ds acc = some s) : acc = some s ∨ ∃ d ∈ ds, AMap.get (h0.tab d.tab) q = some s := by
  induction ds generalizing acc with
  | nil => exact Or.inl e
  | cons d ds ih =>
    simp only [mergedGet, List.foldl_cons] at e
    rcases ih e with hx | ⟨d', hd', hx⟩
    · cases hg : AMap.get (h0.tab d.tab) q with
      | none => rw [hg] at hx; exact Or.inl hx
      | some s' => rw [hg] at hx; cases hx; exact Or.inr ⟨d, by simp, hg⟩
    · exact Or.inr ⟨d', by simp [hd'], hx⟩

theorem mergedGet_none {h0 : Heap F} {q : Key} {ds : List DF} (hn : ∀ d ∈ ds, AMap.get (h0.tab d.tab) q = none)
    (acc : Option Slice) : mergedGet h0 q ds acc = acc := by
  induction ds generalizing acc with
  | nil => rfl
  | cons d ds ih =>
    simp only [mergedGet, List.foldl_cons]
    rw [hn d (by simp)]
    exact ih (fun d hd => hn d (by simp [hd])) _

/-- Without overlap, the merged column is the only one of that name. -/
theorem mergedGet_first {h0 : Heap F} {q : Key} {d0 : DF} {ds : List DF}
    (hp : (d0 :: ds).Pairwise (fun a b => (AMap.get (h0.tab a.tab) q).isSome → ¬ (AMap.get (h0.tab b.tab) q).isSome)) :
    mergedGet h0 q ds (AMap.get (h0.tab d0.tab) q) = (d0 :: ds).findSome? fun d => AMap.get (h0.tab d.tab) q := by
  induction ds generalizing d0 with
  | nil => cases h : AMap.get (h0.tab d0.tab) q <;> simp [mergedGet, h]
  | cons d ds ih =>
    obtain ⟨hp1, hp2⟩ := List.pairwise_cons.1 hp
    cases hg : AMap.get (h0.tab d0.tab) q with
    | none =>
      simp only [mergedGet, List.foldl_cons, Option.or_none]
      rw [List.findSome?_cons, hg]
      exact ih hp2
    | some s =>
      rw [List.findSome?_cons, hg]
      apply mergedGet_none
      intro d' hd'
      have := hp1 d' hd' (by rw [hg]; rfl)
      simpa using this

end Verif
