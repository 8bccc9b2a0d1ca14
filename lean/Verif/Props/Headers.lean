import Verif.Props.ColumnView
import Mathlib.Data.List.Nodup

/-! C53: column headers. -/

namespace Verif
open scoped Demo
variable {F : Type}

theorem setHdr_hdr (h : Heap F) (i j : Nat) (s) : (h.setHdr i s).hdr j = if j = i then s else h.hdr j := rfl

theorem andFold_spec (i : Nat) (others : List (Option Nat)) (h : Heap F) :
    let h' := others.foldl (fun h o' => h.setHdr i (sinsertAll (h.hdr i) (hdrList h o'))) h
    (∀ x, x ∈ h'.hdr i ↔ x ∈ h.hdr i ∨ ∃ o ∈ others, x ∈ hdrList h o) ∧
    (∀ j, j ≠ i → h'.hdr j = h.hdr j) ∧ h'.next = h.next ∧ h'.arr = h.arr ∧ h'.tab = h.tab ∧ h'.msk = h.msk := by
  induction others generalizing h with
  | nil => simp
  | cons o others ih =>
    simp only [List.foldl_cons]
    obtain ⟨a1, a2, a3, a4, a5, a6⟩ := ih (h.setHdr i (sinsertAll (h.hdr i) (hdrList h o)))
    refine ⟨?_, ?_, a3, a4, a5, a6⟩
    · intro x
      rw [a1]
      have hl : ∀ o', x ∈ hdrList (h.setHdr i (sinsertAll (h.hdr i) (hdrList h o))) o' ↔
          x ∈ hdrList h o' ∨ (o' = some i ∧ (x ∈ h.hdr i ∨ x ∈ hdrList h o)) := by
        intro o'
        cases o' with
        | none => simp [hdrList]
        | some j =>
          simp only [hdrList, setHdr_hdr]
          split
          · subst j; rw [mem_sinsertAll]; cases o <;> simp
          · rename_i hne; simp [hne]
      simp only [setHdr_hdr, if_true, mem_sinsertAll, List.mem_cons, exists_eq_or_imp]
      constructor
      · rintro ((h1 | h1) | ⟨o', ho', h1⟩)
        · exact Or.inl h1
        · exact Or.inr (Or.inl h1)
        · rcases (hl o').1 h1 with h2 | ⟨_, h2 | h2⟩
          · exact Or.inr (Or.inr ⟨o', ho', h2⟩)
          · exact Or.inl h2
          · exact Or.inr (Or.inl h2)
      · rintro (h1 | h1 | ⟨o', ho', h1⟩)
        · exact Or.inl (Or.inl h1)
        · exact Or.inl (Or.inr h1)
        · exact Or.inr ⟨o', ho', (hl o').2 (Or.inl h1)⟩
    · intro j hj
      rw [a2 j hj, setHdr_hdr, if_neg hj]

theorem exceptFold_spec (i : Nat) (others : List (Option Nat)) (h : Heap F) :
    let h' := others.foldl (fun h o' => h.setHdr i (sremove (h.hdr i) (hdrList h o'))) h
    (∀ x, x ∈ h'.hdr i ↔ x ∈ h.hdr i ∧ ∀ o ∈ others, x ∉ hdrList h o) ∧
    (∀ j, j ≠ i → h'.hdr j = h.hdr j) ∧ h'.next = h.next ∧ h'.arr = h.arr ∧ h'.tab = h.tab ∧ h'.msk = h.msk := by
  induction others generalizing h with
  | nil => simp
  | cons o others ih =>
    simp only [List.foldl_cons]
    obtain ⟨a1, a2, a3, a4, a5, a6⟩ := ih (h.setHdr i (sremove (h.hdr i) (hdrList h o)))
    refine ⟨?_, ?_, a3, a4, a5, a6⟩
    · intro x
      rw [a1]
      have hl : ∀ o', x ∈ hdrList (h.setHdr i (sremove (h.hdr i) (hdrList h o))) o' ↔
          (if o' = some i then x ∈ h.hdr i ∧ x ∉ hdrList h o else x ∈ hdrList h o') := by
        intro o'
        cases o' with
        | none => simp [hdrList]
        | some j =>
          simp only [hdrList, setHdr_hdr, Option.some.injEq]
          split
          · subst j; rw [mem_sremove]
          · rfl
      simp only [setHdr_hdr, if_true, mem_sremove, List.mem_cons, forall_eq_or_imp]
      constructor
      · rintro ⟨⟨h1, h2⟩, h3⟩
        refine ⟨h1, h2, fun o' ho' hx => ?_⟩
        apply h3 o' ho'
        rw [hl o']
        split
        · exact ⟨h1, h2⟩
        · exact hx
      · rintro ⟨h1, h2, h3⟩
        refine ⟨⟨h1, h2⟩, fun o' ho' hx => ?_⟩
        rw [hl o'] at hx
        split at hx
        · rename_i he; subst he; exact h3 _ ho' h1
        · exact h3 o' ho' hx
    · intro j hj
      rw [a2 j hj, setHdr_hdr, if_neg hj]

/-- C53: `And` is set union (with the receiver changed in place when it is not nil), `Except` and
`ExceptHeader` are set difference, `Copy` has the same names in memory of its own, and `Columns` holds the
names given. The receiver may be among the arguments. -/
theorem C53_header_sets (h : Heap F) (o : Option Nat) (ho : ∀ i, o = some i → i < h.next)
    (others : List (Option Nat)) (hos : ∀ p ∈ others, ∀ i, p = some i → i < h.next) (cs : List GoStr) (x : GoStr) :
    (x ∈ hdrList (hdrAnd h o others).2 (hdrAnd h o others).1 ↔ x ∈ hdrList h o ∨ ∃ p ∈ others, x ∈ hdrList h p) ∧
    (x ∈ hdrList (hdrExcept h o cs).2 (hdrExcept h o cs).1 ↔ x ∈ hdrList h o ∧ x ∉ cs) ∧
    (x ∈ hdrList (hdrExceptHeader h o others).2 (hdrExceptHeader h o others).1 ↔
      x ∈ hdrList h o ∧ ∀ p ∈ others, x ∉ hdrList h p) ∧
    (x ∈ hdrList (hdrCopy h o).2 (hdrCopy h o).1 ↔ x ∈ hdrList h o) ∧
    (∀ i, (hdrCopy h o).1 = some i → h.next ≤ i) ∧
    (x ∈ hdrList (hdrColumns h cs).2 (hdrColumns h cs).1 ↔ x ∈ cs) := by
  refine ⟨?_, ?_, ?_, ?_, ?_, ?_⟩
  · cases o with
    | none =>
      simp only [hdrAnd]
      have := (andFold_spec h.next others (h.newHdr []).2).1 x
      have h1 : (h.newHdr []).1 = h.next := rfl
      rw [h1]
      show x ∈ (others.foldl _ (h.newHdr []).2).hdr h.next ↔ _
      rw [this]
      have h2 : (h.newHdr []).2.hdr h.next = [] := by simp [Heap.newHdr]
      rw [h2]
      simp only [List.not_mem_nil, false_or, hdrList]
      constructor
      · rintro ⟨p, hp, hx⟩
        refine ⟨p, hp, ?_⟩
        cases p with
        | none => exact hx
        | some j =>
          have := hos _ hp j rfl
          simp only [Heap.newHdr] at hx
          rw [if_neg (by omega)] at hx
          exact hx
      · rintro ⟨p, hp, hx⟩
        refine ⟨p, hp, ?_⟩
        cases p with
        | none => exact hx
        | some j =>
          have := hos _ hp j rfl
          simp only [Heap.newHdr]
          rw [if_neg (by omega)]
          exact hx
    | some i => exact (andFold_spec i others h).1 x
  · exact hdrRemove_mem h o cs x
  · cases o with
    | none => simp [hdrExceptHeader, hdrList]
    | some i => exact (exceptFold_spec i others h).1 x
  · cases o with
    | none => simp [hdrCopy]
    | some i => simp [hdrCopy, hdrList, Heap.newHdr]
  · cases o with
    | none => simp [hdrCopy]
    | some i => intro j hj; simp [hdrCopy, Heap.newHdr] at hj; omega
  · simp [hdrColumns, hdrList, Heap.newHdr, mem_sinsertAll]

/-- The two getters: `IntHeader()`, ..., and `StringHeader()` (column_header.go:162-165). -/
def stringHeader (r : Raw) (h : Heap F) : Option Nat × Heap F := hdrCopy h r.strHdr

theorem kindHeader_spec (h : Heap F) (t : Nat) (k : Kind) :
    Heap.Ext h (kindHeader h t k).2 ∧ (kindHeader h t k).2.tab = h.tab ∧
    (∀ i, (kindHeader h t k).1 = some i → h.next ≤ i ∧ i < (kindHeader h t k).2.next) ∧
    ∀ x, x ∈ hdrList (kindHeader h t k).2 (kindHeader h t k).1 ↔ (AMap.get (h.tab t) (k, x)).isSome := by
  unfold kindHeader
  have hx : ∀ x, (AMap.get (h.tab t) (k, x)).isSome ↔ x ∈ namesOf (h.tab t) k := by
    intro x
    rw [AMap.get_isSome_iff]
    simp only [AMap.keys, namesOf, List.mem_map, List.mem_filter, decide_eq_true_eq]
    constructor
    · rintro ⟨⟨⟨k', c⟩, s⟩, hm, he⟩
      cases he
      exact ⟨_, ⟨hm, rfl⟩, rfl⟩
    · rintro ⟨⟨⟨k', c⟩, s⟩, ⟨hm, rfl⟩, rfl⟩
      exact ⟨_, hm, rfl⟩
  split
  · rename_i hn
    refine ⟨Heap.Ext.refl _, rfl, by simp, ?_⟩
    intro x; rw [hx, hn]; simp [hdrList]
  · rename_i hn _
    refine ⟨Heap.newHdr_ext .., rfl, ?_, ?_⟩
    · intro i hi; simp [Heap.newHdr] at hi ⊢; omega
    · intro x
      rw [hx]
      simp [hdrList, Heap.newHdr, mem_sinsertAll]

/-- Memory effect of a header getter: only new objects; the result is new (or nil). -/
structure GetterOK (h : Heap F) (p : Option Nat × Heap F) : Prop where
  ext : Heap.Ext h p.2
  new : ∀ i, p.1 = some i → h.next ≤ i ∧ i < p.2.next

/-- A call on a header. -/
inductive HdrOp where
  | and (others : List (Option Nat))
  | except (cs : List GoStr)
  | exceptHeader (others : List (Option Nat))
  | copy

/-- Its effect: the header returned and the memory after. -/
def HdrOp.run : HdrOp → Option Nat × Heap F → Option Nat × Heap F
  | .and os, (o, h) => hdrAnd h o os
  | .except cs, (o, h) => hdrExcept h o cs
  | .exceptHeader os, (o, h) => hdrExceptHeader h o os
  | .copy, (o, h) => hdrCopy h o

theorem hdrOp_step {h0 : Heap F} (q : HdrOp) (p : Option Nat × Heap F) (g : GetterOK h0 p) : GetterOK h0 (q.run p) := by
  obtain ⟨o, h⟩ := p
  obtain ⟨e, hn⟩ := g
  simp only at e hn
  cases q with
  | and os =>
    simp only [HdrOp.run, hdrAnd]
    cases o with
    | none =>
      simp only
      obtain ⟨_, a2, a3, a4, a5, a6⟩ := andFold_spec (h.newHdr []).1 os (h.newHdr []).2
      have e5 := e.trans (Heap.newHdr_ext h [])
      have hh : (h.newHdr ([] : List GoStr)).1 = h.next := rfl
      have := e.next_le
      refine ⟨⟨by rw [a3]; exact e5.next_le, fun j hj => by rw [a4]; exact e5.arr j hj, fun j hj => by rw [a5]; exact e5.tab j hj,
        fun j hj => by rw [a2 j (by rw [hh]; omega)]; exact e5.hdr j hj, fun j hj => by rw [a6]; exact e5.msk j hj⟩, ?_⟩
      intro j hj
      cases hj
      refine ⟨by rw [hh]; omega, ?_⟩
      simp only
      rw [a3, hh]; simp [Heap.newHdr]
    | some i =>
      simp only
      have hi := hn i rfl
      obtain ⟨_, a2, a3, a4, a5, a6⟩ := andFold_spec i os h
      refine ⟨⟨by rw [a3]; exact e.next_le, fun j hj => by rw [a4]; exact e.arr j hj, fun j hj => by rw [a5]; exact e.tab j hj,
        fun j hj => by rw [a2 j (by omega)]; exact e.hdr j hj, fun j hj => by rw [a6]; exact e.msk j hj⟩, ?_⟩
      intro j hj
      cases hj
      exact ⟨hi.1, by simp only; rw [a3]; exact hi.2⟩
  | except cs =>
    simp only [HdrOp.run, hdrExcept]
    refine ⟨?_, fun i hi => ⟨(hn i hi).1, by simp only; rw [hdrRemove_next]; exact (hn i hi).2⟩⟩
    cases o with
    | none => exact e
    | some i =>
      have hi := hn i rfl
      refine ⟨e.next_le, e.arr, e.tab, fun j hj => ?_, e.msk⟩
      simp only [hdrRemove, setHdr_hdr]
      rw [if_neg (by omega)]; exact e.hdr j hj
  | exceptHeader os =>
    simp only [HdrOp.run, hdrExceptHeader]
    cases o with
    | none => exact ⟨e, hn⟩
    | some i =>
      simp only
      have hi := hn i rfl
      obtain ⟨_, a2, a3, a4, a5, a6⟩ := exceptFold_spec i os h
      refine ⟨⟨by rw [a3]; exact e.next_le, fun j hj => by rw [a4]; exact e.arr j hj, fun j hj => by rw [a5]; exact e.tab j hj,
        fun j hj => by rw [a2 j (by omega)]; exact e.hdr j hj, fun j hj => by rw [a6]; exact e.msk j hj⟩, ?_⟩
      intro j hj
      cases hj
      exact ⟨hi.1, by simp only; rw [a3]; exact hi.2⟩
  | copy =>
    simp only [HdrOp.run]
    cases o with
    | none => exact ⟨e, hn⟩
    | some i =>
      have := e.next_le
      refine ⟨e.trans (Heap.newHdr_ext h _), ?_⟩
      intro j hj
      simp only [hdrCopy, Heap.newHdr, Option.some.injEq] at hj ⊢
      omega

theorem header_spec (h : Heap F) (t : Nat) :
    GetterOK h (header h t) ∧ ∀ x, x ∈ hdrList (header h t).2 (header h t).1 ↔ ∃ k, (AMap.get (h.tab t) (k, x)).isSome := by
  unfold header
  have s1 := kindHeader_spec h t .int
  generalize kindHeader h t .int = p1 at s1
  obtain ⟨i, h1⟩ := p1
  have s2 := kindHeader_spec h1 t .bool
  simp only at s1 ⊢
  generalize kindHeader h1 t .bool = p2 at s2
  obtain ⟨b, h2⟩ := p2
  simp only at s2 ⊢
  have s3 := kindHeader_spec h2 t .obj
  generalize kindHeader h2 t .obj = p3 at s3
  obtain ⟨o, h3⟩ := p3
  simp only at s3 ⊢
  have s4 := kindHeader_spec h3 t .float
  generalize kindHeader h3 t .float = p4 at s4
  obtain ⟨f, h4⟩ := p4
  simp only at s4 ⊢
  have e12 := s1.1.trans s2.1
  have e13 := e12.trans s3.1
  have e14 := e13.trans s4.1
  have n2 := s2.1.next_le; have n3 := s3.1.next_le; have n4 := s4.1.next_le; have n1 := s1.1.next_le
  have hi : ∀ j, i = some j → h.next ≤ j ∧ j < h4.next := fun j hj => by have := s1.2.2.1 j hj; omega
  have hb : ∀ j, b = some j → h.next ≤ j ∧ j < h4.next := fun j hj => by have := s2.2.2.1 j hj; omega
  have ho : ∀ j, o = some j → h.next ≤ j ∧ j < h4.next := fun j hj => by have := s3.2.2.1 j hj; omega
  have hf : ∀ j, f = some j → h.next ≤ j ∧ j < h4.next := fun j hj => by have := s4.2.2.1 j hj; omega
  have hos : ∀ p ∈ [b, o, f], ∀ j, p = some j → j < h4.next := by
    intro p hp j hj
    simp only [List.mem_cons, List.not_mem_nil, or_false] at hp
    rcases hp with rfl | rfl | rfl
    · exact (hb j hj).2
    · exact (ho j hj).2
    · exact (hf j hj).2
  have li : ∀ x, x ∈ hdrList h4 i ↔ (AMap.get (h.tab t) (.int, x)).isSome := by
    intro x
    rw [← s1.2.2.2 x]
    cases i with
    | none => simp [hdrList]
    | some j => simp only [hdrList]; rw [((s2.1.trans s3.1).trans s4.1).hdr j (s1.2.2.1 j rfl).2]
  have lb : ∀ x, x ∈ hdrList h4 b ↔ (AMap.get (h.tab t) (.bool, x)).isSome := by
    intro x
    rw [← s1.2.1, ← s2.2.2.2 x]
    cases b with
    | none => simp [hdrList]
    | some j => simp only [hdrList]; rw [(s3.1.trans s4.1).hdr j (s2.2.2.1 j rfl).2]
  have lo : ∀ x, x ∈ hdrList h4 o ↔ (AMap.get (h.tab t) (.obj, x)).isSome := by
    intro x
    rw [← s1.2.1, ← s2.2.1, ← s3.2.2.2 x]
    cases o with
    | none => simp [hdrList]
    | some j => simp only [hdrList]; rw [s4.1.hdr j (s3.2.2.1 j rfl).2]
  have lf : ∀ x, x ∈ hdrList h4 f ↔ (AMap.get (h.tab t) (.float, x)).isSome := by
    intro x
    rw [← s1.2.1, ← s2.2.1, ← s3.2.1, ← s4.2.2.2 x]
  refine ⟨hdrOp_step (.and [b, o, f]) (i, h4) ⟨e14, hi⟩, ?_⟩
  · intro x
    rw [(C53_header_sets h4 i (fun j hj => (hi j hj).2) [b, o, f] hos [] x).1, li]
    simp only [List.mem_cons, List.not_mem_nil, or_false, exists_eq_or_imp, exists_eq_left, lb, lo, lf]
    constructor
    · rintro (h1 | h1 | h1 | h1) <;> exact ⟨_, h1⟩
    · rintro ⟨k, hk⟩
      cases k
      · exact Or.inr (Or.inr (Or.inr hk))
      · exact Or.inl hk
      · exact Or.inr (Or.inl hk)
      · exact Or.inr (Or.inr (Or.inl hk))

/-- C53, content: the headers of a dataframe list exactly its columns of that type, its string columns, and
all its columns. -/
theorem C53_header_content {df : DF} {h : Heap F} (wf : df.WF h) (x : GoStr) :
    (∀ k, x ∈ hdrList (kindHeader h df.tab k).2 (kindHeader h df.tab k).1 ↔ ((abs h df).col k x).isSome) ∧
    (x ∈ hdrList (stringHeader df.toRaw h).2 (stringHeader df.toRaw h).1 ↔ (abs h df).isStr x = true) ∧
    (x ∈ hdrList (header h df.tab).2 (header h df.tab).1 ↔ ∃ k, ((abs h df).col k x).isSome) := by
  refine ⟨fun k => ?_, ?_, ?_⟩
  · rw [(kindHeader_spec h df.tab k).2.2.2]; simp [abs]
  · rw [stringHeader, (C53_header_sets h df.strHdr wf.str_lt [] (by simp) [] x).2.2.2.1]; simp [abs]
  · rw [(header_spec h df.tab).2]; simp [abs]

/-- C53, isolation: whatever calls are made on a header obtained from a dataframe (`IntHeader`, `FloatHeader`,
`BoolHeader`, `ObjectHeader`, `StringHeader` or `Header`), with whatever other headers as arguments, no dataframe
changes. -/
theorem C53_headers_private {df : DF} {h : Heap F} {p : Option Nat × Heap F}
    (hp : (∃ k, p = kindHeader h df.tab k) ∨ p = stringHeader df.toRaw h ∨ p = header h df.tab) (qs : List HdrOp) :
    ∀ d : DF, d.WF h → abs (qs.foldl (fun p q => q.run p) p).2 d = abs h d ∧ d.WF (qs.foldl (fun p q => q.run p) p).2 := by
  have g : GetterOK h p := by
    rcases hp with ⟨k, rfl⟩ | rfl | rfl
    · have := kindHeader_spec h df.tab k
      exact ⟨this.1, this.2.2.1⟩
    · exact hdrOp_step (h0 := h) .copy (df.strHdr, h) |> fun f => by
        unfold stringHeader
        cases hs : df.strHdr with
        | none => exact ⟨Heap.Ext.refl _, by simp [hdrCopy]⟩
        | some i =>
          refine ⟨Heap.newHdr_ext h _, ?_⟩
          intro j hj
          simp only [hdrCopy, Heap.newHdr, Option.some.injEq] at hj ⊢
          omega
    · exact (header_spec h df.tab).1
  have key : ∀ (qs : List HdrOp) (p : Option Nat × Heap F), GetterOK h p → GetterOK h (qs.foldl (fun p q => q.run p) p) := by
    intro qs
    induction qs with
    | nil => intro p g; exact g
    | cons q qs ih => intro p g; exact ih _ (hdrOp_step q p g)
  intro d wd
  have e := (key qs p g).ext
  exact ⟨abs_ext e wd.toWF, wd.ext e⟩

example : ∀ d : DF, d.WF Demo.h → abs ([HdrOp.except [b!"s"], .and [Demo.df.strHdr]].foldl (fun p q => q.run p) (header Demo.h Demo.df.tab)).2 d = abs Demo.h d ∧
    d.WF ([HdrOp.except [b!"s"], .and [Demo.df.strHdr]].foldl (fun p q => q.run p) (header Demo.h Demo.df.tab)).2 :=
  C53_headers_private (df := Demo.df) (Or.inr (Or.inr rfl)) _
example : hdrList (header Demo.h Demo.df.tab).2 (header Demo.h Demo.df.tab).1 = [b!"a", b!"b", b!"s", b!"x"] := by decide

/-- A header has every name once. -/
def HdrOnce (p : Option Nat × Heap F) : Prop := (hdrList p.2 p.1).Nodup

theorem sinsertAll_nodup {s : List GoStr} (hs : s.Nodup) (cs : List GoStr) : (sinsertAll s cs).Nodup := by
  unfold sinsertAll
  induction cs generalizing s with
  | nil => exact hs
  | cons c cs ih =>
    apply ih
    unfold sinsert
    split
    · exact hs
    · rename_i hc
      rw [List.nodup_append]
      refine ⟨hs, by simp, ?_⟩
      intro a ha b hb e
      simp at hb
      subst hb; subst e
      exact hc ha

theorem andFold_nodup (i : Nat) (others : List (Option Nat)) (h : Heap F) (hd : (h.hdr i).Nodup) :
    ((others.foldl (fun h o' => h.setHdr i (sinsertAll (h.hdr i) (hdrList h o'))) h).hdr i).Nodup := by
  induction others generalizing h with
  | nil => exact hd
  | cons o os ih =>
    rw [List.foldl_cons]
    exact ih _ (by rw [setHdr_hdr, if_pos rfl]; exact sinsertAll_nodup hd _)

theorem exceptFold_nodup (i : Nat) (others : List (Option Nat)) (h : Heap F) (hd : (h.hdr i).Nodup) :
    ((others.foldl (fun h o' => h.setHdr i (sremove (h.hdr i) (hdrList h o'))) h).hdr i).Nodup := by
  induction others generalizing h with
  | nil => exact hd
  | cons o os ih =>
    rw [List.foldl_cons]
    exact ih _ (by rw [setHdr_hdr, if_pos rfl]; exact hd.filter _)

theorem hdrOp_once (q : HdrOp) (p : Option Nat × Heap F) (g : HdrOnce p) : HdrOnce (q.run p) := by
  obtain ⟨o, h⟩ := p
  unfold HdrOnce at g ⊢
  cases q with
  | and os =>
    simp only [HdrOp.run, hdrAnd]
    cases o with
    | none => exact andFold_nodup _ os _ (by simp [Heap.newHdr])
    | some i => exact andFold_nodup i os h g
  | except cs =>
    cases o with
    | none => exact g
    | some i =>
      show ((h.setHdr i (sremove (h.hdr i) cs)).hdr i).Nodup
      rw [setHdr_hdr, if_pos rfl]
      exact List.Nodup.filter _ g
  | exceptHeader os =>
    cases o with
    | none => exact g
    | some i => exact exceptFold_nodup i os h g
  | copy =>
    cases o with
    | none => exact g
    | some i => simpa [HdrOp.run, hdrCopy, hdrList, Heap.newHdr] using g

theorem kindHeader_once (h : Heap F) (t : Nat) (k : Kind) : HdrOnce (kindHeader h t k) := by
  unfold HdrOnce kindHeader
  split
  · exact List.nodup_nil
  · simp only [hdrList, Heap.newHdr, if_true]
    exact sinsertAll_nodup List.nodup_nil _

theorem header_once (h : Heap F) (t : Nat) : HdrOnce (header h t) := by
  unfold header
  have g := kindHeader_once h t .int
  have hlt := (kindHeader_spec h t .int).2.2.1
  generalize kindHeader h t .int = p at g hlt ⊢
  obtain ⟨o, h1⟩ := p
  simp only
  obtain ⟨p2, e2⟩ : ∃ p, p = kindHeader h1 t .bool := ⟨_, rfl⟩
  have x2 := (kindHeader_spec h1 t .bool).1
  rw [← e2] at x2 ⊢
  obtain ⟨p3, e3⟩ : ∃ p, p = kindHeader p2.2 t .obj := ⟨_, rfl⟩
  have x3 := (kindHeader_spec p2.2 t .obj).1
  rw [← e3] at x3 ⊢
  obtain ⟨p4, e4⟩ : ∃ p, p = kindHeader p3.2 t .float := ⟨_, rfl⟩
  have x4 := (kindHeader_spec p3.2 t .float).1
  rw [← e4] at x4 ⊢
  refine hdrOp_once (.and [p2.1, p3.1, p4.1]) (o, p4.2) ?_
  unfold HdrOnce at g ⊢
  cases o with
  | none => exact List.nodup_nil
  | some i =>
    show (p4.2.hdr i).Nodup
    rw [((x2.trans x3).trans x4).hdr i (hlt i rfl).2]
    exact g

/-- C53: whatever calls are made on a header obtained from `Columns` or from a dataframe (`StringHeader`: if the dataframe lists its
string columns once), `NameList` has every name once, however often it was given, and `Num` counts each name once. -/
theorem C53_names_once {df : DF} {h : Heap F} {p : Option Nat × Heap F}
    (hp : (∃ cs, p = hdrColumns h cs) ∨ (∃ k, p = kindHeader h df.tab k) ∨ p = header h df.tab ∨
      (p = stringHeader df.toRaw h ∧ (hdrList h df.strHdr).Nodup)) (qs : List HdrOp) :
    (hdrList (qs.foldl (fun p q => q.run p) p).2 (qs.foldl (fun p q => q.run p) p).1).Nodup ∧
    ∀ names : List GoStr, names.Nodup →
      (∀ x, x ∈ names ↔ x ∈ hdrList (qs.foldl (fun p q => q.run p) p).2 (qs.foldl (fun p q => q.run p) p).1) →
      hdrNum (qs.foldl (fun p q => q.run p) p).2 (qs.foldl (fun p q => q.run p) p).1 = names.length := by
  have g : HdrOnce p := by
    rcases hp with ⟨cs, rfl⟩ | ⟨k, rfl⟩ | rfl | ⟨rfl, hn⟩
    · simp only [HdrOnce, hdrColumns, hdrList, Heap.newHdr, if_true]
      exact sinsertAll_nodup List.nodup_nil _
    · exact kindHeader_once ..
    · exact header_once ..
    · exact hdrOp_once .copy (df.strHdr, h) hn
  have key : ∀ (qs : List HdrOp) (p : Option Nat × Heap F), HdrOnce p → HdrOnce (qs.foldl (fun p q => q.run p) p) := by
    intro qs
    induction qs with
    | nil => intro p g; exact g
    | cons q qs ih => intro p g; exact ih _ (hdrOp_once q p g)
  refine ⟨key qs p g, fun names nd hm => ?_⟩
  exact (((List.perm_ext_iff_of_nodup nd (key qs p g)).2 hm).length_eq).symm

example : ∀ names : List GoStr, names.Nodup →
    (∀ x, x ∈ names ↔ x ∈ hdrList (hdrColumns Demo.h [b!"a", b!"b", b!"a"]).2 (hdrColumns Demo.h [b!"a", b!"b", b!"a"]).1) →
    hdrNum (hdrColumns Demo.h [b!"a", b!"b", b!"a"]).2 (hdrColumns Demo.h [b!"a", b!"b", b!"a"]).1 = names.length :=
  (C53_names_once (df := Demo.df) (Or.inl ⟨_, rfl⟩) []).2
example : hdrNum (hdrColumns Demo.h [b!"a", b!"b", b!"a"]).2 (hdrColumns Demo.h [b!"a", b!"b", b!"a"]).1 = 2 := by decide

end Verif
