import Verif.Proofs.OneHotFit

/-! `OneHotEncoder.TransformView`. -/

namespace Verif
variable {F : Type}

/-- The cells `D` were set to true, nothing else happened. -/
structure Marked (h1 : Heap F) (D : List (Nat × Nat)) (g : Heap F) : Prop where
  quiet : Quiet h1 g
  at_ : ∀ l, g.at l = if l ∈ D then some (.bool true) else h1.at l

theorem Marked.refl (h1 : Heap F) : Marked h1 [] h1 := ⟨Quiet.refl h1, by simp⟩

theorem Marked.write {h1 g g' : Heap F} {D : List (Nat × Nat)} (m : Marked h1 D g) {s : Slice} {i : Nat} (hv : s.Valid g)
    (e : g.write s i (.bool true) = .ok g') : Marked h1 (D ++ [(s.arr, s.off + i)]) g' := by
  refine ⟨m.quiet.trans (write_quiet e), fun l => ?_⟩
  rw [write_at hv e, m.at_]
  simp only [List.mem_append, List.mem_singleton]
  by_cases hl : l = (s.arr, s.off + i) <;> simp [hl]

/-- The dataframe with the new columns allocated, before the workers start. -/
structure OHPrep [GoFloat F] (df : DF) (news : List GoStr) (h : Heap F) (r : DF) (h1 : Heap F) : Prop where
  ext : Heap.Ext h h1
  wf : r.WF h1
  rows : r.rows = df.rows
  str : r.strHdr = df.strHdr
  enc : r.enc = df.enc
  new : ∀ c ∈ news, ∃ s, AMap.get (h1.tab r.tab) (.bool, c) = some s ∧ h.next ≤ s.arr ∧
    ∀ i ∈ df.rows, h1.cell s i = some (.bool false)
  old : ∀ q : Key, ¬ (q.1 = .bool ∧ q.2 ∈ news) → AMap.get (h1.tab r.tab) q = AMap.get (h.tab df.tab) q
  distinct : ∀ c ∈ news, ∀ c' ∈ news, c ≠ c' → ∀ s s', AMap.get (h1.tab r.tab) (.bool, c) = some s →
      AMap.get (h1.tab r.tab) (.bool, c') = some s' → s.arr ≠ s'.arr
  fresh : news ≠ [] → h.next ≤ r.tab ∧ ∀ i, r.shared = some i → h.next ≤ i

theorem oneHot_prep [GoFloat F] {df : DF} {h : Heap F} (wf : df.WF h) (hne : h.tab df.tab ≠ []) (news : List GoStr) :
    OHPrep df news h { df.view with toRaw := (df.view.toRaw.alloc .bool news h).1 } (df.view.toRaw.alloc .bool news h).2 := by
  have wfv : df.view.WF h := ⟨⟨wf.tab_lt, wf.shared_lt, wf.str_lt, wf.keys, wf.slices⟩, wf.idx_len, wf.rect⟩
  by_cases hn : news = []
  · subst hn
    have e : df.view.toRaw.alloc .bool [] h = (df.view.toRaw, h) := rfl
    rw [e]
    exact ⟨Heap.Ext.refl h, wfv, rfl, rfl, rfl, by simp, fun _ _ => rfl, by simp, fun h => absurd rfl h⟩
  · obtain ⟨ga, gw, gs⟩ := alloc_abs wfv hne .bool news
    have hs : (df.view.toRaw).sharedMaps = true := rfl
    have sp := own_spec wfv.toWF
    have e : df.view.toRaw.alloc .bool news h = ((df.view.toRaw.own h).1,
        allocLoop .bool (numAllocatedRows ((df.view.toRaw.own h).2.tab (df.view.toRaw.own h).1.tab)) (df.view.toRaw.own h).1.tab news
          (df.view.toRaw.own h).2) := by
      unfold Raw.alloc; rw [if_neg hn]
    rw [e] at ga gw gs ⊢
    simp only at ga gw gs ⊢
    generalize df.view.toRaw.own h = p at sp ga gw gs
    obtain ⟨r, h0⟩ := p
    simp only at sp ga gw gs ⊢
    obtain ⟨f1, f2, f3⟩ := sp.fresh hs
    have hN : ∀ i ∈ df.rows, i < numAllocatedRows (h0.tab r.tab) := by
      rw [sp.tab]; exact (wf.rect_ne hne).2.1
    generalize hNN : numAllocatedRows (h0.tab r.tab) = N at ga gw gs hN ⊢
    have al := allocLoop_spec .bool N r.tab news h0
    have dist := allocLoop_distinct .bool N r.tab news h0
    generalize allocLoop .bool N r.tab news h0 = h1 at al dist ga gw gs
    have n1 := sp.ext.next_le
    refine ⟨?_, gw, rfl, sp.str, sp.enc, ?_, ?_, dist, fun _ => ⟨f1, f2⟩⟩
    · refine ((sp.ext.toFrame (A := Nope) (T := Nope) (H := Nope) (M := Nope)).trans al.frame (fun _ _ => id)
        (fun i hi (hx : i = r.tab) => by omega) (fun _ _ => id) (fun _ _ => id)).toExt
    · intro c hc
      obtain ⟨s, g1, g2, g3, g4, g5⟩ := al.new c hc
      refine ⟨s, g1, by omega, fun i hi => ?_⟩
      rw [Heap.cell_eq_read, g5]
      simp [hN i hi, Kind.zero]
    · intro q hq
      rw [al.old q hq, sp.tab]; rfl

/-- The location behind a new column at a raw position. -/
def newLoc (h1 : Heap F) (r : DF) (n : GoStr) (i : Nat) : Nat × Nat :=
  ((tabCol (h1.tab r.tab) (.bool, n)).arr, (tabCol (h1.tab r.tab) (.bool, n)).off + i)

section
variable [GoFloat F] {df : DF} {news : List GoStr} {h : Heap F} {r : DF} {h1 : Heap F} {enc : OneHotEncoder}

theorem OHPrep.loc_new (sp : OHPrep df news h r h1) {n : GoStr} (hn : n ∈ news) (i : Nat) : h.next ≤ (newLoc h1 r n i).1 := by
  obtain ⟨s, g1, g2, _⟩ := sp.new n hn
  simp [newLoc, tabCol, g1, g2]

theorem OHPrep.loc_inj (sp : OHPrep df news h r h1) {n n' : GoStr} (hn : n ∈ news) (hn' : n' ∈ news) {i j : Nat}
    (e : newLoc h1 r n i = newLoc h1 r n' j) : n = n' ∧ i = j := by
  obtain ⟨s, g1, g2, _⟩ := sp.new n hn
  obtain ⟨s', g1', g2', _⟩ := sp.new n' hn'
  simp only [newLoc, tabCol, g1, g1', Option.getD_some, Prod.mk.injEq] at e
  by_cases hne : n = n'
  · subst hne
    rw [g1] at g1'; cases g1'
    exact ⟨rfl, by omega⟩
  · exact absurd e.1 (sp.distinct n hn n' hn' hne s s' g1 g1')

/-- The source column keeps its values while new columns are marked. -/
theorem Marked.src (sp : OHPrep df news h r h1) {D : List (Nat × Nat)} {g : Heap F} (m : Marked h1 D g) (hD : ∀ l ∈ D, h.next ≤ l.1)
    {src : Slice} (hv : src.Valid h) (i : Nat) : g.cell src i = h.cell src i := by
  have hlt : src.len = 0 ∨ src.arr < h.next := by
    rcases hv.2 with h0 | ⟨h0, _⟩
    · exact Or.inl (by have := hv.1; omega)
    · exact Or.inr h0
  rcases hlt with h0 | h0
  · simp [Heap.cell, h0]
  · unfold Heap.cell
    split
    · have := m.at_ (src.arr, src.off + i)
      rw [if_neg (fun hx => by have := hD _ hx; simp only at this; omega)] at this
      simp only [Heap.at] at this
      rw [this, sp.ext.arr _ h0]
    · rfl

/-- The loop over the rows of one column. -/
theorem oneHotLoop_spec (wf : df.WF h) (sp : OHPrep df news h r h1) {c : GoStr} {src : Slice} (hv : src.Valid h) {val : Nat → Int}
    (ht : ∀ v n, enc.target c v = some n → n ∈ news) (is : List Nat) (hi : ∀ i ∈ is, i ∈ df.rows)
    (hval : ∀ i ∈ is, h.cell src i = some (.int (val i))) (D : List (Nat × Nat)) (hD : ∀ l ∈ D, h.next ≤ l.1) (g : Heap F)
    (m : Marked h1 D g) (f : Bool) :
    ∃ g' D', oneHotLoop enc r c src is (g, f) = .ok (g', f || is.any (fun i => (enc.target c (val i)).isNone)) ∧
      Marked h1 D' g' ∧ (∀ l ∈ D', h.next ≤ l.1) ∧
      (is.any (fun i => (enc.target c (val i)).isNone) = false →
        D' = D ++ is.map (fun i => newLoc h1 r ((enc.target c (val i)).getD []) i)) := by
  induction is generalizing D g with
  | nil => exact ⟨g, D, by simp [oneHotLoop], m, hD, by simp⟩
  | cons i is ih =>
    have hc : g.cell src i = some (.int (val i)) := by rw [m.src sp hD hv]; exact hval i (by simp)
    cases hT : enc.target c (val i) with
    | none =>
      refine ⟨g, D, ?_, m, hD, by simp [hT]⟩
      simp [oneHotLoop, hc, asInt, hT]
    | some n =>
      have hn := ht _ _ hT
      obtain ⟨s, g1, g2, g3⟩ := sp.new n hn
      have hcell := g3 i (hi i (by simp))
      have hlt : i < s.len := by
        by_contra hx
        simp [Heap.cell, hx] at hcell
      have hw := write_ok (h := g) hlt (.bool true)
      have hvs : s.Valid g := m.quiet.valid (sp.wf.slices _ _ g1)
      have m' := m.write hvs hw
      have hloc : (s.arr, s.off + i) = newLoc h1 r n i := by simp [newLoc, tabCol, g1]
      rw [hloc] at m'
      obtain ⟨g', D', e, m2, d2, l2⟩ := ih (fun j hj => hi j (by simp [hj])) (fun j hj => hval j (by simp [hj]))
        (D ++ [newLoc h1 r n i]) (by
          intro l hl
          simp only [List.mem_append, List.mem_singleton] at hl
          rcases hl with hl | rfl
          · exact hD l hl
          · exact sp.loc_new hn i) _ m'
      refine ⟨g', D', ?_, m2, d2, ?_⟩
      · simp only [oneHotLoop, hc, asInt, hT, DF.setTrue, m.quiet.tab, g1, hw, e, List.any_cons, Option.isNone_some,
          Bool.false_or]
      · intro hb
        simp only [List.any_cons, hT, Option.isNone_some, Bool.false_or] at hb
        rw [l2 hb]
        simp [hT]

/-- The encoder can be run: every column it may want to set, it has allocated. -/
structure Runnable (enc : OneHotEncoder) : Prop where
  target : ∀ c ∈ enc.catCols, ∀ v n, enc.target c v = some n → n ∈ enc.newCols
  fb : ∀ c ∈ enc.catCols, ∃ fb, AMap.get enc.fallback c = some fb ∧ (enc.options.missing ≠ .returnError → fb.1 ∈ enc.newCols) ∧
    (enc.options.unknown ≠ .returnError → fb.2 ∈ enc.newCols)

/-- The value of column `c` at raw position `i`. -/
def rawInt (h : Heap F) (df : DF) (c : GoStr) (i : Nat) : Int :=
  ((h.cell (tabCol (h.tab df.tab) (.int, c)) i).map asInt).getD 0

omit [GoFloat F] in
/-- Int columns hold ints. -/
theorem rawInt_spec (wf : df.WF h) {vals : GoStr → List Int} (hv : IntCols (abs h df) vals) {c : GoStr} (hc : ((abs h df).col .int c).isSome) :
    ∃ src, AMap.get (h.tab df.tab) (.int, c) = some src ∧ src.Valid h ∧
      ∀ i ∈ df.rows, h.cell src i = some (.int (rawInt h df c i)) := by
  have hcol := hv c hc
  simp only [abs, Option.isSome_map] at hc hcol
  obtain ⟨src, hs⟩ := Option.isSome_iff_exists.1 hc
  refine ⟨src, hs, wf.slices _ _ hs, fun i hi => ?_⟩
  rw [hs] at hcol
  simp only [Option.map_some, Option.some.injEq] at hcol
  have : h.cell src i ∈ df.rows.map (h.cell src) := List.mem_map.2 ⟨i, hi, rfl⟩
  rw [hcol] at this
  obtain ⟨v, _, e⟩ := List.mem_map.1 this
  simp [rawInt, tabCol, hs, ← e, asInt]

/-- All the columns, in the order of the queue. -/
theorem oneHot_jobs (wf : df.WF h) (sp : OHPrep df enc.newCols h r h1) (ok : Runnable enc) {vals : GoStr → List Int}
    (hv : IntCols (abs h df) vals)
    (todo : List GoStr) (hsub : ∀ c ∈ todo, c ∈ enc.catCols) (hint : ∀ c ∈ todo, ((abs h df).col .int c).isSome)
    (D : List (Nat × Nat)) (hD : ∀ l ∈ D, h.next ≤ l.1) (g : Heap F) (m : Marked h1 D g) (f : Bool) :
    ∃ g' D', todo.foldlM (fun s c => oneHotJob enc r c s) (g, f) =
        .ok (g', f || todo.any (fun c => df.rows.any (fun i => (enc.target c (rawInt h df c i)).isNone))) ∧
      Marked h1 D' g' ∧ (∀ l ∈ D', h.next ≤ l.1) ∧
      (todo.any (fun c => df.rows.any (fun i => (enc.target c (rawInt h df c i)).isNone)) = false →
        D' = D ++ todo.flatMap (fun c => df.rows.map (fun i => newLoc h1 r ((enc.target c (rawInt h df c i)).getD []) i))) := by
  induction todo generalizing D g f with
  | nil => exact ⟨g, D, by simp [pure, Except.pure], m, hD, by simp⟩
  | cons c cs ih =>
    obtain ⟨src, hs, hvs, hval⟩ := rawInt_spec wf hv (hint c (by simp))
    obtain ⟨g1, D1, e1, m1, d1, l1⟩ := oneHotLoop_spec (enc := enc) wf sp hvs (ok.target c (hsub c (by simp))) df.rows
      (fun _ h => h) hval D hD g m f
    have hjob : oneHotJob enc r c (g, f) =
        .ok (g1, f || df.rows.any (fun i => (enc.target c (rawInt h df c i)).isNone)) := by
      obtain ⟨fb, hfb, a1, a2⟩ := ok.fb c (hsub c (by simp))
      have hsrc : AMap.get (g.tab r.tab) (.int, c) = some src := by
        rw [m.quiet.tab, sp.old _ (by simp)]; exact hs
      have hth : fallbackThere (g.tab r.tab) enc.options fb = true := by
        unfold fallbackThere
        rw [m.quiet.tab]
        simp only [Bool.and_eq_true, Bool.or_eq_true, decide_eq_true_eq]
        constructor
        · by_cases hx : enc.options.missing = .returnError
          · exact Or.inl hx
          · obtain ⟨s, q, _⟩ := sp.new _ (a1 hx); simp [q]
        · by_cases hx : enc.options.unknown = .returnError
          · exact Or.inl hx
          · obtain ⟨s, q, _⟩ := sp.new _ (a2 hx); simp [q]
      simp only [oneHotJob, hsrc, hfb, hth, if_true, sp.rows]
      exact e1
    obtain ⟨g2, D2, e2, m2, d2, l2⟩ := ih (fun x hx => hsub x (by simp [hx])) (fun x hx => hint x (by simp [hx])) D1 d1 g1 m1
      (f || df.rows.any (fun i => (enc.target c (rawInt h df c i)).isNone))
    refine ⟨g2, D2, ?_, m2, d2, ?_⟩
    · rw [List.foldlM_cons, hjob]
      show List.foldlM (fun s c => oneHotJob enc r c s) _ cs = _
      rw [e2]
      simp [Bool.or_assoc]
    · intro hb
      simp only [List.any_cons, Bool.or_eq_false_iff] at hb
      rw [l2 hb.2, l1 hb.1]
      simp

/-- Marking keeps everything that existed before. -/
theorem Marked.ext (sp : OHPrep df news h r h1) {D : List (Nat × Nat)} {g : Heap F} (m : Marked h1 D g) (hD : ∀ l ∈ D, h.next ≤ l.1) :
    Heap.Ext h g := by
  refine ⟨by rw [m.quiet.next]; exact sp.ext.next_le, ?_, ?_, ?_, ?_⟩
  · intro a ha
    apply List.ext_getElem?
    intro p
    have := m.at_ (a, p)
    rw [if_neg (fun hx => by have := hD _ hx; simp only at this; omega)] at this
    simp only [Heap.at] at this
    rw [this, sp.ext.arr a ha]
  · intro a ha; rw [m.quiet.tab]; exact sp.ext.tab a ha
  · intro a ha; rw [m.quiet.hdr]; exact sp.ext.hdr a ha
  · intro a ha; rw [m.quiet.msk]; exact sp.ext.msk a ha

end

/-- Removing names that are not there. -/
theorem hdrRemove_absent {h : Heap F} {o : Option Nat} {cs : List GoStr} (hc : ∀ c ∈ cs, c ∉ hdrList h o) :
    hdrRemove h o cs = h := by
  cases o with
  | none => rfl
  | some i =>
    simp only [hdrRemove]
    have : sremove (h.hdr i) cs = h.hdr i := by
      unfold sremove
      rw [List.filter_eq_self]
      intro x hx
      simp only [decide_eq_true_eq]
      exact fun hm => hc x hm hx
    rw [this]
    simp only [Heap.setHdr]
    have e : (fun j => if j = i then h.hdr i else h.hdr j) = h.hdr := by
      funext j; split
      · subst j; rfl
      · rfl
    rw [e]

theorem drop_ext {h0 h : Heap F} {r : Raw} (cs : List GoStr) (hext : Heap.Ext h0 h) (ht : h0.next ≤ r.tab)
    (hs : ∀ i, r.shared = some i → h0.next ≤ i) (hsep : r.Sep) (hm : ∀ c ∈ cs, c ∉ hdrList h r.strHdr) : Heap.Ext h0 (r.drop cs h) := by
  induction cs generalizing h with
  | nil => exact hext
  | cons c cs ih =>
    have hstep : r.drop (c :: cs) h = r.drop cs (r.drop [c] h) := rfl
    have hstr : hdrList (hdrRemove h r.shared [c]) r.strHdr = hdrList h r.strHdr := by
      cases hst : r.strHdr with
      | none => rfl
      | some i =>
        cases hsh : r.shared with
        | none => rfl
        | some j =>
          have : i ≠ j := fun e => hsep j hsh (by rw [hst, e])
          simp [hdrList, hdrRemove, Heap.setHdr, this]
    have e1 : r.drop [c] h = (hdrRemove h r.shared [c]).setTab r.tab (tabEraseName ((hdrRemove h r.shared [c]).tab r.tab) c) := by
      simp only [Raw.drop, List.foldl_cons, List.foldl_nil]
      rw [hdrRemove_absent (o := r.strHdr) (by rw [hstr]; intro x hx; rw [List.mem_singleton.1 hx]; exact hm c (by simp))]
    rw [hstep]
    refine ih ?_ ?_
    · rw [e1]
      cases hsh : r.shared with
      | none =>
        simp only [hdrRemove]
        exact ((hext.toFrame (A := Nope) (T := Nope) (H := Nope) (M := Nope)).trans
          (Heap.setTab_frame (H := Nope) h r.tab _) (fun _ _ => id) (fun i hi (hx : i = r.tab) => by omega) (fun _ _ => id) (fun _ _ => id)).toExt
      | some j =>
        simp only [hdrRemove]
        have hj := hs j hsh
        have f : Heap.Frame Nope Nope (· = j) Nope h (h.setHdr j (sremove (h.hdr j) [c])) := Heap.setHdr_frame ..
        have f2 := (hext.toFrame (A := Nope) (T := Nope) (H := Nope) (M := Nope)).trans f (fun _ _ => id) (fun _ _ => id)
          (fun i hi (hx : i = j) => by omega) (fun _ _ => id)
        exact (f2.trans (Heap.setTab_frame (H := Nope) _ r.tab _) (fun _ _ => id) (fun i hi (hx : i = r.tab) => by omega)
          (fun _ _ => id) (fun _ _ => id)).toExt
    · intro x hx
      rw [e1]
      have : hdrList ((hdrRemove h r.shared [c]).setTab r.tab (tabEraseName ((hdrRemove h r.shared [c]).tab r.tab) c)) r.strHdr =
          hdrList h r.strHdr := by rw [← hstr]; rfl
      rw [this]
      exact hm x (by simp [hx])

end Verif
