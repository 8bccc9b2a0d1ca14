import Verif.Proofs.Builder
import Verif.Spec.Builder

/-! C20: builders. -/

namespace Verif
variable {F : Type}

theorem Raw.WF.ext' {h h' : Heap F} {r r' : Raw} (wf : r.WF h) (e : Heap.Ext h h') (ht : r'.tab = r.tab)
    (hs : ∀ i, r'.shared = some i → i < h'.next) (hst : ∀ i, r'.strHdr = some i → i < h'.next) : r'.WF h' :=
  have w := wf.ext e
  ⟨ht ▸ w.tab_lt, hs, hst, ht ▸ w.keys, ht ▸ w.slices⟩

/-- What holds along a run of the builder. -/
structure BuildInv (ops : List (BOp F)) (r : Raw) (h : Heap F) : Prop extends BuilderOK h r where
  col : ∀ k c, (AMap.get (h.tab r.tab) (k, c)).map h.read = specCol ops k c
  mark : ∀ c, c ∈ hdrList h r.strHdr ↔ specMark ops c
  enc : r.enc = specEnc ops

theorem specCol_snoc (ops : List (BOp F)) (op : BOp F) (k c) :
    specCol (ops ++ [op]) k c = op.stepCol k c (specCol ops k c) := by
  simp [specCol, List.foldl_append]

theorem specMark_snoc (ops : List (BOp F)) (op : BOp F) (c) :
    specMark (ops ++ [op]) c ↔ specMark ops c ∨ ((∃ vals, op = .addStrings c vals) ∨ op = .mark c) := by
  simp only [specMark, List.mem_append, List.mem_singleton]
  constructor
  · rintro ⟨o, ho | rfl, hx⟩
    · exact Or.inl ⟨o, ho, hx⟩
    · exact Or.inr hx
  · rintro (⟨o, ho, hx⟩ | hx)
    · exact ⟨o, Or.inl ho, hx⟩
    · exact ⟨op, Or.inr rfl, hx⟩

theorem specEnc_snoc (ops : List (BOp F)) (op : BOp F) :
    specEnc (ops ++ [op]) = match op with | .enc e => e | _ => specEnc ops := by
  simp only [specEnc, List.foldl_append, List.foldl_cons, List.foldl_nil]
  cases op <;> rfl

theorem buildInv_add [GoFloat F] {ops : List (BOp F)} {r : Raw} {h : Heap F} (b : BuildInv ops r h)
    (k c vals) : BuildInv (ops ++ [.add k c vals]) r (r.add k c vals h) := by
  obtain ⟨h1, h2, h3⟩ := Raw.add_spec b.toBuilderOK k c vals
  refine ⟨h1, ?_, ?_, ?_⟩
  · intro k' c'
    rw [h2, specCol_snoc]
    simp only [BOp.stepCol, ← b.col, Prod.mk.injEq]
    by_cases he : k' = k ∧ c' = c
    · obtain ⟨rfl, rfl⟩ := he
      simp only [and_self, if_true, Option.some.injEq, List.append_cancel_right_eq]
      unfold tabCol
      cases AMap.get (h.tab r.tab) (k', c') with
      | none => simp [Slice.nil, Heap.read]
      | some s => simp
    · rw [if_neg he, if_neg (by rintro ⟨rfl, rfl⟩; exact he ⟨rfl, rfl⟩)]
  · intro c'
    rw [specMark_snoc, ← b.mark]
    have : hdrList (r.add k c vals h) r.strHdr = hdrList h r.strHdr := by
      cases r.strHdr <;> simp [hdrList, h3]
    simp [this]
  · rw [specEnc_snoc]; exact b.enc

theorem buildInv_mark {ops : List (BOp F)} {r : Raw} {h : Heap F} (b : BuildInv ops r h)
    (c) : BuildInv (ops ++ [.mark c]) (r.markAsString c h).1 (r.markAsString c h).2 := by
  have ht : (r.markAsString c h).2.tab = h.tab := hdrAdd_tab ..
  have ha : (r.markAsString c h).2.arr = h.arr := hdrAdd_arr ..
  have hn : h.next ≤ (r.markAsString c h).2.next := hdrAdd_next_le ..
  have hr : (r.markAsString c h).2.read = h.read := by funext s; simp [Heap.read, ha]
  have hT : (r.markAsString c h).1.tab = r.tab := rfl
  refine ⟨⟨⟨?_, ?_, ?_, ?_, ?_⟩, ?_⟩, ?_, ?_, ?_⟩
  · exact Nat.lt_of_lt_of_le b.tab_lt hn
  · intro i hi; exact Nat.lt_of_lt_of_le (b.shared_lt i hi) hn
  · exact hdrAdd_lt b.str_lt _
  · rw [hT, ht]; exact b.keys
  · intro k s hk
    rw [hT, ht] at hk
    obtain ⟨v1, v2⟩ := b.slices k s hk
    refine ⟨v1, v2.imp id (fun ⟨x, y⟩ => ⟨by omega, by rw [ha]; exact y⟩)⟩
  · rw [hT, ht]; exact b.apart
  · intro k' c'
    rw [hT, ht, hr, b.col, specCol_snoc]; rfl
  · intro c'
    rw [specMark_snoc, ← b.mark]
    show c' ∈ hdrList (hdrAdd h r.strHdr [c]).2 (hdrAdd h r.strHdr [c]).1 ↔ _
    rw [hdrAdd_mem]
    simp [eq_comm]
  · rw [specEnc_snoc]; exact b.enc

theorem specCol_addStrings (ops : List (BOp F)) (c vals k c') :
    specCol (ops ++ [.add .obj c (vals.map .str), .mark c]) k c' =
    specCol (ops ++ [.addStrings c vals]) k c' := by
  simp [specCol, List.foldl_append, BOp.stepCol]

theorem buildInv_set {ops : List (BOp F)} {r : Raw} {h : Heap F} (b : BuildInv ops r h)
    (k c vals extra) : BuildInv (ops ++ [.set k c vals extra]) r
      (r.setCol k c { (h.newArr (vals ++ extra)).1 with len := vals.length } (h.newArr (vals ++ extra)).2) := by
  have getnew : ∀ q, AMap.get ((r.setCol k c { (h.newArr (vals ++ extra)).1 with len := vals.length } (h.newArr (vals ++ extra)).2).tab r.tab) q =
      if (k, c) = q then some { (h.newArr (vals ++ extra)).1 with len := vals.length } else AMap.get (h.tab r.tab) q := by
    intro q
    simp only [Raw.setCol, Heap.setTab_tab, AMap.get_set]; rfl
  have vnew : Slice.Valid (h.newArr (vals ++ extra)).2 { (h.newArr (vals ++ extra)).1 with len := vals.length } := by
    refine ⟨by simp, Or.inr ⟨by simp, by simp⟩⟩
  refine ⟨⟨⟨?_, ?_, ?_, ?_, ?_⟩, ?_⟩, ?_, ?_, ?_⟩
  · exact Nat.lt_succ_of_lt b.tab_lt
  · intro i hi; exact Nat.lt_succ_of_lt (b.shared_lt i hi)
  · intro i hi; exact Nat.lt_succ_of_lt (b.str_lt i hi)
  · simp only [Raw.setCol, Heap.setTab_tab]; exact AMap.nodup_set b.keys _ _
  · intro q s hq
    rw [getnew] at hq
    split at hq
    · cases hq; exact vnew
    · have := (b.slices _ _ hq).ext (Heap.newArr_ext h (vals ++ extra))
      exact this
  · have key : ∀ q s', AMap.get (h.tab r.tab) q = some s' → s'.cap = 0 ∨ s'.arr ≠ h.next := by
      intro q s' hq
      rcases (b.slices _ _ hq).2 with hc | ⟨hc, _⟩
      · exact Or.inl hc
      · right; omega
    intro q q' s1 s2 h1 h2 hne
    rw [getnew] at h1 h2
    split at h1
    · cases h1
      split at h2
      · rename_i e1 e2; exact absurd (e1.symm.trans e2) hne
      · rcases key _ _ h2 with hx | hx
        · exact Or.inr (Or.inl hx)
        · exact Or.inr (Or.inr (Ne.symm hx))
    · split at h2
      · cases h2
        rcases key _ _ h1 with hx | hx
        · exact Or.inl hx
        · exact Or.inr (Or.inr hx)
      · exact b.apart _ _ _ _ h1 h2 hne
  · intro k' c'
    rw [getnew, specCol_snoc]
    simp only [BOp.stepCol, Prod.mk.injEq]
    by_cases he : k = k' ∧ c = c'
    · rw [if_pos he, if_pos he]
      simp [Raw.setCol, Heap.read]
    · rw [if_neg he, if_neg he, ← b.col]
      cases hg : AMap.get (h.tab r.tab) (k', c') with
      | none => rfl
      | some s' =>
        simp only [Option.map_some, Option.some.injEq]
        have := (b.slices _ _ hg).arr_eq (Heap.newArr_ext h (vals ++ extra))
        exact Heap.read_congr this
  · intro c'
    rw [specMark_snoc, ← b.mark]
    simp only [reduceCtorEq, exists_false, or_self, or_false]
    cases r.strHdr <;> rfl
  · rw [specEnc_snoc]; exact b.enc

theorem buildInv_step [GoFloat F] {ops : List (BOp F)} {r : Raw} {h : Heap F} (b : BuildInv ops r h)
    (op : BOp F) : BuildInv (ops ++ [op]) (op.run (r, h)).1 (op.run (r, h)).2 := by
  cases op with
  | add k c vals => exact buildInv_add b k c vals
  | mark c => exact buildInv_mark b c
  | addStrings c vals =>
    have b2 := buildInv_mark (buildInv_add b .obj c (vals.map .str)) c
    refine ⟨b2.toBuilderOK, ?_, ?_, ?_⟩
    · intro k' c'
      rw [← specCol_addStrings]
      have := b2.col k' c'
      rw [List.append_assoc] at this
      exact this
    · intro c'
      rw [specMark_snoc]
      have := b2.mark c'
      rw [specMark_snoc, specMark_snoc] at this
      refine this.trans ?_
      simp
    · rw [specEnc_snoc]
      have := b2.enc
      rw [specEnc_snoc, specEnc_snoc] at this
      exact this
  | set k c vals extra => exact buildInv_set b k c vals extra
  | enc e =>
    refine ⟨⟨⟨b.tab_lt, b.shared_lt, b.str_lt, b.keys, b.slices⟩, b.apart⟩, ?_, ?_, ?_⟩
    · intro k c; rw [specCol_snoc]; exact b.col k c
    · intro c; rw [specMark_snoc]
      simp only [reduceCtorEq, exists_false, or_self, or_false]
      exact b.mark c
    · rw [specEnc_snoc]; rfl

theorem buildInv_nil (h : Heap F) : BuildInv ([] : List (BOp F)) (newRawData h).1 (newRawData h).2 := by
  refine ⟨⟨⟨by simp [newRawData], ?_, ?_, ?_, ?_⟩, ?_⟩, ?_, ?_, rfl⟩
  · intro i hi; simp [newRawData] at hi
  · intro i hi; simp [newRawData] at hi
  · simp [newRawData, Heap.newTab, AMap.keys]
  · intro k s hk; simp [newRawData, Heap.newTab] at hk
  · intro k k' s s' hk; simp [newRawData, Heap.newTab] at hk
  · intro k c; simp [newRawData, Heap.newTab, specCol]
  · intro c; simp [newRawData, hdrList, specMark]

theorem buildInv_build [GoFloat F] (ops : List (BOp F)) (h : Heap F) :
    BuildInv ops (build ops h).1 (build ops h).2 := by
  have gen : ∀ (os done : List (BOp F)) (st : Raw × Heap F), BuildInv done st.1 st.2 →
      BuildInv (done ++ os) (os.foldl (fun st op => op.run st) st).1
        (os.foldl (fun st op => op.run st) st).2 := by
    intro os
    induction os with
    | nil => intro done st b; simpa using b
    | cons o os ih =>
      intro done st b
      have := ih (done ++ [o]) (o.run st) (buildInv_step b o)
      simpa [List.append_assoc] using this
  exact gen ops [] (newRawData h) (buildInv_nil h)

theorem compact_col {h : Heap F} {s : Slice} (v : s.Valid h) :
    (List.range s.len).map (h.cell s) = (h.read s).map some := by
  have hl := v.read_length
  apply List.ext_getElem
  · simp [hl]
  · intro i h1 h2
    simp only [List.length_map, List.length_range] at h1
    simp only [List.getElem_map, List.getElem_range]
    rw [Heap.cell_eq_read, List.getElem?_eq_getElem (by omega)]

/-- **C20** (contents). For every sequence of builder calls whose columns have a common length `N`,
`ToDataFrame` succeeds; the dataframe is consistent and shows, for every column, exactly the values
added since the column was last set, in call order, with the string marks and the encoding asked
for. -/
theorem C20_toDataFrame_ok [GoFloat F] (ops : List (BOp F)) (h : Heap F) (N : Nat)
    (hlen : ∀ k c l, specCol ops k c = some l → l.length = N)
    (hsome : ∃ k c, (specCol ops k c).isSome) :
    ∃ df h', (build ops h).1.toDataFrame (build ops h).2 = .ok (df, h') ∧ df.WF h' ∧ df.MaskWF h' ∧
      (abs h' df).nRows = N ∧
      (∀ k c, (abs h' df).col k c = (specCol ops k c).map (·.map some)) ∧
      (∀ c, (abs h' df).isStr c = true ↔ specMark ops c) ∧ (abs h' df).enc = specEnc ops := by
  have b := buildInv_build ops h
  have hN : ∀ k s, AMap.get ((build ops h).2.tab (build ops h).1.tab) k = some s → s.len = N := by
    intro ⟨k, c⟩ s hk
    have := b.col k c
    rw [hk] at this
    have h2 := hlen _ _ _ this.symm
    rw [(b.slices _ _ hk).read_length] at h2
    exact h2
  have hne : (build ops h).2.tab (build ops h).1.tab ≠ [] := by
    intro e
    obtain ⟨k, c, hs⟩ := hsome
    rw [← b.col, e] at hs
    simp at hs
  obtain ⟨df, h', he, wf, mwf, ext, hrows, _, ht, hst, henc, _, htab, harr, hhdr⟩ :=
    toDataFrame_ok b.toWF hN hne
  refine ⟨df, h', he, wf, mwf, ?_, ?_, ?_, ?_⟩
  · simp [abs, DF.numRows, hrows]
  · intro k c
    have := b.col k c
    rw [← this]
    simp only [abs, ht, htab]
    cases hg : AMap.get ((build ops h).2.tab (build ops h).1.tab) (k, c) with
    | none => rfl
    | some s =>
      simp only [Option.map_some, Option.some.injEq]
      have v := b.slices _ _ hg
      rw [← compact_col v, hrows, hN _ _ hg]
      have : h'.cell s = (build ops h).2.cell s := Heap.cell_congr (Or.inr (by rw [harr]))
      rw [this]
  · intro c
    simp only [abs, decide_eq_true_eq]
    rw [← b.mark, hst]
    cases (build ops h).1.strHdr <;> simp [hdrList, hhdr]
  · simp only [abs]; rw [henc, b.enc]

/-- **C20** (rejection). `ToDataFrame` panics whenever two columns have different lengths. -/
theorem C20_toDataFrame_panics [GoFloat F] (ops : List (BOp F)) (h : Heap F) {k c l k' c' l'}
    (h1 : specCol ops k c = some l) (h2 : specCol ops k' c' = some l') (hne : l.length ≠ l'.length) :
    (build ops h).1.toDataFrame (build ops h).2 = .error .panic := by
  have b := buildInv_build ops h
  rw [← b.col] at h1 h2
  obtain ⟨s, hs, rfl⟩ := Option.map_eq_some_iff.1 h1
  obtain ⟨s', hs', rfl⟩ := Option.map_eq_some_iff.1 h2
  rw [(b.slices _ _ hs).read_length, (b.slices _ _ hs').read_length] at hne
  exact toDataFrame_err b.toWF hs hs' hne

/-- **C20** (no column at all). The dataframe is consistent, without rows and columns. -/
theorem C20_toDataFrame_empty [GoFloat F] (ops : List (BOp F)) (h : Heap F)
    (hnone : ∀ k c, specCol ops k c = none) :
    ∃ df h', (build ops h).1.toDataFrame (build ops h).2 = .ok (df, h') ∧ df.WF h' ∧ df.MaskWF h' ∧
      (abs h' df).nRows = 0 ∧ (∀ k c, (abs h' df).col k c = none) := by
  have b := buildInv_build ops h
  have hnil : (build ops h).2.tab (build ops h).1.tab = [] := by
    cases ht : (build ops h).2.tab (build ops h).1.tab with
    | nil => rfl
    | cons e t =>
      obtain ⟨⟨k, c⟩, s⟩ := e
      have := b.col k c
      rw [hnone, ht] at this
      simp [AMap.get_cons] at this
  obtain ⟨df, h', he, wf, mwf, _, hrows, ht, _, _, htab, _, _⟩ := toDataFrame_nil b.toWF hnil
  refine ⟨df, h', he, wf, mwf, ?_, ?_⟩
  · simp [abs, DF.numRows, hrows]
  · intro k c; simp [abs, ht, htab, hnil]

/-- **C20** as an equivalence: `ToDataFrame` panics if and only if two columns differ in length. -/
theorem C20_toDataFrame_panics_iff [GoFloat F] (ops : List (BOp F)) (h : Heap F) :
    (build ops h).1.toDataFrame (build ops h).2 = .error .panic ↔
      ∃ k c l k' c' l', specCol ops k c = some l ∧ specCol ops k' c' = some l' ∧
        l.length ≠ l'.length := by
  constructor
  · intro hp
    by_cases hsome : ∃ k c, (specCol ops k c).isSome
    · obtain ⟨k, c, hs⟩ := hsome
      obtain ⟨l, hl⟩ := Option.isSome_iff_exists.1 hs
      refine Classical.byContradiction fun hn => ?_
      have : ∀ k' c' l', specCol ops k' c' = some l' → l'.length = l.length := by
        intro k' c' l' hl'
        refine Classical.byContradiction fun hne => hn ⟨k', c', l', k, c, l, hl', hl, hne⟩
      obtain ⟨df, h', he, _⟩ := C20_toDataFrame_ok ops h l.length this ⟨k, c, hs⟩
      rw [he] at hp; cases hp
    · have : ∀ k c, specCol ops k c = none := by
        intro k c
        cases hx : specCol ops k c with
        | none => rfl
        | some l => exact absurd ⟨k, c, by simp [hx]⟩ hsome
      obtain ⟨df, h', he, _⟩ := C20_toDataFrame_empty ops h this
      rw [he] at hp; cases hp
  · rintro ⟨k, c, l, k', c', l', h1, h2, hne⟩
    exact C20_toDataFrame_panics ops h h1 h2 hne

end Verif
