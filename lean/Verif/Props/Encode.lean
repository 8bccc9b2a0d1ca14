import Verif.Props.Copies
import Mathlib.Data.List.Nodup

/-! C26: `Encode` is all-or-nothing. -/

namespace Verif
open scoped Demo
variable {F : Type}

/-- What transcoding does to an object cell: missing stays missing, a string is decoded and encoded
(`none` when that fails), nothing else can be in a string column. -/
def encVal (cd : Codec) (old new : Option Nat) : Val F → Option (Val F)
  | .nil => some .nil
  | .str s => (transcode cd old new s).map .str
  | _ => none

/-- `h'` is `h` with every cell of `L` replaced by its transcoding. -/
structure Applied (f : Val F → Option (Val F)) (L : List (Nat × Nat)) (h h' : Heap F) : Prop where
  same : h' = { h with arr := h'.arr }
  len : ∀ a, (h'.arr a).length = (h.arr a).length
  at_ : ∀ l, h'.at l = if l ∈ L then (h.at l).bind f else h.at l

theorem Applied.refl (f : Val F → Option (Val F)) (h : Heap F) : Applied f [] h h := ⟨rfl, fun _ => rfl, by simp⟩

theorem Applied.trans {f : Val F → Option (Val F)} {L L' : List (Nat × Nat)} {h h1 h2 : Heap F}
    (a : Applied f L h h1) (b : Applied f L' h1 h2) (hd : ∀ l ∈ L', l ∉ L) : Applied f (L ++ L') h h2 where
  same := by rw [b.same, a.same]
  len x := (b.len x).trans (a.len x)
  at_ l := by
    rw [b.at_, a.at_]
    by_cases h1 : l ∈ L'
    · have := hd l h1; simp [h1, this]
    · simp [h1]

theorem Heap.arr_ext {h h' : Heap F} (e : ∀ l, h'.at l = h.at l) : h'.arr = h.arr := by
  funext a
  apply List.ext_getElem?
  intro i
  exact e (a, i)

/-- Undoing restores the heap exactly. -/
theorem Applied.undo {f g : Val F → Option (Val F)} {L L' : List (Nat × Nat)} {h h1 h2 : Heap F}
    (a : Applied f L h h1) (b : Applied g L' h1 h2) (hL : ∀ l, l ∈ L' ↔ l ∈ L)
    (hg : ∀ l ∈ L, ∃ v w, h.at l = some v ∧ f v = some w ∧ g w = some v) : h2 = h := by
  have : h2.arr = h.arr := by
    apply Heap.arr_ext
    intro l
    rw [b.at_, a.at_]
    by_cases h1 : l ∈ L
    · obtain ⟨v, w, e1, e2, e3⟩ := hg l h1
      simp [h1, (hL l).2 h1, e1, e2, e3]
    · have : l ∉ L' := fun hx => h1 ((hL l).1 hx)
      simp [h1, this]
  rw [b.same, a.same, this]

/-- The memory cell of row `i` of a slice. -/
def Slice.loc (s : Slice) (i : Nat) : Nat × Nat := (s.arr, s.off + i)

theorem Slice.loc_inj {s : Slice} {i j : Nat} (e : s.loc i = s.loc j) : i = j := by
  simp only [Slice.loc, Prod.mk.injEq, true_and] at e; omega

theorem cell_eq_at {h : Heap F} {s : Slice} {i : Nat} (hi : i < s.len) : h.cell s i = h.at (s.loc i) := by
  simp [Heap.cell, hi, Heap.at, Slice.loc]

theorem write_applied {h h' : Heap F} {s : Slice} {i : Nat} {v w : Val F} {f : Val F → Option (Val F)}
    (hv : h.at (s.loc i) = some v) (hf : f v = some w) (e : h.write s i w = .ok h') :
    Applied f [s.loc i] h h' := by
  unfold Heap.write at e
  split at e
  · cases e
    refine ⟨rfl, ?_, ?_⟩
    · intro a
      simp only [Heap.setArr]
      split
      · subst_vars; simp
      · rfl
    · intro l
      simp only [Heap.at, Slice.loc] at hv
      obtain ⟨hlt, -⟩ := List.getElem?_eq_some_iff.1 hv
      simp only [Heap.at, Heap.setArr, List.mem_singleton, Slice.loc]
      by_cases h1 : l.1 = s.arr
      · simp only [h1, if_true]
        by_cases h2 : l.2 = s.off + i
        · have : l = (s.arr, s.off + i) := Prod.ext h1 h2
          subst this
          rw [List.getElem?_set_self hlt, if_pos rfl, hv]; exact hf.symm
        · rw [if_neg (by intro hx; exact h2 (congrArg Prod.snd hx))]
          rw [List.getElem?_set_ne (by omega)]
      · rw [if_neg h1, if_neg (by intro hx; exact h1 (congrArg Prod.fst hx))]
  · cases e

/-- `inplaceEncoding` transcodes the rows up to the first failure and says where that is. -/
theorem inplaceEncoding_spec (cd : Codec) (old new : Option Nat) (s : Slice) (is : List Nat) (j : Nat) (h : Heap F)
    (hb : ∀ i ∈ is, i < s.len) (hn : is.Nodup)
    (hty : ∀ i ∈ is, h.at (s.loc i) = some .nil ∨ ∃ v, h.at (s.loc i) = some (.str v)) :
    ∃ r pre h', inplaceEncoding cd old new s is j h = .ok (r, h') ∧ pre <+: is ∧
      Applied (encVal cd old new) (pre.map s.loc) h h' ∧
      (∀ i ∈ pre, ∃ v w, h.at (s.loc i) = some v ∧ encVal cd old new v = some w) ∧
      ((r = none ∧ pre = is) ∨
       (r = some (j + pre.length) ∧ ∃ i ∈ is, ∃ v, h.at (s.loc i) = some v ∧ encVal cd old new v = none)) := by
  induction is generalizing j h with
  | nil => exact ⟨none, [], h, rfl, List.prefix_refl _, Applied.refl _ _, by simp, Or.inl ⟨rfl, rfl⟩⟩
  | cons i is ih =>
    obtain ⟨hni, hn'⟩ := List.nodup_cons.1 hn
    have hb' := fun k hk => hb k (List.mem_cons_of_mem i hk)
    have hcell := cell_eq_at (h := h) (hb i (by simp))
    -- the rest after a step that only touched row i
    have step : ∀ h1 : Heap F, Applied (encVal cd old new) [s.loc i] h h1 →
        (∃ v w, h.at (s.loc i) = some v ∧ encVal cd old new v = some w) →
        inplaceEncoding cd old new s (i :: is) j h = inplaceEncoding cd old new s is (j + 1) h1 →
        ∃ r pre h', inplaceEncoding cd old new s (i :: is) j h = .ok (r, h') ∧ pre <+: (i :: is) ∧
          Applied (encVal cd old new) (pre.map s.loc) h h' ∧
          (∀ i ∈ pre, ∃ v w, h.at (s.loc i) = some v ∧ encVal cd old new v = some w) ∧
          ((r = none ∧ pre = i :: is) ∨
           (r = some (j + pre.length) ∧ ∃ k ∈ i :: is, ∃ v, h.at (s.loc k) = some v ∧ encVal cd old new v = none)) := by
      intro h1 ha hok he
      have hat : ∀ k ∈ is, h1.at (s.loc k) = h.at (s.loc k) := by
        intro k hk
        rw [ha.at_, if_neg]
        intro hx
        have := Slice.loc_inj (List.mem_singleton.1 hx)
        subst this; exact hni hk
      obtain ⟨r, pre, h', e, p1, p2, p3, p4⟩ := ih (j + 1) h1 hb' hn' (fun k hk => by
        rw [hat k hk]; exact hty k (List.mem_cons_of_mem i hk))
      have hpre : ∀ k ∈ pre, k ∈ is := fun k hk => p1.subset hk
      refine ⟨r, i :: pre, h', by rw [he, e], ?_, ?_, ?_, ?_⟩
      · exact List.cons_prefix_cons.2 ⟨rfl, p1⟩
      · have := ha.trans p2 (by
          intro l hl hm
          obtain ⟨k, hk, rfl⟩ := List.mem_map.1 hl
          have := Slice.loc_inj (List.mem_singleton.1 hm)
          subst this; exact hni (hpre _ hk))
        simpa using this
      · intro k hk
        rcases List.mem_cons.1 hk with rfl | hk
        · exact hok
        · rw [← hat k (hpre k hk)]; exact p3 k hk
      · rcases p4 with ⟨rfl, rfl⟩ | ⟨rfl, k, hk, v, q1, q2⟩
        · exact Or.inl ⟨rfl, rfl⟩
        · refine Or.inr ⟨by simp only [List.length_cons]; congr 1; omega, k, by simp [hk], v, ?_, q2⟩
          rw [← hat k hk]; exact q1
    rcases hty i (by simp) with hc | ⟨v, hc⟩
    · refine step h ?_ ⟨.nil, .nil, hc, rfl⟩ ?_
      · refine ⟨rfl, fun _ => rfl, fun l => ?_⟩
        split
        · rename_i hl; rw [List.mem_singleton] at hl; subst hl; rw [hc]; rfl
        · rfl
      · simp only [inplaceEncoding, hcell, hc]
    · cases ht : transcode cd old new v with
      | none =>
        refine ⟨some j, [], h, ?_, List.nil_prefix, Applied.refl _ _, by simp, Or.inr ⟨rfl, i, by simp, .str v, hc, ?_⟩⟩
        · simp only [inplaceEncoding, hcell, hc, ht]
        · simp [encVal, ht]
      | some w =>
        have hw : encVal cd old new (.str v : Val F) = some (.str w) := by simp [encVal, ht]
        obtain ⟨h1, e1⟩ : ∃ h1, h.write s i (.str w) = .ok h1 := by
          unfold Heap.write; rw [if_pos (hb i (by simp))]; exact ⟨_, rfl⟩
        refine step h1 (write_applied hc hw e1) ⟨_, _, hc, hw⟩ ?_
        simp only [inplaceEncoding, hcell, hc, ht, e1]

/-- Undoing a list of rows that were all transcoded succeeds. -/
theorem inplaceEncoding_total {cd : Codec} {old new : Option Nat} {s : Slice} {is : List Nat} {h : Heap F}
    (hb : ∀ i ∈ is, i < s.len) (hn : is.Nodup)
    (hok : ∀ i ∈ is, ∃ v w, h.at (s.loc i) = some v ∧ encVal cd old new v = some w) :
    ∃ h', inplaceEncoding cd old new s is 0 h = .ok (none, h') ∧
      Applied (encVal cd old new) (is.map s.loc) h h' := by
  obtain ⟨r, pre, h', e, p1, p2, p3, p4⟩ := inplaceEncoding_spec cd old new s is 0 h hb hn (by
    intro i hi
    obtain ⟨v, w, h1, h2⟩ := hok i hi
    cases v <;> simp [encVal] at h2
    · exact Or.inl h1
    · exact Or.inr ⟨_, h1⟩)
  rcases p4 with ⟨rfl, rfl⟩ | ⟨rfl, i, hi, v, q1, q2⟩
  · exact ⟨h', e, p2⟩
  · obtain ⟨v', w, r1, r2⟩ := hok i hi
    rw [q1] at r1; cases r1; rw [q2] at r2; cases r2

/-- The round trip, for values. -/
theorem encVal_round {cd : Codec} {old new : Option Nat}
    (hr : ∀ s t, transcode cd old new s = some t → transcode cd new old t = some s) {v w : Val F}
    (e : encVal cd old new v = some w) : encVal cd new old w = some v := by
  cases v <;> simp [encVal] at e
  · subst e; rfl
  · obtain ⟨t, h1, rfl⟩ := e
    simp [encVal, hr _ _ h1]

/-- The cells of a list of columns. -/
def colLocs (t : Table) (rows : List Nat) (cs : List GoStr) : List (Nat × Nat) :=
  cs.flatMap fun c => rows.map (tabCol t (.obj, c)).loc

theorem colLocs_append (t : Table) (rows : List Nat) (cs ds : List GoStr) :
    colLocs t rows (cs ++ ds) = colLocs t rows cs ++ colLocs t rows ds := by simp [colLocs]

theorem revertCols_spec {cd : Codec} {old new : Option Nat} {tab : Nat} {rows : List Nat} (cs : List GoStr)
    {h : Heap F} (hn : rows.Nodup)
    (hb : ∀ c ∈ cs, ∀ i ∈ rows, i < (tabCol (h.tab tab) (.obj, c)).len)
    (hok : ∀ l ∈ colLocs (h.tab tab) rows cs, ∃ v w, h.at l = some v ∧ encVal cd old new v = some w)
    (hdis : (colLocs (h.tab tab) rows cs).Nodup) :
    ∃ h', revertCols cd old new tab rows cs h = .ok h' ∧
      Applied (encVal cd old new) (colLocs (h.tab tab) rows cs) h h' := by
  induction cs generalizing h with
  | nil => exact ⟨h, rfl, Applied.refl _ _⟩
  | cons c cs ih =>
    have hsplit : colLocs (h.tab tab) rows (c :: cs) =
        rows.map (tabCol (h.tab tab) (.obj, c)).loc ++ colLocs (h.tab tab) rows cs := by simp [colLocs]
    rw [hsplit] at hok hdis ⊢
    obtain ⟨h1, e1, a1⟩ := inplaceEncoding_total (s := tabCol (h.tab tab) (.obj, c)) (cd := cd) (old := old) (new := new)
      (h := h) (is := rows) (hb c (by simp)) hn (fun i hi => hok _ (List.mem_append_left _ (List.mem_map.2 ⟨i, hi, rfl⟩)))
    have htab : h1.tab = h.tab := by rw [a1.same]
    rw [List.nodup_append] at hdis
    obtain ⟨d1, d2, d3⟩ := hdis
    have hnot : ∀ l ∈ colLocs (h.tab tab) rows cs, l ∉ rows.map (tabCol (h.tab tab) (.obj, c)).loc :=
      fun l hl hl' => d3 l hl' l hl rfl
    obtain ⟨h2, e2, a2⟩ := ih (h := h1) (by rw [htab]; exact fun d hd => hb d (by simp [hd]))
      (by
        rw [htab]; intro l hl
        rw [a1.at_, if_neg (hnot l hl)]
        exact hok l (List.mem_append_right _ hl))
      (by rw [htab]; exact d2)
    rw [htab] at a2
    refine ⟨h2, by simp only [revertCols, e1, e2], a1.trans a2 hnot⟩

theorem encodeLoop_spec {cd : Codec} {old new : Option Nat} {tab : Nat} {rows : List Nat} (h0 : Heap F)
    (hr : ∀ s t, transcode cd old new s = some t → transcode cd new old t = some s)
    (hn : rows.Nodup) (cs done : List GoStr) {h : Heap F}
    (hb : ∀ c ∈ done ++ cs, ∀ i ∈ rows, i < (tabCol (h0.tab tab) (.obj, c)).len)
    (hty : ∀ l ∈ colLocs (h0.tab tab) rows (done ++ cs), h0.at l = some .nil ∨ ∃ v, h0.at l = some (.str v))
    (hdis : (colLocs (h0.tab tab) rows (done ++ cs)).Nodup)
    (ha : Applied (encVal cd old new) (colLocs (h0.tab tab) rows done) h0 h)
    (hdone : ∀ l ∈ colLocs (h0.tab tab) rows done, ∃ v w, h0.at l = some v ∧ encVal cd old new v = some w) :
    (∃ h', encodeLoop cd old new tab rows cs done h = .ok (false, h') ∧
      Applied (encVal cd old new) (colLocs (h0.tab tab) rows (done ++ cs)) h0 h' ∧
      ∀ l ∈ colLocs (h0.tab tab) rows (done ++ cs), ∃ v w, h0.at l = some v ∧ encVal cd old new v = some w) ∨
    (encodeLoop cd old new tab rows cs done h = .ok (true, h0) ∧
      ∃ l ∈ colLocs (h0.tab tab) rows (done ++ cs), ∃ v, h0.at l = some v ∧ encVal cd old new v = none) := by
  induction cs generalizing done h with
  | nil => exact Or.inl ⟨h, rfl, by simpa using ha, by simpa using hdone⟩
  | cons c cs ih =>
    have htab : h.tab = h0.tab := by rw [ha.same]
    have happ : done ++ c :: cs = (done ++ [c]) ++ cs := by simp
    have hsnoc : colLocs (h0.tab tab) rows (done ++ [c]) =
        colLocs (h0.tab tab) rows done ++ rows.map (tabCol (h0.tab tab) (.obj, c)).loc := by simp [colLocs]
    have hsub : ∀ l ∈ rows.map (tabCol (h0.tab tab) (.obj, c)).loc, l ∈ colLocs (h0.tab tab) rows (done ++ c :: cs) := by
      intro l hl; rw [happ, colLocs_append, hsnoc]; simp only [List.mem_append]; exact Or.inl (Or.inr hl)
    have hnotdone : ∀ l ∈ rows.map (tabCol (h0.tab tab) (.obj, c)).loc, l ∉ colLocs (h0.tab tab) rows done := by
      rw [happ, colLocs_append, hsnoc, List.append_assoc, List.nodup_append] at hdis
      intro l hl hl'
      exact hdis.2.2 l hl' l (List.mem_append_left _ hl) rfl
    have hddone : (colLocs (h0.tab tab) rows done).Nodup := by
      rw [colLocs_append, List.nodup_append] at hdis; exact hdis.1
    have hat : ∀ i ∈ rows, h.at ((tabCol (h0.tab tab) (.obj, c)).loc i) = h0.at ((tabCol (h0.tab tab) (.obj, c)).loc i) := by
      intro i hi
      rw [ha.at_, if_neg (hnotdone _ (List.mem_map.2 ⟨i, hi, rfl⟩))]
    obtain ⟨r, pre, h1, e, p1, p2, p3, p4⟩ := inplaceEncoding_spec cd old new (tabCol (h0.tab tab) (.obj, c)) rows 0 h
      (hb c (by simp)) hn (fun i hi => by rw [hat i hi]; exact hty _ (hsub _ (List.mem_map.2 ⟨i, hi, rfl⟩)))
    have hpre : ∀ i ∈ pre, i ∈ rows := fun i hi => p1.subset hi
    have htab1 : h1.tab = h0.tab := by rw [p2.same]; exact htab
    rcases p4 with ⟨rfl, rfl⟩ | ⟨rfl, i, hi, v, q1, q2⟩
    · -- the column went through
      have a1 := ha.trans p2 hnotdone
      rw [← hsnoc] at a1
      have hd1 : ∀ l ∈ colLocs (h0.tab tab) pre (done ++ [c]), ∃ v w, h0.at l = some v ∧ encVal cd old new v = some w := by
        rw [hsnoc]
        intro l hl
        rcases List.mem_append.1 hl with hl | hl
        · exact hdone l hl
        · obtain ⟨i, hi, rfl⟩ := List.mem_map.1 hl
          rw [← hat i hi]; exact p3 i hi
      have key := ih (done ++ [c]) (h := h1) (by rw [← happ]; exact hb) (by rw [← happ]; exact hty)
        (by rw [← happ]; exact hdis) a1 hd1
      rw [← happ] at key
      simp only [encodeLoop, htab, e]
      exact key
    · -- failure: undo this column's prefix, then the columns before
      right
      have htake : rows.take (0 + pre.length) = pre := by
        rw [Nat.zero_add]; exact (List.prefix_iff_eq_take.1 p1).symm
      have hpn : pre.Nodup := hn.sublist p1.sublist
      have hround : ∀ l ∈ colLocs (h0.tab tab) rows done ++ pre.map (tabCol (h0.tab tab) (.obj, c)).loc,
          ∃ v w, h0.at l = some v ∧ encVal cd old new v = some w ∧ encVal cd new old w = some v := by
        intro l hl
        have : ∃ v w, h0.at l = some v ∧ encVal cd old new v = some w := by
          rcases List.mem_append.1 hl with hl | hl
          · exact hdone l hl
          · obtain ⟨i, hi, rfl⟩ := List.mem_map.1 hl
            rw [← hat i (hpre i hi)]; exact p3 i hi
        obtain ⟨v, w, h1, h2⟩ := this
        exact ⟨v, w, h1, h2, encVal_round hr h2⟩
      have hnd2 : ∀ l ∈ pre.map (tabCol (h0.tab tab) (.obj, c)).loc, l ∉ colLocs (h0.tab tab) rows done := by
        intro l hl
        obtain ⟨i, hi, rfl⟩ := List.mem_map.1 hl
        exact hnotdone _ (List.mem_map.2 ⟨i, hpre i hi, rfl⟩)
      have a1 := ha.trans p2 hnd2
      have hval : ∀ l ∈ colLocs (h0.tab tab) rows done ++ pre.map (tabCol (h0.tab tab) (.obj, c)).loc,
          ∃ v w, h1.at l = some v ∧ encVal cd new old v = some w := by
        intro l hl
        obtain ⟨v, w, r1, r2, r3⟩ := hround l hl
        exact ⟨w, v, by rw [a1.at_, if_pos hl, r1]; exact r2, r3⟩
      obtain ⟨h2, e2, u1⟩ := inplaceEncoding_total (cd := cd) (old := new) (new := old) (s := tabCol (h0.tab tab) (.obj, c))
        (h := h1) (is := pre) (fun i hi => hb c (by simp) i (hpre i hi)) hpn
        (fun i hi => hval _ (List.mem_append_right _ (List.mem_map.2 ⟨i, hi, rfl⟩)))
      have htab2 : h2.tab = h0.tab := by rw [u1.same]; exact htab1
      obtain ⟨h3, e3, u2⟩ := revertCols_spec (cd := cd) (old := new) (new := old) (tab := tab) (h := h2) done hn
        (by rw [htab2]; exact fun d hd => hb d (by simp [hd]))
        (by
          rw [htab2]; intro l hl
          rw [u1.at_, if_neg (fun hx => hnd2 l hx hl)]
          exact hval l (List.mem_append_left _ hl))
        (by rw [htab2]; exact hddone)
      rw [htab2] at u2
      have u := u1.trans u2 (fun l hl hx => hnd2 l hx hl)
      have hfin : h3 = h0 := a1.undo u (by intro l; simp only [List.mem_append]; exact Or.comm) hround
      refine ⟨?_, _, hsub _ (List.mem_map.2 ⟨i, hi, rfl⟩), v, (hat i hi) ▸ q1, q2⟩
      simp only [encodeLoop, htab, e, htab1, htake, e2, e3, hfin]

/-! ### the property -/

/-- The string columns of a dataframe are made of strings and missing values and no memory cell is
behind two rows or two string columns. -/
structure StringsApart (h : Heap F) (df : DF) : Prop where
  /-- names are listed once (the keys of a Go map) -/
  names : (hdrList h df.strHdr).Nodup
  typed : ∀ c, (abs h df).isStr c = true → ∃ l, (abs h df).col .obj c = some l ∧
    ∀ x ∈ l, x = some .nil ∨ ∃ v, x = some (.str v)
  rows : ∀ c l, (abs h df).isStr c = true → (locs h df).col .obj c = some l → l.Nodup
  cols : ∀ c c' l l', c ≠ c' → (abs h df).isStr c = true → (abs h df).isStr c' = true →
    (locs h df).col .obj c = some l → (locs h df).col .obj c' = some l' → ∀ x ∈ l, x ∉ l'

theorem isStr_iff (h : Heap F) (df : DF) (c : GoStr) : (abs h df).isStr c = true ↔ c ∈ hdrList h df.strHdr := by
  simp [abs]

/-- The transcoded cell of a column. -/
def encCell (cd : Codec) (old new : Option Nat) (x : Option (Val F)) : Option (Val F) := x.bind (encVal cd old new)

/-- C26: with encodings that round-trip, on a dataframe whose string cells are all distinct memory cells,
`Encode` either
- returns no error: every visible string could be transcoded, every string column shows the transcoded
  strings (each once), missing values stay missing, the other columns, marks and rows are the same and the
  encoding is the new one; or
- returns an error: some visible string cannot be transcoded, and the whole memory and the dataframe are
  exactly what they were. -/
theorem C26_encode_partial {df : DF} {h : Heap F} (cd : Codec) (new : Option Nat) (hne : df.enc ≠ new)
    (hr : ∀ s t, transcode cd df.enc new s = some t → transcode cd new df.enc t = some s)
    (ap : StringsApart h df)  :
    (∃ df' h', df.encode cd new h = .ok ((false, df'), h') ∧
      (∀ c l v, (abs h df).isStr c = true → (abs h df).col .obj c = some l → some (.str v) ∈ l →
        ∃ w, transcode cd df.enc new v = some w) ∧
      (abs h' df').enc = new ∧ (abs h' df').nRows = (abs h df).nRows ∧ (abs h' df').isStr = (abs h df).isStr ∧
      (∀ c l, (abs h df).isStr c = true → (abs h df).col .obj c = some l →
        (abs h' df').col .obj c = some (l.map fun x => match x with
          | some (.str v) => (transcode cd df.enc new v).map .str
          | x => x)) ∧
      (∀ d : DF, locs h' d = locs h d ∧ ∀ k c l x, (locs h d).col k c = some l → some x ∈ l →
        (∀ c' l', (abs h df).isStr c' = true → (locs h df).col .obj c' = some l' → some x ∉ l') →
        h'.at x = h.at x)) ∨
    (df.encode cd new h = .ok ((true, df), h) ∧
      ∃ c l v, (abs h df).isStr c = true ∧ (abs h df).col .obj c = some l ∧ some (.str v) ∈ l ∧
        transcode cd df.enc new v = none) := by
  obtain ⟨L, hL⟩ : ∃ L, L = colLocs (h.tab df.tab) df.rows (hdrList h df.strHdr) := ⟨_, rfl⟩
  -- facts about the string columns
  have hget : ∀ c ∈ hdrList h df.strHdr, AMap.get (h.tab df.tab) (.obj, c) = some (tabCol (h.tab df.tab) (.obj, c)) := by
    intro c hc
    obtain ⟨l, h1, -⟩ := ap.typed c ((isStr_iff ..).2 hc)
    simp only [abs, Option.map_eq_some_iff] at h1
    obtain ⟨s, hs, -⟩ := h1
    simp [tabCol, hs]
  have hcell : ∀ c ∈ hdrList h df.strHdr, ∀ i ∈ df.rows,
      h.cell (tabCol (h.tab df.tab) (.obj, c)) i = some .nil ∨ ∃ v, h.cell (tabCol (h.tab df.tab) (.obj, c)) i = some (.str v) := by
    intro c hc i hi
    obtain ⟨l, h1, h2⟩ := ap.typed c ((isStr_iff ..).2 hc)
    simp only [abs, hget c hc, Option.map_some, Option.some.injEq] at h1
    subst h1
    exact h2 _ (List.mem_map.2 ⟨i, hi, rfl⟩)
  have hb : ∀ c ∈ hdrList h df.strHdr, ∀ i ∈ df.rows, i < (tabCol (h.tab df.tab) (.obj, c)).len := by
    intro c hc i hi
    by_contra hx
    rcases hcell c hc i hi with h1 | ⟨v, h1⟩ <;> rw [Heap.cell_none hx] at h1 <;> cases h1
  have hlocs : ∀ c ∈ hdrList h df.strHdr,
      (locs h df).col .obj c = some ((df.rows.map (tabCol (h.tab df.tab) (.obj, c)).loc).map some) := by
    intro c hc
    simp only [locs, hget c hc, Option.map_some, Option.some.injEq, List.map_map]
    apply List.map_congr_left
    intro i hi
    simp [hb c hc i hi, Slice.loc]
  have hdis : L.Nodup := by
    rw [hL, colLocs, List.nodup_flatMap]
    refine ⟨?_, ?_⟩
    · intro c hc
      exact List.Nodup.of_map some (ap.rows c _ ((isStr_iff ..).2 hc) (hlocs c hc))
    · refine ap.names.imp_of_mem ?_
      intro c c' hc hc' hne x hx hx'
      have := ap.cols c c' _ _ hne ((isStr_iff ..).2 hc) ((isStr_iff ..).2 hc') (hlocs c hc) (hlocs c' hc') (some x)
        (List.mem_map.2 ⟨x, hx, rfl⟩)
      exact this (List.mem_map.2 ⟨x, hx', rfl⟩)
  have hty : ∀ l ∈ L, h.at l = some .nil ∨ ∃ v, h.at l = some (.str v) := by
    intro l hl
    rw [hL, colLocs, List.mem_flatMap] at hl
    obtain ⟨c, hc, hl⟩ := hl
    obtain ⟨i, hi, rfl⟩ := List.mem_map.1 hl
    rw [← cell_eq_at (hb c hc i hi)]
    exact hcell c hc i hi
  by_cases hemp : hdrList h df.strHdr = []
  · -- no string column
    left
    refine ⟨{ df with enc := new }, h, ?_, ?_, rfl, rfl, rfl, ?_, ?_⟩
    · unfold DF.encode; rw [if_neg hne, hemp]; rfl
    · intro c l v hc; rw [isStr_iff, hemp] at hc; simp at hc
    · intro c l hc; rw [isStr_iff, hemp] at hc; simp at hc
    · intro d; exact ⟨rfl, fun _ _ _ _ _ _ _ => rfl⟩
  have hn : df.rows.Nodup := by
    obtain ⟨c, hc⟩ := List.exists_mem_of_ne_nil _ hemp
    have := List.Nodup.of_map some (ap.rows c _ ((isStr_iff ..).2 hc) (hlocs c hc))
    exact List.Nodup.of_map _ this
  rcases encodeLoop_spec h hr hn (hdrList h df.strHdr) [] (h := h) (cd := cd) (tab := df.tab)
    (by simpa using hb) (by simpa [← hL] using hty) (by simpa [← hL] using hdis) (Applied.refl _ _) (by simp [colLocs]) with
    ⟨h', e, ha, hall⟩ | ⟨e, l, hl, v, q1, q2⟩
  · left
    simp only [List.nil_append, ← hL] at ha hall
    have htab : h'.tab = h.tab := by rw [ha.same]
    have hhdr : h'.hdr = h.hdr := by rw [ha.same]
    have hin : ∀ c ∈ hdrList h df.strHdr, ∀ i ∈ df.rows, (tabCol (h.tab df.tab) (.obj, c)).loc i ∈ L := by
      intro c hc i hi
      rw [hL, colLocs, List.mem_flatMap]
      exact ⟨c, hc, List.mem_map.2 ⟨i, hi, rfl⟩⟩
    have hlocs' : ∀ d : DF, locs h' d = locs h d := by
      intro d
      refine ADF.ext' rfl ?_ ?_ rfl
      · intro k c; simp only [locs, htab]
      · intro c
        have : hdrList h' d.strHdr = hdrList h d.strHdr := by cases d.strHdr <;> simp [hdrList, hhdr]
        simp only [locs, this]
    refine ⟨{ df with enc := new }, h', ?_, ?_, rfl, rfl, ?_, ?_, ?_⟩
    · unfold DF.encode; rw [if_neg hne, e]
    · intro c l v hc hl hv
      rw [isStr_iff] at hc
      simp only [abs, hget c hc, Option.map_some, Option.some.injEq] at hl
      subst hl
      obtain ⟨i, hi, hx⟩ := List.mem_map.1 hv
      obtain ⟨v', w, r1, r2⟩ := hall _ (hin c hc i hi)
      rw [cell_eq_at (hb c hc i hi)] at hx
      rw [hx] at r1; cases r1
      simp only [encVal, Option.map_eq_some_iff] at r2
      obtain ⟨w', hw, -⟩ := r2
      exact ⟨w', hw⟩
    · funext c
      have : hdrList h' df.strHdr = hdrList h df.strHdr := by cases df.strHdr <;> simp [hdrList, hhdr]
      simp only [abs, this]
    · intro c l hc hl
      rw [isStr_iff] at hc
      have hl' := hl
      simp only [abs, hget c hc, Option.map_some, Option.some.injEq] at hl'
      subst hl'
      simp only [abs, htab, hget c hc, Option.map_some, Option.some.injEq, List.map_map]
      apply List.map_congr_left
      intro i hi
      have hi' : i ∈ df.rows := hi
      rw [cell_eq_at (hb c hc i hi'), ha.at_, if_pos (hin c hc i hi')]
      simp only [Function.comp]
      rcases hcell c hc i hi' with h1 | ⟨v, h1⟩ <;> rw [← cell_eq_at (hb c hc i hi'), h1] <;> simp [encVal]
    · intro d
      refine ⟨hlocs' d, ?_⟩
      intro k c l x _ _ hnot
      rw [ha.at_, if_neg]
      intro hx
      rw [hL, colLocs, List.mem_flatMap] at hx
      obtain ⟨c', hc', hm⟩ := hx
      exact hnot c' _ ((isStr_iff ..).2 hc') (hlocs c' hc') (List.mem_map.2 ⟨x, hm, rfl⟩)
  · right
    refine ⟨by unfold DF.encode; rw [if_neg hne, e], ?_⟩
    simp only [List.nil_append, colLocs, List.mem_flatMap] at hl
    obtain ⟨c, hc, hl⟩ := hl
    obtain ⟨i, hi, rfl⟩ := List.mem_map.1 hl
    rw [← cell_eq_at (hb c hc i hi)] at q1
    rcases hcell c hc i hi with h1 | ⟨s, h1⟩
    · rw [h1] at q1; cases q1; simp [encVal] at q2
    · refine ⟨c, df.rows.map (h.cell (tabCol (h.tab df.tab) (.obj, c))), s, (isStr_iff ..).2 hc, ?_, ?_, ?_⟩
      · simp only [abs, hget c hc, Option.map_some]
      · rw [← h1]; exact List.mem_map.2 ⟨i, hi, rfl⟩
      · rw [h1] at q1; cases q1; simpa [encVal] using q2

/-- C26: asking for the encoding the dataframe already has does nothing. -/
theorem C26_encode_same (cd : Codec) (df : DF) (h : Heap F) : df.encode cd df.enc h = .ok ((false, df), h) := by
  simp [DF.encode]

/-! ### the hypotheses are met; repeated rows -/

namespace Demo

/-- An encoding: strings are prefixed by the byte 1; the byte 118 ("v") cannot be encoded in encoding 2. -/
def cd : Codec where
  dec _ s := match s with | 1 :: t => some t | _ => none
  enc e s := if e = 2 ∧ (118 : UInt8) ∈ s then none else some (1 :: s)

theorem cd_round (e : Nat) (s t : GoStr) (h : transcode cd none (some e) s = some t) :
    transcode cd (some e) none t = some s := by
  simp only [transcode, cd] at h ⊢
  split at h
  · cases h
  · cases h; rfl

theorem apart : StringsApart h df where
  names := by decide
  typed c hc := by
    have hc' : c = b!"s" := by
      have : c ∈ [b!"s"] := by rw [isStr_iff] at hc; exact hc
      simpa using this
    subst hc'
    refine ⟨[some (.str b!"u"), some (.str b!"v"), some (.str b!"u"), some .nil], by decide, ?_⟩
    intro x hx; simp only [List.mem_cons, List.not_mem_nil, or_false] at hx
    rcases hx with rfl | rfl | rfl | rfl <;> simp
  rows c l hc hl := by
    have hc' : c = b!"s" := by
      have : c ∈ [b!"s"] := by rw [isStr_iff] at hc; exact hc
      simpa using this
    subst hc'
    have : ((locs h df).col .obj b!"s").all (fun l => decide l.Nodup) = true := by decide
    rw [hl] at this; simpa using this
  cols c c' l l' hne hc hc' := by
    have h1 : c = b!"s" := by
      have : c ∈ [b!"s"] := by rw [isStr_iff] at hc; exact hc
      simpa using this
    have h2 : c' = b!"s" := by
      have : c' ∈ [b!"s"] := by rw [isStr_iff] at hc'; exact hc'
      simpa using this
    exact absurd (h1.trans h2.symm) hne

-- success and failure both happen
example : okAnd (df.encode cd (some 1) h) (fun p => !p.1.1 && decide ((abs p.2 p.1.2).col .obj b!"s" =
    some [some (.str (1 :: b!"u")), some (.str (1 :: b!"v")), some (.str (1 :: b!"u")), some .nil])) = true := by decide
example : okAnd (df.encode cd (some 2) h) (fun p => p.1.1 && decide ((abs p.2 p.1.2).col .obj b!"s" =
    (abs h df).col .obj b!"s")) = true := by decide
example : df.encode cd (some 2) h = .ok ((true, df), h) := by
  rcases C26_encode_partial cd (some 2) (df := df) (h := h) (by decide) (cd_round 2) apart with
    ⟨_, _, _, h2, _⟩ | ⟨h1, _⟩
  · obtain ⟨w, hw⟩ := h2 b!"s" _ b!"v" (by decide) (by decide : (abs h df).col .obj b!"s" =
      some [some (.str b!"u"), some (.str b!"v"), some (.str b!"u"), some .nil]) (by decide)
    have : transcode cd df.enc (some 2) b!"v" = none := by decide
    rw [this] at hw; cases hw
  · exact h1

end Demo

/-- C26 fails on a view that repeats a row: its string is transcoded twice. -/
theorem C26_refuted_repeated_rows : ∃ (df : DF) (h : Heap Int), df.WF h ∧ ∃ (cd : Codec),
    (∀ s t, transcode cd df.enc (some 1) s = some t → transcode cd (some 1) df.enc t = some s) ∧
    transcode cd df.enc (some 1) b!"u" = some (1 :: b!"u") ∧
    (abs h df).col .obj b!"s" = some [some (.str b!"u"), some (.str b!"u")] ∧
    ∃ df' h', df.encode cd (some 1) h = .ok ((false, df'), h') ∧
      (abs h' df').col .obj b!"s" = some [some (.str (1 :: 1 :: b!"u")), some (.str (1 :: 1 :: b!"u"))] := by
  obtain ⟨v, h', he, rv, -⟩ := indexView_rowView Demo.df_wf (is := [0, 0]) (by rw [Demo.df_rows]; simp)
  have hd : okAnd (Demo.df.indexView [0, 0] Demo.h) (fun p => decide (p.1.enc = none) &&
      decide ((abs p.2 p.1).col .obj b!"s" = some [some (.str b!"u"), some (.str b!"u")]) &&
      okAnd (p.1.encode Demo.cd (some 1) p.2) (fun q => !q.1.1 && decide ((abs q.2 q.1.2).col .obj b!"s" =
        some [some (.str (1 :: 1 :: b!"u")), some (.str (1 :: 1 :: b!"u"))]))) = true := by decide
  obtain ⟨p, hp, hd⟩ := okAnd_iff.1 hd
  rw [he] at hp; cases hp
  simp only [Bool.and_eq_true, decide_eq_true_eq] at hd
  obtain ⟨⟨h1, h2⟩, h3⟩ := hd
  obtain ⟨q, hq, h4⟩ := okAnd_iff.1 h3
  obtain ⟨⟨b, df'⟩, h''⟩ := q
  simp only [Bool.and_eq_true, decide_eq_true_eq, Bool.not_eq_eq_eq_not, Bool.not_true] at h4
  obtain ⟨rfl, h5⟩ := h4
  refine ⟨v, h', rv.wf, Demo.cd, ?_, ?_, h2, df', h'', hq, h5⟩
  · rw [h1]; exact Demo.cd_round 1
  · rw [h1]; rfl

end Verif
