import Verif.Props.Encode
import Mathlib.Logic.Function.Iterate

/-! C26 without any condition on which memory cells are behind the rows: views with repeated rows, string
columns that share memory. A cell that is visible `k` times is transcoded `k` times when `Encode` succeeds;
an error leaves everything exactly as it was. -/

namespace Verif
open scoped Demo
variable {F : Type}

/-- `f` applied `k` times, as long as it succeeds. -/
def iterEnc {V : Type} (f : V → Option V) (k : Nat) (x : Option V) : Option V := (fun o => o.bind f)^[k] x

theorem iter_zero {V : Type} (f : V → Option V) (x : Option V) : iterEnc f 0 x = x := rfl

theorem iter_succ {V : Type} (f : V → Option V) (k : Nat) (x : Option V) : iterEnc f (k + 1) x = (iterEnc f k x).bind f :=
  Function.iterate_succ_apply' ..

theorem iter_add {V : Type} (f : V → Option V) (j k : Nat) (x : Option V) : iterEnc f (j + k) x = iterEnc f k (iterEnc f j x) := by
  rw [Nat.add_comm]; exact Function.iterate_add_apply ..

theorem iter_none {V : Type} (f : V → Option V) (k : Nat) : iterEnc f k none = none := by
  induction k with
  | zero => rfl
  | succ k ih => rw [iter_succ, ih]; rfl

theorem iter_le {V : Type} {f : V → Option V} {j k : Nat} {x : Option V} (h : j ≤ k) (e : iterEnc f j x = none) :
    iterEnc f k x = none := by
  obtain ⟨d, rfl⟩ := Nat.exists_eq_add_of_le h
  rw [iter_add, e, iter_none]

theorem iter_undo {V : Type} {f g : V → Option V} (hfg : ∀ v w, f v = some w → g w = some v) {k : Nat} {v w : V}
    (e : iterEnc f k (some v) = some w) : iterEnc g k (some w) = some v := by
  induction k generalizing w with
  | zero => simpa [iter_zero, eq_comm] using e
  | succ k ih =>
    rw [iter_succ, Option.bind_eq_some_iff] at e
    obtain ⟨u, h1, h2⟩ := e
    have : k + 1 = 1 + k := by omega
    rw [this, iter_add]
    have : iterEnc g 1 (some w) = some u := by
      rw [iter_succ, iter_zero]; exact hfg _ _ h2
    rw [this]
    exact ih h1

/-- `h'` is `h` where every cell has been transformed as many times as it occurs in `L`. -/
structure AppliedN (f : Val F → Option (Val F)) (L : List (Nat × Nat)) (h h' : Heap F) : Prop where
  same : h' = { h with arr := h'.arr }
  len : ∀ a, (h'.arr a).length = (h.arr a).length
  at_ : ∀ l, h'.at l = iterEnc f (L.count l) (h.at l)

theorem AppliedN.refl (f : Val F → Option (Val F)) (h : Heap F) : AppliedN f [] h h := ⟨rfl, fun _ => rfl, by simp [iter_zero]⟩

theorem AppliedN.trans {f : Val F → Option (Val F)} {L L' : List (Nat × Nat)} {h h1 h2 : Heap F}
    (a : AppliedN f L h h1) (b : AppliedN f L' h1 h2) : AppliedN f (L ++ L') h h2 where
  same := by rw [b.same, a.same]
  len x := (b.len x).trans (a.len x)
  at_ l := by rw [b.at_, a.at_, List.count_append, iter_add]

theorem AppliedN.undo {f g : Val F → Option (Val F)} {L L' : List (Nat × Nat)} {h h1 h2 : Heap F}
    (hfg : ∀ v w, f v = some w → g w = some v)
    (a : AppliedN f L h h1) (b : AppliedN g L' h1 h2) (hL : L'.Perm L)
    (hg : ∀ l ∈ L, ∃ v, h1.at l = some v) : h2 = h := by
  have : h2.arr = h.arr := by
    apply Heap.arr_ext
    intro l
    rw [b.at_, hL.count_eq]
    by_cases h0 : l ∈ L
    · obtain ⟨w, hw⟩ := hg l h0
      have e := a.at_ l
      rw [hw] at e
      cases hv : h.at l with
      | none => rw [hv, iter_none] at e; cases e
      | some v => rw [hv] at e; rw [hw, iter_undo hfg e.symm]
    · have e := a.at_ l
      rw [List.count_eq_zero_of_not_mem h0, iter_zero] at e ⊢
      exact e
  rw [b.same, a.same, this]

theorem write_appliedN {h h' : Heap F} {s : Slice} {i : Nat} {v w : Val F} {f : Val F → Option (Val F)}
    (hv : h.at (s.loc i) = some v) (hf : f v = some w) (e : h.write s i w = .ok h') :
    AppliedN f [s.loc i] h h' := by
  have a := write_applied hv hf e
  refine ⟨a.same, a.len, fun l => ?_⟩
  rw [a.at_]
  by_cases hl : l = s.loc i
  · subst hl; simp [iter_succ, iter_zero]
  · rw [if_neg (by simpa using hl), List.count_eq_zero_of_not_mem (by simpa using hl), iter_zero]

/-- A cell of a string column: a string or nil. -/
def Stringy (x : Option (Val F)) : Prop := x = some .nil ∨ ∃ v, x = some (.str v)

theorem stringy_enc {cd : Codec} {old new : Option Nat} {v w : Val F} (e : encVal cd old new v = some w) :
    Stringy (some w) := by
  cases v <;> simp [encVal] at e
  · subst e; exact Or.inl rfl
  · obtain ⟨t, _, rfl⟩ := e; exact Or.inr ⟨t, rfl⟩

/-- `inplaceEncoding` on any rows, repeated or not. -/
theorem inplaceEncoding_exact (cd : Codec) (old new : Option Nat) (s : Slice) (is : List Nat) (j : Nat) (h : Heap F)
    (hb : ∀ i ∈ is, i < s.len) (hty : ∀ i ∈ is, Stringy (h.at (s.loc i))) :
    ∃ r pre post h', inplaceEncoding cd old new s is j h = .ok (r, h') ∧ is = pre ++ post ∧
      AppliedN (encVal cd old new) (pre.map s.loc) h h' ∧
      (∀ i ∈ is, Stringy (h'.at (s.loc i))) ∧
      ((r = none ∧ post = []) ∨
       (r = some (j + pre.length) ∧ ∃ i post', post = i :: post' ∧ (h'.at (s.loc i)).bind (encVal cd old new) = none)) := by
  induction is generalizing j h with
  | nil => exact ⟨none, [], [], h, rfl, rfl, AppliedN.refl _ _, by simp, Or.inl ⟨rfl, rfl⟩⟩
  | cons i is ih =>
    have hb' := fun k hk => hb k (List.mem_cons_of_mem i hk)
    have hcell := cell_eq_at (h := h) (hb i (by simp))
    have step : ∀ h1 : Heap F, AppliedN (encVal cd old new) [s.loc i] h h1 →
        (∀ k ∈ i :: is, Stringy (h1.at (s.loc k))) →
        inplaceEncoding cd old new s (i :: is) j h = inplaceEncoding cd old new s is (j + 1) h1 →
        ∃ r pre post h', inplaceEncoding cd old new s (i :: is) j h = .ok (r, h') ∧ i :: is = pre ++ post ∧
          AppliedN (encVal cd old new) (pre.map s.loc) h h' ∧
          (∀ k ∈ i :: is, Stringy (h'.at (s.loc k))) ∧
          ((r = none ∧ post = []) ∨
           (r = some (j + pre.length) ∧ ∃ k post', post = k :: post' ∧ (h'.at (s.loc k)).bind (encVal cd old new) = none)) := by
      intro h1 ha hty1 he
      obtain ⟨r, pre, post, h', e, p1, p2, p3, p4⟩ := ih (j + 1) h1 hb' (fun k hk => hty1 k (List.mem_cons_of_mem i hk))
      refine ⟨r, i :: pre, post, h', by rw [he, e], by rw [p1]; rfl, by simpa using ha.trans p2, ?_, ?_⟩
      · intro k hk
        rcases List.mem_cons.1 hk with rfl | hk
        · -- the cell of this row after the rest
          by_cases hm : k ∈ is
          · exact p3 k hm
          · have : s.loc k ∉ pre.map s.loc := by
              intro hx
              obtain ⟨k', hk', e⟩ := List.mem_map.1 hx
              rw [Slice.loc_inj e] at hk'
              exact hm (by rw [p1]; exact List.mem_append_left _ hk')
            rw [p2.at_, List.count_eq_zero_of_not_mem this, iter_zero]
            exact hty1 k (by simp)
        · exact p3 k hk
      · rcases p4 with ⟨rfl, rfl⟩ | ⟨rfl, k, post', rfl, q⟩
        · exact Or.inl ⟨rfl, rfl⟩
        · exact Or.inr ⟨by simp only [List.length_cons]; congr 1; omega, k, post', rfl, q⟩
    rcases hty i (by simp) with hc | ⟨v, hc⟩
    · refine step h ?_ hty ?_
      · refine ⟨rfl, fun _ => rfl, fun l => ?_⟩
        by_cases hl : l = s.loc i
        · subst hl; simp [iter_succ, iter_zero, hc, encVal]
        · rw [List.count_eq_zero_of_not_mem (by simpa using hl), iter_zero]
      · simp only [inplaceEncoding, hcell, hc]
    · cases ht : transcode cd old new v with
      | none =>
        refine ⟨some j, [], i :: is, h, ?_, rfl, AppliedN.refl _ _, hty, Or.inr ⟨rfl, i, is, rfl, ?_⟩⟩
        · simp only [inplaceEncoding, hcell, hc, ht]
        · simp [hc, encVal, ht]
      | some w =>
        have hw : encVal cd old new (.str v : Val F) = some (.str w) := by simp [encVal, ht]
        obtain ⟨h1, e1⟩ : ∃ h1, h.write s i (.str w) = .ok h1 := by
          unfold Heap.write; rw [if_pos (hb i (by simp))]; exact ⟨_, rfl⟩
        have ha := write_appliedN hc hw e1
        refine step h1 ha ?_ ?_
        · intro k hk
          by_cases hki : k = i
          · subst hki
            rw [ha.at_]; simp [iter_succ, iter_zero, hc, hw, Stringy]
          · rw [ha.at_, List.count_eq_zero_of_not_mem (by
              intro hx; exact hki (Slice.loc_inj (List.mem_singleton.1 hx))), iter_zero]
            exact hty k hk
        · simp only [inplaceEncoding, hcell, hc, ht, e1]

theorem AppliedN.perm {f : Val F → Option (Val F)} {L L' : List (Nat × Nat)} {h h' : Heap F} (a : AppliedN f L h h')
    (p : L.Perm L') : AppliedN f L' h h' := ⟨a.same, a.len, fun l => by rw [a.at_, p.count_eq]⟩

theorem stringy_of_enc {cd : Codec} {old new : Option Nat} {v w : Val F} (e : encVal cd old new v = some w) :
    Stringy (some v) := by
  cases v <;> simp [encVal] at e
  · exact Or.inl rfl
  · exact Or.inr ⟨_, rfl⟩

/-- Taking back the last transformation of one cell. -/
theorem AppliedN.back {f g : Val F → Option (Val F)} (hfg : ∀ v w, f v = some w → g w = some v)
    {L : List (Nat × Nat)} {l : Nat × Nat} {h0 h h1 : Heap F}
    (a : AppliedN f (l :: L) h0 h) {x : Val F} (hx : h.at l = some x) (b : AppliedN g [l] h h1) :
    AppliedN f L h0 h1 ∧ ∃ u, f u = some x ∧ h1.at l = some u := by
  have e := a.at_ l
  rw [List.count_cons_self, iter_succ, hx] at e
  obtain ⟨u, hu, hf⟩ := Option.bind_eq_some_iff.1 e.symm
  have h1l : h1.at l = some u := by
    rw [b.at_]; simp [iter_succ, iter_zero, hx, hfg _ _ hf]
  refine ⟨⟨by rw [b.same, a.same], fun x => (b.len x).trans (a.len x), fun l' => ?_⟩, u, hf, h1l⟩
  by_cases hl : l' = l
  · subst hl; rw [h1l, hu]
  · rw [b.at_, List.count_eq_zero_of_not_mem (by simpa using hl), iter_zero, a.at_, List.count_cons_of_ne (Ne.symm hl)]

/-- Undoing a list of rows whose cells were all transcoded (at least as often as they are listed) succeeds. -/
theorem inplaceEncoding_revert {cd : Codec} {old new : Option Nat}
    (hr : ∀ s t, transcode cd old new s = some t → transcode cd new old t = some s)
    {s : Slice} {h0 : Heap F} (is : List Nat) (j : Nat) {h : Heap F} {L R : List (Nat × Nat)}
    (hb : ∀ i ∈ is, i < s.len) (hp : L.Perm (is.map s.loc ++ R))
    (a : AppliedN (encVal cd old new) L h0 h) (hty : ∀ l ∈ L, Stringy (h.at l)) :
    ∃ h', inplaceEncoding cd new old s is j h = .ok (none, h') ∧ AppliedN (encVal cd old new) R h0 h' ∧
      ∀ l ∈ R, Stringy (h'.at l) := by
  have hfg : ∀ v w : Val F, encVal cd old new v = some w → encVal cd new old w = some v := fun v w => encVal_round hr
  induction is generalizing j h L with
  | nil => exact ⟨h, rfl, a.perm hp, fun l hl => hty l (hp.mem_iff.2 hl)⟩
  | cons i is ih =>
    have hb' := fun k hk => hb k (List.mem_cons_of_mem i hk)
    have hcell := cell_eq_at (h := h) (hb i (by simp))
    have hp' : L.Perm (s.loc i :: (is.map s.loc ++ R)) := by simpa using hp
    have hiL : s.loc i ∈ L := hp'.mem_iff.2 (by simp)
    have a' := a.perm hp'
    have step : ∀ h1 : Heap F, AppliedN (encVal cd new old) [s.loc i] h h1 →
        inplaceEncoding cd new old s (i :: is) j h = inplaceEncoding cd new old s is (j + 1) h1 →
        ∃ h', inplaceEncoding cd new old s (i :: is) j h = .ok (none, h') ∧ AppliedN (encVal cd old new) R h0 h' ∧
          ∀ l ∈ R, Stringy (h'.at l) := by
      intro h1 b he
      obtain ⟨x, hx⟩ : ∃ x, h.at (s.loc i) = some x := by
        rcases hty _ hiL with h | ⟨v, h⟩ <;> exact ⟨_, h⟩
      obtain ⟨a1, u, hu, h1l⟩ := a'.back hfg hx b
      obtain ⟨h', e, r1, r2⟩ := ih (j + 1) (h := h1) hb' (List.Perm.refl _) a1 (by
        intro l hl
        by_cases hli : l = s.loc i
        · subst hli; rw [h1l]; exact stringy_of_enc hu
        · rw [b.at_, List.count_eq_zero_of_not_mem (by simpa using hli), iter_zero]
          exact hty l (hp'.mem_iff.2 (List.mem_cons_of_mem _ hl)))
      exact ⟨h', by rw [he, e], r1, r2⟩
    rcases hty _ hiL with hc | ⟨v, hc⟩
    · refine step h ?_ (by simp only [inplaceEncoding, hcell, hc])
      refine ⟨rfl, fun _ => rfl, fun l => ?_⟩
      by_cases hl : l = s.loc i
      · subst hl; simp [iter_succ, iter_zero, hc, encVal]
      · rw [List.count_eq_zero_of_not_mem (by simpa using hl), iter_zero]
    · have e := a'.at_ (s.loc i)
      rw [List.count_cons_self, iter_succ, hc] at e
      obtain ⟨u, -, hf⟩ := Option.bind_eq_some_iff.1 e.symm
      have hg := hfg _ _ hf
      cases ht : transcode cd new old v with
      | none => simp [encVal, ht] at hg
      | some w =>
        have hw : encVal cd new old (.str v : Val F) = some (.str w) := by simp [encVal, ht]
        obtain ⟨h1, e1⟩ : ∃ h1, h.write s i (.str w) = .ok h1 := by
          unfold Heap.write; rw [if_pos (hb i (by simp))]; exact ⟨_, rfl⟩
        exact step h1 (write_appliedN hc hw e1) (by simp only [inplaceEncoding, hcell, hc, ht, e1])

theorem revertCols_exact {cd : Codec} {old new : Option Nat} {tab : Nat} {rows : List Nat}
    (hr : ∀ s t, transcode cd old new s = some t → transcode cd new old t = some s) {h0 : Heap F} (cs : List GoStr)
    {h : Heap F} (hb : ∀ c ∈ cs, ∀ i ∈ rows, i < (tabCol (h0.tab tab) (.obj, c)).len)
    (a : AppliedN (encVal cd old new) (colLocs (h0.tab tab) rows cs) h0 h)
    (hty : ∀ l ∈ colLocs (h0.tab tab) rows cs, Stringy (h.at l)) :
    revertCols cd new old tab rows cs h = .ok h0 := by
  induction cs generalizing h with
  | nil =>
    have : h = h0 := by
      have : h.arr = h0.arr := Heap.arr_ext fun l => by rw [a.at_]; simp [colLocs, iter_zero]
      rw [a.same, this]
    rw [this]; rfl
  | cons c cs ih =>
    have htab : h.tab = h0.tab := by rw [a.same]
    have hsplit : colLocs (h0.tab tab) rows (c :: cs) =
        rows.map (tabCol (h0.tab tab) (.obj, c)).loc ++ colLocs (h0.tab tab) rows cs := by simp [colLocs]
    obtain ⟨h1, e1, r1, r2⟩ := inplaceEncoding_revert hr (s := tabCol (h0.tab tab) (.obj, c)) rows 0 (hb c (by simp))
      (R := colLocs (h0.tab tab) rows cs) (by rw [hsplit]) a hty
    simp only [revertCols, htab, e1]
    exact ih (fun d hd => hb d (by simp [hd])) r1 r2

theorem count_map_some {α : Type} [BEq α] [LawfulBEq α] (l : List α) (x : α) :
    (l.map some).count (some x) = l.count x := by
  induction l with
  | nil => rfl
  | cons a l ih =>
    simp only [List.map_cons, List.count_cons, ih]
    by_cases h : a = x <;> simp [h]

theorem encodeLoop_exact {cd : Codec} {old new : Option Nat} {tab : Nat} {rows : List Nat} (h0 : Heap F)
    (hr : ∀ s t, transcode cd old new s = some t → transcode cd new old t = some s)
    (cs done : List GoStr) {h : Heap F}
    (hb : ∀ c ∈ done ++ cs, ∀ i ∈ rows, i < (tabCol (h0.tab tab) (.obj, c)).len)
    (hty : ∀ l ∈ colLocs (h0.tab tab) rows (done ++ cs), Stringy (h.at l))
    (ha : AppliedN (encVal cd old new) (colLocs (h0.tab tab) rows done) h0 h) :
    (∃ h', encodeLoop cd old new tab rows cs done h = .ok (false, h') ∧
      AppliedN (encVal cd old new) (colLocs (h0.tab tab) rows (done ++ cs)) h0 h' ∧
      ∀ l ∈ colLocs (h0.tab tab) rows (done ++ cs), Stringy (h'.at l)) ∨
    (encodeLoop cd old new tab rows cs done h = .ok (true, h0) ∧
      ∃ l, iterEnc (encVal cd old new) ((colLocs (h0.tab tab) rows (done ++ cs)).count l) (h0.at l) = none ∧
        l ∈ colLocs (h0.tab tab) rows (done ++ cs)) := by
  induction cs generalizing done h with
  | nil => exact Or.inl ⟨h, rfl, by simpa using ha, by simpa using hty⟩
  | cons c cs ih =>
    have htab : h.tab = h0.tab := by rw [ha.same]
    have happ : done ++ c :: cs = (done ++ [c]) ++ cs := by simp
    have hsnoc : colLocs (h0.tab tab) rows (done ++ [c]) =
        colLocs (h0.tab tab) rows done ++ rows.map (tabCol (h0.tab tab) (.obj, c)).loc := by simp [colLocs]
    have hsub : ∀ l ∈ rows.map (tabCol (h0.tab tab) (.obj, c)).loc, l ∈ colLocs (h0.tab tab) rows (done ++ c :: cs) := by
      intro l hl; rw [happ, colLocs_append, hsnoc]; simp only [List.mem_append]; exact Or.inl (Or.inr hl)
    obtain ⟨r, pre, post, h1, e, p1, p2, p3, p4⟩ := inplaceEncoding_exact cd old new (tabCol (h0.tab tab) (.obj, c)) rows 0 h
      (hb c (by simp)) (fun i hi => hty _ (hsub _ (List.mem_map.2 ⟨i, hi, rfl⟩)))
    have htab1 : h1.tab = h0.tab := by rw [p2.same]; exact htab
    have hty1 : ∀ l ∈ colLocs (h0.tab tab) rows (done ++ c :: cs), Stringy (h1.at l) := by
      intro l hl
      by_cases hm : l ∈ rows.map (tabCol (h0.tab tab) (.obj, c)).loc
      · obtain ⟨i, hi, rfl⟩ := List.mem_map.1 hm; exact p3 i hi
      · rw [p2.at_, List.count_eq_zero_of_not_mem (by
          intro hx; apply hm
          obtain ⟨i, hi, e⟩ := List.mem_map.1 hx
          exact List.mem_map.2 ⟨i, by rw [p1]; exact List.mem_append_left _ hi, e⟩), iter_zero]
        exact hty l hl
    have a1 := ha.trans p2
    rcases p4 with ⟨rfl, rfl⟩ | ⟨rfl, i, post', rfl, q⟩
    · rw [List.append_nil] at p1
      subst p1
      rw [← hsnoc] at a1
      have key := ih (done ++ [c]) (h := h1) (by rw [← happ]; exact hb) (by rw [← happ]; exact hty1) a1
      rw [← happ] at key
      simp only [encodeLoop, htab, e]
      exact key
    · right
      have htake : rows.take (0 + pre.length) = pre := by rw [p1]; simp
      have hi : i ∈ rows := by rw [p1]; simp
      have hpre : ∀ k ∈ pre, k ∈ rows := fun k hk => by rw [p1]; simp [hk]
      have hmem : ∀ l ∈ colLocs (h0.tab tab) rows done ++ pre.map (tabCol (h0.tab tab) (.obj, c)).loc,
          l ∈ colLocs (h0.tab tab) rows (done ++ c :: cs) := by
        intro l hl
        rcases List.mem_append.1 hl with hl | hl
        · rw [colLocs_append]; exact List.mem_append_left _ hl
        · obtain ⟨k, hk, rfl⟩ := List.mem_map.1 hl
          exact hsub _ (List.mem_map.2 ⟨k, hpre k hk, rfl⟩)
      obtain ⟨h2, e2, r1, r2⟩ := inplaceEncoding_revert hr (s := tabCol (h0.tab tab) (.obj, c)) pre 0
        (fun k hk => hb c (by simp) k (hpre k hk)) List.perm_append_comm a1 (fun l hl => hty1 l (hmem l hl))
      have e3 := revertCols_exact hr (tab := tab) (rows := rows) (h0 := h0) done (fun d hd => hb d (by simp [hd])) r1 r2
      refine ⟨by simp only [encodeLoop, htab, e, htab1, htake, e2, e3], (tabCol (h0.tab tab) (.obj, c)).loc i, ?_,
        hsub _ (List.mem_map.2 ⟨i, hi, rfl⟩)⟩
      rw [a1.at_, ← iter_succ] at q
      refine iter_le ?_ q
      rw [happ, colLocs_append, hsnoc, p1]
      simp only [List.map_append, List.map_cons, List.count_append, List.count_cons_self]
      omega

/-- How many times the memory cell `x` is visible in the string columns of the dataframe. -/
def stringOccurrences (h : Heap F) (df : DF) (x : Nat × Nat) : Nat :=
  ((hdrList h df.strHdr).map fun c => (((locs h df).col .obj c).getD []).count (some x)).sum

/-- **C26**, exactly, for every dataframe whose string columns hold strings and nils and all encodings that
round-trip. `Encode` either
- returns no error: the encoding is the new one; every memory cell has been transcoded exactly as many times as
  it is visible (in any string column and row), which was possible for each of them (a nil stays nil), and
  nothing else has changed; or
- returns an error: some visible cell cannot be transcoded as many times as it is visible, and the whole memory
  and the dataframe are exactly what they were. -/
theorem C26_encode_exact {df : DF} {h : Heap F} (cd : Codec) (new : Option Nat) (hne : df.enc ≠ new)
    (hr : ∀ s t, transcode cd df.enc new s = some t → transcode cd new df.enc t = some s)
    (typed : ∀ c, (abs h df).isStr c = true → ∃ l, (abs h df).col .obj c = some l ∧
      ∀ x ∈ l, x = some .nil ∨ ∃ v, x = some (.str v)) :
    (∃ h', df.encode cd new h = .ok ((false, { df with enc := new }), h') ∧
      h' = { h with arr := h'.arr } ∧ (∀ d : DF, locs h' d = locs h d) ∧
      (∀ x, h'.at x = iterEnc (encVal cd df.enc new) (stringOccurrences h df x) (h.at x)) ∧
      ∀ x, 0 < stringOccurrences h df x → h'.at x = some .nil ∨ ∃ v, h'.at x = some (.str v)) ∨
    (df.encode cd new h = .ok ((true, df), h) ∧
      ∃ x, 0 < stringOccurrences h df x ∧ (∃ v, h.at x = some (.str v)) ∧
        iterEnc (encVal cd df.enc new) (stringOccurrences h df x) (h.at x) = none) := by
  have hget : ∀ c ∈ hdrList h df.strHdr, AMap.get (h.tab df.tab) (.obj, c) = some (tabCol (h.tab df.tab) (.obj, c)) := by
    intro c hc
    obtain ⟨l, h1, -⟩ := typed c ((isStr_iff ..).2 hc)
    simp only [abs, Option.map_eq_some_iff] at h1
    obtain ⟨s, hs, -⟩ := h1
    simp [tabCol, hs]
  have hcell : ∀ c ∈ hdrList h df.strHdr, ∀ i ∈ df.rows, Stringy (h.cell (tabCol (h.tab df.tab) (.obj, c)) i) := by
    intro c hc i hi
    obtain ⟨l, h1, h2⟩ := typed c ((isStr_iff ..).2 hc)
    simp only [abs, hget c hc, Option.map_some, Option.some.injEq] at h1
    subst h1
    exact h2 _ (List.mem_map.2 ⟨i, hi, rfl⟩)
  have hb : ∀ c ∈ hdrList h df.strHdr, ∀ i ∈ df.rows, i < (tabCol (h.tab df.tab) (.obj, c)).len := by
    intro c hc i hi
    by_contra hx
    rcases hcell c hc i hi with h1 | ⟨v, h1⟩ <;> rw [Heap.cell_none hx] at h1 <;> cases h1
  have hocc : ∀ x, (colLocs (h.tab df.tab) df.rows (hdrList h df.strHdr)).count x = stringOccurrences h df x := by
    intro x
    unfold stringOccurrences colLocs
    rw [List.count_flatMap]
    congr 1
    apply List.map_congr_left
    intro c hc
    have : (locs h df).col .obj c = some ((df.rows.map (tabCol (h.tab df.tab) (.obj, c)).loc).map some) := by
      simp only [locs, hget c hc, Option.map_some, Option.some.injEq, List.map_map]
      apply List.map_congr_left
      intro i hi
      simp [hb c hc i hi, Slice.loc]
    rw [this]
    simp only [Option.getD_some, Function.comp]
    exact (count_map_some _ x).symm
  have hty : ∀ l ∈ colLocs (h.tab df.tab) df.rows (hdrList h df.strHdr), Stringy (h.at l) := by
    intro l hl
    rw [colLocs, List.mem_flatMap] at hl
    obtain ⟨c, hc, hl⟩ := hl
    obtain ⟨i, hi, rfl⟩ := List.mem_map.1 hl
    rw [← cell_eq_at (hb c hc i hi)]
    exact hcell c hc i hi
  rcases encodeLoop_exact h hr (hdrList h df.strHdr) [] (h := h) (cd := cd) (tab := df.tab) (rows := df.rows)
    (by simpa using hb) (by simpa using hty) (AppliedN.refl _ _) with ⟨h', e, ha, hs⟩ | ⟨e, l, hl, hm⟩
  · left
    simp only [List.nil_append] at ha hs
    have htab : h'.tab = h.tab := by rw [ha.same]
    have hhdr : h'.hdr = h.hdr := by rw [ha.same]
    refine ⟨h', by unfold DF.encode; rw [if_neg hne, e], ha.same, ?_, fun x => by rw [ha.at_, hocc], ?_⟩
    · intro d
      refine ADF.ext' rfl ?_ ?_ rfl
      · intro k c; simp only [locs, htab]
      · intro c
        have : hdrList h' d.strHdr = hdrList h d.strHdr := by cases d.strHdr <;> simp [hdrList, hhdr]
        simp only [locs, this]
    · intro x hx
      rw [← hocc, List.count_pos_iff] at hx
      exact hs x hx
  · right
    simp only [List.nil_append] at hl hm
    refine ⟨by unfold DF.encode; rw [if_neg hne, e], l, ?_, ?_, by rw [← hocc]; exact hl⟩
    · rw [← hocc, List.count_pos_iff]; exact hm
    · rcases hty l hm with h1 | ⟨v, h1⟩
      · rw [h1] at hl
        have : ∀ k, iterEnc (encVal cd df.enc new) k (some (.nil : Val F)) = some .nil := by
          intro k; induction k with
          | zero => rfl
          | succ k ih => rw [iter_succ, ih]; rfl
        rw [this] at hl; cases hl
      · exact ⟨v, h1⟩

/-- **C26**: what a repeated row shows after `Encode`: a string that is `k` times in the dataframe has been
transcoded `k` times. (The view of `C26_refuted_repeated_rows`.) -/
example : iterEnc (encVal (F := Int) Demo.cd none (some 1)) 2 (some (.str b!"u")) = some (.str (1 :: 1 :: b!"u")) := by decide

/-- A codec that forgets (encoding 1 turns every string into `?`, encoding 2 refuses `v`): not all encodings
round-trip, and `C26_encode_exact` needs that they do. -/
def Demo.lossy : Codec where
  dec _ s := some s
  enc e s := if e = 1 then (if b!"v" = s then none else some b!"?") else some s

/-- **C26** refuted for encodings that do not round-trip: `Encode` fails, and the strings before the failure are
not what they were. -/
theorem C26_lossy_refuted : ∃ df' h', Demo.df.encode Demo.lossy (some 1) Demo.h = .ok ((true, df'), h') ∧
    (abs Demo.h Demo.df).col .obj b!"s" = some [some (.str b!"u"), some (.str b!"v"), some (.str b!"u"), some .nil] ∧
    (abs h' df').col .obj b!"s" = some [some (.str b!"?"), some (.str b!"v"), some (.str b!"u"), some .nil] := by
  have hd : okAnd (Demo.df.encode Demo.lossy (some 1) Demo.h) (fun q => q.1.1 && decide ((abs q.2 q.1.2).col .obj b!"s" =
        some [some (.str b!"?"), some (.str b!"v"), some (.str b!"u"), some .nil])) = true := by decide
  obtain ⟨⟨⟨b, df'⟩, h'⟩, hq, h4⟩ := okAnd_iff.1 hd
  simp only [Bool.and_eq_true, decide_eq_true_eq] at h4
  obtain ⟨rfl, h5⟩ := h4
  exact ⟨df', h', hq, by decide, h5⟩

-- `C26_encode_exact` on the view with a repeated row: its hypotheses are met
example : ∃ (v : DF) (h : Heap Int), (∀ c, (abs h v).isStr c = true → ∃ l, (abs h v).col .obj c = some l ∧
      ∀ x ∈ l, x = some .nil ∨ ∃ v, x = some (.str v)) ∧ v.enc ≠ some 1 ∧ ¬ StringsApart h v := by
  obtain ⟨v, h', he, rv, -⟩ := indexView_rowView Demo.df_wf (is := [0, 0]) (by rw [Demo.df_rows]; simp)
  have hd : okAnd (Demo.df.indexView [0, 0] Demo.h) (fun p => decide (p.1.enc = none) &&
      decide (hdrList p.2 p.1.strHdr = [b!"s"]) && decide ((locs p.2 p.1).col .obj b!"s" = some [some (3, 0), some (3, 0)] ∧
      (abs p.2 p.1).col .obj b!"s" = some [some (.str b!"u"), some (.str b!"u")])) = true := by decide
  rw [he] at hd
  simp only [okAnd, Bool.and_eq_true, decide_eq_true_eq] at hd
  obtain ⟨⟨h1, h2⟩, h3, h4⟩ := hd
  refine ⟨v, h', ?_, by rw [h1]; simp, ?_⟩
  · intro c hc
    rw [isStr_iff, h2] at hc
    simp only [List.mem_singleton] at hc
    subst hc
    exact ⟨_, h4, by simp⟩
  · intro ap
    have := ap.rows b!"s" _ (by rw [isStr_iff, h2]; simp) h3
    simp at this

end Verif
