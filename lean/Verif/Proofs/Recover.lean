import Verif.Spec.Recover
import Verif.Props.EncodeExact
import Verif.Props.History

/-! Lemmas on what panicking in-place calls leave (C83). -/

namespace Verif
variable {F : Type}

theorem overwriteReached_quiet (s : Slice) (is : List Nat) (vs : List (Val F)) (h : Heap F) :
    Quiet h (overwriteReached s is vs h) := by
  induction is generalizing vs h with
  | nil => unfold overwriteReached; exact Quiet.refl _
  | cons i is ih =>
    cases vs with
    | nil => exact Quiet.refl _
    | cons v vs =>
      simp only [overwriteReached]
      split
      · exact Quiet.refl _
      · rename_i h1 e1; exact (write_quiet e1).trans (ih vs h1)

/-- A loop that returns has reached what it returns. -/
theorem overwriteReached_ok {s : Slice} {is : List Nat} {vs : List (Val F)} {h h' : Heap F}
    (e : overwriteLoop s is vs h = .ok h') : overwriteReached s is vs h = h' := by
  induction is generalizing vs h with
  | nil => unfold overwriteReached; cases e; rfl
  | cons i is ih =>
    cases vs with
    | nil => cases e
    | cons v vs =>
      simp only [overwriteLoop] at e
      simp only [overwriteReached]
      split at e
      · cases e
      · rename_i h1 e1; rw [e1]; exact ih e

/-- The loop on too few values has overwritten the rows it had values for. -/
theorem overwriteReached_take {s : Slice} {is : List Nat} {vs : List (Val F)} (h : Heap F)
    (hl : vs.length ≤ is.length) (hb : ∀ i ∈ is, i < s.len) :
    overwriteLoop s (is.take vs.length) vs h = .ok (overwriteReached s is vs h) := by
  induction is generalizing vs h with
  | nil =>
    have : vs = [] := by simpa using hl
    subst this; rfl
  | cons i is ih =>
    cases vs with
    | nil => rfl
    | cons v vs =>
      obtain ⟨h1, e1⟩ : ∃ h1, h.write s i v = .ok h1 := by
        unfold Heap.write; rw [if_pos (hb i (by simp))]; exact ⟨_, rfl⟩
      simp only [List.length_cons, List.take_succ_cons, overwriteLoop, overwriteReached, e1]
      exact ih h1 (by simpa using hl) (fun k hk => hb k (List.mem_cons_of_mem i hk))

theorem AppliedN.quiet {f : Val F → Option (Val F)} {L : List (Nat × Nat)} {h h' : Heap F} (a : AppliedN f L h h') :
    Quiet h h' := by
  have := a.same
  exact ⟨by rw [this], by rw [this], by rw [this], by rw [this], a.len, by rw [this]⟩

theorem AppliedN.stringy {cd : Codec} {old new : Option Nat} {L : List (Nat × Nat)} {h h' : Heap F}
    (a : AppliedN (encVal cd old new) L h h') {l : Nat × Nat} (hs : Stringy (h.at l)) : Stringy (h'.at l) := by
  have hsome : ∃ v, h'.at l = some v := by
    have h0 : ∃ v, h.at l = some v := by rcases hs with h | ⟨v, h⟩ <;> exact ⟨_, h⟩
    obtain ⟨v, h0⟩ := h0
    unfold Heap.at at h0 ⊢
    obtain ⟨h1, -⟩ := List.getElem?_eq_some_iff.1 h0
    exact ⟨_, List.getElem?_eq_getElem (by rw [a.len]; exact h1)⟩
  obtain ⟨v, hv⟩ := hsome
  have e := a.at_ l
  rw [hv] at e ⊢
  cases hk : L.count l with
  | zero => rw [hk, iter_zero] at e; rw [e]; exact hs
  | succ k =>
    rw [hk, iter_succ] at e
    obtain ⟨u, -, hu⟩ := Option.bind_eq_some_iff.1 e.symm
    exact stringy_enc hu

/-- A cell that is not a string after some transcodings was not one before, and is unchanged. -/
theorem AppliedN.other {cd : Codec} {old new : Option Nat} {L : List (Nat × Nat)} {h h' : Heap F}
    (a : AppliedN (encVal cd old new) L h h') {l : Nat × Nat} (hs : ¬ Stringy (h'.at l)) : ¬ Stringy (h.at l) :=
  fun hx => hs (a.stringy hx)

/-- `inplaceEncoding` on any column: it transcodes the cells of some rows, all of them strings or nils, and returns at the
end, stops at a string it cannot transcode, or panics at a value of another type. -/
theorem inplaceEncoding_cases (cd : Codec) (old new : Option Nat) (s : Slice) (is : List Nat) (j : Nat) (h : Heap F) :
    ∃ pre post h', is = pre ++ post ∧ AppliedN (encVal cd old new) (pre.map s.loc) h h' ∧
      inplaceReached cd old new s is h = h' ∧
      (∀ i ∈ pre, i < s.len ∧ Stringy (h.at (s.loc i))) ∧
      ((inplaceEncoding cd old new s is j h = .ok (none, h') ∧ post = []) ∨
       (inplaceEncoding cd old new s is j h = .ok (some (j + pre.length), h')) ∨
       (inplaceEncoding cd old new s is j h = .error .panic ∧
         ∃ i post', post = i :: post' ∧ ¬ (i < s.len ∧ Stringy (h.at (s.loc i))))) := by
  induction is generalizing j h with
  | nil => exact ⟨[], [], h, rfl, AppliedN.refl _ _, rfl, by simp, Or.inl ⟨rfl, rfl⟩⟩
  | cons i is ih =>
    by_cases hi : i < s.len
    · have hcell := cell_eq_at (h := h) hi
      have step : ∀ h1 : Heap F, AppliedN (encVal cd old new) [s.loc i] h h1 → Stringy (h.at (s.loc i)) →
          inplaceEncoding cd old new s (i :: is) j h = inplaceEncoding cd old new s is (j + 1) h1 →
          inplaceReached cd old new s (i :: is) h = inplaceReached cd old new s is h1 →
          ∃ pre post h', i :: is = pre ++ post ∧ AppliedN (encVal cd old new) (pre.map s.loc) h h' ∧
            inplaceReached cd old new s (i :: is) h = h' ∧
            (∀ i ∈ pre, i < s.len ∧ Stringy (h.at (s.loc i))) ∧
            ((inplaceEncoding cd old new s (i :: is) j h = .ok (none, h') ∧ post = []) ∨
             (inplaceEncoding cd old new s (i :: is) j h = .ok (some (j + pre.length), h')) ∨
             (inplaceEncoding cd old new s (i :: is) j h = .error .panic ∧
               ∃ k post', post = k :: post' ∧ ¬ (k < s.len ∧ Stringy (h.at (s.loc k))))) := by
        intro h1 a hst he hr
        obtain ⟨pre, post, h', p1, p2, p3, p4, p5⟩ := ih (j + 1) h1
        have back : ∀ l, Stringy (h1.at l) → Stringy (h.at l) := by
          intro l hl
          by_cases hx : l = s.loc i
          · subst hx; exact hst
          · rw [a.at_, List.count_eq_zero_of_not_mem (by simpa using hx), iter_zero] at hl; exact hl
        have fwd : ∀ l, Stringy (h.at l) → Stringy (h1.at l) := fun l hl => a.stringy hl
        refine ⟨i :: pre, post, h', by rw [p1]; rfl, by simpa using a.trans p2, by rw [hr, p3], ?_, ?_⟩
        · intro k hk
          rcases List.mem_cons.1 hk with rfl | hk
          · exact ⟨hi, hst⟩
          · exact ⟨(p4 k hk).1, back _ (p4 k hk).2⟩
        · rcases p5 with ⟨q, r⟩ | q | ⟨q, k, post', r, t⟩
          · exact Or.inl ⟨by rw [he, q], r⟩
          · refine Or.inr (Or.inl ?_)
            rw [he, q]; simp only [List.length_cons]; congr 3; omega
          · exact Or.inr (Or.inr ⟨by rw [he, q], k, post', r, fun hx => t ⟨hx.1, fwd _ hx.2⟩⟩)
      have bad : ¬ Stringy (h.at (s.loc i)) → inplaceEncoding cd old new s (i :: is) j h = .error .panic →
          inplaceReached cd old new s (i :: is) h = h →
          ∃ pre post h', i :: is = pre ++ post ∧ AppliedN (encVal cd old new) (pre.map s.loc) h h' ∧
            inplaceReached cd old new s (i :: is) h = h' ∧
            (∀ i ∈ pre, i < s.len ∧ Stringy (h.at (s.loc i))) ∧
            ((inplaceEncoding cd old new s (i :: is) j h = .ok (none, h') ∧ post = []) ∨
             (inplaceEncoding cd old new s (i :: is) j h = .ok (some (j + pre.length), h')) ∨
             (inplaceEncoding cd old new s (i :: is) j h = .error .panic ∧
               ∃ k post', post = k :: post' ∧ ¬ (k < s.len ∧ Stringy (h.at (s.loc k))))) := by
        intro hb he hr
        exact ⟨[], i :: is, h, rfl, AppliedN.refl _ _, hr, by simp, Or.inr (Or.inr ⟨he, i, is, rfl, fun hx => hb hx.2⟩)⟩
      cases hc : h.at (s.loc i) with
      | none =>
        refine bad ?_ (by simp only [inplaceEncoding, hcell, hc]) (by simp only [inplaceReached, hcell, hc])
        rw [hc]; rintro (h | ⟨v, h⟩) <;> cases h
      | some x =>
        cases x with
        | nil =>
          refine step h ?_ (Or.inl hc) (by simp only [inplaceEncoding, hcell, hc]) (by simp only [inplaceReached, hcell, hc])
          refine ⟨rfl, fun _ => rfl, fun l => ?_⟩
          by_cases hl : l = s.loc i
          · subst hl; simp [iter_succ, iter_zero, hc, encVal]
          · rw [List.count_eq_zero_of_not_mem (by simpa using hl), iter_zero]
        | str v =>
          cases ht : transcode cd old new v with
          | none =>
            refine ⟨[], i :: is, h, rfl, AppliedN.refl _ _, by simp only [inplaceReached, hcell, hc, ht], by simp,
              Or.inr (Or.inl ?_)⟩
            simp only [inplaceEncoding, hcell, hc, ht, List.length_nil, Nat.add_zero]
          | some w =>
            have hw : encVal cd old new (.str v : Val F) = some (.str w) := by simp [encVal, ht]
            obtain ⟨h1, e1⟩ : ∃ h1, h.write s i (.str w) = .ok h1 := by
              unfold Heap.write; rw [if_pos hi]; exact ⟨_, rfl⟩
            exact step h1 (write_appliedN hc hw e1) (Or.inr ⟨v, hc⟩) (by simp only [inplaceEncoding, hcell, hc, ht, e1])
              (by simp only [inplaceReached, hcell, hc, ht, e1])
        | _ =>
          refine bad ?_ (by simp only [inplaceEncoding, hcell, hc]) (by simp only [inplaceReached, hcell, hc])
          rw [hc]; rintro (h | ⟨v, h⟩) <;> cases h
    · have hcell := Heap.cell_none (h := h) hi
      refine ⟨[], i :: is, h, rfl, AppliedN.refl _ _, by simp only [inplaceReached, hcell], by simp,
        Or.inr (Or.inr ⟨by simp only [inplaceEncoding, hcell], i, is, rfl, fun hx => hi hx.1⟩)⟩

/-- Reverting columns of strings does not panic. -/
theorem revertCols_total {cd : Codec} {old new : Option Nat} {tab : Nat} {rows : List Nat} (cs : List GoStr) {h : Heap F}
    (hs : ∀ c ∈ cs, ∀ i ∈ rows, i < (tabCol (h.tab tab) (.obj, c)).len ∧ Stringy (h.at ((tabCol (h.tab tab) (.obj, c)).loc i))) :
    ∃ h', revertCols cd old new tab rows cs h = .ok h' ∧ revertReached cd old new tab rows cs h = h' := by
  induction cs generalizing h with
  | nil => exact ⟨h, rfl, rfl⟩
  | cons c cs ih =>
    obtain ⟨pre, post, h1, p1, p2, p3, p4, p5⟩ := inplaceEncoding_cases cd old new (tabCol (h.tab tab) (.obj, c)) rows 0 h
    have key : ∃ o, inplaceEncoding cd old new (tabCol (h.tab tab) (.obj, c)) rows 0 h = .ok (o, h1) := by
      rcases p5 with ⟨q, _⟩ | q | ⟨_, i, post', r, t⟩
      · exact ⟨_, q⟩
      · exact ⟨_, q⟩
      · exact absurd (hs c (by simp) i (by rw [p1, r]; simp)) t
    obtain ⟨o, ho⟩ := key
    simp only [revertCols, revertReached, ho]
    exact ih (fun d hd i hi => by
      rw [p2.quiet.tab]
      exact ⟨(hs d (by simp [hd]) i hi).1, p2.stringy (hs d (by simp [hd]) i hi).2⟩)

/-- When the loop over the string columns panics. -/
theorem encodeLoop_panics {cd : Codec} {old new : Option Nat} {tab : Nat} {rows : List Nat} (h0 : Heap F)
    (cs done : List GoStr) {h : Heap F} {x : Abort}
    (ha : AppliedN (encVal cd old new) (colLocs (h0.tab tab) rows done) h0 h)
    (hs : ∀ c ∈ done, ∀ i ∈ rows, i < (tabCol (h0.tab tab) (.obj, c)).len ∧
      Stringy (h0.at ((tabCol (h0.tab tab) (.obj, c)).loc i)))
    (e : encodeLoop cd old new tab rows cs done h = .error x) :
    x = .panic ∧ ∃ mid c rest pre i post, cs = mid ++ c :: rest ∧ rows = pre ++ i :: post ∧
      AppliedN (encVal cd old new) (colLocs (h0.tab tab) rows (done ++ mid) ++ pre.map (tabCol (h0.tab tab) (.obj, c)).loc) h0
        (encodeLoopReached cd old new tab rows cs done h) ∧
      (∀ b ∈ done ++ mid, ∀ i ∈ rows, i < (tabCol (h0.tab tab) (.obj, b)).len ∧
        Stringy (h0.at ((tabCol (h0.tab tab) (.obj, b)).loc i))) ∧
      (∀ k ∈ pre, k < (tabCol (h0.tab tab) (.obj, c)).len) ∧
      ¬ (i < (tabCol (h0.tab tab) (.obj, c)).len ∧ Stringy (h0.at ((tabCol (h0.tab tab) (.obj, c)).loc i))) := by
  induction cs generalizing done h with
  | nil => cases e
  | cons c cs ih =>
    have htab : h.tab = h0.tab := by rw [ha.same]
    have hsnoc : colLocs (h0.tab tab) rows (done ++ [c]) =
        colLocs (h0.tab tab) rows done ++ rows.map (tabCol (h0.tab tab) (.obj, c)).loc := by simp [colLocs]
    have back : ∀ l, Stringy (h.at l) → Stringy (h0.at l) := by
      intro l hl
      by_cases hm : l ∈ colLocs (h0.tab tab) rows done
      · unfold colLocs at hm
        obtain ⟨b, hb, hm⟩ := List.mem_flatMap.1 hm
        obtain ⟨i, hi, rfl⟩ := List.mem_map.1 hm
        exact (hs b hb i hi).2
      · rw [ha.at_, List.count_eq_zero_of_not_mem hm, iter_zero] at hl; exact hl
    obtain ⟨pre, post, h1, p1, p2, p3, p4, p5⟩ := inplaceEncoding_cases cd old new (tabCol (h0.tab tab) (.obj, c)) rows 0 h
    have htab1 : h1.tab = h0.tab := by rw [p2.quiet.tab, htab]
    simp only [encodeLoop, htab] at e
    simp only [encodeLoopReached, htab]
    rcases p5 with ⟨q, r⟩ | q | ⟨q, i, post', r, t⟩
    · rw [q] at e ⊢
      simp only at e ⊢
      subst r
      rw [List.append_nil] at p1
      subst p1
      have a1 := ha.trans p2
      rw [← hsnoc] at a1
      obtain ⟨hx, mid, c', rest, pre', i, post', q1, q2, q3, q4, q5, q6⟩ := ih (done ++ [c]) a1 (by
        intro b hb i hi
        rcases List.mem_append.1 hb with hb | hb
        · exact hs b hb i hi
        · rw [List.mem_singleton.1 hb]
          exact ⟨(p4 i hi).1, back _ (p4 i hi).2⟩) e
      have happ : done ++ [c] ++ mid = done ++ c :: mid := by simp
      rw [happ] at q3 q4
      exact ⟨hx, c :: mid, c', rest, pre', i, post', by rw [q1]; rfl, q2, q3, q4, q5, q6⟩
    · -- a string cannot be transcoded: taking back does not panic
      exfalso
      rw [q] at e
      simp only [htab1] at e
      have htake : rows.take (0 + pre.length) = pre := by rw [p1]; simp
      rw [htake] at e
      obtain ⟨pre2, post2, h2, r1, r2, r3, r4, r5⟩ :=
        inplaceEncoding_cases cd new old (tabCol (h0.tab tab) (.obj, c)) pre 0 h1
      have key : ∃ o, inplaceEncoding cd new old (tabCol (h0.tab tab) (.obj, c)) pre 0 h1 = .ok (o, h2) := by
        rcases r5 with ⟨q, _⟩ | q | ⟨_, i, post', r, t⟩
        · exact ⟨_, q⟩
        · exact ⟨_, q⟩
        · have hi : i ∈ pre := by rw [r1, r]; simp
          exact absurd ⟨(p4 i hi).1, p2.stringy (p4 i hi).2⟩ t
      obtain ⟨o, ho⟩ := key
      rw [ho] at e
      simp only at e
      have htab2 : h2.tab = h0.tab := by rw [r2.quiet.tab, htab1]
      obtain ⟨h3, e3, -⟩ := revertCols_total (cd := cd) (old := new) (new := old) (tab := tab) (rows := rows) done (h := h2)
        (fun b hb i hi => by
          rw [htab2]
          exact ⟨(hs b hb i hi).1, r2.stringy (p2.stringy (ha.stringy (hs b hb i hi).2))⟩)
      rw [e3] at e
      cases e
    · rw [q] at e ⊢
      cases e
      refine ⟨rfl, [], c, cs, pre, i, post', rfl, by rw [p1, r], ?_, by simpa using hs, fun k hk => (p4 k hk).1, ?_⟩
      · simp only [List.append_nil]
        rw [p3]
        exact ha.trans p2
      · intro hx
        exact t ⟨hx.1, ha.stringy hx.2⟩

theorem inplaceReached_quiet (cd : Codec) (old new : Option Nat) (s : Slice) (is : List Nat) (h : Heap F) :
    Quiet h (inplaceReached cd old new s is h) := by
  obtain ⟨_, _, _, _, p2, p3, _⟩ := inplaceEncoding_cases cd old new s is 0 h
  rw [p3]; exact p2.quiet

end Verif
