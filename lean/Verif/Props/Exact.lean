import Verif.Props.RowViews
import Verif.Props.Utils

/-! Exact versions of claims that hold only in part: for every argument, what the call really does.

`C03_panics_iff`: the exact condition under which `SliceView` panics. `C47_makeRange_iff`: the exact
arguments that `MakeRange` accepts. -/

namespace Verif

variable {F : Type}

theorem mapCols_reslice_iff (x y : Int) (t : Table) (h : Heap F) :
    (mapCols (resliceCol x y) t h = .error .panic ↔ ∃ e ∈ t, ¬ (0 ≤ x ∧ x ≤ y ∧ y ≤ e.2.cap)) ∧
    (∀ e, mapCols (resliceCol x y) t h = .error e → e = .panic) := by
  induction t generalizing h with
  | nil => simp [mapCols]
  | cons e t ih =>
    obtain ⟨k, s⟩ := e
    simp only [mapCols, resliceCol, Slice.reslice, List.mem_cons, exists_eq_or_imp]
    by_cases hb : 0 ≤ x ∧ x ≤ y ∧ y ≤ (s.cap : Int)
    · rw [if_pos hb]
      rw [show (¬ (0 ≤ x ∧ x ≤ y ∧ y ≤ (s.cap : Int)) ↔ False) from by simp [hb], false_or]
      have := ih h
      dsimp only
      generalize mapCols (resliceCol x y) t h = m at this ⊢
      cases m with
      | error e => simpa using this
      | ok p =>
        refine ⟨?_, by simp⟩
        rw [← this.1]; simp
    · rw [if_neg hb]
      simp only [hb, not_false_eq_true, true_or, true_and]
      intro e he; cases he; rfl

/-- `SliceView(x, y)` with resolved bounds `x ≤ y`: what there must be room for. Rows are cut out of the
row positions when the dataframe is a view by index or the slice is short (`10 * columns` rows), and out
of the columns otherwise; both can be cut up to their *capacity*. -/
def DF.Room (h : Heap F) (df : DF) (x y : Int) : Prop :=
  if df.indexViewed = true ∨ y - x ≤ 10 * (numColumns (h.tab df.tab) : Int) then y ≤ df.idx.data.length
  else y - x ≤ df.idx.data.length ∧ ∀ k s, AMap.get (h.tab df.tab) k = some s → y ≤ s.cap

theorem Idx.reslice_iff (i : Idx) (a b : Int) :
    (i.reslice a b = .error .panic ↔ ¬ (0 ≤ a ∧ a ≤ b ∧ b ≤ i.data.length)) ∧
    (∀ e, i.reslice a b = .error e → e = .panic) ∧ (∀ z, i.reslice a b = .ok z → z.len = (b - a).toNat ∧
      z.data.length = i.data.length - a.toNat) := by
  unfold Idx.reslice
  split <;> rename_i hb
  · refine ⟨by simp [hb], by simp, ?_⟩
    intro z hz; cases hz; simp
  · refine ⟨by simp [hb], ?_, by simp⟩
    intro e he; cases he; rfl

theorem cut_iff {df : DF} {h : Heap F} (wf : df.WF h) (hsm : df.sharedMaps = true) {x y : Int} (hxy : x ≤ y) :
    (df.cut x y h = .error .panic ↔
      (if df.indexViewed = true ∨ y - x ≤ 10 * (numColumns (h.tab df.tab) : Int) then ¬ (0 ≤ x ∧ df.Room h x y)
       else ¬ (df.Room h x y ∧ ((∃ k, (AMap.get (h.tab df.tab) k).isSome) → 0 ≤ x)))) ∧
    (∀ e, df.cut x y h = .error e → e = .panic) ∧
    (∀ v h', df.cut x y h = .ok (v, h') → v.numRows = (y - x).toNat) := by
  unfold DF.cut DF.Room
  by_cases hc : df.indexViewed = true ∨ y - x ≤ 10 * (numColumns (h.tab df.tab) : Int)
  · have hc' : (df.indexViewed || (df.sharedMaps && !decide (y - x > 10 * (numColumns (h.tab df.tab) : Int)))) = true := by
      simp only [hsm, Bool.true_and, Bool.or_eq_true, Bool.not_eq_true', decide_eq_false_iff_not, not_lt]
      rcases hc with hc | hc
      · exact Or.inl hc
      · right; omega
    simp only [hc', if_true, if_pos hc]
    obtain ⟨r1, r2, r3⟩ := Idx.reslice_iff df.idx x y
    cases hr : df.idx.reslice x y with
    | error e =>
      rw [hr] at r1 r2
      have he := r2 e rfl
      subst he
      refine ⟨?_, by simp, by simp⟩
      simp only [true_iff] at r1 ⊢
      omega
    | ok z =>
      rw [hr] at r1 r3
      have hz := r3 z rfl
      refine ⟨?_, by simp, ?_⟩
      · simp only [reduceCtorEq, false_iff] at r1 ⊢; omega
      · intro v h' hv
        cases hv
        have : ¬ ¬ (0 ≤ x ∧ x ≤ y ∧ y ≤ (df.idx.data.length : Int)) := by simpa using r1
        simp only [DF.numRows, DF.rows, Idx.rows, List.length_take, hz.1, hz.2]
        omega
  · have hc' : (df.indexViewed || (df.sharedMaps && !decide (y - x > 10 * (numColumns (h.tab df.tab) : Int)))) = false := by
      simp only [not_or, not_le] at hc
      simp only [hsm, Bool.true_and, Bool.or_eq_false_iff, Bool.not_eq_false', decide_eq_true_eq]
      exact ⟨by simpa using hc.1, by omega⟩
    simp only [hc', if_neg hc, Bool.false_eq_true, if_false]
    have sp := own_spec wf.toWF
    generalize hraw : df.toRaw.own h = p at sp
    obtain ⟨raw, h1⟩ := p
    simp only at sp ⊢
    obtain ⟨r1, r2, r3⟩ := Idx.reslice_iff df.idx 0 (y - x)
    obtain ⟨m1, m2⟩ := mapCols_reslice_iff x y (h1.tab raw.tab) h1
    rw [sp.tab] at m1 m2
    have hmem : (∃ e ∈ h.tab df.tab, ¬ (0 ≤ x ∧ x ≤ y ∧ y ≤ (e.2.cap : Int))) ↔
        ¬ ((∀ k s, AMap.get (h.tab df.tab) k = some s → y ≤ (s.cap : Int)) ∧ ((∃ k, (AMap.get (h.tab df.tab) k).isSome) → 0 ≤ x)) := by
      constructor
      · rintro ⟨e, he, hn⟩ ⟨h2, h3⟩
        have hg := AMap.get_of_mem wf.keys (k := e.1) (v := e.2) he
        exact hn ⟨h3 ⟨e.1, by simp [hg]⟩, hxy, h2 _ _ hg⟩
      · intro hn
        by_contra hc2
        push Not at hc2
        refine hn ⟨?_, ?_⟩
        · intro k s hk
          exact (hc2 _ (AMap.mem_of_get hk)).2.2
        · rintro ⟨k, hk⟩
          obtain ⟨s, hs⟩ := Option.isSome_iff_exists.1 hk
          exact (hc2 _ (AMap.mem_of_get hs)).1
    rw [hmem] at m1
    cases hr : df.idx.reslice 0 (y - x) with
    | error e =>
      rw [hr] at r1 r2
      have he := r2 e rfl
      subst he
      refine ⟨?_, by simp, by simp⟩
      simp only [true_iff] at r1 ⊢
      rintro ⟨⟨h1, _⟩, _⟩
      omega
    | ok z =>
      rw [hr] at r1 r3
      have hz := r3 z rfl
      simp only [reduceCtorEq, false_iff, not_not] at r1
      rw [sp.tab]
      cases hm : mapCols (resliceCol x y) (h.tab df.tab) h1 with
      | error e =>
        rw [hm] at m1 m2
        have he := m2 e rfl
        subst he
        refine ⟨?_, by simp, by simp⟩
        simp only [true_iff] at m1 ⊢
        rintro ⟨⟨_, h2⟩, h3⟩
        exact m1 ⟨h2, h3⟩
      | ok p =>
        rw [hm] at m1
        simp only [reduceCtorEq, false_iff, not_not] at m1
        refine ⟨?_, by simp, ?_⟩
        · simp only [reduceCtorEq, false_iff, not_not]
          exact ⟨⟨by omega, m1.1⟩, m1.2⟩
        · intro v h' hv
          cases hv
          simp only [DF.numRows, DF.rows, Idx.rows, List.length_take, hz.1, hz.2]
          omega

/-- **C03/C04**, exactly when `SliceView` panics, for every dataframe and all arguments. With the bounds
resolved (`bound`): a reversed slice must lie within the rows; a forward slice must have room
(`DF.Room`: up to the capacity of the row positions or of the columns, not only up to the rows) and must
not start before row 0 (noticed only when there is a row position or a column to cut). When it does not
panic the view has `|to - from|` rows. -/
theorem C03_panics_iff {df : DF} {h : Heap F} (wf : df.WF h) (a b : Int) :
    (df.sliceView a b h = .error .panic ↔
      if bound df.numRows b < bound df.numRows a then bound df.numRows b < 0 ∨ df.numRows < bound df.numRows a
      else ¬ df.Room h (bound df.numRows a) (bound df.numRows b) ∨
        (bound df.numRows a < 0 ∧ (df.indexViewed = true ∨ (∃ k, (AMap.get (h.tab df.tab) k).isSome) ∨
          bound df.numRows b - bound df.numRows a ≤ 0))) ∧
    (∀ e, df.sliceView a b h = .error e → e = .panic) ∧
    (∀ v h', df.sliceView a b h = .ok (v, h') → v.numRows = (bound df.numRows b - bound df.numRows a).natAbs) := by
  have ea : (if a < 0 then a + ((df.numRows : Int) + 1) else a) = bound df.numRows a := by
    unfold bound; split <;> omega
  have eb : (if b < 0 then b + ((df.numRows : Int) + 1) else b) = bound df.numRows b := by
    unfold bound; split <;> omega
  unfold DF.sliceView
  simp only [ea, eb]
  generalize bound df.numRows a = x
  generalize bound df.numRows b = y
  by_cases hxy : x > y
  · rw [if_pos hxy, if_pos (show y < x from hxy)]
    obtain ⟨c1, c2, c3⟩ := cut_iff (df := df.reverseView.view) (view_wf (reverseView_rowView (h := h) wf).wf) rfl (show y ≤ x by omega)
    refine ⟨?_, c2, ?_⟩
    · have hiv : df.reverseView.view.indexViewed = true := rfl
      rw [c1, if_pos (Or.inl hiv)]
      unfold DF.Room
      rw [if_pos (Or.inl hiv)]
      have : (df.reverseView.view.idx.data.length : Int) = df.numRows := by
        simp [DF.reverseView, DF.view, Idx.mk', DF.numRows]
      rw [this]
      omega
    · intro v h' hv; rw [c3 v h' hv]; omega
  · rw [if_neg hxy, if_neg (by omega)]
    obtain ⟨c1, c2, c3⟩ := cut_iff (df := df.view) (view_wf wf) rfl (show x ≤ y by omega)
    have hroom : df.view.Room h x y ↔ df.Room h x y := Iff.rfl
    have hv1 : df.view.indexViewed = df.indexViewed := rfl
    have hv2 : df.view.tab = df.tab := rfl
    refine ⟨?_, c2, ?_⟩
    · rw [c1, hroom, hv1, hv2]
      by_cases hc : df.indexViewed = true ∨ y - x ≤ 10 * (numColumns (h.tab df.tab) : Int)
      · rw [if_pos hc]
        have key : x < 0 → (df.indexViewed = true ∨ (∃ k, (AMap.get (h.tab df.tab) k).isSome) ∨ y - x ≤ 0) := by
          intro _
          rcases hc with hc | hc
          · exact Or.inl hc
          · by_cases hz : y - x ≤ 0
            · exact Or.inr (Or.inr hz)
            · right; left
              have hn : numColumns (h.tab df.tab) ≠ 0 := by omega
              cases ht : h.tab df.tab with
              | nil => exact absurd (by rw [ht]; rfl) hn
              | cons e t => obtain ⟨k, s⟩ := e; exact ⟨k, by rw [AMap.get_cons]; simp⟩
        by_cases hr : df.Room h x y
        · simp only [hr, and_true, not_le, not_true_eq_false, false_or]
          constructor
          · intro hx; exact ⟨hx, key hx⟩
          · exact fun hx => hx.1
        · simp [hr]
      · rw [if_neg hc]
        simp only [not_or, not_le] at hc
        have h0 : ¬ y - x ≤ 0 := by omega
        have h1 : ¬ df.indexViewed = true := hc.1
        by_cases hr : df.Room h x y
        · simp only [hr, true_and, not_true_eq_false, false_or, h0, or_false]
          rw [show (df.indexViewed = true ∨ (∃ k, (AMap.get (h.tab df.tab) k).isSome = true)) ↔
            (∃ k, (AMap.get (h.tab df.tab) k).isSome = true) from ⟨fun hh => hh.resolve_left h1, Or.inr⟩]
          constructor
          · intro hh
            by_contra hcc
            exact hh fun hk => by by_contra hx; exact hcc ⟨by omega, hk⟩
          · rintro ⟨h2, h3⟩ h4
            have := h4 h3; omega
        · simp [hr]
    · intro v h' hv; rw [c3 v h' hv]; omega

-- the view of `C03_out_of_bounds_refuted`: two rows, room for four
example : ∃ v h1, Demo.df.sliceView 0 2 Demo.h = .ok (v, h1) ∧ v.WF h1 ∧ v.sliceView 0 5 h1 = .error .panic ∧
    v.Room h1 0 4 := by
  obtain ⟨v, h1, e1, r1⟩ := C03_sliceView Demo.df_wf (a := 0) (b := 2) (by decide) (by decide) (by decide)
  have hd : okAnd (Demo.df.sliceView 0 2 Demo.h) (fun p => decide (p.1.indexViewed = true ∧ p.1.idx.data.length = 4)) = true := by decide
  rw [e1] at hd
  simp only [okAnd, decide_eq_true_eq] at hd
  refine ⟨v, h1, e1, r1.wf, ?_, ?_⟩
  · rw [(C03_panics_iff r1.wf 0 5).1, if_neg (by simp [bound])]
    left
    unfold DF.Room
    rw [if_pos (Or.inl hd.1), hd.2]
    simp [bound]
  · unfold DF.Room
    rw [if_pos (Or.inl hd.1), hd.2]; decide

/-! ### C47 -/

theorem makeRangeFill_stop {n b s : Int} (hn : b ≤ n) (k : Nat) : makeRangeFill n b s k = .ok (List.replicate k 0) := by
  cases k <;> simp [makeRangeFill, show ¬ n < b by omega]

/-- **C47**, exactly, for all arguments. `MakeRange(a, b, s)` is accepted exactly when `s` divides `b - a` going
upwards, when there is nothing to enumerate (`b ≤ a`) and no negative size, and it then returns
`(b - a) / s` numbers: the progression when `s > 0`, and only zeros when `s < 0`. -/
theorem C47_makeRange_iff (a b s : Int) :
    makeRange a b s =
      if 0 < s ∧ a ≤ b ∧ s ∣ b - a then .ok ((List.range ((b - a) / s).toNat).map fun (i : Nat) => a + (i : Int) * s)
      else if 0 < s ∧ b < a ∧ a - b < s then .ok []
      else if s < 0 ∧ b ≤ a then .ok (List.replicate ((a - b) / (-s)).toNat 0)
      else .error .panic := by
  by_cases hs : 0 < s
  · by_cases hab : a ≤ b
    · by_cases hd : s ∣ b - a
      · rw [if_pos ⟨hs, hab, hd⟩]
        obtain ⟨k, hk⟩ := hd
        have hk0 : 0 ≤ k := by
          by_contra hc
          have : s * k < 0 := mul_neg_of_pos_of_neg hs (by omega)
          linarith
        obtain ⟨n, rfl⟩ := Int.eq_ofNat_of_zero_le hk0
        have hb : b = a + (n : Int) * s := by linarith [mul_comm s (n : Int)]
        have hsz : (b - a).tdiv s = n := by rw [hk]; exact Int.mul_tdiv_cancel_left _ (by omega)
        have hsz2 : (b - a) / s = n := by rw [hk]; exact Int.mul_ediv_cancel_left _ (by omega)
        unfold makeRange
        rw [if_neg (by omega)]
        simp only [hsz, hsz2]
        rw [if_neg (by omega), Int.toNat_natCast, hb]
        exact makeRangeFill_exact hs a n
      · rw [if_neg (fun hh => hd hh.2.2), if_neg (by omega), if_neg (by omega)]
        exact C47_refuted hs hab hd
    · rw [if_neg (by omega)]
      have hq : (b - a).tdiv s = -((a - b) / s) := by
        rw [← neg_sub a b, Int.neg_tdiv, Int.tdiv_eq_ediv_of_nonneg (by omega)]
      by_cases hl : a - b < s
      · rw [if_pos ⟨hs, by omega, hl⟩]
        unfold makeRange
        rw [if_neg (by omega)]
        simp only [hq]
        rw [Int.ediv_eq_zero_of_lt (by omega) hl, if_neg (by omega)]
        simp [makeRangeFill, show ¬ a < b by omega]
      · rw [if_neg (by omega), if_neg (by omega)]
        unfold makeRange
        rw [if_neg (by omega)]
        simp only [hq]
        have : 1 ≤ (a - b) / s := by
          have := Int.le_ediv_of_mul_le hs (show 1 * s ≤ a - b by omega)
          exact this
        rw [if_pos (by omega)]
  · rw [if_neg (by omega), if_neg (by omega)]
    by_cases hz : s = 0
    · subst hz; simp [makeRange]
    · have hq : (b - a).tdiv s = (a - b).tdiv (-s) := by
        rw [← neg_sub a b, Int.neg_tdiv, Int.tdiv_neg]
      by_cases hba : b ≤ a
      · rw [if_pos ⟨by omega, hba⟩]
        unfold makeRange
        rw [if_neg hz]
        simp only [hq]
        rw [Int.tdiv_eq_ediv_of_nonneg (by omega)]
        have : 0 ≤ (a - b) / (-s) := Int.ediv_nonneg (by omega) (by omega)
        rw [if_neg (by omega), makeRangeFill_stop hba]
      · rw [if_neg (by omega)]
        unfold makeRange
        rw [if_neg hz]
        simp only [hq]
        have hq2 : (a - b).tdiv (-s) = -((b - a) / (-s)) := by
          rw [← neg_sub b a, Int.neg_tdiv, Int.tdiv_eq_ediv_of_nonneg (by omega)]
        by_cases hl : b - a < -s
        · rw [hq2, Int.ediv_eq_zero_of_lt (by omega) hl, if_neg (by omega)]
          simp [makeRangeFill, show a < b by omega]
        · have : 1 ≤ (b - a) / (-s) := Int.le_ediv_of_mul_le (by omega) (by omega)
          rw [hq2, if_pos (by omega)]

example : makeRange 0 7 2 = .error .panic := by rw [C47_makeRange_iff]; decide
example : makeRange 3 11 4 = .ok [3, 7] := by rw [C47_makeRange_iff]; decide
example : makeRange 9 0 (-2) = .ok [0, 0, 0, 0] := by rw [C47_makeRange_iff]; decide

end Verif
