import Verif.Props.Asserts
import Verif.Props.Float64Demo
import Verif.Proofs.Float64Error
import Verif.Proofs.Float64Near
import Verif.Proofs.Strconv

/-! C76 for Go's `float64`: what the assertions on floats decide. -/

namespace Verif
namespace Float64
open FP

/-- Adding and rounding does not go below a float that is not above the exact sum. -/
theorem lt_add_false {x y t : Float64} (hx : x.Finite) (hy : y.Finite) (ht : t.Finite) (h : x.val ≤ y.val + t.val) : lt (add y t) x = false := by
  rw [add_eq_rnd hy ht]
  split
  · rename_i h0
    rw [Bool.eq_false_iff]
    intro hl
    rw [lt_iff (zero_finite _) hx] at hl
    rw [show (zero binary64 (zeroSign y t)).val = 0 by simp [zero, val]] at hl
    linarith
  · have hm := rnd_mono (f := binary64) h
    obtain ⟨r1, r2⟩ := rnd_val hx
    cases hr : rnd binary64 (y.val + t.val) with
    | nan => rfl
    | inf s =>
      rw [hr] at hm
      cases hrx : rnd binary64 x.val with
      | nan => rw [hrx] at r1; cases r1
      | inf => rw [hrx] at r1; cases r1
      | fin =>
        rw [hrx] at hm
        cases x with
        | nan => cases hx
        | inf => cases hx
        | fin => exact hm
    | fin s m e hc =>
      rw [← hr]
      rw [Bool.eq_false_iff]
      intro hl
      have hf : (rnd binary64 (y.val + t.val)).Finite := by rw [hr]; trivial
      rw [lt_iff hf hx] at hl
      have := rnd_mono_val (f := binary64) h r1 hf
      rw [r2] at this
      linarith

theorem lt_add_false' {x y t : Float64} (hx : x.Finite) (hy : y.Finite) (ht : t.Finite) (h : y.val + t.val ≤ x.val) : lt x (add y t) = false := by
  rw [add_eq_rnd hy ht]
  split
  · rename_i h0
    rw [Bool.eq_false_iff]
    intro hl
    rw [lt_iff hx (zero_finite _)] at hl
    rw [show (zero binary64 (zeroSign y t)).val = 0 by simp [zero, val]] at hl
    linarith
  · have hm := rnd_mono (f := binary64) h
    obtain ⟨r1, r2⟩ := rnd_val hx
    cases hr : rnd binary64 (y.val + t.val) with
    | nan => cases x <;> rfl
    | inf s =>
      rw [hr] at hm
      cases hrx : rnd binary64 x.val with
      | nan => rw [hrx] at r1; cases r1
      | inf => rw [hrx] at r1; cases r1
      | fin =>
        rw [hrx] at hm
        cases x with
        | nan => cases hx
        | inf => cases hx
        | fin => exact hm
    | fin s m e hc =>
      rw [← hr]
      rw [Bool.eq_false_iff]
      intro hl
      have hf : (rnd binary64 (y.val + t.val)).Finite := by rw [hr]; trivial
      rw [lt_iff hx hf] at hl
      have := rnd_mono_val (f := binary64) h hf r1
      rw [r2] at this
      linarith

theorem lt_top_add {f : FFmt} {y : FP f} {q : ℚ} (hy : y.Finite) (h : q ≤ 1) (h2 : (2 : ℚ) < 2 ^ f.emax) : |y.val| + q < f.top := by
  cases y with
  | nan => cases hy
  | inf => cases hy
  | fin s m e hc =>
    have h0 : (0 : ℚ) ≤ m * 2 ^ e := by positivity
    have hv : |(fin s m e hc : FP f).val| = m * 2 ^ e := by cases s <;> simp [val, abs_of_nonneg h0]
    rw [hv]
    have h1 : (m : ℚ) + 1 ≤ 2 ^ f.p := by exact_mod_cast hc.1
    have h3 : (m : ℚ) * 2 ^ e ≤ m * 2 ^ f.emax :=
      mul_le_mul_of_nonneg_left (zpow_le_zpow_right₀ (by norm_num) hc.2.2.1) (by positivity)
    have h4 : ((m : ℚ) + 1 / 2) * 2 ^ f.emax ≤ (2 ^ f.p - 1 / 2) * 2 ^ f.emax :=
      mul_le_mul_of_nonneg_right (by linarith) (two_zpow_pos _).le
    refine lt_of_lt_of_le ?_ h4
    rw [add_mul]
    linarith

/-- Adding a small number does not overflow. -/
theorem add_small {y t : Float64} (hy : y.Finite) (ht : t.Finite) (h : |t.val| ≤ 1) : (add y t).Finite := by
  rw [add_eq_rnd hy ht]
  split
  · exact zero_finite _
  · apply rnd_finite
    refine lt_of_le_of_lt (abs_add_le _ _) (lt_top_add hy h ?_)
    have h3 : (2 : ℤ) ≤ binary64.emax := by decide
    have h4 : (2 : ℚ) ^ (2 : ℤ) ≤ 2 ^ binary64.emax := zpow_le_zpow_right₀ (by norm_num) h3
    generalize (2 : ℚ) ^ binary64.emax = E at h4
    norm_num at h4
    linarith

/-- The constant 0.01. -/
def tol01 : Float64 := dec 1 100

theorem tol_fin : tol01.Finite := (finite_iff64 _).1 (by decide +kernel)
theorem tol_val : |tol01.val - 1 / 100| ≤ 1 / 2 ^ 59 := by decide +kernel
theorem tol_pos : 0 < tol01.val ∧ tol01.val < 1 := by decide +kernel

theorem ulp64 : ulp binary64 = 1 / 2 ^ 53 := rfl

/-- **C76** in float64 (`AssertFloatEquals`). NaN passes for every expected value, and every value passes for NaN. An infinity passes only for itself,
and only an infinity or NaN passes for an infinity. Finite numbers pass if they differ by at most 0.01 (the float64 nearest to it), and
fail if they differ by more than that and half a unit in the last place. -/
theorem C76_float64_partial (x y : Float64) :
    (x = .nan ∨ y = .nan → (assertFloatEquals tol01 x y).Holds) ∧
    (∀ s, y = .inf s → x ≠ .nan → (assertFloatEquals tol01 x y).Decides (x = .inf s)) ∧
    (∀ s, x = .inf s → y.Finite → (assertFloatEquals tol01 x y).Fails) ∧
    (x.Finite → y.Finite → |x.val - y.val| ≤ tol01.val → (assertFloatEquals tol01 x y).Holds) ∧
    (x.Finite → y.Finite → tol01.val + (|y.val| + 1) / 2 ^ 53 < |x.val - y.val| → (assertFloatEquals tol01 x y).Fails) ∧
    |tol01.val - 1 / 100| ≤ 1 / 2 ^ 59 := by
  have hdec := C76_float_partial tol01 x y
  have hadd : ∀ a b : Float64, (GoFloat.add a b : Float64) = add a b := fun _ _ => rfl
  refine ⟨?_, ?_, ?_, ?_, ?_, tol_val⟩
  · rintro (rfl | rfl)
    · refine hdec.1 ⟨rfl, ?_⟩
      show lt (add y tol01) .nan = false
      cases add y tol01 <;> rfl
    · refine hdec.1 ⟨?_, rfl⟩
      show lt x .nan = false
      cases x <;> rfl
  · rintro s rfl hx
    obtain ⟨b, m, e, hc, ht⟩ : ∃ b m e hc, tol01 = .fin b m e hc := by
      have := tol_fin
      cases h : tol01 with
      | nan => rw [h] at this; cases this
      | inf => rw [h] at this; cases this
      | fin b m e hc => exact ⟨b, m, e, hc, rfl⟩
    have e1 : (GoFloat.sub (.inf s) tol01 : Float64) = .inf s := by rw [ht]; rfl
    have e2 : (GoFloat.add (.inf s) tol01 : Float64) = .inf s := by rw [ht]; rfl
    rw [e1, e2] at hdec
    have key : (GoFloat.lt x (.inf s) = false ∧ GoFloat.lt (.inf s) x = false) ↔ x = .inf s := by
      cases x with
      | nan => exact absurd rfl hx
      | inf s' =>
        clear hdec e1 e2 hx
        revert s s'; decide
      | fin => cases s <;> simp [GoFloat.lt, lt]
    rwa [key] at hdec
  · rintro s rfl hy
    refine hdec.2 ?_
    rintro ⟨h1, h2⟩
    cases s with
    | false =>
      have hf := add_small hy tol_fin (by rw [abs_of_pos tol_pos.1]; exact tol_pos.2.le)
      have h2' : lt (add y tol01) (.inf false) = false := h2
      revert h2'
      cases h : add y tol01 with
      | nan => rw [h] at hf; cases hf
      | inf => rw [h] at hf; cases hf
      | fin => intro h2'; cases h2'
    | true =>
      have hf := add_small hy (neg_finite tol_fin) (by rw [neg_val, abs_neg, abs_of_pos tol_pos.1]; exact tol_pos.2.le)
      have h1' : lt (.inf true) (add y (neg tol01)) = false := h1
      revert h1'
      cases h : add y (neg tol01) with
      | nan => rw [h] at hf; cases hf
      | inf => rw [h] at hf; cases hf
      | fin => intro h1'; cases h1'
  · intro hx hy h
    rw [abs_le] at h
    refine hdec.1 ⟨?_, ?_⟩
    · exact lt_add_false' hx hy (neg_finite tol_fin) (by rw [neg_val]; linarith [h.1])
    · exact lt_add_false hx hy tol_fin (by linarith [h.2])
  · intro hx hy h
    refine hdec.2 ?_
    rintro ⟨h1, h2⟩
    have hu := ulp64
    obtain ⟨t0, t1⟩ := tol_pos
    rcases le_total x.val y.val with hxy | hxy
    · rw [abs_of_nonpos (a := x.val - y.val) (by linarith)] at h
      have hq : x.val ≤ y.val - tol01.val := by
        have : (0 : ℚ) ≤ (|y.val| + 1) / 2 ^ 53 := by positivity
        linarith
      have hf : (sub y tol01).Finite := by
        unfold sub
        rw [add_eq_rnd hy (neg_finite tol_fin)]
        split
        · exact zero_finite _
        · rw [neg_val]
          exact (rnd_between hx hy (q := y.val + -tol01.val) (by linarith) (by linarith)).1
      have he := sub_err hy tol_fin hf
      have h1' : lt x (sub y tol01) = false := h1
      rw [Bool.eq_false_iff] at h1'
      apply h1'
      rw [lt_iff hx hf]
      rw [hu, abs_le] at he
      have habs : |y.val - tol01.val| ≤ |y.val| + 1 := by
        refine (abs_sub _ _).trans ?_
        rw [abs_of_pos t0]; linarith
      have : (1 : ℚ) / 2 ^ 53 * |y.val - tol01.val| ≤ (|y.val| + 1) / 2 ^ 53 := by
        rw [div_mul_eq_mul_div, one_mul]
        exact div_le_div_of_nonneg_right habs (by positivity)
      linarith [he.1]
    · rw [abs_of_nonneg (a := x.val - y.val) (by linarith)] at h
      have hq : y.val + tol01.val ≤ x.val := by
        have : (0 : ℚ) ≤ (|y.val| + 1) / 2 ^ 53 := by positivity
        linarith
      have hf : (add y tol01).Finite := by
        rw [add_eq_rnd hy tol_fin]
        split
        · exact zero_finite _
        · exact (rnd_between hy hx (q := y.val + tol01.val) (by linarith) (by linarith)).1
      have he := add_err hy tol_fin hf
      have h2' : lt (add y tol01) x = false := h2
      rw [Bool.eq_false_iff] at h2'
      apply h2'
      rw [lt_iff hf hx]
      rw [hu, abs_le] at he
      have habs : |y.val + tol01.val| ≤ |y.val| + 1 := by
        refine (abs_add_le _ _).trans ?_
        rw [abs_of_pos t0]; linarith
      have : (1 : ℚ) / 2 ^ 53 * |y.val + tol01.val| ≤ (|y.val| + 1) / 2 ^ 53 := by
        rw [div_mul_eq_mul_div, one_mul]
        exact div_le_div_of_nonneg_right habs (by positivity)
      linarith [he.2]

/-- Equal floats: both the same infinity, or finite numbers of the same value. NaN equals nothing. -/
def SameNumber (x y : Float64) : Prop := (∃ s, x = .inf s ∧ y = .inf s) ∨ x.Finite ∧ y.Finite ∧ x.val = y.val

theorem eq_iff_same {x y : Float64} : GoFloat.eq x y = true ↔ SameNumber x y := by
  show eq x y = true ↔ _
  by_cases hf : x.Finite ∧ y.Finite
  · rw [eq_iff hf.1 hf.2]
    refine ⟨fun h => Or.inr ⟨hf.1, hf.2, h⟩, ?_⟩
    rintro (⟨s, rfl, -⟩ | h)
    · exact hf.1.elim
    · exact h.2.2
  · unfold SameNumber
    cases x with
    | nan => simp [eq, FP.Finite]
    | inf s =>
      cases y with
      | nan => simp [eq, FP.Finite]
      | inf s' => simp [eq, FP.Finite]; exact eq_comm
      | fin => simp [eq, FP.Finite]
    | fin =>
      cases y with
      | nan => simp [eq, FP.Finite]
      | inf s' => simp [eq, FP.Finite]
      | fin => exact absurd ⟨trivial, trivial⟩ hf

/-- **C76** in float64 (`AssertFloatSliceEquals`). It returns true exactly if both slices are nil, or both are not nil, equally long, and
they are the same array or each element is the same number as the other one; a slice with NaN is equal only to itself, the same array. -/
theorem C76_float64_slices_partial (same : Bool) (a b : Option (List Float64)) :
    (assertFloatSliceEquals tol01 same a b).ret = true ↔
      (a = none ∧ b = none) ∨ ∃ xs ys, a = some xs ∧ b = some ys ∧ xs.length = ys.length ∧ (same = true ∨ List.Forall₂ SameNumber xs ys) := by
  rw [(C76_float_slices_partial tol01 same a b).1]
  cases a with
  | none => cases b <;> simp [deepEqualFloats]
  | some xs =>
    cases b with
    | none => simp [deepEqualFloats]
    | some ys =>
      simp only [deepEqualFloats, Bool.and_eq_true, decide_eq_true_eq, Bool.or_eq_true, reduceCtorEq, false_and, false_or, Option.some.injEq]
      have key : xs.length = ys.length → (((xs.zip ys).all fun p => GoFloat.eq p.1 p.2) = true ↔ List.Forall₂ SameNumber xs ys) := by
        intro hl
        rw [List.all_eq_true, List.forall₂_iff_zip]
        constructor
        · exact fun h => ⟨hl, fun h' => eq_iff_same.1 (h _ h')⟩
        · rintro ⟨-, h⟩ ⟨u, v⟩ hp; exact eq_iff_same.2 (h hp)
      constructor
      · rintro ⟨hl, h⟩; exact ⟨xs, ys, rfl, rfl, hl, h.imp id (key hl).1⟩
      · rintro ⟨_, _, rfl, rfl, hl, h⟩; exact ⟨hl, h.imp id (key hl).2⟩

/-- 1.009 passes for 1, 1.02 does not; -1 passes for NaN; minus infinity does not pass for infinity. -/
example : (assertFloatEquals tol01 (dec 1009 1000) (dec 1 1)).ret = true ∧ (assertFloatEquals tol01 (dec 102 100) (dec 1 1)).ret = false ∧
    (assertFloatEquals tol01 (dec (-1) 1) .nan).ret = true ∧ (assertFloatEquals tol01 (.inf true) (.inf false)).ret = false := by decide +kernel

example : SameNumber (dec 0 1) (dec 0 (-1)) ∧ ¬ SameNumber .nan .nan ∧ ¬ SameNumber (.inf false) (.inf true) := by
  rw [← eq_iff_same, ← eq_iff_same, ← eq_iff_same]; decide +kernel

end Float64
end Verif
