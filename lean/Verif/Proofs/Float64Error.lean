import Verif.Proofs.Float64

/-! Error bounds for the floating point operations of `Go/Float64.lean`. -/

namespace Verif
namespace FP
variable {f : FFmt} {K : Type} [Field K] [LinearOrder K] [IsStrictOrderedRing K]

/-- Half the distance from 1 to the next number: the relative error of one rounding. -/
def ulp (f : FFmt) : ℚ := 1 / 2 ^ f.p

/-- Half the least positive number: the absolute error of one rounding to a subnormal number. -/
def tiny (f : FFmt) : ℚ := 2 ^ f.emin / 2

theorem ulp_pos (f : FFmt) : 0 < ulp f := by unfold ulp; positivity

theorem tiny_pos (f : FFmt) : 0 < tiny f := by unfold tiny; exact div_pos (two_zpow_pos _) (by norm_num)

/-- A rounding is exact, or errs by half a unit of the exponent. -/
theorem Rounds.err {a r : ℚ} (h : Rounds f a r) :
    |r - a| ≤ ulp f * a ∨ (a < 2 ^ (f.emin + f.p) ∧ |r - a| ≤ tiny f) := by
  obtain ⟨E, m, hE, hm, rfl⟩ := h
  have hpos := two_zpow_pos (K := ℚ) E
  have e1 : |(m : ℚ) * 2 ^ E - a| ≤ 2 ^ E / 2 := by
    have e2 : (m : ℚ) * 2 ^ E - a = -(a / 2 ^ E - m) * 2 ^ E := by
      rw [neg_sub, sub_mul, div_mul_cancel₀ _ hpos.ne']
    rw [e2, abs_mul, abs_neg, abs_of_pos hpos]
    have := mul_le_mul_of_nonneg_right hm.1 hpos.le
    linarith
  rcases hE.ge with h0 | h0
  · right
    refine ⟨by rw [← h0]; exact hE.lt, ?_⟩
    unfold tiny; rw [← h0]; exact e1
  · left
    refine e1.trans ?_
    unfold ulp
    have e3 : (2 : ℚ) ^ (E + f.p - 1) = 2 ^ E * 2 ^ f.p / 2 := by
      rw [zpow_sub₀ (by norm_num), zpow_add₀ (by norm_num), zpow_natCast, zpow_one]
    rw [e3] at h0
    have : (0 : ℚ) < 2 ^ f.p := by positivity
    rw [div_mul_eq_mul_div, one_mul, le_div_iff₀ this]
    linarith

/-- The error of one rounding. -/
theorem rnd_err {q : ℚ} (h : (rnd f q).Finite) : |(rnd f q).val - q| ≤ ulp f * |q| + tiny f := by
  rcases rnd_cases (f := f) q with ⟨-, -, r, r0, hr, e⟩ | ⟨-, e⟩
  swap
  · rw [e] at h; cases h
  have e1 : |(rnd f q).val - q| = |r - (|q|)| := by
    rw [e]
    by_cases hq : q < 0
    · rw [abs_of_neg hq]; simp only [hq, decide_true, if_true]
      rw [show (-1 : ℚ) * r - q = -(r - -q) by ring, abs_neg]
    · rw [abs_of_nonneg (not_lt.1 hq)]; simp [hq]
  rw [e1]
  have hu := ulp_pos f
  have ht := tiny_pos f
  have h0 := abs_nonneg q
  rcases hr.err with h1 | ⟨-, h1⟩
  · linarith
  · have := mul_nonneg hu.le h0
    linarith

/-- A multiple of the least number: rounding has a relative error only. -/
theorem rnd_err_grid {q : ℚ} (h : (rnd f q).Finite) {z : ℤ} (hz : q = z * 2 ^ f.emin) : |(rnd f q).val - q| ≤ ulp f * |q| := by
  rcases rnd_cases (f := f) q with ⟨-, -, r, r0, hr, e⟩ | ⟨-, e⟩
  swap
  · rw [e] at h; cases h
  have e1 : |(rnd f q).val - q| = |r - (|q|)| := by
    rw [e]
    by_cases hq : q < 0
    · rw [abs_of_neg hq]; simp only [hq, decide_true, if_true]
      rw [show (-1 : ℚ) * r - q = -(r - -q) by ring, abs_neg]
    · rw [abs_of_nonneg (not_lt.1 hq)]; simp [hq]
  rw [e1]
  rcases hr.err with h1 | ⟨hlt, -⟩
  · exact h1
  · have hg : OnGrid f |q| := by
      refine ⟨z.natAbs, f.emin, ?_, le_rfl, ?_⟩
      · have e2 : |q| = (z.natAbs : ℚ) * 2 ^ f.emin := by
          rw [hz, abs_mul, abs_of_pos (two_zpow_pos (K := ℚ) f.emin), Nat.cast_natAbs]; push_cast; rfl
        rw [e2, zpow_add₀ (by norm_num), zpow_natCast, mul_comm] at hlt
        have := lt_of_mul_lt_mul_left hlt (two_zpow_pos (K := ℚ) f.emin).le
        exact_mod_cast this
      · rw [hz, abs_mul, abs_of_pos (two_zpow_pos (K := ℚ) f.emin), Nat.cast_natAbs]; push_cast; rfl
    rw [hr.exact hg, sub_self, abs_zero]
    exact mul_nonneg (ulp_pos f).le (abs_nonneg q)

/-- Every number is a multiple of the least one. -/
theorem val_grid (x : FP f) : ∃ z : ℤ, x.val = z * 2 ^ f.emin := by
  cases x with
  | nan => exact ⟨0, by simp [val]⟩
  | inf => exact ⟨0, by simp [val]⟩
  | fin s m e h =>
    refine ⟨signed s m * 2 ^ (e - f.emin).toNat, ?_⟩
    rw [val_fin]
    push_cast
    rw [mul_assoc, ← zpow_natCast, ← zpow_add₀ (by norm_num), Int.toNat_of_nonneg (by have := h.2.1; omega)]
    congr 2; omega

/-- The error of a sum: relative only. -/
theorem add_err {x y : FP f} (hx : x.Finite) (hy : y.Finite) (h : (add x y).Finite) :
    |(add x y).val - (x.val + y.val)| ≤ ulp f * |x.val + y.val| := by
  rw [add_eq_rnd hx hy] at h ⊢
  split
  · rename_i h0
    rw [zero_val, h0]; simp
  · rename_i h0
    rw [if_neg h0] at h
    obtain ⟨a, ha⟩ := val_grid x
    obtain ⟨b, hb⟩ := val_grid y
    exact rnd_err_grid h (z := a + b) (by rw [ha, hb]; push_cast; ring)

theorem mul_err {x y : FP f} (hx : x.Finite) (hy : y.Finite) (h : (mul x y).Finite) :
    |(mul x y).val - x.val * y.val| ≤ ulp f * |x.val * y.val| + tiny f := by
  rw [mul_eq_rnd hx hy] at h ⊢
  split
  · rename_i h0
    rw [zero_val, h0]; simpa using (tiny_pos f).le
  · rename_i h0
    rw [if_neg h0] at h
    exact rnd_err h

theorem div_err {x y : FP f} (hx : x.Finite) (hy : y.Finite) (hy0 : y.val ≠ 0) (h : (div x y).Finite) :
    |(div x y).val - x.val / y.val| ≤ ulp f * |x.val / y.val| + tiny f := by
  rw [div_eq_rnd hx hy hy0] at h ⊢
  split
  · rename_i h0
    rw [zero_val, h0]; simpa using (tiny_pos f).le
  · rename_i h0
    rw [if_neg h0] at h
    exact rnd_err h

theorem sub_err {x y : FP f} (hx : x.Finite) (hy : y.Finite) (h : (sub x y).Finite) :
    |(sub x y).val - (x.val - y.val)| ≤ ulp f * |x.val - y.val| := by
  have := add_err hx (neg_finite hy) h
  rw [neg_val, ← sub_eq_add_neg] at this
  exact this

theorem abs_val (x : FP f) : (abs x).val = |x.val| := by
  cases x with
  | nan => simp [abs, val]
  | inf => simp [abs, val]
  | fin s m e h =>
    have h0 : (0 : ℚ) ≤ m * 2 ^ e := by positivity
    cases s <;> simp [abs, val, abs_of_nonneg h0]

theorem abs_finite {x : FP f} : (abs x).Finite ↔ x.Finite := by cases x <;> exact Iff.rfl

/-! ### infinities and NaN persist -/

theorem finite_of_add {x y : FP f} (h : (add x y).Finite) : x.Finite ∧ y.Finite := by
  cases x <;> cases y <;> simp only [add] at h <;> first | exact ⟨trivial, trivial⟩ | (split at h <;> cases h) | cases h

theorem finite_of_sub {x y : FP f} (h : (sub x y).Finite) : x.Finite ∧ y.Finite := by
  have := finite_of_add h
  refine ⟨this.1, ?_⟩
  have := this.2
  cases y <;> trivial

theorem finite_of_mul {x y : FP f} (h : (mul x y).Finite) : x.Finite ∧ y.Finite := by
  cases x <;> cases y <;> simp only [mul] at h <;> first | exact ⟨trivial, trivial⟩ | (split at h <;> cases h) | cases h

theorem finite_of_div {x y : FP f} (hy : y.Finite) (h : (div x y).Finite) : x.Finite := by
  cases x <;> cases y <;> trivial

/-! ### numbers that are not negative -/

/-- `x ≥ 0`, infinity included. -/
def NonNeg : FP f → Prop
  | .nan => False
  | .inf s => s = false
  | .fin s m e h => 0 ≤ (fin s m e h).val

theorem nonNeg_of_finite {x : FP f} (hx : x.Finite) (h : 0 ≤ x.val) : x.NonNeg := by
  cases x <;> first | exact h | cases hx

theorem nonNeg_rnd {q : ℚ} (h : 0 ≤ q) : (rnd f q).NonNeg := by
  rcases rnd_cases (f := f) q with ⟨-, hf, r, r0, -, e⟩ | ⟨-, e⟩
  · refine nonNeg_of_finite hf ?_
    rw [e]; simp [not_lt.2 h, r0]
  · rw [e]; simp [NonNeg, h]

theorem nonNeg_add {x y : FP f} (hx : x.NonNeg) (hy : y.NonNeg) : (add x y).NonNeg := by
  cases x with
  | nan => cases hx
  | inf s =>
    cases hx
    cases y with
    | nan => cases hy
    | inf s' => cases hy; exact rfl
    | fin => rfl
  | fin s m e h =>
    cases y with
    | nan => cases hy
    | inf s' => cases hy; exact rfl
    | fin s' m' e' h' =>
      rw [add_eq_rnd (x := fin s m e h) (y := fin s' m' e' h') trivial trivial]
      split
      · exact nonNeg_of_finite trivial (by rw [zero_val])
      · exact nonNeg_rnd (add_nonneg hx hy)

theorem nonNeg_abs {x : FP f} (hx : x.isNaN = false) : (abs x).NonNeg := by
  cases x with
  | nan => cases hx
  | inf s => rfl
  | fin s m e h => exact nonNeg_of_finite (x := abs (fin s m e h)) trivial (by rw [abs_val]; exact abs_nonneg _)

theorem nonNeg_sq {x : FP f} (hx : x.isNaN = false) : (mul x x).NonNeg := by
  cases x with
  | nan => cases hx
  | inf s => cases s <;> rfl
  | fin s m e h =>
    rw [mul_eq_rnd (x := fin s m e h) (y := fin s m e h) trivial trivial]
    split
    · exact nonNeg_of_finite trivial (by rw [zero_val])
    · exact nonNeg_rnd (mul_self_nonneg _)

theorem nonNeg_div {x y : FP f} (hx : x.NonNeg) (hy : y.Finite) (hy0 : 0 < y.val) : (div x y).NonNeg := by
  cases y with
  | nan => cases hy
  | inf => cases hy
  | fin s' m' e' h' =>
    cases x with
    | nan => cases hx
    | inf s =>
      cases hx
      have : s' = false := by
        cases s'
        · rfl
        · have h0 : (0 : ℚ) ≤ m' * 2 ^ e' := by positivity
          simp [val] at hy0
          linarith
      subst this; rfl
    | fin s m e h =>
      rw [div_eq_rnd (x := fin s m e h) (y := fin s' m' e' h') trivial trivial hy0.ne']
      split
      · exact nonNeg_of_finite trivial (by rw [zero_val])
      · exact nonNeg_rnd (div_nonneg hx hy0.le)

theorem nonNeg_iff {x : FP f} : x.NonNeg ↔ x.isNaN = false ∧ lt x (zero f false) = false := by
  cases x with
  | nan => simp [NonNeg, isNaN]
  | inf s => cases s <;> simp [NonNeg, isNaN, lt, zero]
  | fin s m e h =>
    have : lt (fin s m e h) (zero f false) = false ↔ 0 ≤ (fin s m e h).val := by
      rw [Bool.eq_false_iff, Ne, lt_iff (x := fin s m e h) trivial (zero_finite _), zero_val, not_lt]
    rw [this]
    simp [NonNeg, isNaN]

theorem isNaN_sub {x y : FP f} (hx : x.Finite) (hy : y.Finite) : (sub x y).isNaN = false := by
  unfold sub
  rw [add_eq_rnd hx (neg_finite hy)]
  split
  · rfl
  · rcases rnd_cases (f := f) (x.val + (neg y).val) with ⟨-, hf, -⟩ | ⟨-, e⟩
    · revert hf; cases rnd f (x.val + (neg y).val) <;> simp [Finite, isNaN]
    · rw [e]; rfl

/-! ### signs -/

theorem rnd_neg {q : ℚ} (hq : q ≠ 0) : rnd f (-q) = neg (rnd f q) := by
  unfold rnd
  have h1 : (-q).num.natAbs = q.num.natAbs := by rw [Rat.neg_num, Int.natAbs_neg]
  have h2 : (-q).den = q.den := Rat.neg_den q
  have h3 : decide (-q < 0) = !decide (q < 0) := by
    rcases lt_or_gt_of_ne hq with h | h
    · simp [h, h.le]
    · simp [h, not_lt.2 h.le]
  rw [h1, h2, h3]
  unfold ofFrac pack zero
  split
  · rename_i h0
    exact absurd (Rat.num_eq_zero.1 (Int.natAbs_eq_zero.1 h0)) hq
  · split
    · rfl
    · split <;> rfl

/-- `x - y` and `y - x` differ in the sign only. -/
theorem abs_sub_comm {x y : FP f} (hx : x.Finite) (hy : y.Finite) : abs (sub x y) = abs (sub y x) := by
  unfold sub
  rw [add_eq_rnd hx (neg_finite hy), add_eq_rnd hy (neg_finite hx), neg_val, neg_val]
  have e : y.val + -x.val = -(x.val + -y.val) := by ring
  by_cases h0 : x.val + -y.val = 0
  · rw [if_pos h0, if_pos (by rw [e, h0, neg_zero])]; rfl
  · rw [if_neg h0, if_neg (by rw [e]; exact neg_ne_zero.2 h0), e, rnd_neg h0]
    cases rnd f (x.val + -y.val) <;> rfl

theorem mul_self_abs (x : FP f) : mul x x = mul (abs x) (abs x) := by
  cases x with
  | nan => rfl
  | inf s => cases s <;> rfl
  | fin s m e h => cases s <;> rfl

theorem sq_sub_comm {x y : FP f} (hx : x.Finite) (hy : y.Finite) : mul (sub x y) (sub x y) = mul (sub y x) (sub y x) := by
  rw [mul_self_abs, abs_sub_comm hx hy, ← mul_self_abs]

end FP
end Verif
