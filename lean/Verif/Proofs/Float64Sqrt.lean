import Verif.Proofs.Float64Error
import Mathlib.Analysis.Real.Sqrt

/-! `math.Sqrt` of `Go/Float64.lean` returns the number nearest to the real square root. -/

namespace Verif
namespace FP
variable {f : FFmt}

theorem cast_two_zpow (e : ℤ) : (((2 : ℚ) ^ e : ℚ) : ℝ) = (2 : ℝ) ^ e := by push_cast; rfl

theorem IsExp.cast {a : ℚ} {E : ℤ} (h : IsExp f a E) : IsExp f (a : ℝ) E := by
  refine ⟨h.min, ?_, ?_⟩
  · rw [← cast_two_zpow]; exact Rat.cast_lt.2 h.lt
  · rcases h.ge with h | h
    · exact Or.inl h
    · right; rw [← cast_two_zpow]; exact Rat.cast_le.2 h

theorem IsRne.cast {x : ℚ} {k : ℕ} (h : IsRne x k) : IsRne (x : ℝ) k := by
  have e : |(x : ℝ) - k| = ((|x - k| : ℚ) : ℝ) := by push_cast; rfl
  unfold IsRne
  rw [e]
  refine ⟨?_, ?_⟩
  · have := h.1
    have h2 : ((|x - k| : ℚ) : ℝ) ≤ ((1 / 2 : ℚ) : ℝ) := by exact_mod_cast this
    push_cast at h2 ⊢
    exact h2
  · intro hh
    apply h.2
    have : ((|x - k| : ℚ) : ℝ) = ((1 / 2 : ℚ) : ℝ) := by push_cast at hh ⊢; exact hh
    exact_mod_cast this

theorem Rounds.cast {a r : ℚ} (h : Rounds f a r) : Rounds f (a : ℝ) (r : ℝ) := by
  obtain ⟨E, m, hE, hm, rfl⟩ := h
  refine ⟨E, m, hE.cast, ?_, by push_cast; rfl⟩
  have := hm.cast
  push_cast at this
  exact this

/-- A number between two adjacent integers with more than `p + 1` digits rounds as the number in the middle does. -/
theorem Rounds.sticky {r : ℕ} {s : ℝ} {J : ℤ} {y : ℝ} (hr : 2 ^ (f.p + 1) ≤ r) (h1 : (r : ℝ) < s) (h2 : s < r + 1)
    (h : Rounds f (((r : ℝ) + 1 / 2) * 2 ^ J) y) : Rounds f (s * 2 ^ J) y := by
  obtain ⟨E, m, hE, hm, hy⟩ := h
  have hJ := two_zpow_pos (K := ℝ) J
  have hrr : ((2 : ℝ) ^ (f.p + 1 : ℕ)) ≤ r := by exact_mod_cast hr
  have hEJ : J + 2 ≤ E := by
    have e1 : (2 : ℝ) ^ (J + (f.p + 1 : ℕ)) < 2 ^ (E + f.p) := by
      refine lt_of_lt_of_le ?_ hE.lt.le
      rw [zpow_add₀ (by norm_num), zpow_natCast, mul_comm]
      refine mul_lt_mul_of_pos_right ?_ hJ
      linarith
    have := (zpow_lt_zpow_iff_right₀ (by norm_num : (1 : ℝ) < 2)).1 e1
    push_cast at this
    omega
  obtain ⟨D, hD⟩ : ∃ D : ℕ, E = J + (D + 1 : ℕ) := ⟨(E - J - 1).toNat, by omega⟩
  have hp := f.hp
  have scale : ∀ z : ℝ, z * 2 ^ J / 2 ^ E = z / 2 ^ (D + 1) := by
    intro z
    rw [hD, zpow_add₀ (by norm_num), zpow_natCast]
    field_simp
  refine ⟨E, m, ⟨hE.min, ?_, ?_⟩, ?_, hy⟩
  · have := hE.lt
    rw [hD, show J + ((D + 1 : ℕ) : ℤ) + f.p = J + (D + 1 + f.p : ℕ) by push_cast; ring, zpow_add₀ (by norm_num), zpow_natCast, mul_comm] at this ⊢
    have e1 := lt_of_mul_lt_mul_left this hJ.le
    have e2 : r < 2 ^ (D + 1 + f.p) := by
      have : (r : ℝ) < 2 ^ (D + 1 + f.p) := by linarith
      exact_mod_cast this
    have e3 : (r : ℝ) + 1 ≤ 2 ^ (D + 1 + f.p) := by exact_mod_cast e2
    exact mul_lt_mul_of_pos_left (by linarith) hJ
  · rcases hE.ge with h | h
    · exact Or.inl h
    · right
      rw [hD, show J + ((D + 1 : ℕ) : ℤ) + f.p - 1 = J + (D + f.p : ℕ) by push_cast; ring, zpow_add₀ (by norm_num), zpow_natCast, mul_comm] at h ⊢
      have e1 := le_of_mul_le_mul_right h hJ
      have e2 : 2 ^ (D + f.p) < r + 1 := by
        have : (2 : ℝ) ^ (D + f.p) < r + 1 := by linarith
        exact_mod_cast this
      have e3 : (2 : ℝ) ^ (D + f.p) ≤ r := by
        have : 2 ^ (D + f.p) ≤ r := by omega
        exact_mod_cast this
      exact mul_le_mul_of_nonneg_right (by linarith) hJ.le
  · rw [scale] at hm ⊢
    have hpos : (0 : ℝ) < 2 ^ (D + 1) := by positivity
    obtain ⟨z, hz⟩ : ∃ z : ℤ, z = (r : ℤ) - m * 2 ^ (D + 1) := ⟨_, rfl⟩
    have hzr : (z : ℝ) = r - m * 2 ^ (D + 1) := by rw [hz]; push_cast; ring
    have key : ∀ t : ℝ, |t / 2 ^ (D + 1) - m| = |t - m * 2 ^ (D + 1)| / 2 ^ (D + 1) := by
      intro t
      rw [← abs_of_pos hpos, ← abs_div, abs_of_pos hpos]
      congr 1
      field_simp
    have hle := hm.1
    rw [key, div_le_iff₀ hpos, show (r : ℝ) + 1 / 2 - m * 2 ^ (D + 1) = z + 1 / 2 by rw [hzr]; ring, pow_succ,
      show (1 : ℝ) / 2 * (2 ^ D * 2) = 2 ^ D by ring] at hle
    rw [abs_le] at hle
    have z1 : -(2 ^ D : ℤ) ≤ z := by
      have : (-(2 ^ D : ℤ) : ℝ) < z + 1 := by push_cast; linarith [hle.1]
      have : -(2 ^ D : ℤ) < z + 1 := by exact_mod_cast this
      omega
    have z2 : z + 1 ≤ (2 ^ D : ℤ) := by
      have : (z : ℝ) < (2 ^ D : ℤ) := by push_cast; linarith [hle.2]
      have : z < (2 ^ D : ℤ) := by exact_mod_cast this
      omega
    have z1' : -(2 ^ D : ℝ) ≤ z := by exact_mod_cast z1
    have z2' : (z : ℝ) + 1 ≤ 2 ^ D := by exact_mod_cast z2
    have hlt : |s / 2 ^ (D + 1) - m| < 1 / 2 := by
      rw [key, div_lt_iff₀ hpos, pow_succ, show (1 : ℝ) / 2 * (2 ^ D * 2) = 2 ^ D by ring, abs_lt]
      rw [pow_succ] at hzr
      constructor <;> linarith
    exact ⟨hlt.le, fun h => absurd h hlt.ne⟩

/-- Rounding is the nearest number of the format, over the reals. -/
theorem Rounds.nearest_val {a : ℝ} {r : ℝ} (h : Rounds f a r) (ha : 0 ≤ a) {y : FP f} (hy : y.Finite) :
    |a - r| ≤ |a - (y.val : ℝ)| := by
  obtain ⟨E, m, hE, hm, rfl⟩ := h
  have hg : OnGrid f ((|y.val| : ℚ) : ℝ) := by
    obtain ⟨m', e', h1, h2, h3⟩ := val_nonneg_grid hy
    exact ⟨m', e', h1, h2, by rw [h3]; push_cast; rfl⟩
  refine (Rounds.nearest hE hm hg).1.trans ?_
  push_cast
  rcases abs_cases (y.val : ℝ) with ⟨h, _⟩ | ⟨h, h'⟩
  · rw [h]
  · rw [h, abs_of_nonneg (show 0 ≤ a - (y.val : ℝ) by linarith), abs_le]
    constructor <;> linarith

/-- The root of a positive number, rounded. -/
theorem sqrt_rounds {m : ℕ} {e : ℤ} {h : f.Canon m e} (hm : m ≠ 0) :
    ∃ n j, 0 < n ∧ sqrt (fin false m e h) = ofScaled f false n 1 j ∧ (∀ y : ℚ, Rounds f ((n : ℚ) * 2 ^ j) y → Rounds f (Real.sqrt ((fin false m e h).val : ℝ)) (y : ℝ)) ∧
      (n : ℝ) * 2 ^ j < 2 * Real.sqrt ((fin false m e h).val : ℝ) := by
  obtain ⟨k, hk⟩ : ∃ k, k = 2 * f.p + 2 + (e % 2).toNat := ⟨_, rfl⟩
  obtain ⟨r, hr⟩ : ∃ r, r = (m * 2 ^ k).sqrt := ⟨_, rfl⟩
  obtain ⟨J, hJ⟩ : ∃ J : ℤ, J = (e - k) / 2 := ⟨_, rfl⟩
  have hJ2 : e = k + 2 * J := by omega
  refine ⟨2 * r + if r * r = m * 2 ^ k then 0 else 1, J - 1, ?_, ?_, ?_⟩
  · split
    · rename_i h0
      have : r ≠ 0 := by
        intro h1; rw [h1] at h0
        have : 0 < m * 2 ^ k := Nat.mul_pos (Nat.pos_of_ne_zero hm) (Nat.pos_of_ne_zero (by simp))
        omega
      omega
    · omega
  · show sqrt (fin false m e h) = _
    simp only [sqrt, if_neg hm, Bool.false_eq_true, if_false]
    rw [← hk, ← hr, ← hJ]
  · obtain ⟨N, hN⟩ : ∃ N, N = m * 2 ^ k := ⟨_, rfl⟩
    have lo : r * r ≤ N := by rw [hr, hN]; exact Nat.sqrt_le _
    have hi : N < (r + 1) * (r + 1) := by rw [hr, hN]; exact Nat.sqrt_lt.1 (Nat.lt_succ_self _)
    have hval : ((fin false m e h).val : ℝ) = (N : ℝ) * (2 ^ J) ^ 2 := by
      simp only [val]
      rw [hN, hJ2]
      push_cast
      rw [zpow_add₀ (by norm_num), zpow_natCast, mul_comm 2 J, zpow_mul]
      simp [mul_assoc]
    have hroot : Real.sqrt ((fin false m e h).val : ℝ) = Real.sqrt N * 2 ^ J := by
      rw [hval, Real.sqrt_mul (Nat.cast_nonneg _), Real.sqrt_sq (two_zpow_pos _).le]
    have s1 : (r : ℝ) ≤ Real.sqrt N := Real.le_sqrt_of_sq_le (by rw [pow_two]; exact_mod_cast lo)
    have s2 : Real.sqrt N < r + 1 := by
      rw [Real.sqrt_lt' (by positivity), pow_two]; exact_mod_cast hi
    have hbig : 2 ^ (f.p + 1) ≤ r := by
      rw [hr, Nat.le_sqrt]
      calc 2 ^ (f.p + 1) * 2 ^ (f.p + 1) = 2 ^ (2 * f.p + 2) := by rw [← pow_add]; congr 1; omega
        _ ≤ 2 ^ k := Nat.pow_le_pow_right (by norm_num) (by omega)
        _ ≤ m * 2 ^ k := Nat.le_mul_of_pos_left _ (Nat.pos_of_ne_zero hm)
    have hpj := two_zpow_pos (K := ℝ) J
    have half : (2 : ℝ) ^ (J - 1) = 2 ^ J / 2 := by rw [zpow_sub₀ (by norm_num), zpow_one]
    have r1 : (2 : ℝ) ≤ r := by
      have : 2 ≤ r := le_trans (by calc 2 = 2 ^ 1 := rfl
        _ ≤ 2 ^ (f.p + 1) := Nat.pow_le_pow_right (by norm_num) (by omega)) hbig
      exact_mod_cast this
    rw [hroot, ← hN]
    by_cases hex : r * r = N
    · rw [if_pos hex]
      have : Real.sqrt N = r := by
        rw [← hex]; push_cast; exact Real.sqrt_mul_self (Nat.cast_nonneg _)
      rw [this]
      refine ⟨?_, ?_⟩
      · intro y hy
        have := hy.cast
        push_cast at this
        rw [half] at this
        have e1 : (2 * (r : ℝ) + 0) * (2 ^ J / 2) = r * 2 ^ J := by ring
        rw [e1] at this
        exact this
      · push_cast; rw [half]
        rw [show (2 * (r : ℝ) + 0) * (2 ^ J / 2) = r * 2 ^ J by ring]
        have : 0 < (r : ℝ) * 2 ^ J := mul_pos (by linarith) hpj
        linarith
    · rw [if_neg hex]
      have s1' : (r : ℝ) < Real.sqrt N := by
        refine lt_of_le_of_ne s1 ?_
        intro he
        apply hex
        have : (r : ℝ) * r = N := by rw [he]; exact Real.mul_self_sqrt (Nat.cast_nonneg _)
        exact_mod_cast this
      refine ⟨?_, ?_⟩
      · intro y hy
        have := hy.cast
        push_cast at this
        rw [half] at this
        have e1 : (2 * (r : ℝ) + 1) * (2 ^ J / 2) = (r + 1 / 2) * 2 ^ J := by ring
        rw [e1] at this
        exact Rounds.sticky hbig s1' s2 this
      · push_cast; rw [half]
        rw [show (2 * (r : ℝ) + 1) * (2 ^ J / 2) = (r + 1 / 2) * 2 ^ J by ring, ← mul_assoc]
        exact mul_lt_mul_of_pos_right (by linarith) hpj

/-- `math.Sqrt(x)` of a finite `x ≥ 0` is the number nearest to the real square root. (`htop`: the format is not so narrow that roots overflow; `float64` is not.) -/
theorem sqrt_nearest {x : FP f} (hx : x.Finite) (h0 : 0 ≤ x.val) (htop : 4 ≤ f.top) :
    (sqrt x).Finite ∧ 0 ≤ (sqrt x).val ∧
      (∀ y : FP f, y.Finite → |Real.sqrt (x.val : ℝ) - ((sqrt x).val : ℝ)| ≤ |Real.sqrt (x.val : ℝ) - (y.val : ℝ)|) := by
  cases x with
  | nan => cases hx
  | inf => cases hx
  | fin s m e h =>
    by_cases hm : m = 0
    · subst hm
      have hv : (fin s 0 e h).val = 0 := by simp [val]
      have hsq : sqrt (fin s 0 e h) = fin s 0 e h := by simp [sqrt]
      rw [hsq, hv]
      refine ⟨trivial, le_rfl, ?_⟩
      intro y _
      simp
    · have hs : s = false := by
        cases s
        · rfl
        · exfalso
          have : (0 : ℚ) < m * 2 ^ e := mul_pos (by exact_mod_cast Nat.pos_of_ne_zero hm) (two_zpow_pos _)
          simp [val] at h0
          linarith
      subst hs
      obtain ⟨n, j, hn, hsq, hround, hlt⟩ := sqrt_rounds (h := h) hm
      obtain ⟨v, hv⟩ : ∃ v, v = (fin false m e h).val := ⟨_, rfl⟩
      rw [← hv] at hround hlt h0 ⊢
      have hfv : |v| < f.top := by rw [hv]; exact finite_lt_top trivial
      rw [abs_of_nonneg h0] at hfv
      have hq : (frac n 1 j).1 / ((frac n 1 j).2 : ℚ) = n * 2 ^ j := by rw [frac_val n j one_pos]; simp
      have hqlt : (n : ℚ) * 2 ^ j < f.top := by
        have t1 : Real.sqrt (v : ℝ) * Real.sqrt (v : ℝ) = v := Real.mul_self_sqrt (by exact_mod_cast h0)
        have t2 : (v : ℝ) < (f.top : ℝ) := by exact_mod_cast hfv
        have t3 : (4 : ℝ) ≤ (f.top : ℝ) := by exact_mod_cast htop
        have t4 : 2 * Real.sqrt (v : ℝ) ≤ (f.top : ℝ) := by
          by_contra hc
          have hc := not_le.1 hc
          nlinarith
        have : (((n : ℚ) * 2 ^ j : ℚ) : ℝ) < (f.top : ℝ) := by
          rw [Rat.cast_mul, cast_two_zpow, Rat.cast_natCast]; exact hlt.trans_le t4
        exact Rat.cast_lt.1 this
      rw [hsq]
      unfold ofScaled
      rcases ofFrac_cases (f := f) false (n := (frac n 1 j).1) (d := (frac n 1 j).2) (frac_num_pos hn) (frac_pos one_pos) with
        ⟨-, m', e', hc, he, hR, -⟩ | ⟨t, -⟩
      · rw [he]
        rw [hq] at hR
        have hR' := hround _ hR
        have hval : (fin false m' e' hc).val = (m' : ℚ) * 2 ^ e' := by simp [val]
        refine ⟨trivial, by rw [hval]; positivity, ?_⟩
        intro y hy
        rw [hval]
        exact hR'.nearest_val (Real.sqrt_nonneg _) hy
      · rw [hq] at t
        exact absurd hqlt (not_lt.2 t)

end FP

namespace Float64
open FP

/-- **float64**: `math.Sqrt(x)` of a finite `x ≥ 0` is the float64 nearest to the real square root. -/
theorem sqrt_nearest {x : Float64} (hx : x.Finite) (h0 : 0 ≤ x.val) :
    (GoFloat.sqrt x).Finite ∧ 0 ≤ (GoFloat.sqrt x).val ∧
      ∀ y : Float64, y.Finite → |Real.sqrt (x.val : ℝ) - ((GoFloat.sqrt x).val : ℝ)| ≤ |Real.sqrt (x.val : ℝ) - (y.val : ℝ)| := by
  refine FP.sqrt_nearest hx h0 ?_
  show (4 : ℚ) ≤ (2 ^ 53 - 1 / 2) * 2 ^ (971 : ℤ)
  have : (1 : ℚ) ≤ 2 ^ (971 : ℤ) := one_le_zpow₀ (by norm_num) (by norm_num)
  calc (4 : ℚ) ≤ (2 ^ 53 - 1 / 2) * 1 := by norm_num
    _ ≤ _ := mul_le_mul_of_nonneg_left this (by norm_num)

/-- The root of a negative number is NaN. -/
theorem sqrt_neg {x : Float64} (h : x.val < 0) : GoFloat.sqrt x = GoFloat.nan := by
  cases x with
  | nan => rfl
  | inf s => simp [FP.val] at h
  | fin s m e hc =>
    show FP.sqrt _ = _
    cases s
    · have : (0 : ℚ) ≤ m * 2 ^ e := by positivity
      simp [FP.val] at h
      linarith
    · have : m ≠ 0 := by rintro rfl; simp [FP.val] at h
      simp only [FP.sqrt, if_neg this, if_true]
      rfl

end Float64
end Verif
