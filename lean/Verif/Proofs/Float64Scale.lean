import Verif.Proofs.Float64Near

/-! The standardised column in `float64`: C42. -/

namespace Verif
namespace FP

theorem two_zmul (a b : ℤ) : (2 : ℚ) ^ a * 2 ^ b = 2 ^ (a + b) := (zpow_add₀ (by norm_num) a b).symm

/-- A deviation whose square neither overflows nor underflows. -/
def Tame (d : ℚ) : Prop := d = 0 ∨ (2 ^ (-480 : ℤ) ≤ |d| ∧ |d| ≤ 2 ^ (480 : ℤ))

theorem lt_top64 {a : ℤ} (h : a ≤ 1022) {q : ℚ} (hq : q ≤ 2 ^ a) : q < binary64.top := by
  refine lt_of_le_of_lt hq (lt_of_lt_of_le ?_ top64)
  exact zpow_lt_zpow_right₀ (by norm_num) (by omega)

/-- One deviation, as computed. -/
theorem dev_rel {x m : Float64} (hx : x.Finite) (hm : m.Finite) (hd : Tame (x.val - m.val)) :
    (sub x m).Finite ∧ Rel rho (sub x m).val (x.val - m.val) ∧ |(sub x m).val| ≤ 2 ^ (481 : ℤ) ∧
      ((sub x m).val = 0 ∨ 2 ^ (-481 : ℤ) ≤ |(sub x m).val|) := by
  have hle : |x.val - m.val| ≤ 2 ^ (480 : ℤ) := by
    rcases hd with h | h
    · rw [h, abs_zero]; exact (two_zpow_pos _).le
    · exact h.2
  obtain ⟨h1, h2⟩ := sub_rel hx hm (lt_top64 (by norm_num) hle)
  have hr : rho ≤ 2 := by simpa using rho_pow_le (n := 1) (by norm_num)
  refine ⟨h1, h2, ?_, ?_⟩
  · calc |(sub x m).val| ≤ rho * |x.val - m.val| := h2.1
      _ ≤ 2 * 2 ^ (480 : ℤ) := mul_le_mul hr hle (abs_nonneg _) (by norm_num)
      _ = 2 ^ (481 : ℤ) := by rw [show (481 : ℤ) = 1 + 480 by norm_num, ← two_zmul]; simp
  · rcases hd with h | h
    · left; rw [h2.zero_iff]; exact h
    · right
      have h3 : |x.val - m.val| ≤ 2 * |(sub x m).val| :=
        h2.2.trans (mul_le_mul_of_nonneg_right hr (abs_nonneg _))
      have h4 : (2 : ℚ) ^ (-480 : ℤ) = 2 * 2 ^ (-481 : ℤ) := by
        rw [show (-480 : ℤ) = 1 + -481 by norm_num, ← two_zmul]; simp
      have := h.1
      linarith

/-- One square, as computed. -/
theorem sq_rel {x m : Float64} (hx : x.Finite) (hm : m.Finite) (hd : Tame (x.val - m.val)) :
    (mul (sub x m) (sub x m)).Finite ∧ 0 ≤ (mul (sub x m) (sub x m)).val ∧
      Rel (rho ^ 3) (mul (sub x m) (sub x m)).val ((x.val - m.val) ^ 2) := by
  obtain ⟨h1, h2, h3, h4⟩ := dev_rel hx hm hd
  have h5 : |(sub x m).val * (sub x m).val| ≤ 2 ^ (962 : ℤ) := by
    rw [abs_mul, show (962 : ℤ) = 481 + 481 by norm_num, ← two_zmul]
    exact mul_le_mul h3 h3 (abs_nonneg _) (two_zpow_pos _).le
  have h6 : (sub x m).val * (sub x m).val = 0 ∨ 2 ^ (-1021 : ℤ) ≤ |(sub x m).val * (sub x m).val| := by
    rcases h4 with h | h
    · left; rw [h, mul_zero]
    · right
      refine (two_zpow_le (b := -481 + -481) (by norm_num)).trans ?_
      rw [abs_mul, ← two_zmul]
      exact mul_le_mul h h (two_zpow_pos _).le (abs_nonneg _)
  obtain ⟨k1, k2⟩ := mul_rel h1 h1 (lt_top64 (by norm_num) h5) h6
  refine ⟨k1, ?_, ?_⟩
  · have := nonNeg_sq (x := sub x m) (by generalize sub x m = z at h1; cases z with | nan => cases h1 | inf => rfl | fin => rfl)
    generalize mul (sub x m) (sub x m) = z at this k1
    cases z with
    | nan => cases k1
    | inf => cases k1
    | fin => exact this
  · have := Rel.trans rho_pos.le (mul_nonneg rho_pos.le rho_pos.le) k2 (Rel.mul rho_pos.le rho_pos.le h2 h2)
    rw [show rho ^ 3 = rho * (rho * rho) by ring, pow_two]
    exact this

/-- The scale that is learnt, and the scaled values. -/
theorem scaled_column {xs : List Float64} {m c : Float64} (hm : m.Finite) (hxs : ∀ x ∈ xs, x.Finite) (hn : xs.length ≤ 2 ^ 52)
    (hd : ∀ x ∈ xs, Tame (x.val - m.val)) (hne : ∃ x ∈ xs, x.val ≠ m.val) (hc : c.Finite) (hcv : c.val = xs.length) :
    ∃ sq k : Float64, sq = (xs.map fun v => mul (sub v m) (sub v m)).foldl add (zero binary64 false) ∧ sq.Finite ∧ 0 < sq.val ∧
      k = sqrt (div c sq) ∧ k.Finite ∧ 0 < k.val ∧
      Rel (rho ^ (xs.length + 6)) (k.val ^ 2) (xs.length / (xs.map fun x => (x.val - m.val) ^ 2).sum) ∧
      ∀ x ∈ xs, (mul (sub x m) k).Finite ∧ Rel (rho ^ 2) (mul (sub x m) k).val ((x.val - m.val) * k.val) ∧
        |(mul (sub x m) k).val - (x.val - m.val) * k.val| ≤ (rho ^ 2 - 1) * |(x.val - m.val) * k.val| := by
  obtain ⟨n, hnn⟩ : ∃ n, n = xs.length := ⟨_, rfl⟩
  rw [← hnn] at hn hcv ⊢
  obtain ⟨S, hS⟩ : ∃ S, S = (xs.map fun x => (x.val - m.val) ^ 2).sum := ⟨_, rfl⟩
  rw [← hS]
  have hn0 : 0 < n := by
    obtain ⟨x, hx, -⟩ := hne
    rw [hnn]; exact List.length_pos_of_mem hx
  have hnq : (1 : ℚ) ≤ n := by exact_mod_cast hn0
  have hnq' : (n : ℚ) ≤ 2 ^ (52 : ℤ) := by
    have : (n : ℚ) ≤ 2 ^ 52 := by exact_mod_cast hn
    exact_mod_cast this
  -- the exact sum of squares
  have hterm : ∀ x ∈ xs, (x.val - m.val) ^ 2 ≤ 2 ^ (960 : ℤ) := by
    intro x hx
    have hle : |x.val - m.val| ≤ 2 ^ (480 : ℤ) := by
      rcases hd x hx with h | h
      · rw [h, abs_zero]; exact (two_zpow_pos _).le
      · exact h.2
    rw [← sq_abs, pow_two, show (960 : ℤ) = 480 + 480 by norm_num, ← two_zmul]
    exact mul_le_mul hle hle (abs_nonneg _) (two_zpow_pos _).le
  have hSle : S ≤ 2 ^ (1012 : ℤ) := by
    have h1 : S ≤ n * 2 ^ (960 : ℤ) := by
      rw [hS, hnn]
      have := List.sum_le_card_nsmul (xs.map fun x => (x.val - m.val) ^ 2) (2 ^ (960 : ℤ)) (by
        intro y hy
        obtain ⟨x, hx, rfl⟩ := List.mem_map.1 hy
        exact hterm x hx)
      rwa [List.length_map, nsmul_eq_mul] at this
    calc S ≤ n * 2 ^ (960 : ℤ) := h1
      _ ≤ 2 ^ (52 : ℤ) * 2 ^ (960 : ℤ) := mul_le_mul_of_nonneg_right hnq' (two_zpow_pos _).le
      _ = 2 ^ (1012 : ℤ) := two_zmul _ _
  have hSge : 2 ^ (-960 : ℤ) ≤ S := by
    obtain ⟨x, hx, hxm⟩ := hne
    have h1 : (2 : ℚ) ^ (-960 : ℤ) ≤ (x.val - m.val) ^ 2 := by
      rcases hd x hx with h | h
      · exact absurd (sub_eq_zero.1 h) hxm
      · rw [← sq_abs, pow_two, show (-960 : ℤ) = -480 + -480 by norm_num, ← two_zmul]
        exact mul_le_mul h.1 h.1 (two_zpow_pos _).le (abs_nonneg _)
    refine h1.trans ?_
    rw [hS]
    exact List.single_le_sum (by
      intro y hy
      obtain ⟨z, hz, rfl⟩ := List.mem_map.1 hy
      positivity) _ (List.mem_map_of_mem hx)
  have hSpos : 0 < S := lt_of_lt_of_le (two_zpow_pos _) hSge
  -- the computed sum of squares
  obtain ⟨sq, hsq⟩ : ∃ sq, sq = (xs.map fun v => mul (sub v m) (sub v m)).foldl add (zero binary64 false) := ⟨_, rfl⟩
  have hqs : ∀ q ∈ xs.map (fun v => mul (sub v m) (sub v m)), q.Finite ∧ 0 ≤ q.val := by
    intro q hq
    obtain ⟨x, hx, rfl⟩ := List.mem_map.1 hq
    obtain ⟨a, b, -⟩ := sq_rel (hxs x hx) hm (hd x hx)
    exact ⟨a, b⟩
  have hrel3 : Rel (rho ^ 3) ((xs.map fun v => mul (sub v m) (sub v m)).map val).sum S := by
    rw [hS, List.map_map]
    refine Rel.sum ?_ ?_ ?_
    · intro x hx; exact (sq_rel (hxs x hx) hm (hd x hx)).2.1
    · intro x _; positivity
    · intro x hx; exact (sq_rel (hxs x hx) hm (hd x hx)).2.2
  have hQ0 : 0 ≤ ((xs.map fun v => mul (sub v m) (sub v m)).map val).sum := List.sum_nonneg (by
    intro y hy
    obtain ⟨z, hz, rfl⟩ := List.mem_map.1 hy
    exact (hqs z hz).2)
  have hr3 : rho ^ 3 ≤ 2 := rho_pow_le (by norm_num)
  have hrn : rho ^ n ≤ 2 := rho_pow_le hn
  have hrn0 : 0 ≤ rho ^ n := pow_nonneg rho_pos.le _
  have hQle : ((xs.map fun v => mul (sub v m) (sub v m)).map val).sum ≤ 2 * 2 ^ (1012 : ℤ) := by
    have := hrel3.1
    rw [abs_of_nonneg hQ0, abs_of_pos hSpos] at this
    exact this.trans (mul_le_mul hr3 hSle hSpos.le (by norm_num))
  have hz1 : (2 : ℚ) * 2 ^ (1012 : ℤ) = 2 ^ (1013 : ℤ) := by
    rw [show (1013 : ℤ) = 1 + 1012 by norm_num, ← two_zmul]; simp
  have hz2 : (2 : ℚ) * 2 ^ (1013 : ℤ) = 2 ^ (1014 : ℤ) := by
    rw [show (1014 : ℤ) = 1 + 1013 by norm_num, ← two_zmul]; simp
  obtain ⟨s1, s2, s3⟩ := foldl_add_rel (qs := xs.map fun v => mul (sub v m) (sub v m)) (s := zero binary64 false) (zero_finite _)
    (by rw [zero_val]) hqs (by
      rw [zero_val, zero_add, List.length_map, ← hnn]
      refine lt_top64 (a := 1014) (by norm_num) ?_
      rw [← hz2]
      refine mul_le_mul hrn ?_ hQ0 (by norm_num)
      rw [← hz1]; exact hQle)
  rw [← hsq] at s1 s2 s3
  rw [zero_val, zero_add, List.length_map, ← hnn] at s3
  have hrel : Rel (rho ^ (n + 3)) sq.val S := by
    rw [pow_add]
    exact Rel.trans hrn0 (pow_nonneg rho_pos.le _) s3 hrel3
  have hrn3 : rho ^ (n + 3) ≤ 4 := by
    rw [pow_add]
    calc rho ^ n * rho ^ 3 ≤ 2 * 2 := mul_le_mul hrn hr3 (pow_nonneg rho_pos.le _) (by norm_num)
      _ = 4 := by norm_num
  have hsq0 : sq.val ≠ 0 := fun h => hSpos.ne' (hrel.zero_iff.1 h)
  have hsqpos : 0 < sq.val := lt_of_le_of_ne s2 (Ne.symm hsq0)
  have hsqle : sq.val ≤ 2 ^ (1014 : ℤ) := by
    have := hrel.1
    rw [abs_of_pos hsqpos, abs_of_pos hSpos] at this
    calc sq.val ≤ rho ^ (n + 3) * S := this
      _ ≤ 4 * 2 ^ (1012 : ℤ) := mul_le_mul hrn3 hSle hSpos.le (by norm_num)
      _ = 2 ^ (1014 : ℤ) := by rw [show (1014 : ℤ) = 2 + 1012 by norm_num, ← two_zmul]; norm_num
  have hsqge : 2 ^ (-962 : ℤ) ≤ sq.val := by
    have := hrel.2
    rw [abs_of_pos hsqpos, abs_of_pos hSpos] at this
    have h1 : S ≤ 4 * sq.val := this.trans (mul_le_mul_of_nonneg_right hrn3 hsqpos.le)
    have h2 : (2 : ℚ) ^ (-960 : ℤ) = 4 * 2 ^ (-962 : ℤ) := by
      rw [show (-960 : ℤ) = 2 + -962 by norm_num, ← two_zmul]; norm_num
    linarith
  -- the quotient
  have hqpos : 0 < c.val / sq.val := by rw [hcv]; positivity
  have hqle : c.val / sq.val ≤ 2 ^ (1014 : ℤ) := by
    rw [div_le_iff₀ hsqpos, hcv]
    calc (n : ℚ) ≤ 2 ^ (52 : ℤ) := hnq'
      _ = 2 ^ (1014 : ℤ) * 2 ^ (-962 : ℤ) := by rw [two_zmul]; norm_num
      _ ≤ 2 ^ (1014 : ℤ) * sq.val := mul_le_mul_of_nonneg_left hsqge (two_zpow_pos _).le
  have hqge : 2 ^ (-1014 : ℤ) ≤ c.val / sq.val := by
    rw [le_div_iff₀ hsqpos, hcv]
    calc (2 : ℚ) ^ (-1014 : ℤ) * sq.val ≤ 2 ^ (-1014 : ℤ) * 2 ^ (1014 : ℤ) := mul_le_mul_of_nonneg_left hsqle (two_zpow_pos _).le
      _ = 1 := by rw [two_zmul]; norm_num
      _ ≤ n := hnq
  obtain ⟨d1, d2⟩ := div_rel hc s1 hsq0 (by rw [abs_of_pos hqpos]; exact lt_top64 (by norm_num) hqle)
    (by rw [abs_of_pos hqpos]; exact (two_zpow_le (by norm_num)).trans hqge)
  have hr1 : rho ≤ 2 := by simpa using rho_pow_le (n := 1) (by norm_num)
  have hr2 : rho ^ 2 ≤ 2 := rho_pow_le (by norm_num)
  have hdpos : 0 < (div c sq).val := by
    have := nonNeg_div (nonNeg_of_finite hc (by rw [hcv]; positivity)) s1 hsqpos
    have h0 : (div c sq).val ≠ 0 := fun h => hqpos.ne' (d2.zero_iff.1 h)
    generalize div c sq = z at this d1 h0
    cases z with
    | nan => cases d1
    | inf => cases d1
    | fin => exact lt_of_le_of_ne this (Ne.symm h0)
  have hdle : (div c sq).val ≤ 2 ^ (1015 : ℤ) := by
    have := d2.1
    rw [abs_of_pos hdpos, abs_of_pos hqpos] at this
    calc (div c sq).val ≤ rho * (c.val / sq.val) := this
      _ ≤ 2 * 2 ^ (1014 : ℤ) := mul_le_mul hr1 hqle hqpos.le (by norm_num)
      _ = 2 ^ (1015 : ℤ) := by rw [show (1015 : ℤ) = 1 + 1014 by norm_num, ← two_zmul]; simp
  have hdge : 2 ^ (-1015 : ℤ) ≤ (div c sq).val := by
    have := d2.2
    rw [abs_of_pos hdpos, abs_of_pos hqpos] at this
    have h1 : c.val / sq.val ≤ 2 * (div c sq).val := this.trans (mul_le_mul_of_nonneg_right hr1 hdpos.le)
    have h2 : (2 : ℚ) ^ (-1014 : ℤ) = 2 * 2 ^ (-1015 : ℤ) := by
      rw [show (-1014 : ℤ) = 1 + -1015 by norm_num, ← two_zmul]; simp
    linarith
  -- the root
  obtain ⟨k1, k2, k3⟩ := sqrt_rel d1 ((two_zpow_le (by norm_num)).trans hdge)
  obtain ⟨k, hk⟩ : ∃ k, k = sqrt (div c sq) := ⟨_, rfl⟩
  rw [← hk] at k1 k2 k3
  have hk0 : k.val ≠ 0 := fun h => hdpos.ne' (k3.zero_iff.1 (by rw [h]; norm_num))
  have hkpos : 0 < k.val := lt_of_le_of_ne k2 (Ne.symm hk0)
  have hkle : k.val ≤ 2 ^ (508 : ℤ) := by
    have := k3.1
    rw [abs_of_pos (by positivity), abs_of_pos hdpos] at this
    have h1 : k.val ^ 2 ≤ (2 ^ (508 : ℤ)) ^ 2 := by
      calc k.val ^ 2 ≤ rho ^ 2 * (div c sq).val := this
        _ ≤ 2 * 2 ^ (1015 : ℤ) := mul_le_mul hr2 hdle hdpos.le (by norm_num)
        _ = 2 ^ (508 : ℤ) * 2 ^ (508 : ℤ) := by
          rw [two_zmul, show (508 + 508 : ℤ) = 1 + 1015 by norm_num, ← two_zmul]; simp
        _ = _ := (pow_two _).symm
    exact le_of_sq_le_sq h1 (two_zpow_pos _).le
  have hkge : 2 ^ (-508 : ℤ) ≤ k.val := by
    have := k3.2
    rw [abs_of_pos (show 0 < k.val ^ 2 by positivity), abs_of_pos hdpos] at this
    have h1 : ((2 : ℚ) ^ (-508 : ℤ)) ^ 2 ≤ k.val ^ 2 := by
      have h2 : (div c sq).val ≤ 2 * k.val ^ 2 := this.trans (mul_le_mul_of_nonneg_right hr2 (by positivity))
      have h3 : (2 : ℚ) ^ (-1015 : ℤ) = 2 * (2 ^ (-508 : ℤ)) ^ 2 := by
        rw [pow_two, two_zmul, show (-1015 : ℤ) = 1 + (-508 + -508) by norm_num, ← two_zmul]; simp
      linarith
    exact le_of_sq_le_sq h1 hkpos.le
  refine ⟨sq, k, hsq, s1, hsqpos, hk, k1, hkpos, ?_, ?_⟩
  · have h1 : Rel (rho ^ (n + 3)) (c.val / sq.val) (n / S) := by
      rw [hcv]; exact Rel.div_left _ hsq0 hSpos.ne' hrel
    have h2 := Rel.trans (by positivity) rho_pos.le k3 d2
    have h3 := Rel.trans (mul_nonneg (by positivity) rho_pos.le) (pow_nonneg rho_pos.le _) h2 h1
    rw [show rho ^ (n + 6) = rho ^ 2 * rho * rho ^ (n + 3) by ring]
    exact h3
  · intro x hx
    obtain ⟨e1, e2, e3, e4⟩ := dev_rel (hxs x hx) hm (hd x hx)
    have f1 : |(sub x m).val * k.val| ≤ 2 ^ (989 : ℤ) := by
      rw [abs_mul, abs_of_pos hkpos, show (989 : ℤ) = 481 + 508 by norm_num, ← two_zmul]
      exact mul_le_mul e3 hkle hkpos.le (two_zpow_pos _).le
    have f2 : (sub x m).val * k.val = 0 ∨ 2 ^ (-1021 : ℤ) ≤ |(sub x m).val * k.val| := by
      rcases e4 with h | h
      · left; rw [h, zero_mul]
      · right
        refine (two_zpow_le (b := -481 + -508) (by norm_num)).trans ?_
        rw [abs_mul, abs_of_pos hkpos, ← two_zmul]
        exact mul_le_mul h hkge (two_zpow_pos _).le (abs_nonneg _)
    obtain ⟨g1, g2⟩ := mul_rel e1 k1 (lt_top64 (by norm_num) f1) f2
    have g3 : Rel (rho ^ 2) (mul (sub x m) k).val ((x.val - m.val) * k.val) := by
      have := Rel.trans rho_pos.le (by simpa using rho_pos.le) g2 (Rel.mul rho_pos.le zero_le_one e2 (Rel.refl k.val))
      rw [mul_one, ← pow_two] at this
      exact this
    refine ⟨g1, g3, ?_⟩
    have hz : (mul (sub x m) k).val = 0 ↔ (x.val - m.val) * k.val = 0 := g3.zero_iff
    have u0 : (0 : ℚ) ≤ ulp binary64 := (ulp_pos _).le
    have m1 : |(mul (sub x m) k).val - (sub x m).val * k.val| ≤ ulp binary64 * |(sub x m).val * k.val| := by
      rcases f2 with h | h
      · have hz' : (mul (sub x m) k).val = 0 := by
          rw [g2.zero_iff]; exact h
        rw [hz', h]; simp
      · have e : mul (sub x m) k = rnd binary64 ((sub x m).val * k.val) := by
          rw [mul_eq_rnd e1 k1, if_neg]
          intro h'
          rw [h', abs_zero] at h
          exact absurd h (not_le.2 (two_zpow_pos _))
        rw [e]
        exact rnd_rel (by rw [← e]; exact g1) h
    have m2 : |(sub x m).val - (x.val - m.val)| ≤ ulp binary64 * |x.val - m.val| := sub_err (hxs x hx) hm e1
    have m3 : |(sub x m).val| ≤ (1 + ulp binary64) * |x.val - m.val| := by
      have := abs_add_le (x.val - m.val) ((sub x m).val - (x.val - m.val))
      rw [add_sub_cancel] at this
      linarith
    have m4 : |(mul (sub x m) k).val - (x.val - m.val) * k.val| ≤ ulp binary64 * |(sub x m).val * k.val| + ulp binary64 * |x.val - m.val| * |k.val| := by
      have h1 : (mul (sub x m) k).val - (x.val - m.val) * k.val =
          ((mul (sub x m) k).val - (sub x m).val * k.val) + ((sub x m).val - (x.val - m.val)) * k.val := by ring
      rw [h1]
      refine (abs_add_le _ _).trans (add_le_add m1 ?_)
      rw [abs_mul]
      exact mul_le_mul_of_nonneg_right m2 (abs_nonneg _)
    have hrho : (1 + ulp binary64) ^ 2 ≤ rho ^ 2 := pow_le_pow_left₀ (by linarith) one_add_le_rho 2
    rw [abs_mul] at m4
    rw [abs_mul]
    have m5 : ulp binary64 * (|(sub x m).val| * |k.val|) ≤ ulp binary64 * ((1 + ulp binary64) * |x.val - m.val| * |k.val|) :=
      mul_le_mul_of_nonneg_left (mul_le_mul_of_nonneg_right m3 (abs_nonneg _)) u0
    have m6 : ((1 + ulp binary64) ^ 2 - 1) * (|x.val - m.val| * |k.val|) ≤ (rho ^ 2 - 1) * (|x.val - m.val| * |k.val|) :=
      mul_le_mul_of_nonneg_right (by linarith) (by positivity)
    calc _ ≤ _ := m4
      _ ≤ ((1 + ulp binary64) ^ 2 - 1) * (|x.val - m.val| * |k.val|) := by
        have : ((1 + ulp binary64) ^ 2 - 1) * (|x.val - m.val| * |k.val|) =
          ulp binary64 * ((1 + ulp binary64) * |x.val - m.val| * |k.val|) + ulp binary64 * |x.val - m.val| * |k.val| := by ring
        linarith
      _ ≤ _ := m6

end FP
end Verif
