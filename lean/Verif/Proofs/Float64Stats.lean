import Verif.Proofs.Float64Scale

/-! From the errors of the single values to the mean and the variance of the column: C42 in `float64`. -/

namespace Verif
namespace FP

/-- The mean of a list of numbers. -/
def qmean (l : List ℚ) : ℚ := l.sum / l.length
/-- The variance of a list of numbers. -/
def qvariance (l : List ℚ) : ℚ := qmean (l.map fun x => (x - qmean l) ^ 2)

section
variable {α : Type}

theorem sum_sq_sub (l : List α) (g : α → ℚ) (c : ℚ) :
    (l.map fun x => (g x - c) ^ 2).sum = (l.map fun x => g x ^ 2).sum - 2 * c * (l.map g).sum + l.length * c ^ 2 := by
  induction l with
  | nil => simp
  | cons x l ih => simp only [List.map_cons, List.sum_cons, List.length_cons, ih]; push_cast; ring

theorem qvariance_eq {l : List ℚ} (hl : l ≠ []) : qvariance l = qmean (l.map (· ^ 2)) - qmean l ^ 2 := by
  have hn : (0 : ℚ) < l.length := by exact_mod_cast List.length_pos_iff.2 hl
  have h := sum_sq_sub l (fun x => x) (qmean l)
  rw [List.map_id'] at h
  unfold qvariance
  rw [qmean, List.length_map, h]
  unfold qmean
  rw [List.length_map]
  field_simp
  ring

/-- Cauchy and Schwarz. -/
theorem sum_sq_le (l : List α) (g : α → ℚ) : (l.map g).sum ^ 2 ≤ l.length * (l.map fun x => g x ^ 2).sum := by
  by_cases hl : l = []
  · subst hl; simp
  · have hn : (0 : ℚ) < l.length := by exact_mod_cast List.length_pos_iff.2 hl
    have h := sum_sq_sub l g ((l.map g).sum / l.length)
    have h0 : 0 ≤ (l.map fun x => (g x - (l.map g).sum / l.length) ^ 2).sum := List.sum_nonneg (by
      intro y hy
      obtain ⟨z, -, rfl⟩ := List.mem_map.1 hy
      positivity)
    rw [h] at h0
    have h1 : (l.map fun x => g x ^ 2).sum - 2 * ((l.map g).sum / l.length) * (l.map g).sum + l.length * ((l.map g).sum / l.length) ^ 2 =
        (l.length * (l.map fun x => g x ^ 2).sum - (l.map g).sum ^ 2) / l.length := by field_simp; ring
    rw [h1] at h0
    have := (div_nonneg_iff.1 h0)
    rcases this with h | h
    · linarith [h.1]
    · exact absurd h.2 (not_le.2 hn)

theorem abs_sum_le (l : List α) (g k : α → ℚ) (h : ∀ x ∈ l, |g x| ≤ k x) : |(l.map g).sum| ≤ (l.map k).sum := by
  induction l with
  | nil => simp
  | cons x l ih =>
    simp only [List.map_cons, List.sum_cons]
    exact (abs_add_le _ _).trans (add_le_add (h x (by simp)) (ih fun y hy => h y (by simp [hy])))

theorem sum_smul (l : List α) (g : α → ℚ) (c : ℚ) : (l.map fun x => c * g x).sum = c * (l.map g).sum := by
  induction l with
  | nil => simp
  | cons x l ih => simp only [List.map_cons, List.sum_cons, ih]; ring

theorem sum_sub' (l : List α) (g k : α → ℚ) : (l.map fun x => g x - k x).sum = (l.map g).sum - (l.map k).sum := by
  induction l with
  | nil => simp
  | cons x l ih => simp only [List.map_cons, List.sum_cons, ih]; ring
end

theorem ulp64 : ulp binary64 = 1 / 2 ^ 53 := rfl

theorem tiny64 : tiny binary64 = 1 / 2 ^ 1075 := by
  show (2 : ℚ) ^ (-1074 : ℤ) / 2 = _
  rw [zpow_neg, show (2 : ℚ) ^ (1074 : ℤ) = 2 ^ (1074 : ℕ) from zpow_natCast 2 1074,
    show (1075 : ℕ) = 1074 + 1 from rfl, pow_succ (2 : ℚ) 1074, ← one_div, div_div]

/-- A factor of `N` roundings, as a difference. -/
theorem rel_one {N : ℕ} (hN : N ≤ 2 ^ 52) {a : ℚ} (ha : 0 ≤ a) (h : Rel (rho ^ N) a 1) : |a - 1| ≤ N / 2 ^ 52 := by
  obtain ⟨h1, h2⟩ := h
  rw [abs_of_nonneg ha, abs_one] at h1 h2
  have hNq : (N : ℚ) ≤ 2 ^ 52 := by exact_mod_cast hN
  have hN0 : (0 : ℚ) ≤ N := by positivity
  have hb : 1 + (N : ℚ) * (-ulp binary64) ≤ (1 + -ulp binary64) ^ N := one_add_mul_le_pow (by rw [ulp64]; norm_num) N
  have hinv : rho ^ N * (1 + -ulp binary64) ^ N = 1 := by rw [← mul_pow, ← sub_eq_add_neg, rho_inv, one_pow]
  have hrp : 0 < rho ^ N := pow_pos rho_pos N
  have hr : rho ^ N ≤ 1 + 2 * (N * ulp binary64) := by
    have hle : rho ^ N * (1 - N * ulp binary64) ≤ 1 := by
      rw [← hinv]
      exact mul_le_mul_of_nonneg_left (by linarith) hrp.le
    have h2' : rho ^ N ≤ 2 := rho_pow_le hN
    have hnu : 0 ≤ N * ulp binary64 := mul_nonneg hN0 (ulp_pos _).le
    have := mul_le_mul_of_nonneg_right h2' hnu
    linarith
  have hu : 2 * (N * ulp binary64) = N / 2 ^ 52 := by rw [ulp64]; ring
  rw [hu] at hr
  rw [abs_le]
  constructor
  · have : (1 - N * ulp binary64) ≤ a := by
      have h3 : (1 + -ulp binary64) ^ N ≤ a := by
        have := mul_le_mul_of_nonneg_right h2 (show 0 ≤ (1 + -ulp binary64) ^ N by
          apply pow_nonneg; rw [ulp64]; norm_num)
        have e : rho ^ N * a * (1 + -ulp binary64) ^ N = a * (rho ^ N * (1 + -ulp binary64) ^ N) := by ring
        rw [one_mul, e, hinv, mul_one] at this
        exact this
      linarith
    have hnu : 0 ≤ N * ulp binary64 := mul_nonneg hN0 (ulp_pos _).le
    linarith
  · linarith

/-- `(1+2^-53)^N` is not far from 1. -/
theorem one_add_pow_le {N : ℕ} (hN : N ≤ 2 ^ 52) : (1 + ulp binary64) ^ N - 1 ≤ N / 2 ^ 52 := by
  have h0 : 0 ≤ 1 + ulp binary64 := by linarith [ulp_pos binary64]
  have h1 : (1 + ulp binary64) ^ N ≤ rho ^ N := pow_le_pow_left₀ h0 one_add_le_rho N
  have h2 := rel_one hN (pow_pos rho_pos N).le (show Rel (rho ^ N) (rho ^ N) 1 from by
    have h1 : 1 ≤ rho ^ N := one_le_pow₀ rho_ge
    constructor
    · rw [abs_of_pos (pow_pos rho_pos N), abs_one, mul_one]
    · rw [abs_of_pos (pow_pos rho_pos N), abs_one]; nlinarith)
  have := (abs_le.1 h2).2
  linarith

/-- The mean and the mean of the squares of numbers that are nearly `d · k`. -/
theorem scaled_stats {α : Type} {l : List α} {d y : α → ℚ} {k : ℚ} (hn : l.length + 10 ≤ 2 ^ 52) (hk : 0 < k)
    (hS : 0 < (l.map fun x => d x ^ 2).sum)
    (hkk : Rel (rho ^ (l.length + 6)) (k ^ 2) (l.length / (l.map fun x => d x ^ 2).sum))
    (h1 : ∀ x ∈ l, Rel (rho ^ 2) (y x) (d x * k)) (h2 : ∀ x ∈ l, |y x - d x * k| ≤ (rho ^ 2 - 1) * |d x * k|) :
    |k ^ 2 * ((l.map fun x => d x ^ 2).sum / l.length) - 1| ≤ (l.length + 10 : ℚ) / 2 ^ 52 ∧
    |(l.map fun x => y x ^ 2).sum / l.length - 1| ≤ (l.length + 10 : ℚ) / 2 ^ 52 ∧
    |(l.map y).sum / l.length - k * ((l.map d).sum / l.length)| ≤ 1 / 2 ^ 50 := by
  obtain ⟨S, hSe⟩ : ∃ S, S = (l.map fun x => d x ^ 2).sum := ⟨_, rfl⟩
  rw [← hSe] at hS hkk ⊢
  have hn0 : (0 : ℚ) < l.length := by
    have : l ≠ [] := by rintro rfl; simp [hSe] at hS
    exact_mod_cast List.length_pos_iff.2 this
  have hr0 : ∀ n : ℕ, 0 ≤ rho ^ n := fun n => pow_nonneg rho_pos.le n
  have hrel1 : Rel (rho ^ (l.length + 6)) (k ^ 2 * (S / l.length)) 1 := by
    have := Rel.mul (hr0 _) zero_le_one hkk (Rel.refl (S / l.length))
    rw [mul_one] at this
    have e : (l.length : ℚ) / S * (S / l.length) = 1 := by field_simp
    rwa [e] at this
  have hrel2 : Rel (rho ^ 4) ((l.map fun x => y x ^ 2).sum) (k ^ 2 * S) := by
    rw [hSe, ← sum_smul]
    refine Rel.sum (fun x _ => by positivity) (fun x _ => by positivity) ?_
    intro x hx
    have := Rel.mul (hr0 2) (hr0 2) (h1 x hx) (h1 x hx)
    rw [← pow_two, ← pow_two, ← pow_mul] at this
    rw [show k ^ 2 * d x ^ 2 = (d x * k) ^ 2 by ring]
    have e : d x * k * (d x * k) = (d x * k) ^ 2 := by ring
    simpa [e] using this
  have hrel3 : Rel (rho ^ (l.length + 10)) ((l.map fun x => y x ^ 2).sum / l.length) 1 := by
    have a := Rel.mul (hr0 4) zero_le_one hrel2 (Rel.refl (1 / (l.length : ℚ)))
    rw [mul_one, mul_one_div, mul_one_div, mul_div_assoc] at a
    have b := Rel.trans (hr0 4) (hr0 _) a hrel1
    rw [← pow_add, show 4 + (l.length + 6) = l.length + 10 by omega] at b
    exact b
  have cast : (((l.length + 10 : ℕ) : ℕ) : ℚ) = l.length + 10 := by push_cast; ring
  refine ⟨?_, ?_, ?_⟩
  · have := rel_one hn (by positivity) (hrel1.mono (pow_le_pow_right₀ rho_ge (by omega : l.length + 6 ≤ l.length + 10)))
    rw [cast] at this; exact this
  · have := rel_one hn (div_nonneg (List.sum_nonneg (by
      intro z hz
      obtain ⟨x, -, rfl⟩ := List.mem_map.1 hz
      positivity)) hn0.le) hrel3
    rw [cast] at this; exact this
  · have hc0 : 0 ≤ rho ^ 2 - 1 := by linarith [one_le_pow₀ rho_ge (n := 2)]
    have e1 : (l.map y).sum / l.length - k * ((l.map d).sum / l.length) = (l.map fun x => y x - d x * k).sum / l.length := by
      rw [sum_sub' l y (fun x => d x * k)]
      have : (l.map fun x => d x * k).sum = k * (l.map d).sum := by
        rw [← sum_smul]; congr 1; apply List.map_congr_left; intro x _; ring
      rw [this]; field_simp
    rw [e1, abs_div, abs_of_pos hn0, div_le_iff₀ hn0]
    have e2 := abs_sum_le l (fun x => y x - d x * k) (fun x => (rho ^ 2 - 1) * |d x * k|) h2
    rw [sum_smul] at e2
    -- the mean of the absolute values
    obtain ⟨A, hA⟩ : ∃ A, A = (l.map fun x => |d x * k|).sum := ⟨_, rfl⟩
    rw [← hA] at e2
    have hA0 : 0 ≤ A := by
      rw [hA]; exact List.sum_nonneg (by
        intro z hz
        obtain ⟨x, -, rfl⟩ := List.mem_map.1 hz
        positivity)
    have cs := sum_sq_le l (fun x => |d x * k|)
    rw [← hA] at cs
    have e3 : (l.map fun x => |d x * k| ^ 2).sum = k ^ 2 * S := by
      rw [hSe, ← sum_smul]; congr 1; apply List.map_congr_left; intro x _; rw [sq_abs]; ring
    rw [e3] at cs
    have hR := hrel1.1
    rw [abs_of_nonneg (by positivity), abs_one, mul_one] at hR
    have hR2 : rho ^ (l.length + 6) ≤ 2 := rho_pow_le (by omega)
    have hk2 : k ^ 2 * S ≤ 2 * l.length := by
      have : k ^ 2 * (S / l.length) ≤ 2 := hR.trans hR2
      rw [← mul_div_assoc, div_le_iff₀ hn0] at this
      exact this
    have hA2 : A ^ 2 ≤ (2 * l.length) ^ 2 := by
      calc A ^ 2 ≤ l.length * (k ^ 2 * S) := cs
        _ ≤ l.length * (2 * l.length) := mul_le_mul_of_nonneg_left hk2 hn0.le
        _ ≤ (2 * l.length) ^ 2 := by nlinarith
    have hA3 : A ≤ 2 * l.length := by
      have := abs_le_of_sq_le_sq' hA2 (by positivity)
      exact this.2
    have hrho : rho ^ 2 - 1 ≤ 1 / 2 ^ 51 := by unfold rho; norm_num
    calc |(l.map fun x => y x - d x * k).sum| ≤ (rho ^ 2 - 1) * A := e2
      _ ≤ 1 / 2 ^ 51 * (2 * l.length) := mul_le_mul hrho hA3 hA0 (by norm_num)
      _ = 1 / 2 ^ 50 * l.length := by ring

/-- The column that `Transform` leaves: `y = (x - m) · k`, with the mean and the scale that `Fit` computed. -/
theorem standardised {xs : List Float64} {m c : Float64} (hm : m.Finite) (hxs : ∀ x ∈ xs, x.Finite) (hn : xs.length + 10 ≤ 2 ^ 52)
    (hd : ∀ x ∈ xs, Tame (x.val - m.val)) (hne : ∃ x ∈ xs, x.val ≠ m.val) (hc : c.Finite) (hcv : c.val = xs.length)
    (hmm : m = div (xs.foldl add (zero binary64 false)) c) :
    ∃ sq k : Float64, sq = (xs.map fun v => mul (sub v m) (sub v m)).foldl add (zero binary64 false) ∧ sq.Finite ∧ 0 < sq.val ∧
      k = sqrt (div c sq) ∧ k.Finite ∧ 0 < k.val ∧
      (∀ x ∈ xs, (mul (sub x m) k).Finite) ∧
      |k.val ^ 2 * qmean (xs.map fun x => (x.val - m.val) ^ 2) - 1| ≤ (xs.length + 10 : ℚ) / 2 ^ 52 ∧
      |qmean (xs.map fun x => (mul (sub x m) k).val ^ 2) - 1| ≤ (xs.length + 10 : ℚ) / 2 ^ 52 ∧
      |qmean (xs.map fun x => (mul (sub x m) k).val)| ≤
        k.val * ((xs.length + 1) / 2 ^ 52 * qmean (xs.map fun x => |x.val|) + tiny binary64) + 1 / 2 ^ 50 := by
  obtain ⟨sq, k, hsq, s1, s2, hk, k1, k2, k3, k4⟩ := scaled_column hm hxs (by omega) hd hne hc hcv
  have hxs0 : xs ≠ [] := by obtain ⟨x, hx, -⟩ := hne; exact List.ne_nil_of_mem hx
  have hn0 : (0 : ℚ) < xs.length := by exact_mod_cast List.length_pos_iff.2 hxs0
  have hS : 0 < (xs.map fun x => (x.val - m.val) ^ 2).sum := by
    obtain ⟨x, hx, hxm⟩ := hne
    have h1 : (0 : ℚ) < (x.val - m.val) ^ 2 := by
      have := sub_ne_zero.2 hxm
      positivity
    refine lt_of_lt_of_le h1 ?_
    exact List.single_le_sum (by
      intro y hy
      obtain ⟨z, hz, rfl⟩ := List.mem_map.1 hy
      positivity) _ (List.mem_map_of_mem hx)
  have k5 : ∀ x ∈ xs, Rel (rho ^ 2) (mul (sub x m) k).val ((x.val - m.val) * k.val) := fun x hx => (k4 x hx).2.1
  have k6 : ∀ x ∈ xs, |(mul (sub x m) k).val - (x.val - m.val) * k.val| ≤ (rho ^ 2 - 1) * |(x.val - m.val) * k.val| :=
    fun x hx => (k4 x hx).2.2
  have k7 : ∀ x ∈ xs, (mul (sub x m) k).Finite := fun x hx => (k4 x hx).1
  clear k4
  obtain ⟨d, hd'⟩ : ∃ d : Float64 → ℚ, d = fun x => x.val - m.val := ⟨_, rfl⟩
  obtain ⟨y, hy'⟩ : ∃ y : Float64 → ℚ, y = fun x => (mul (sub x m) k).val := ⟨_, rfl⟩
  have hst : _ ∧ _ ∧ _ := scaled_stats (l := xs) (d := d) (y := y) (k := k.val) hn k2 (by rw [hd']; exact hS) (by rw [hd']; exact k3)
    (by rw [hd', hy']; exact k5) (by rw [hd', hy']; exact k6)
  rw [hd', hy'] at hst
  obtain ⟨r1, r2, r3⟩ := hst
  refine ⟨sq, k, hsq, s1, s2, hk, k1, k2, k7, ?_, ?_, ?_⟩
  · rw [qmean, List.length_map]; exact r1
  · rw [qmean, List.length_map]; exact r2
  · rw [qmean, List.length_map]
    have e := mean_err_abs hc hcv hxs0 (by rw [← hmm]; exact hm)
    rw [← hmm] at e
    have hmean : (xs.map fun x => x.val - m.val).sum / xs.length = (xs.map val).sum / xs.length - m.val := by
      rw [sum_sub' xs val (fun _ => m.val)]
      have : (xs.map fun _ => m.val).sum = xs.length * m.val := by simp
      rw [this]; field_simp
    rw [hmean] at r3
    have h1 : |k.val * ((xs.map val).sum / xs.length - m.val)| ≤
        k.val * ((xs.length + 1) / 2 ^ 52 * qmean (xs.map fun x => |x.val|) + tiny binary64) := by
      rw [abs_mul, abs_of_pos k2, _root_.abs_sub_comm]
      refine mul_le_mul_of_nonneg_left (e.trans ?_) k2.le
      have hp := one_add_pow_le (N := xs.length + 1) (by omega)
      rw [qmean, List.length_map]
      refine add_le_add ?_ le_rfl
      refine mul_le_mul_of_nonneg_right ?_ (div_nonneg (List.sum_nonneg (by
        intro z hz
        obtain ⟨x, -, rfl⟩ := List.mem_map.1 hz
        positivity)) hn0.le)
      push_cast at hp
      exact hp
    have h2 := abs_add_le ((xs.map fun x => (mul (sub x m) k).val).sum / xs.length - k.val * ((xs.map val).sum / xs.length - m.val))
      (k.val * ((xs.map val).sum / xs.length - m.val))
    rw [sub_add_cancel] at h2
    exact (h2.trans (add_le_add r3 h1)).trans (le_of_eq (add_comm _ _))

/-- A column whose values all are the mean that is learnt. -/
theorem standardised_const {xs : List Float64} {m c1 : Float64} (hm : m.Finite) (hxs : ∀ x ∈ xs, x.Finite) (hn : xs.length + 10 ≤ 2 ^ 52)
    (he : ∀ x ∈ xs, x.val = m.val) (hc : c1.Finite) (hcv : c1.val = xs.length + 1) {one : Float64} (h1 : one.Finite) (h1v : one.val = 1) :
    ∃ sq k : Float64, sq = (xs.map fun v => mul (sub v m) (sub v m)).foldl add (zero binary64 false) ∧ sq.Finite ∧ sq.val = 0 ∧
      k = sqrt (div c1 (add sq one)) ∧ k.Finite ∧ ∀ x ∈ xs, (mul (sub x m) k).Finite ∧ (mul (sub x m) k).val = 0 := by
  have hdev : ∀ x ∈ xs, (sub x m).Finite ∧ (sub x m).val = 0 := by
    intro x hx
    obtain ⟨a, b, -⟩ := dev_rel (hxs x hx) hm (Or.inl (by rw [he x hx, sub_self]))
    exact ⟨a, by rw [b.zero_iff, he x hx, sub_self]⟩
  have hsqs : ∀ q ∈ xs.map (fun v => mul (sub v m) (sub v m)), q.Finite ∧ q.val = 0 := by
    intro q hq
    obtain ⟨x, hx, rfl⟩ := List.mem_map.1 hq
    obtain ⟨a, b⟩ := hdev x hx
    obtain ⟨u, v⟩ := mul_rel a a (by rw [b, mul_zero, abs_zero]; exact lt_of_lt_of_le (two_zpow_pos _) top64) (Or.inl (by rw [b, mul_zero]))
    exact ⟨u, by rw [v.zero_iff, b, mul_zero]⟩
  have hsum : ∀ (qs : List Float64) (s : Float64), s.Finite → s.val = 0 → (∀ q ∈ qs, q.Finite ∧ q.val = 0) →
      (qs.foldl add s).Finite ∧ (qs.foldl add s).val = 0 := by
    intro qs
    induction qs with
    | nil => intro s a b _; exact ⟨a, b⟩
    | cons q qs ih =>
      intro s a b hq
      obtain ⟨u, v⟩ := hq q (by simp)
      obtain ⟨w1, w2⟩ := add_rel a u (by rw [b, v, add_zero, abs_zero]; exact lt_of_lt_of_le (two_zpow_pos _) top64)
      exact ih _ w1 (by rw [w2.zero_iff, b, v, add_zero]) fun q' h' => hq q' (by simp [h'])
  obtain ⟨sq, hsq⟩ : ∃ sq, sq = (xs.map fun v => mul (sub v m) (sub v m)).foldl add (zero binary64 false) := ⟨_, rfl⟩
  obtain ⟨s1, s2⟩ := hsum _ (zero binary64 false) (zero_finite _) (by rw [zero_val]) hsqs
  rw [← hsq] at s1 s2
  have hnq : (xs.length : ℚ) + 10 ≤ 2 ^ 52 := by exact_mod_cast hn
  have hn0 : (0 : ℚ) ≤ xs.length := by positivity
  have hbig : ∀ q : ℚ, |q| ≤ 2 ^ 53 → |q| < binary64.top := fun q hq => lt_top64 (a := 53) (by norm_num) (by exact_mod_cast hq)
  obtain ⟨t1, t2⟩ := add_rel s1 h1 (hbig _ (by rw [s2, h1v]; norm_num))
  rw [s2, h1v, zero_add] at t2
  have hr1 : rho ≤ 2 := by simpa using rho_pow_le (n := 1) (by norm_num)
  have t0 : (add sq one).val ≠ 0 := fun h => one_ne_zero (t2.zero_iff.1 h)
  have tup : |(add sq one).val| ≤ 2 := by have := t2.1; rw [abs_one, mul_one] at this; exact this.trans hr1
  have tlo : 1 ≤ 2 * |(add sq one).val| := by
    have := t2.2; rw [abs_one] at this
    exact this.trans (mul_le_mul_of_nonneg_right hr1 (abs_nonneg _))
  have tpos : 0 < |(add sq one).val| := abs_pos.2 t0
  have hq1 : |c1.val / (add sq one).val| ≤ 2 ^ 53 := by
    rw [abs_div, div_le_iff₀ tpos, hcv, abs_of_nonneg (show (0 : ℚ) ≤ xs.length + 1 by linarith)]
    nlinarith
  have hq2 : 1 / 2 ≤ |c1.val / (add sq one).val| := by
    rw [abs_div, le_div_iff₀ tpos, hcv, abs_of_nonneg (show (0 : ℚ) ≤ xs.length + 1 by linarith)]
    linarith
  have hsmall : (2 : ℚ) ^ (-1021 : ℤ) ≤ 1 / 4 := by
    have := two_zpow_le (a := -1021) (b := -2) (by norm_num)
    refine this.trans (by norm_num)
  obtain ⟨d1, d2⟩ := div_rel hc t1 t0 (hbig _ hq1) (hsmall.trans (le_trans (by norm_num) hq2))
  have hdl : 1 / 4 ≤ |(div c1 (add sq one)).val| := by
    have := d2.2
    have h3 := this.trans (mul_le_mul_of_nonneg_right hr1 (abs_nonneg _))
    linarith
  have hdn : 0 ≤ (div c1 (add sq one)).val := by
    have tge : 0 < (add sq one).val := by
      have := nonNeg_add (nonNeg_of_finite s1 (by rw [s2])) (nonNeg_of_finite h1 (by rw [h1v]; norm_num))
      generalize add sq one = z at this t1 t0
      cases z with
      | nan => cases t1
      | inf => cases t1
      | fin => exact lt_of_le_of_ne this (Ne.symm t0)
    have := nonNeg_div (nonNeg_of_finite hc (by rw [hcv]; positivity)) t1 tge
    generalize div c1 (add sq one) = z at this d1
    cases z with
    | nan => cases d1
    | inf => cases d1
    | fin => exact this
  rw [abs_of_nonneg hdn] at hdl
  obtain ⟨k1, k2, k3⟩ := sqrt_rel d1 (hsmall.trans hdl)
  refine ⟨sq, _, hsq, s1, s2, rfl, k1, ?_⟩
  intro x hx
  obtain ⟨a, b⟩ := hdev x hx
  obtain ⟨u, v⟩ := mul_rel a k1 (by rw [b, zero_mul, abs_zero]; exact lt_of_lt_of_le (two_zpow_pos _) top64) (Or.inl (by rw [b, zero_mul]))
  exact ⟨u, by rw [v.zero_iff, b, zero_mul]⟩

end FP
end Verif
