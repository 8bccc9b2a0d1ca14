import Verif.Proofs.Float64Sqrt
import Verif.Proofs.Float64Sum
import Mathlib.Tactic.Positivity
import Mathlib.Algebra.Order.Chebyshev

/-! Relative errors of `float64` computations, for C42: what is computed and what is meant are a factor apart. -/

namespace Verif
namespace FP
variable {f : FFmt}

/-! ### `a` and `b` are at most a factor `r` apart -/

/-- `a` and `b` are at most a factor `r` apart, signs apart. -/
def Rel (r a b : ℚ) : Prop := |a| ≤ r * |b| ∧ |b| ≤ r * |a|

/-- The factor of one rounding. -/
def rho : ℚ := 2 ^ 53 / (2 ^ 53 - 1)

theorem rho_pos : 0 < rho := by unfold rho; norm_num
theorem rho_ge : 1 ≤ rho := by unfold rho; norm_num
theorem rho_inv : rho * (1 - ulp binary64) = 1 := by
  show rho * (1 - 1 / 2 ^ 53) = 1
  unfold rho; norm_num
theorem one_add_le_rho : 1 + ulp binary64 ≤ rho := by
  show (1 : ℚ) + 1 / 2 ^ 53 ≤ rho
  unfold rho; norm_num

theorem Rel.refl (a : ℚ) : Rel 1 a a := ⟨by simp, by simp⟩

theorem Rel.symm {r a b : ℚ} (h : Rel r a b) : Rel r b a := ⟨h.2, h.1⟩

theorem Rel.mono {r s a b : ℚ} (h : Rel r a b) (hs : r ≤ s) : Rel s a b :=
  ⟨h.1.trans (mul_le_mul_of_nonneg_right hs (abs_nonneg _)), h.2.trans (mul_le_mul_of_nonneg_right hs (abs_nonneg _))⟩

theorem Rel.trans {r s a b c : ℚ} (hr : 0 ≤ r) (hs : 0 ≤ s) (h : Rel r a b) (h' : Rel s b c) : Rel (r * s) a c := by
  constructor
  · calc |a| ≤ r * |b| := h.1
      _ ≤ r * (s * |c|) := mul_le_mul_of_nonneg_left h'.1 hr
      _ = r * s * |c| := by ring
  · calc |c| ≤ s * |b| := h'.2
      _ ≤ s * (r * |a|) := mul_le_mul_of_nonneg_left h.2 hs
      _ = r * s * |a| := by ring

theorem Rel.mul {r s a b c d : ℚ} (hr : 0 ≤ r) (hs : 0 ≤ s) (h : Rel r a b) (h' : Rel s c d) : Rel (r * s) (a * c) (b * d) := by
  constructor
  · rw [abs_mul, abs_mul]
    calc |a| * |c| ≤ (r * |b|) * (s * |d|) := mul_le_mul h.1 h'.1 (abs_nonneg _) (mul_nonneg hr (abs_nonneg _))
      _ = r * s * (|b| * |d|) := by ring
  · rw [abs_mul, abs_mul]
    calc |b| * |d| ≤ (r * |a|) * (s * |c|) := mul_le_mul h.2 h'.2 (abs_nonneg _) (mul_nonneg hr (abs_nonneg _))
      _ = r * s * (|a| * |c|) := by ring

theorem Rel.div_left {r a b : ℚ} (c : ℚ) (ha : a ≠ 0) (hb : b ≠ 0) (h : Rel r a b) : Rel r (c / a) (c / b) := by
  have pa := abs_pos.2 ha
  have pb := abs_pos.2 hb
  have pc := abs_nonneg c
  constructor <;> rw [abs_div, abs_div]
  · rw [div_le_iff₀ pa, mul_assoc, div_mul_eq_mul_div, mul_div_assoc', le_div_iff₀ pb]
    have := mul_le_mul_of_nonneg_left h.2 pc
    linarith
  · rw [div_le_iff₀ pb, mul_assoc, div_mul_eq_mul_div, mul_div_assoc', le_div_iff₀ pa]
    have := mul_le_mul_of_nonneg_left h.1 pc
    linarith

theorem Rel.zero_iff {r a b : ℚ} (h : Rel r a b) : a = 0 ↔ b = 0 := by
  constructor
  · rintro rfl
    have := h.2
    rw [abs_zero, mul_zero] at this
    exact abs_nonpos_iff.1 this
  · rintro rfl
    have := h.1
    rw [abs_zero, mul_zero] at this
    exact abs_nonpos_iff.1 this

/-- A relative error below `ulp`. -/
theorem rel_of_err {a b : ℚ} (h : |a - b| ≤ ulp binary64 * |b|) : Rel rho a b := by
  have h1 : |a| ≤ |b| + |a - b| := by
    have := abs_add_le b (a - b)
    rwa [add_sub_cancel] at this
  have h2 : |b| ≤ |a| + |a - b| := by
    have := abs_add_le a (b - a)
    rw [add_sub_cancel, _root_.abs_sub_comm b a] at this
    exact this
  constructor
  · calc |a| ≤ (1 + ulp binary64) * |b| := by linarith
      _ ≤ rho * |b| := mul_le_mul_of_nonneg_right one_add_le_rho (abs_nonneg _)
  · have h3 : (1 - ulp binary64) * |b| ≤ |a| := by linarith
    have h4 := mul_le_mul_of_nonneg_left h3 rho_pos.le
    rw [← mul_assoc, rho_inv, one_mul] at h4
    exact h4

/-- Sums of nonnegative terms. -/
theorem Rel.sum {α : Type} {r : ℚ} {g k : α → ℚ} {l : List α} (hg : ∀ x ∈ l, 0 ≤ g x) (hk : ∀ x ∈ l, 0 ≤ k x)
    (h : ∀ x ∈ l, Rel r (g x) (k x)) : Rel r (l.map g).sum (l.map k).sum := by
  have main : ∀ (g k : α → ℚ), (∀ x ∈ l, 0 ≤ g x) → (∀ x ∈ l, 0 ≤ k x) → (∀ x ∈ l, |g x| ≤ r * |k x|) →
      |(l.map g).sum| ≤ r * |(l.map k).sum| := by
    intro g k hg hk h
    rw [abs_of_nonneg (List.sum_nonneg (by simpa using hg)), abs_of_nonneg (List.sum_nonneg (by simpa using hk)),
      ← List.sum_map_mul_left]
    refine List.sum_le_sum fun x hx => ?_
    have := h x hx
    rwa [abs_of_nonneg (hg x hx), abs_of_nonneg (hk x hx)] at this
  exact ⟨main g k hg hk fun x hx => (h x hx).1, main k g hk hg fun x hx => (h x hx).2⟩

/-- Up to `2 ^ 52` roundings make a factor of at most 2. -/
theorem rho_pow_le {n : ℕ} (hn : n ≤ 2 ^ 52) : rho ^ n ≤ 2 := by
  have hu : (0 : ℚ) < 1 - ulp binary64 := by
    show (0 : ℚ) < 1 - 1 / 2 ^ 53
    norm_num
  have e : rho = (1 - ulp binary64)⁻¹ := by
    exact eq_inv_of_mul_eq_one_left rho_inv
  rw [e, inv_pow]
  have hb := one_add_mul_le_pow (a := -ulp binary64) (by show (-2 : ℚ) ≤ -(1 / 2 ^ 53); norm_num) n
  have hn' : (n : ℚ) ≤ 2 ^ 52 := by exact_mod_cast hn
  have hu' : ulp binary64 = 1 / 2 ^ 53 := rfl
  have : (1 / 2 : ℚ) ≤ (1 - ulp binary64) ^ n := by
    calc (1 / 2 : ℚ) = 1 + 2 ^ 52 * -(1 / 2 ^ 53) := by norm_num
      _ ≤ 1 + n * -(1 / 2 ^ 53) := by
        have : (0 : ℚ) < 1 / 2 ^ 53 := by positivity
        nlinarith
      _ ≤ _ := by rw [hu'] at hb ⊢; simpa [sub_eq_add_neg] using hb
  calc ((1 - ulp binary64) ^ n)⁻¹ ≤ (1 / 2 : ℚ)⁻¹ := inv_anti₀ (by norm_num) this
    _ = 2 := by norm_num

/-! ### roundings without underflow -/

/-- A normal number: the rounding has a relative error. -/
theorem rnd_rel {q : ℚ} (h : (rnd f q).Finite) (hq : 2 ^ (f.emin + f.p) ≤ |q|) : |(rnd f q).val - q| ≤ ulp f * |q| := by
  rcases rnd_cases (f := f) q with ⟨-, -, r, r0, hr, e⟩ | ⟨-, e⟩
  swap
  · rw [e] at h; cases h
  have e1 : |(rnd f q).val - q| = |r - (|q|)| := by
    rw [e]
    by_cases hq : q < 0
    · rw [abs_of_neg hq]; simp only [hq, decide_true, if_true]
      rw [show (-1 : ℚ) * r - q = -(r - -q) by ring, abs_neg]
    · rw [abs_of_nonneg (not_lt.1 hq)]; simp [hq]
  rw [e1]
  rcases hr.err with h1 | ⟨h1, -⟩
  · exact h1
  · exact absurd h1 (not_lt.2 hq)

theorem two_zpow_le {a b : ℤ} (h : a ≤ b) : (2 : ℚ) ^ a ≤ 2 ^ b := zpow_le_zpow_right₀ (by norm_num) h

theorem top64 : (2 : ℚ) ^ (1023 : ℤ) ≤ binary64.top := by
  show (2 : ℚ) ^ (1023 : ℤ) ≤ (2 ^ 53 - 1 / 2) * 2 ^ (971 : ℤ)
  rw [show (1023 : ℤ) = 52 + 971 by norm_num, zpow_add₀ (by norm_num)]
  refine mul_le_mul_of_nonneg_right ?_ (two_zpow_pos _).le
  norm_num

/-- A sum that does not overflow. -/
theorem add_rel {x y : Float64} (hx : x.Finite) (hy : y.Finite) (hs : |x.val + y.val| < binary64.top) :
    (add x y).Finite ∧ Rel rho (add x y).val (x.val + y.val) := by
  have hf : (add x y).Finite := by
    rw [add_eq_rnd hx hy]
    split
    · exact zero_finite _
    · exact rnd_finite hs
  exact ⟨hf, rel_of_err (add_err hx hy hf)⟩

theorem sub_rel {x y : Float64} (hx : x.Finite) (hy : y.Finite) (hs : |x.val - y.val| < binary64.top) :
    (sub x y).Finite ∧ Rel rho (sub x y).val (x.val - y.val) := by
  have := add_rel hx (neg_finite hy) (by rw [neg_val, ← sub_eq_add_neg]; exact hs)
  rw [neg_val, ← sub_eq_add_neg] at this
  exact this

/-- A product that neither overflows nor underflows. -/
theorem mul_rel {x y : Float64} (hx : x.Finite) (hy : y.Finite) (hs : |x.val * y.val| < binary64.top)
    (hl : x.val * y.val = 0 ∨ 2 ^ (-1021 : ℤ) ≤ |x.val * y.val|) :
    (mul x y).Finite ∧ Rel rho (mul x y).val (x.val * y.val) := by
  have hf : (mul x y).Finite := by
    rw [mul_eq_rnd hx hy]
    split
    · exact zero_finite _
    · exact rnd_finite hs
  refine ⟨hf, ?_⟩
  rw [mul_eq_rnd hx hy] at hf ⊢
  split
  · rename_i h0
    rw [zero_val, h0]; exact (Rel.refl 0).mono rho_ge
  · rename_i h0
    rw [if_neg h0] at hf
    exact rel_of_err (rnd_rel hf (hl.resolve_left h0))

theorem div_rel {x y : Float64} (hx : x.Finite) (hy : y.Finite) (hy0 : y.val ≠ 0) (hs : |x.val / y.val| < binary64.top)
    (hl : 2 ^ (-1021 : ℤ) ≤ |x.val / y.val|) :
    (div x y).Finite ∧ Rel rho (div x y).val (x.val / y.val) := by
  have h0 : x.val / y.val ≠ 0 := by
    intro h; rw [h, abs_zero] at hl
    exact absurd hl (not_le.2 (two_zpow_pos _))
  have e : div x y = rnd binary64 (x.val / y.val) := by
    rw [div_eq_rnd hx hy hy0, if_neg h0]
  rw [e]
  exact ⟨rnd_finite hs, rel_of_err (rnd_rel (rnd_finite hs) hl)⟩

/-- A rounding over any ordered field. -/
theorem Rounds.err_real {a r : ℝ} (h : Rounds f a r) : |r - a| ≤ a / 2 ^ f.p ∨ a < 2 ^ (f.emin + f.p) := by
  obtain ⟨E, m, hE, hm, rfl⟩ := h
  have hpos := two_zpow_pos (K := ℝ) E
  have e1 : |(m : ℝ) * 2 ^ E - a| ≤ 2 ^ E / 2 := by
    have e2 : (m : ℝ) * 2 ^ E - a = -(a / 2 ^ E - m) * 2 ^ E := by
      rw [neg_sub, sub_mul, div_mul_cancel₀ _ hpos.ne']
    rw [e2, abs_mul, abs_neg, abs_of_pos hpos]
    have := mul_le_mul_of_nonneg_right hm.1 hpos.le
    linarith
  rcases hE.ge with h0 | h0
  · right
    rw [← h0]; exact hE.lt
  · left
    refine e1.trans ?_
    have e3 : (2 : ℝ) ^ (E + f.p - 1) = 2 ^ E * 2 ^ f.p / 2 := by
      rw [zpow_sub₀ (by norm_num), zpow_add₀ (by norm_num), zpow_natCast, zpow_one]
    rw [e3] at h0
    have : (0 : ℝ) < 2 ^ f.p := by positivity
    rw [le_div_iff₀ this]
    linarith

/-- `math.Sqrt(x)` is the rounded root. -/
theorem sqrt_rounded {x : FP f} (hx : x.Finite) (h0 : 0 < x.val) (htop : 4 ≤ f.top) :
    (sqrt x).Finite ∧ 0 ≤ (sqrt x).val ∧ Rounds f (Real.sqrt (x.val : ℝ)) ((sqrt x).val : ℝ) := by
  cases x with
  | nan => cases hx
  | inf => cases hx
  | fin s m e h =>
    have hm : m ≠ 0 := by
      rintro rfl
      simp [val] at h0
    have hs : s = false := by
      cases s
      · rfl
      · exfalso
        have : (0 : ℚ) < m * 2 ^ e := mul_pos (by exact_mod_cast Nat.pos_of_ne_zero hm) (two_zpow_pos _)
        simp [val] at h0
        linarith
    subst hs
    have h0 := h0.le
    obtain ⟨n, j, hn, hsq, hround, hlt⟩ := sqrt_rounds (h := h) hm
    obtain ⟨v, hv⟩ : ∃ v, v = (fin false m e h).val := ⟨_, rfl⟩
    rw [← hv] at hround hlt h0 ⊢
    have hfv : |v| < f.top := by rw [hv]; exact finite_lt_top trivial
    rw [abs_of_nonneg h0] at hfv
    have hq : (frac n 1 j).1 / ((frac n 1 j).2 : ℚ) = n * 2 ^ j := by rw [frac_val n j one_pos]; simp
    have hqlt : (n : ℚ) * 2 ^ j < f.top := by
      have t1 : Real.sqrt (v : ℝ) * Real.sqrt (v : ℝ) = v := Real.mul_self_sqrt (by exact_mod_cast h0)
      have t2 : (v : ℝ) < (f.top : ℝ) := by exact_mod_cast hfv
      have t3 : (4 : ℝ) ≤ (f.top : ℝ) := by exact_mod_cast htop
      have t4 : 2 * Real.sqrt (v : ℝ) ≤ (f.top : ℝ) := by
        by_contra hc
        have hc := not_le.1 hc
        nlinarith
      have : (((n : ℚ) * 2 ^ j : ℚ) : ℝ) < (f.top : ℝ) := by
        rw [Rat.cast_mul, cast_two_zpow, Rat.cast_natCast]; exact hlt.trans_le t4
      exact Rat.cast_lt.1 this
    rw [hsq]
    unfold ofScaled
    rcases ofFrac_cases (f := f) false (n := (frac n 1 j).1) (d := (frac n 1 j).2) (frac_num_pos hn) (frac_pos one_pos) with
      ⟨-, m', e', hc, he, hR, -⟩ | ⟨t, -⟩
    · rw [he]
      rw [hq] at hR
      have hR' := hround _ hR
      have hval : (fin false m' e' hc).val = (m' : ℚ) * 2 ^ e' := by simp [val]
      exact ⟨trivial, by rw [hval]; positivity, by rw [hval]; exact hR'⟩
    · rw [hq] at t
      exact absurd hqlt (not_lt.2 t)

/-- The square of the computed root. -/
theorem sqrt_rel {x : Float64} (hx : x.Finite) (hl : 2 ^ (-1021 : ℤ) ≤ x.val) :
    (sqrt x).Finite ∧ 0 ≤ (sqrt x).val ∧ Rel (rho ^ 2) ((sqrt x).val ^ 2) x.val := by
  have h0 : 0 < x.val := lt_of_lt_of_le (two_zpow_pos _) hl
  have htop : 4 ≤ binary64.top := by
    refine le_trans ?_ top64
    calc (4 : ℚ) = 2 ^ (2 : ℤ) := by norm_num
      _ ≤ 2 ^ (1023 : ℤ) := two_zpow_le (by norm_num)
  obtain ⟨hf, hp, hR⟩ := sqrt_rounded hx h0 htop
  refine ⟨hf, hp, ?_⟩
  obtain ⟨v, hv⟩ : ∃ v, v = x.val := ⟨_, rfl⟩
  obtain ⟨k, hk⟩ : ∃ k, k = (sqrt x).val := ⟨_, rfl⟩
  rw [← hv] at hl h0 hR ⊢
  rw [← hk] at hp hR ⊢
  have h0' : (0 : ℝ) < v := by exact_mod_cast h0
  have r0 : 0 < Real.sqrt (v : ℝ) := Real.sqrt_pos.2 h0'
  have rr : Real.sqrt (v : ℝ) ^ 2 = v := Real.sq_sqrt h0'.le
  obtain ⟨w, hw⟩ : ∃ w, w = Real.sqrt (v : ℝ) := ⟨_, rfl⟩
  rw [← hw] at hR r0 rr
  have kp : (0 : ℝ) ≤ k := by exact_mod_cast hp
  have herr : |(k : ℝ) - w| ≤ w / 2 ^ 53 := by
    rcases hR.err_real with h | h
    · exact h
    · exfalso
      have h : w < (2 : ℝ) ^ (-1021 : ℤ) := h
      have h1 : (2 : ℝ) ^ (-1021 : ℤ) ≤ v := by
        have : (((2 : ℚ) ^ (-1021 : ℤ) : ℚ) : ℝ) ≤ (v : ℝ) := by exact_mod_cast hl
        rwa [cast_two_zpow] at this
      have h2 : (2 : ℝ) ^ (-1021 : ℤ) ≤ 1 := zpow_le_one_of_nonpos₀ (by norm_num) (by norm_num)
      have h3 : (0 : ℝ) < 2 ^ (-1021 : ℤ) := by positivity
      nlinarith
  obtain ⟨e1, e2⟩ := abs_le.1 herr
  have hρ : ((rho : ℚ) : ℝ) * (1 - 1 / 2 ^ 53) = 1 := by
    have := rho_inv
    have h' : ((rho * (1 - 1 / 2 ^ 53) : ℚ) : ℝ) = ((1 : ℚ) : ℝ) := by
      rw [Rat.cast_inj]; exact this
    push_cast at h'
    exact h'
  have hρ1 : (1 : ℝ) + 1 / 2 ^ 53 ≤ ((rho : ℚ) : ℝ) := by
    have : ((1 + 1 / 2 ^ 53 : ℚ) : ℝ) ≤ ((rho : ℚ) : ℝ) := Rat.cast_le.2 one_add_le_rho
    push_cast at this
    exact this
  have hρ0 : (0 : ℝ) < ((rho : ℚ) : ℝ) := by exact_mod_cast rho_pos
  have u1 : (k : ℝ) ≤ rho * w := by
    calc (k : ℝ) ≤ (1 + 1 / 2 ^ 53) * w := by linarith
      _ ≤ rho * w := mul_le_mul_of_nonneg_right hρ1 r0.le
  have u2 : w ≤ rho * k := by
    have : (1 - 1 / 2 ^ 53) * w ≤ (k : ℝ) := by linarith
    have := mul_le_mul_of_nonneg_left this hρ0.le
    rwa [← mul_assoc, hρ, one_mul] at this
  constructor
  · rw [abs_of_nonneg (by positivity), abs_of_pos h0]
    have : (k : ℝ) ^ 2 ≤ (rho : ℝ) ^ 2 * v := by
      rw [← rr, ← mul_pow]
      exact pow_le_pow_left₀ kp u1 2
    exact_mod_cast this
  · rw [abs_of_pos h0, abs_of_nonneg (sq_nonneg k)]
    have : (v : ℝ) ≤ (rho : ℝ) ^ 2 * k ^ 2 := by
      rw [← rr, ← mul_pow]
      exact pow_le_pow_left₀ r0.le u2 2
    exact_mod_cast this

/-! ### sums -/

/-- A sum of nonnegative numbers that cannot overflow. -/
theorem foldl_add_rel : ∀ {qs : List Float64} {s : Float64}, s.Finite → 0 ≤ s.val → (∀ q ∈ qs, q.Finite ∧ 0 ≤ q.val) →
    rho ^ qs.length * (s.val + (qs.map val).sum) < binary64.top →
    (qs.foldl add s).Finite ∧ 0 ≤ (qs.foldl add s).val ∧ Rel (rho ^ qs.length) (qs.foldl add s).val (s.val + (qs.map val).sum)
  | [], s, hs, h0, _, _ => by
    refine ⟨hs, h0, ?_⟩
    simpa using Rel.refl s.val
  | q :: qs, s, hs, h0, hq, hb => by
    obtain ⟨q1, q2⟩ := hq q (by simp)
    have hrest : 0 ≤ (qs.map val).sum := List.sum_nonneg (by
      intro y hy
      obtain ⟨z, hz, rfl⟩ := List.mem_map.1 hy
      exact (hq z (by simp [hz])).2)
    simp only [List.length_cons, List.map_cons, List.sum_cons] at hb ⊢
    have p1 : 1 ≤ rho ^ qs.length := one_le_pow₀ rho_ge
    have p2 : 1 ≤ rho ^ (qs.length + 1) := one_le_pow₀ rho_ge
    have hsum : s.val + q.val < binary64.top := by
      have : s.val + q.val ≤ rho ^ (qs.length + 1) * (s.val + (q.val + (qs.map val).sum)) := by nlinarith
      linarith
    obtain ⟨a1, a2⟩ := add_rel hs q1 (by rw [abs_of_nonneg (by linarith)]; exact hsum)
    have a3 : 0 ≤ (add s q).val := by
      have := nonNeg_add (nonNeg_of_finite hs h0) (nonNeg_of_finite q1 q2)
      generalize add s q = z at this a1
      cases z with
      | nan => cases a1
      | inf => cases a1
      | fin => exact this
    have a4 : (add s q).val ≤ rho * (s.val + q.val) := by
      have := a2.1
      rwa [abs_of_nonneg a3, abs_of_nonneg (by linarith)] at this
    have hb' : rho ^ qs.length * ((add s q).val + (qs.map val).sum) < binary64.top := by
      refine lt_of_le_of_lt ?_ hb
      rw [pow_succ, mul_assoc]
      refine mul_le_mul_of_nonneg_left ?_ (by linarith)
      have := rho_ge
      nlinarith
    obtain ⟨b1, b2, b3⟩ := foldl_add_rel a1 a3 (fun z hz => hq z (by simp [hz])) hb'
    refine ⟨b1, b2, ?_⟩
    have hc : Rel rho ((add s q).val + (qs.map val).sum) (s.val + (q.val + (qs.map val).sum)) := by
      have := rho_ge
      have h5 := a2.2
      rw [abs_of_nonneg a3, abs_of_nonneg (by linarith)] at h5
      constructor <;> rw [abs_of_nonneg (by linarith), abs_of_nonneg (by linarith)] <;> nlinarith
    have := Rel.trans (by positivity) rho_pos.le b3 hc
    rwa [← pow_succ] at this

end FP
end Verif
