import Verif.Proofs.Float64Error

/-! Errors of sums and means of floating point numbers. -/

namespace Verif
namespace FP
variable {f : FFmt}

/-- One step of a sum of numbers that are not negative: relative errors multiply, absolute errors add. -/
theorem step_err {u G q z a b x y r : ℚ} (hu : 0 ≤ u) (hx : |x - q| ≤ (G - 1) * q + a)
    (hy : |y - z| ≤ (G - 1) * z + b) (hq : 0 ≤ q) (hz : 0 ≤ z) (hr : |r - (x + y)| ≤ u * |x + y|) :
    |r - (q + z)| ≤ (G * (1 + u) - 1) * (q + z) + (a + b) * (1 + u) := by
  have h1 : |x + y - (q + z)| ≤ (G - 1) * (q + z) + (a + b) := by
    have : x + y - (q + z) = (x - q) + (y - z) := by ring
    rw [this]
    refine (abs_add_le _ _).trans ?_
    linarith
  have h2 : |x + y| ≤ G * (q + z) + (a + b) := by
    have : x + y = (x + y - (q + z)) + (q + z) := by ring
    rw [this]
    refine (abs_add_le _ _).trans ?_
    rw [abs_of_nonneg (add_nonneg hq hz)]
    linarith
  have h3 := mul_le_mul_of_nonneg_left h2 hu
  have h4 : r - (q + z) = (r - (x + y)) + (x + y - (q + z)) := by ring
  rw [h4]
  refine (abs_add_le _ _).trans ?_
  have : (G * (1 + u) - 1) * (q + z) + (a + b) * (1 + u) = u * (G * (q + z) + (a + b)) + ((G - 1) * (q + z) + (a + b)) := by ring
  rw [this]
  linarith

theorem foldl_add_finite : ∀ {xs : List (FP f)} {s : FP f}, (xs.foldl add s).Finite → s.Finite ∧ ∀ x ∈ xs, x.Finite
  | [], _, h => ⟨h, by simp⟩
  | x :: xs, s, h => by
    have h1 := foldl_add_finite (xs := xs) (s := add s x) h
    have h2 := finite_of_add h1.1
    refine ⟨h2.1, ?_⟩
    intro y hy
    rcases List.mem_cons.1 hy with rfl | hy
    · exact h2.2
    · exact h1.2 y hy

/-- A sum of `n` numbers that are each near a number that is not negative is near their sum. -/
theorem foldl_add_err {k : ℕ} {b : ℚ} (hb : 0 ≤ b) : ∀ {xs : List (FP f)} {qs : List ℚ} {s : FP f} {S : ℚ} {i : ℕ},
    List.Forall₂ (fun (x : FP f) q => 0 ≤ q ∧ |x.val - q| ≤ ((1 + ulp f) ^ k - 1) * q + b) xs qs →
    0 ≤ S → |s.val - S| ≤ ((1 + ulp f) ^ (k + i) - 1) * S + i * b * (1 + ulp f) ^ i → (xs.foldl add s).Finite →
    |(xs.foldl add s).val - (S + qs.sum)| ≤
      ((1 + ulp f) ^ (k + (i + xs.length)) - 1) * (S + qs.sum) + ((i + xs.length : ℕ) : ℚ) * b * (1 + ulp f) ^ (i + xs.length)
  | [], _, s, S, i, .nil, hS, hs, _ => by simpa using hs
  | x :: xs, _, s, S, i, .cons (b := q) (l₂ := qs) hx h, hS, hs, hf => by
    have hu := ulp_pos f
    have hf1 := foldl_add_finite (xs := x :: xs) hf
    have hf2 := foldl_add_finite (xs := xs) (s := add s x) hf
    have h1 : (1 : ℚ) ≤ (1 + ulp f) ^ i := one_le_pow₀ (by linarith)
    have hmono : (1 + ulp f) ^ k ≤ (1 + ulp f) ^ (k + i) := pow_le_pow_right₀ (by linarith) (by omega)
    have hx' : |x.val - q| ≤ ((1 + ulp f) ^ (k + i) - 1) * q + b := by
      refine hx.2.trans ?_
      have := mul_le_mul_of_nonneg_right (sub_le_sub_right hmono 1) hx.1
      linarith
    have step := step_err hu.le hs hx' hS hx.1 (add_err hf1.1 (hf1.2 x (by simp)) hf2.1)
    have := foldl_add_err hb (xs := xs) (qs := qs) (s := add s x) (S := S + q) (i := i + 1) h (add_nonneg hS hx.1) (by
      rw [show k + (i + 1) = k + i + 1 by omega, pow_succ]
      refine step.trans ?_
      have e1 : ((i + 1 : ℕ) : ℚ) * b * (1 + ulp f) ^ (i + 1) = (i * b * (1 + ulp f) ^ i + b * (1 + ulp f) ^ i) * (1 + ulp f) := by
        push_cast; ring
      rw [e1]
      have e2 : b ≤ b * (1 + ulp f) ^ i := le_mul_of_one_le_right hb h1
      have e3 := mul_le_mul_of_nonneg_right e2 (show (0 : ℚ) ≤ 1 + ulp f by linarith)
      nlinarith) hf
    simp only [List.foldl_cons, List.length_cons, List.sum_cons]
    rw [show i + (xs.length + 1) = i + 1 + xs.length by omega, show S + (q + qs.sum) = S + q + qs.sum by ring]
    exact this

/-- The mean of `n` such numbers, as the code computes it. -/
theorem mean_err {k : ℕ} {b : ℚ} (hb : 0 ≤ b) {xs : List (FP f)} {qs : List ℚ} {d : FP f}
    (h : List.Forall₂ (fun (x : FP f) q => 0 ≤ q ∧ |x.val - q| ≤ ((1 + ulp f) ^ k - 1) * q + b) xs qs)
    (hd : d.Finite) (hdv : d.val = xs.length) (hne : xs ≠ []) (hf : (div (xs.foldl add (zero f false)) d).Finite) :
    |(div (xs.foldl add (zero f false)) d).val - qs.sum / xs.length| ≤
      ((1 + ulp f) ^ (k + xs.length + 1) - 1) * (qs.sum / xs.length) + b * (1 + ulp f) ^ (xs.length + 1) + tiny f := by
  have hu := ulp_pos f
  have hn : (0 : ℚ) < xs.length := by
    have := List.length_pos_iff.2 hne
    exact_mod_cast this
  have hsf := finite_of_div hd hf
  have e1 := div_err hsf hd (by rw [hdv]; exact hn.ne') hf
  have e2 := foldl_add_err hb (i := 0) (S := 0) h le_rfl (by rw [zero_val]; simp) hsf
  obtain ⟨r, hr⟩ : ∃ r, r = (xs.foldl add (zero f false)).val := ⟨_, rfl⟩
  obtain ⟨r', hr'⟩ : ∃ r, r = (div (xs.foldl add (zero f false)) d).val := ⟨_, rfl⟩
  obtain ⟨G, hG⟩ : ∃ G, G = (1 + ulp f) ^ (k + xs.length) := ⟨_, rfl⟩
  obtain ⟨A, hA⟩ : ∃ G, G = (1 + ulp f) ^ xs.length := ⟨_, rfl⟩
  obtain ⟨n, hnn⟩ : ∃ n : ℚ, n = xs.length := ⟨_, rfl⟩
  obtain ⟨Q, hQ⟩ : ∃ Q, Q = qs.sum / xs.length := ⟨_, rfl⟩
  have hS : qs.sum = Q * n := by rw [hQ, hnn, div_mul_cancel₀ _ hn.ne']
  rw [hdv, ← hr, ← hr'] at e1
  rw [← hnn] at hn
  rw [Nat.zero_add, zero_add, ← hr, ← hG, ← hA, ← hnn, hS] at e2
  rw [← hnn] at e1
  rw [← hr', pow_succ, ← hG, ← hQ, pow_succ, ← hA]
  have hQ0 : 0 ≤ Q := by
    rw [hQ]
    refine div_nonneg (List.sum_nonneg ?_) (Nat.cast_nonneg _)
    intro q hq
    obtain ⟨i, hi, e⟩ := List.getElem_of_mem hq
    have hl := h.length_eq
    have := (List.forall₂_iff_get.1 h).2 i (by rw [hl]; exact hi) hi
    rw [← e]; exact this.1
  have e3 : |r / n - Q| ≤ (G - 1) * Q + b * A := by
    have : r / n - Q = (r - Q * n) / n := by field_simp
    rw [this, abs_div, abs_of_pos hn, div_le_iff₀ hn]
    refine e2.trans (le_of_eq ?_)
    ring
  have e4 : |r / n| ≤ G * Q + b * A := by
    have : r / n = (r / n - Q) + Q := by ring
    rw [this]
    refine (abs_add_le _ _).trans ?_
    rw [abs_of_nonneg hQ0]; linarith
  have e5 := mul_le_mul_of_nonneg_left e4 hu.le
  have e6 : r' - Q = (r' - r / n) + (r / n - Q) := by ring
  rw [e6]
  refine (abs_add_le _ _).trans ?_
  have : (G * (1 + ulp f) - 1) * Q + b * (A * (1 + ulp f)) + tiny f =
    (ulp f * (G * Q + b * A) + tiny f) + ((G - 1) * Q + b * A) := by ring
  rw [this]
  linarith

/-- The error of a sum of numbers of any sign. -/
theorem foldl_add_err_abs : ∀ {xs : List (FP f)} {s : FP f} {S A : ℚ} {i : ℕ}, |S| ≤ A →
    |s.val - S| ≤ ((1 + ulp f) ^ i - 1) * A → (xs.foldl add s).Finite →
    |(xs.foldl add s).val - (S + (xs.map val).sum)| ≤ ((1 + ulp f) ^ (i + xs.length) - 1) * (A + (xs.map fun x => |x.val|).sum)
  | [], s, S, A, i, _, hs, _ => by simpa using hs
  | x :: xs, s, S, A, i, hA, hs, hf => by
    have hu := ulp_pos f
    have hf1 := foldl_add_finite (xs := x :: xs) hf
    have hf2 := foldl_add_finite (xs := xs) (s := add s x) hf
    have h1 : (1 : ℚ) ≤ (1 + ulp f) ^ i := one_le_pow₀ (by linarith)
    have hx0 := abs_nonneg x.val
    have e1 := add_err hf1.1 (hf1.2 x (by simp)) hf2.1
    obtain ⟨G, hG⟩ : ∃ G, G = (1 + ulp f) ^ i := ⟨_, rfl⟩
    rw [← hG] at hs h1
    have e2 : |s.val + x.val - (S + x.val)| ≤ (G - 1) * (A + |x.val|) := by
      rw [show s.val + x.val - (S + x.val) = s.val - S by ring]
      have := mul_nonneg (sub_nonneg.2 h1) hx0
      linarith
    have e3 : |s.val + x.val| ≤ G * (A + |x.val|) := by
      rw [show s.val + x.val = (s.val + x.val - (S + x.val)) + (S + x.val) by ring]
      refine (abs_add_le _ _).trans ?_
      have := abs_add_le S x.val
      linarith
    have e4 := mul_le_mul_of_nonneg_left e3 hu.le
    have := foldl_add_err_abs (xs := xs) (s := add s x) (S := S + x.val) (A := A + |x.val|) (i := i + 1)
      ((abs_add_le _ _).trans (by linarith)) (by
        rw [show (add s x).val - (S + x.val) = ((add s x).val - (s.val + x.val)) + (s.val + x.val - (S + x.val)) by ring]
        refine (abs_add_le _ _).trans ?_
        rw [pow_succ, ← hG, show (G * (1 + ulp f) - 1) * (A + |x.val|) = ulp f * (G * (A + |x.val|)) + (G - 1) * (A + |x.val|) by ring]
        linarith) hf
    simp only [List.foldl_cons, List.length_cons, List.map_cons, List.sum_cons]
    rw [show i + (xs.length + 1) = i + 1 + xs.length by omega, ← add_assoc, ← add_assoc]
    exact this

/-- The error of a mean of numbers of any sign. -/
theorem mean_err_abs {xs : List (FP f)} {d : FP f} (hd : d.Finite) (hdv : d.val = xs.length) (hne : xs ≠ [])
    (hf : (div (xs.foldl add (zero f false)) d).Finite) :
    |(div (xs.foldl add (zero f false)) d).val - (xs.map val).sum / xs.length| ≤
      ((1 + ulp f) ^ (xs.length + 1) - 1) * ((xs.map fun x => |x.val|).sum / xs.length) + tiny f := by
  have hu := ulp_pos f
  have hn : (0 : ℚ) < xs.length := by
    have := List.length_pos_iff.2 hne
    exact_mod_cast this
  have hsf := finite_of_div hd hf
  have e1 := div_err hsf hd (by rw [hdv]; exact hn.ne') hf
  have e2 := foldl_add_err_abs (i := 0) (S := 0) (A := 0) (by simp) (by rw [zero_val]; simp) hsf
  have e0 : |(xs.map val).sum| ≤ (xs.map fun x => |x.val|).sum := by
    clear e1 e2 hsf hf hne hn hdv
    induction xs with
    | nil => simp
    | cons x xs ih =>
      rw [List.map_cons, List.map_cons, List.sum_cons, List.sum_cons]
      exact (abs_add_le _ _).trans (by linarith)
  obtain ⟨r, hr⟩ : ∃ r, r = (xs.foldl add (zero f false)).val := ⟨_, rfl⟩
  obtain ⟨r', hr'⟩ : ∃ r, r = (div (xs.foldl add (zero f false)) d).val := ⟨_, rfl⟩
  obtain ⟨G, hG⟩ : ∃ G, G = (1 + ulp f) ^ xs.length := ⟨_, rfl⟩
  obtain ⟨n, hnn⟩ : ∃ n : ℚ, n = xs.length := ⟨_, rfl⟩
  obtain ⟨Q, hQ⟩ : ∃ Q, Q = (xs.map val).sum / xs.length := ⟨_, rfl⟩
  obtain ⟨B, hB⟩ : ∃ Q, Q = (xs.map fun x => |x.val|).sum / xs.length := ⟨_, rfl⟩
  have hS : (xs.map val).sum = Q * n := by rw [hQ, hnn, div_mul_cancel₀ _ hn.ne']
  have hT : (xs.map fun x => |x.val|).sum = B * n := by rw [hB, hnn, div_mul_cancel₀ _ hn.ne']
  rw [hdv, ← hr, ← hr', ← hnn] at e1
  rw [← hnn] at hn
  rw [Nat.zero_add, zero_add, zero_add, ← hr, ← hG, hS, hT] at e2
  rw [hS, hT, abs_mul, abs_of_pos hn] at e0
  have e0 := le_of_mul_le_mul_right e0 hn
  rw [← hr', pow_succ, ← hG, ← hQ, ← hB]
  have e3 : |r / n - Q| ≤ (G - 1) * B := by
    have : r / n - Q = (r - Q * n) / n := by field_simp
    rw [this, abs_div, abs_of_pos hn, div_le_iff₀ hn]
    refine e2.trans (le_of_eq ?_)
    ring
  have e4 : |r / n| ≤ G * B := by
    have : r / n = (r / n - Q) + Q := by ring
    rw [this]
    refine (abs_add_le _ _).trans ?_
    linarith
  have e5 := mul_le_mul_of_nonneg_left e4 hu.le
  have e6 : r' - Q = (r' - r / n) + (r / n - Q) := by ring
  rw [e6]
  refine (abs_add_le _ _).trans ?_
  rw [show (G * (1 + ulp f) - 1) * B + tiny f = (ulp f * (G * B) + tiny f) + (G - 1) * B by ring]
  linarith

/-- The error of the square of a difference. -/
theorem sq_sub_err {x y : FP f} (hx : x.Finite) (hy : y.Finite) (h : (mul (sub x y) (sub x y)).Finite) :
    |(mul (sub x y) (sub x y)).val - (x.val - y.val) ^ 2| ≤ ((1 + ulp f) ^ 3 - 1) * (x.val - y.val) ^ 2 + tiny f := by
  have hs := (finite_of_mul h).1
  have e1 := sub_err hx hy hs
  have e2 := mul_err hs hs h
  have hu := ulp_pos f
  obtain ⟨d, hd⟩ : ∃ d, d = (sub x y).val := ⟨_, rfl⟩
  obtain ⟨q, hq⟩ : ∃ q, q = x.val - y.val := ⟨_, rfl⟩
  obtain ⟨r, hr⟩ : ∃ r, r = (mul (sub x y) (sub x y)).val := ⟨_, rfl⟩
  obtain ⟨u, huu⟩ : ∃ u, u = ulp f := ⟨_, rfl⟩
  rw [← hd, ← hq, ← huu] at e1
  rw [← hd, ← hr, ← huu] at e2
  rw [← huu] at hu
  rw [← hr, ← hq, ← huu]
  have e3 : |d| ≤ (1 + u) * |q| := by
    have : d = (d - q) + q := by ring
    rw [this]
    refine (abs_add_le _ _).trans ?_
    linarith
  have q0 := abs_nonneg q
  have e4 : d * d ≤ (1 + u) ^ 2 * q ^ 2 := by
    rw [← abs_mul_abs_self d, ← sq_abs q]
    calc |d| * |d| ≤ ((1 + u) * |q|) * ((1 + u) * |q|) := mul_le_mul e3 e3 (abs_nonneg _) (by positivity)
      _ = _ := by ring
  have e5 : |d * d - q ^ 2| ≤ ((1 + u) ^ 2 - 1) * q ^ 2 := by
    have : d * d - q ^ 2 = (d - q) * (d + q) := by ring
    rw [this, abs_mul]
    have h6 : |d + q| ≤ (2 + u) * |q| := by
      refine (abs_add_le _ _).trans ?_
      linarith
    calc |d - q| * |d + q| ≤ (u * |q|) * ((2 + u) * |q|) := mul_le_mul e1 h6 (abs_nonneg _) (by positivity)
      _ = ((1 + u) ^ 2 - 1) * |q| ^ 2 := by ring
      _ = _ := by rw [sq_abs]
  rw [abs_of_nonneg (mul_self_nonneg d)] at e2
  have e7 : r - q ^ 2 = (r - d * d) + (d * d - q ^ 2) := by ring
  rw [e7]
  refine (abs_add_le _ _).trans ?_
  have e8 := mul_le_mul_of_nonneg_left e4 hu.le
  have : ((1 + u) ^ 3 - 1) * q ^ 2 = u * ((1 + u) ^ 2 * q ^ 2) + ((1 + u) ^ 2 - 1) * q ^ 2 := by ring
  linarith

/-- The error of an absolute difference. -/
theorem abs_sub_err {x y : FP f} (hx : x.Finite) (hy : y.Finite) (h : (abs (sub x y)).Finite) :
    |(abs (sub x y)).val - (|x.val - y.val|)| ≤ ((1 + ulp f) ^ 1 - 1) * |x.val - y.val| + 0 := by
  have e1 := sub_err hx hy (abs_finite.1 h)
  rw [abs_val]
  refine (abs_abs_sub_abs_le_abs_sub _ _).trans ?_
  linarith


end FP
end Verif
