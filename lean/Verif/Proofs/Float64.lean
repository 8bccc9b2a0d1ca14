import Verif.Spec.Float64
import Mathlib.Algebra.Order.Field.Power
import Mathlib.Algebra.Order.Field.Rat
import Mathlib.Algebra.Order.Archimedean.Basic
import Mathlib.Algebra.Group.Int.Even
import Mathlib.Data.Nat.Log
import Mathlib.Tactic.Linarith
import Mathlib.Tactic.Ring
import Mathlib.Tactic.FieldSimp
import Mathlib.Tactic.Positivity

/-! The floating point operations of `Go/Float64.lean` round correctly. -/

namespace Verif
namespace FP
variable {f : FFmt} {K : Type} [Field K] [LinearOrder K] [IsStrictOrderedRing K]

/-! ### rounding to an integer -/

/-- `k` is the integer nearest to `x`, the even one of two. -/
def IsRne (x : K) (k : ℕ) : Prop := |x - k| ≤ 1 / 2 ∧ (|x - k| = 1 / 2 → k % 2 = 0)

theorem divEven_rne {a b : ℕ} (hb : 0 < b) : IsRne ((a : ℚ) / b) (divEven a b) := by
  have hbq : (0 : ℚ) < b := by exact_mod_cast hb
  have hlt := Nat.mod_lt a hb
  have key : (a : ℚ) / b = (a / b : ℕ) + ((a % b : ℕ) : ℚ) / b := by
    have := Nat.div_add_mod a b
    have h2 : (a : ℚ) = (b : ℚ) * (a / b : ℕ) + (a % b : ℕ) := by exact_mod_cast this.symm
    rw [h2]
    field_simp
  obtain ⟨k, hk⟩ : ∃ k, k = a / b := ⟨_, rfl⟩
  obtain ⟨r, hr⟩ : ∃ r, r = a % b := ⟨_, rfl⟩
  unfold divEven IsRne
  rw [key, ← hk, ← hr]
  rw [← hr] at hlt
  have hltq : (r : ℚ) < b := by exact_mod_cast hlt
  have hr0 : (0 : ℚ) ≤ r := by exact_mod_cast Nat.zero_le r
  have q0 : (0 : ℚ) ≤ (r : ℚ) / b := by positivity
  split
  · rename_i h
    have hq : (r : ℚ) / b < 1 / 2 := by
      rw [div_lt_div_iff₀ hbq (by norm_num)]
      have : (2 * r : ℚ) < b := by exact_mod_cast h
      linarith
    rw [add_sub_cancel_left, abs_of_nonneg q0]
    exact ⟨hq.le, fun h => absurd h hq.ne⟩
  · split
    · rename_i h
      have hq : 1 / 2 < (r : ℚ) / b := by
        rw [div_lt_div_iff₀ (by norm_num) hbq]
        have : (b : ℚ) < 2 * r := by exact_mod_cast h
        linarith
      have q1 : (r : ℚ) / b < 1 := by rw [div_lt_one hbq]; exact hltq
      have : (k : ℚ) + r / b - ((k + 1 : ℕ) : ℚ) = -(1 - (r : ℚ) / b) := by push_cast; ring
      rw [this, abs_neg, abs_of_nonneg (by linarith)]
      exact ⟨by linarith, fun h => by linarith⟩
    · rename_i h1 h2
      have hh : 2 * r = b := by omega
      have hq : (r : ℚ) / b = 1 / 2 := by
        rw [← hh]; push_cast
        have : (r : ℚ) ≠ 0 := by
          intro h0
          have : r = 0 := by exact_mod_cast h0
          omega
        field_simp
      rw [hq]
      rcases Nat.mod_two_eq_zero_or_one k with h0 | h0
      · rw [h0]
        simp only [Nat.add_zero, add_sub_cancel_left]
        exact ⟨by norm_num, fun _ => h0⟩
      · rw [h0]
        have : (k : ℚ) + 1 / 2 - ((k + 1 : ℕ) : ℚ) = -(1 / 2) := by push_cast; ring
        rw [this, abs_neg]
        exact ⟨by norm_num, fun _ => by omega⟩

theorem IsRne.mono {x y : K} {k l : ℕ} (hx : IsRne x k) (hy : IsRne y l) (h : x ≤ y) : k ≤ l := by
  by_contra hc
  have hc : l + 1 ≤ k := by omega
  have hq : (l : K) + 1 ≤ k := by exact_mod_cast hc
  have h1 := abs_le.1 hx.1
  have h2 := abs_le.1 hy.1
  have e1 : x - k = -(1 / 2) := by linarith
  have e2 : y - l = 1 / 2 := by linarith
  have e3 : (k : K) = l + 1 := by linarith
  have e3 : k = l + 1 := by exact_mod_cast e3
  have := hx.2 (by rw [e1, abs_neg]; norm_num)
  have := hy.2 (by rw [e2]; norm_num)
  omega

theorem IsRne.unique {x : K} {k l : ℕ} (hx : IsRne x k) (hy : IsRne x l) : k = l :=
  Nat.le_antisymm (hx.mono hy le_rfl) (hy.mono hx le_rfl)

theorem isRne_nat (k : ℕ) : IsRne (k : K) k := by
  unfold IsRne
  rw [sub_self, abs_zero]
  exact ⟨by norm_num, fun h => absurd h (by norm_num)⟩

/-- No integer is nearer. -/
theorem IsRne.nearest {x : K} {k : ℕ} (h : IsRne x k) (z : ℤ) : |x - k| ≤ |x - z| := by
  by_cases hz : z = k
  · rw [hz]; push_cast; exact le_rfl
  · have : (1 : ℤ) ≤ |(k : ℤ) - z| := Int.one_le_abs (by omega)
    have hq : (1 : K) ≤ |(k : K) - z| := by exact_mod_cast this
    have h1 := h.1
    have : |(k : K) - z| ≤ |x - k| + |x - z| := by
      have : (k : K) - z = -(x - k) + (x - z) := by ring
      rw [this]
      exact (abs_add_le _ _).trans (by rw [abs_neg])
    linarith

/-- If another integer is as near, `k` is even. -/
theorem IsRne.tie {x : K} {k : ℕ} (h : IsRne x k) {z : ℤ} (hz : z ≠ k) (he : |x - k| = |x - z|) : k % 2 = 0 := by
  apply h.2
  have : (1 : ℤ) ≤ |(k : ℤ) - z| := Int.one_le_abs (by omega)
  have hq : (1 : K) ≤ |(k : K) - z| := by exact_mod_cast this
  have h1 := h.1
  have : |(k : K) - z| ≤ |x - k| + |x - z| := by
    have : (k : K) - z = -(x - k) + (x - z) := by ring
    rw [this]
    exact (abs_add_le _ _).trans (by rw [abs_neg])
  linarith

/-! ### exponents -/

theorem two_zpow_pos (e : ℤ) : (0 : K) < (2 : K) ^ e := by positivity

theorem zpow_toNat {e : ℤ} (h : 0 ≤ e) : (2 : ℚ) ^ e = ((2 ^ e.toNat : ℕ) : ℚ) := by
  push_cast
  rw [← zpow_natCast, Int.toNat_of_nonneg h]

theorem frac_pos {n d : ℕ} {e : ℤ} (hd : 0 < d) : 0 < (frac n d e).2 := by
  unfold frac
  split
  · exact hd
  · exact Nat.mul_pos hd (Nat.pos_of_ne_zero (by simp))

theorem frac_val (n : ℕ) {d : ℕ} (e : ℤ) (hd : 0 < d) : ((frac n d e).1 : ℚ) / (frac n d e).2 = n / d * 2 ^ e := by
  have hdq : (d : ℚ) ≠ 0 := by exact_mod_cast hd.ne'
  unfold frac
  split
  · rename_i h
    rw [zpow_toNat h]; push_cast; field_simp
  · rename_i h
    have : (2 : ℚ) ^ e = ((2 : ℚ) ^ (-e))⁻¹ := by rw [zpow_neg, inv_inv]
    rw [this, zpow_toNat (by omega)]
    push_cast
    have : (2 : ℚ) ^ (-e).toNat ≠ 0 := by positivity
    field_simp

theorem frac_num_pos {n d : ℕ} {e : ℤ} (hn : 0 < n) : 0 < (frac n d e).1 := by
  unfold frac
  split
  · exact Nat.mul_pos hn (Nat.pos_of_ne_zero (by simp))
  · exact hn

theorem logFrac_spec {n d : ℕ} (hn : 0 < n) (hd : 0 < d) :
    (2 : ℚ) ^ logFrac n d ≤ (n : ℚ) / d ∧ (n : ℚ) / d < 2 ^ (logFrac n d + 1) := by
  have hdq : (0 : ℚ) < d := by exact_mod_cast hd
  have n1 : ((2 : ℚ) ^ (n.log2 : ℤ)) ≤ n := by
    rw [zpow_natCast]; exact_mod_cast Nat.log2_self_le hn.ne'
  have n2 : (n : ℚ) < (2 : ℚ) ^ ((n.log2 : ℤ) + 1) := by
    have := @Nat.lt_log2_self n
    rw [← Nat.cast_succ, zpow_natCast]; exact_mod_cast this
  have d1 : ((2 : ℚ) ^ (d.log2 : ℤ)) ≤ d := by
    rw [zpow_natCast]; exact_mod_cast Nat.log2_self_le hd.ne'
  have d2 : (d : ℚ) < (2 : ℚ) ^ ((d.log2 : ℤ) + 1) := by
    have := @Nat.lt_log2_self d
    rw [← Nat.cast_succ, zpow_natCast]; exact_mod_cast this
  unfold logFrac
  dsimp only
  obtain ⟨l, hl⟩ : ∃ l : ℤ, l = (n.log2 : ℤ) - d.log2 := ⟨_, rfl⟩
  rw [← hl]
  have hp := frac_pos (n := d) (d := 1) (e := l) Nat.one_pos
  have hv := frac_val d (d := 1) l Nat.one_pos
  have hcond : (frac d 1 l).1 ≤ n * (frac d 1 l).2 ↔ (d : ℚ) * 2 ^ l ≤ n := by
    have hpq : (0 : ℚ) < (frac d 1 l).2 := by exact_mod_cast hp
    have : (d : ℚ) * 2 ^ l = ((frac d 1 l).1 : ℚ) / (frac d 1 l).2 := by rw [hv]; push_cast; ring
    rw [this, div_le_iff₀ hpq]
    exact_mod_cast Iff.rfl
  split
  · rename_i h
    have h := hcond.1 h
    refine ⟨by rw [le_div_iff₀ hdq]; linarith, ?_⟩
    rw [div_lt_iff₀ hdq]
    calc (n : ℚ) < 2 ^ ((n.log2 : ℤ) + 1) := n2
      _ = 2 ^ (l + 1) * 2 ^ (d.log2 : ℤ) := by rw [← zpow_add₀ (by norm_num)]; congr 1; omega
      _ ≤ 2 ^ (l + 1) * d := mul_le_mul_of_nonneg_left d1 (two_zpow_pos _).le
  · rename_i h
    have h : ¬ (d : ℚ) * 2 ^ l ≤ n := fun h' => h (hcond.2 h')
    refine ⟨?_, by rw [div_lt_iff₀ hdq, sub_add_cancel]; linarith [not_le.1 h]⟩
    rw [le_div_iff₀ hdq]
    calc (2 : ℚ) ^ (l - 1) * d ≤ 2 ^ (l - 1) * 2 ^ ((d.log2 : ℤ) + 1) := mul_le_mul_of_nonneg_left d2.le (two_zpow_pos _).le
      _ = 2 ^ (n.log2 : ℤ) := by rw [← zpow_add₀ (by norm_num)]; congr 1; omega
      _ ≤ n := n1

/-- `E` is the exponent with which `a` is written. -/
structure IsExp (f : FFmt) (a : K) (E : ℤ) : Prop where
  min : f.emin ≤ E
  lt : a < 2 ^ (E + f.p)
  ge : E = f.emin ∨ (2 : K) ^ (E + f.p - 1) ≤ a

theorem expOf_spec {n d : ℕ} (hn : 0 < n) (hd : 0 < d) : IsExp f ((n : ℚ) / d) (expOf f n d) := by
  obtain ⟨h1, h2⟩ := logFrac_spec hn hd
  have hp := f.hp
  unfold expOf
  refine ⟨le_max_left _ _, h2.trans_le (zpow_le_zpow_right₀ (by norm_num) (by omega)), ?_⟩
  rcases le_total (logFrac n d - (f.p - 1 : ℕ)) f.emin with h | h
  · exact Or.inl (max_eq_left h)
  · right
    rw [max_eq_right h]
    exact (zpow_le_zpow_right₀ (by norm_num) (by omega)).trans h1

theorem IsExp.mono {a b : K} {E E' : ℤ} (h : IsExp f a E) (h' : IsExp f b E') (hab : a ≤ b) : E ≤ E' := by
  rcases h.ge with e | e
  · rw [e]; exact h'.min
  · have : (2 : K) ^ (E + f.p - 1) < 2 ^ (E' + f.p) := (e.trans hab).trans_lt h'.lt
    have := (zpow_lt_zpow_iff_right₀ (by norm_num : (1 : K) < 2)).1 this
    omega

/-! ### rounding -/

/-- `r` is `a ≥ 0` rounded to `p` digits (no upper bound on the exponent). -/
def Rounds (f : FFmt) (a r : K) : Prop :=
  ∃ (E : ℤ) (m : ℕ), IsExp f a E ∧ IsRne (a / 2 ^ E) m ∧ r = m * 2 ^ E

theorem pow_pred {p : ℕ} (hp : 1 < p) : 2 ^ p = 2 * 2 ^ (p - 1) := by
  obtain ⟨k, rfl⟩ : ∃ k, p = k + 1 := ⟨p - 1, by omega⟩
  simp [pow_succ, Nat.mul_comm]

/-- The mantissa is at most `2 ^ p`. -/
theorem IsExp.mant_le {a : K} {E : ℤ} {m : ℕ} (hE : IsExp f a E) (hm : IsRne (a / 2 ^ E) m) : m ≤ 2 ^ f.p := by
  refine hm.mono (y := ((2 ^ f.p : ℕ) : K)) (isRne_nat _) ?_
  rw [div_le_iff₀ (two_zpow_pos _)]
  have := hE.lt
  rw [zpow_add₀ (by norm_num), zpow_natCast] at this
  push_cast; linarith

/-- The mantissa has `p` digits, unless the number is subnormal. -/
theorem IsExp.mant_ge {a : K} {E : ℤ} {m : ℕ} (hE : IsExp f a E) (hm : IsRne (a / 2 ^ E) m) : 2 ^ (f.p - 1) ≤ m ∨ E = f.emin := by
  rcases hE.ge with h | h
  · exact Or.inr h
  · left
    refine (isRne_nat (2 ^ (f.p - 1))).mono hm ?_
    rw [le_div_iff₀ (two_zpow_pos _)]
    have hp := f.hp
    have : E + (f.p : ℤ) - 1 = ((f.p - 1 : ℕ) : ℤ) + E := by omega
    rw [this, zpow_add₀ (by norm_num), zpow_natCast] at h
    push_cast; exact h

theorem Rounds.mono {a b r s : K} (hr : Rounds f a r) (hs : Rounds f b s) (h : a ≤ b) : r ≤ s := by
  obtain ⟨E, m, hE, hm, rfl⟩ := hr
  obtain ⟨E', m', hE', hm', rfl⟩ := hs
  have hEE := hE.mono hE' h
  rcases eq_or_lt_of_le hEE with rfl | hlt
  · have : m ≤ m' := hm.mono hm' (div_le_div_of_nonneg_right h (two_zpow_pos _).le)
    have : (m : K) ≤ m' := by exact_mod_cast this
    exact mul_le_mul_of_nonneg_right this (two_zpow_pos _).le
  · have h1 : (m : K) ≤ 2 ^ f.p := by exact_mod_cast hE.mant_le hm
    have h2 : ((2 : K) ^ (f.p - 1)) ≤ m' := by
      rcases hE'.mant_ge hm' with h | h
      · exact_mod_cast h
      · have := hE.min; omega
    have hp := f.hp
    calc (m : K) * 2 ^ E ≤ 2 ^ f.p * 2 ^ E := mul_le_mul_of_nonneg_right h1 (two_zpow_pos _).le
      _ = 2 ^ (f.p - 1) * 2 ^ (E + 1) := by
        rw [← zpow_natCast, ← zpow_natCast, ← zpow_add₀ (by norm_num), ← zpow_add₀ (by norm_num)]; congr 1; omega
      _ ≤ 2 ^ (f.p - 1) * 2 ^ E' := by
        apply mul_le_mul_of_nonneg_left _ (by positivity)
        exact zpow_le_zpow_right₀ (by norm_num) (by omega)
      _ ≤ m' * 2 ^ E' := mul_le_mul_of_nonneg_right h2 (two_zpow_pos _).le

theorem Rounds.unique {a r s : K} (hr : Rounds f a r) (hs : Rounds f a s) : r = s :=
  le_antisymm (hr.mono hs le_rfl) (hs.mono hr le_rfl)

theorem rounds_ofFrac {n d : ℕ} (hn : 0 < n) (hd : 0 < d) :
    IsExp f ((n : ℚ) / d) (expOf f n d) ∧ IsRne ((n : ℚ) / d / 2 ^ expOf f n d) (mantOf f n d) := by
  refine ⟨expOf_spec hn hd, ?_⟩
  unfold mantOf
  have := divEven_rne (a := (frac n d (-expOf f n d)).1) (frac_pos (n := n) (e := -expOf f n d) hd)
  rw [frac_val _ _ hd, zpow_neg] at this
  rw [div_eq_mul_inv]
  exact this

/-- A representable number, whatever its exponent. -/
def OnGrid (f : FFmt) (y : K) : Prop := ∃ (m : ℕ) (e : ℤ), m < 2 ^ f.p ∧ f.emin ≤ e ∧ y = m * 2 ^ e

/-- No representable number is nearer, and if another one is as near the mantissa is even. -/
theorem Rounds.nearest {a : K} {E : ℤ} {m : ℕ} (hE : IsExp f a E) (hm : IsRne (a / 2 ^ E) m) {y : K} (hy : OnGrid f y) :
    |a - m * 2 ^ E| ≤ |a - y| ∧ (|a - m * 2 ^ E| = |a - y| → y ≠ m * 2 ^ E → m % 2 = 0) := by
  obtain ⟨k, e, hk, hmin, rfl⟩ := hy
  have hpos := two_zpow_pos (K := K) E
  have scale : ∀ z : K, |a - z * 2 ^ E| = |a / 2 ^ E - z| * 2 ^ E := by
    intro z
    have : a - z * 2 ^ E = (a / 2 ^ E - z) * 2 ^ E := by rw [sub_mul, div_mul_cancel₀ _ hpos.ne']
    rw [this, abs_mul, abs_of_pos hpos]
  rcases le_or_gt E e with h | h
  · -- y is a multiple of 2 ^ E
    have : (k : K) * 2 ^ e = ((k * 2 ^ (e - E).toNat : ℕ) : ℤ) * 2 ^ E := by
      push_cast
      rw [mul_assoc]; congr 1
      rw [← zpow_natCast, ← zpow_add₀ (by norm_num)]; congr 1; omega
    rw [this, scale, scale]
    refine ⟨mul_le_mul_of_nonneg_right (hm.nearest _) hpos.le, fun he hne => ?_⟩
    refine hm.tie (z := ((k * 2 ^ (e - E).toNat : ℕ) : ℤ)) ?_ (mul_right_cancel₀ hpos.ne' he)
    intro h; apply hne; rw [h]; push_cast; rfl
  · -- y is below 2 ^ (p - 1) * 2 ^ E, which is at most a
    have hge : (2 : K) ^ (E + f.p - 1) ≤ a := by
      rcases hE.ge with h' | h'
      · omega
      · exact h'
    have hp := f.hp
    have hpw : (2 : K) ^ (E + f.p - 1) = (((2 ^ (f.p - 1) : ℕ) : ℤ) : K) * 2 ^ E := by
      push_cast
      rw [← zpow_natCast, ← zpow_add₀ (by norm_num)]; congr 1; omega
    have hylt : (k : K) * 2 ^ e < 2 ^ (E + f.p - 1) := by
      have : (k : K) < 2 ^ f.p := by exact_mod_cast hk
      calc (k : K) * 2 ^ e < 2 ^ f.p * 2 ^ e := mul_lt_mul_of_pos_right this (two_zpow_pos _)
        _ = 2 ^ (f.p + e) := by rw [← zpow_natCast, ← zpow_add₀ (by norm_num)]
        _ ≤ 2 ^ (E + f.p - 1) := zpow_le_zpow_right₀ (by norm_num) (by omega)
    have h1 := mul_le_mul_of_nonneg_right (hm.nearest ((2 ^ (f.p - 1) : ℕ) : ℤ)) hpos.le
    rw [← scale, ← scale, ← hpw, abs_of_nonneg (sub_nonneg.2 hge)] at h1
    have h2 : |a - k * 2 ^ e| = a - k * 2 ^ e := abs_of_nonneg (by linarith)
    rw [h2]
    exact ⟨by linarith, fun he => by linarith⟩

/-- Representable numbers are not changed. -/
theorem Rounds.exact {a r : K} (h : Rounds f a r) (ha : OnGrid f a) : r = a := by
  obtain ⟨E, m, hE, hm, rfl⟩ := h
  have := (Rounds.nearest hE hm ha).1
  rw [sub_self, abs_zero] at this
  have := abs_nonpos_iff.1 this
  linarith

/-! ### packing -/

theorem top_pos (f : FFmt) : 0 < f.top := by
  unfold FFmt.top
  have : (1 : ℚ) ≤ 2 ^ f.p := one_le_pow₀ (by norm_num)
  exact mul_pos (by linarith) (two_zpow_pos _)

theorem pack_cases {a : ℚ} {E : ℤ} {m : ℕ} (s : Bool) (hE : IsExp f a E) (hm : IsRne (a / 2 ^ E) m) :
    (a < f.top ∧ ∃ m' e' h, pack f s m E = .fin s m' e' h ∧ (m' : ℚ) * 2 ^ e' = m * 2 ^ E ∧ (m % 2 = 0 → m' % 2 = 0)) ∨
    (f.top ≤ a ∧ pack f s m E = .inf s) := by
  have hp := f.hp
  have hle := hE.mant_le hm
  have hge := hE.mant_ge hm
  have hpp := pow_pred hp
  have hpos := two_zpow_pos (K := ℚ) E
  have h1p : 1 ≤ 2 ^ (f.p - 1) := Nat.one_le_two_pow
  have hr := abs_le.1 hm.1
  -- below or above the threshold
  have small : E < f.emax → a < f.top := by
    intro h
    refine hE.lt.trans_le ?_
    have e1 : (2 : ℚ) ^ (E + f.p) ≤ 2 ^ ((f.p - 1 : ℕ) : ℤ) * 2 ^ f.emax := by
      rw [← zpow_add₀ (by norm_num)]
      exact zpow_le_zpow_right₀ (by norm_num) (by omega)
    refine e1.trans (mul_le_mul_of_nonneg_right ?_ (two_zpow_pos _).le)
    rw [zpow_natCast]
    have : (2 : ℚ) ^ f.p = 2 * 2 ^ (f.p - 1) := by exact_mod_cast hpp
    have : (1 : ℚ) ≤ 2 ^ (f.p - 1) := by exact_mod_cast h1p
    linarith
  have large : f.emax < E → f.top ≤ a := by
    intro h
    have : (2 : ℚ) ^ (E + f.p - 1) ≤ a := by
      rcases hE.ge with h' | h'
      · have := f.he; omega
      · exact h'
    refine le_trans ?_ this
    unfold FFmt.top
    have e1 : (2 : ℚ) ^ f.p * 2 ^ f.emax ≤ 2 ^ (E + f.p - 1) := by
      rw [← zpow_natCast, ← zpow_add₀ (by norm_num)]
      exact zpow_le_zpow_right₀ (by norm_num) (by omega)
    refine le_trans (mul_le_mul_of_nonneg_right ?_ (two_zpow_pos _).le) e1
    linarith
  by_cases hlt : m < 2 ^ f.p
  · by_cases hmax : E ≤ f.emax
    · left
      have hc : f.Canon m E := ⟨hlt, hE.min, hmax, hge⟩
      refine ⟨?_, m, E, hc, by simp [pack, hc], rfl, id⟩
      rcases lt_or_eq_of_le hmax with h | rfl
      · exact small h
      · have hmq : (m : ℚ) + 1 ≤ 2 ^ f.p := by exact_mod_cast hlt
        have : a / 2 ^ f.emax < 2 ^ f.p - 1 / 2 := by
          rcases lt_or_eq_of_le (show a / 2 ^ f.emax ≤ 2 ^ f.p - 1 / 2 by linarith) with h | h
          · exact h
          · exfalso
            have e1 : a / 2 ^ f.emax - m = 1 / 2 := by linarith
            have e2 : (m : ℚ) + 1 = 2 ^ f.p := by linarith
            have e2 : m + 1 = 2 ^ f.p := by exact_mod_cast e2
            have := hm.2 (by rw [e1]; norm_num)
            omega
        rw [div_lt_iff₀ hpos] at this
        exact this
    · right
      refine ⟨large (by omega), ?_⟩
      have h1 : ¬ f.Canon m E := fun h => hmax h.2.2.1
      have h2 : ¬ f.Canon (2 ^ (f.p - 1)) (E + 1) := fun h => by have := h.2.2.1; omega
      simp [pack, h1, h2]
  · have hmp : m = 2 ^ f.p := by omega
    have h1 : ¬ f.Canon m E := fun h => hlt h.1
    by_cases hmax : E + 1 ≤ f.emax
    · left
      have hc : f.Canon (2 ^ (f.p - 1)) (E + 1) := ⟨by omega, by have := hE.min; omega, hmax, Or.inl le_rfl⟩
      refine ⟨small (by omega), _, _, hc, by simp [pack, h1, hc], ?_, fun _ => ?_⟩
      · rw [hmp, zpow_add₀ (by norm_num)]
        have : (2 : ℚ) ^ f.p = 2 * 2 ^ (f.p - 1) := by exact_mod_cast hpp
        push_cast
        rw [this]; ring
      · obtain ⟨k, hk⟩ : ∃ k, f.p - 1 = k + 1 := ⟨f.p - 2, by omega⟩
        rw [hk, pow_succ]; omega
    · right
      have h2 : ¬ f.Canon (2 ^ (f.p - 1)) (E + 1) := fun h => hmax h.2.2.1
      refine ⟨?_, by simp [pack, h1, h2]⟩
      rcases lt_or_eq_of_le (show f.emax ≤ E by omega) with h | rfl
      · exact large h
      · unfold FFmt.top
        rw [← le_div_iff₀ hpos]
        have : (m : ℚ) = 2 ^ f.p := by exact_mod_cast hmp
        linarith

/-- The rounding of a positive fraction. -/
theorem ofFrac_cases (s : Bool) {n d : ℕ} (hn : 0 < n) (hd : 0 < d) :
    ((n : ℚ) / d < f.top ∧ ∃ m e h, ofFrac f s n d = .fin s m e h ∧ Rounds f ((n : ℚ) / d) (m * 2 ^ e) ∧
      ∀ y, OnGrid f y → |(n : ℚ) / d - m * 2 ^ e| ≤ |(n : ℚ) / d - y| ∧
        (|(n : ℚ) / d - m * 2 ^ e| = |(n : ℚ) / d - y| → y ≠ m * 2 ^ e → m % 2 = 0)) ∨
    (f.top ≤ (n : ℚ) / d ∧ ofFrac f s n d = .inf s) := by
  obtain ⟨h1, h2⟩ := rounds_ofFrac (f := f) hn hd
  unfold ofFrac
  rw [if_neg hn.ne']
  rcases pack_cases s h1 h2 with ⟨ht, m', e', h, e, hv, hev⟩ | h
  · left
    refine ⟨ht, m', e', h, e, ⟨_, _, h1, h2, hv⟩, ?_⟩
    intro y hy
    obtain ⟨q1, q2⟩ := Rounds.nearest h1 h2 hy
    rw [hv]
    exact ⟨q1, fun a b => hev (q2 a b)⟩
  · exact Or.inr h

theorem val_nonneg_grid {y : FP f} (h : y.Finite) : OnGrid f |y.val| := by
  cases y with
  | nan => cases h
  | inf => cases h
  | fin s m e hc =>
    refine ⟨m, e, hc.1, hc.2.1, ?_⟩
    have : (0 : ℚ) ≤ m * 2 ^ e := by positivity
    cases s <;> simp [val, abs_of_nonneg this]

theorem abs_sub_neg_le {a y : ℚ} (ha : 0 ≤ a) : |a - (|y|)| ≤ |a - y| := by
  rcases abs_cases y with ⟨h, _⟩ | ⟨h, h'⟩
  · rw [h]
  · rw [h, abs_of_nonneg (show 0 ≤ a - y by linarith), abs_le]
    constructor <;> linarith

theorem isRounded_ofFrac (s : Bool) {n d : ℕ} (hn : 0 < n) (hd : 0 < d) :
    IsRounded ((if s then -1 else 1) * ((n : ℚ) / d)) (ofFrac f s n d) := by
  have ha : (0 : ℚ) < (n : ℚ) / d := div_pos (by exact_mod_cast hn) (by exact_mod_cast hd)
  have habs : |(if s then (-1 : ℚ) else 1) * ((n : ℚ) / d)| = (n : ℚ) / d := by
    cases s <;> simp <;> exact ha.le
  have hsign : s = decide ((if s then (-1 : ℚ) else 1) * ((n : ℚ) / d) < 0) := by
    cases s
    · simp only [Bool.false_eq_true, if_false, one_mul]; exact (decide_eq_false (not_lt.2 ha.le)).symm
    · simp only [if_true, neg_mul, one_mul]; exact (decide_eq_true (by linarith)).symm
  rcases ofFrac_cases (f := f) s hn hd with ⟨ht, m, e, h, he, -, hnear⟩ | ⟨ht, he⟩
  · rw [he]
    refine ⟨by rw [habs]; exact ht, fun _ => hsign, ?_⟩
    intro y hy
    generalize (n : ℚ) / d = a at *
    obtain ⟨q1, q2⟩ := hnear _ (val_nonneg_grid hy)
    have hflip : ∀ z : ℚ, |(if s then (-1 : ℚ) else 1) * a - z| = |a - (if s then -1 else 1) * z| := by
      intro z
      cases s
      · simp
      · simp only [if_true, neg_mul, one_mul]
        rw [show -a - z = -(a - -z) by ring, abs_neg]
    rw [hflip, hflip]
    have hv : (if s then (-1 : ℚ) else 1) * (fin s m e h).val = m * 2 ^ e := by cases s <;> simp [val]
    rw [hv]
    have hle := abs_sub_neg_le (a := a) (y := (if s then -1 else 1) * y.val) ha.le
    have hyabs : |(if s then (-1 : ℚ) else 1) * y.val| = |y.val| := by cases s <;> simp
    rw [hyabs] at hle
    refine ⟨q1.trans hle, fun heq hne => ?_⟩
    have h3 : |a - m * 2 ^ e| = |a - (|y.val|)| := le_antisymm q1 (by rw [heq]; exact hle)
    by_cases hx : |y.val| = m * 2 ^ e
    · -- then y is the opposite, at a larger distance
      exfalso
      rw [hx] at h3
      have h0 : |a - m * 2 ^ e| = |a - (if s then (-1 : ℚ) else 1) * y.val| := heq
      have hy2 : (if s then (-1 : ℚ) else 1) * y.val = -(m * 2 ^ e) := by
        rcases abs_cases ((if s then (-1 : ℚ) else 1) * y.val) with ⟨h4, _⟩ | ⟨h4, _⟩
        · exfalso
          apply hne
          rw [hyabs, hx] at h4
          have : y.val = (if s then (-1 : ℚ) else 1) * ((if s then (-1 : ℚ) else 1) * y.val) := by cases s <;> simp
          rw [this, ← h4]
          cases s <;> simp [val]
        · rw [hyabs, hx] at h4; linarith
      rw [hy2] at h0
      have hmpos : (0 : ℚ) ≤ m * 2 ^ e := by positivity
      have : a - -(m * 2 ^ e : ℚ) = a + m * 2 ^ e := by ring
      rw [this, abs_of_nonneg (by linarith : (0 : ℚ) ≤ a + m * 2 ^ e)] at h0
      have h5 : (m : ℚ) * 2 ^ e = 0 := by
        rcases abs_cases (a - m * 2 ^ e : ℚ) with ⟨h6, _⟩ | ⟨h6, _⟩ <;> rw [h6] at h0 <;> linarith
      apply hne
      have : (if s then (-1 : ℚ) else 1) * y.val = 0 := by rw [hy2, h5]; simp
      have : y.val = 0 := by cases s <;> simpa using this
      rw [this]
      cases s <;> simp [val, h5]
    · exact q2 h3 hx
  · rw [he]
    exact ⟨by rw [habs]; exact ht, hsign⟩

/-! ### one function of the exact value -/

theorem canon_unique {m m' : ℕ} {e e' : ℤ} (h : f.Canon m e) (h' : f.Canon m' e') (hv : (m : ℚ) * 2 ^ e = m' * 2 ^ e') :
    m = m' ∧ e = e' := by
  have key : ∀ {m m' : ℕ} {e e' : ℤ}, f.Canon m e → f.Canon m' e' → (m : ℚ) * 2 ^ e = m' * 2 ^ e' → e' ≤ e := by
    intro m m' e e' h h' hv
    by_contra hlt
    have hlt : e < e' := by omega
    have h2 : 2 ^ (f.p - 1) ≤ m' := by
      rcases h'.2.2.2 with h2 | h2
      · exact h2
      · have := h.2.1; omega
    have h3 : (m : ℚ) = m' * 2 ^ (e' - e) := by
      rw [zpow_sub₀ (by norm_num), ← mul_div_assoc, ← hv]
      have := (two_zpow_pos (K := ℚ) e).ne'
      field_simp
    have h4 : (2 : ℚ) ≤ 2 ^ (e' - e) := by
      calc (2 : ℚ) = 2 ^ (1 : ℤ) := by simp
        _ ≤ 2 ^ (e' - e) := zpow_le_zpow_right₀ (by norm_num) (by omega)
    have h5 : (2 ^ (f.p - 1) : ℚ) ≤ m' := by exact_mod_cast h2
    have h6 : (m : ℚ) < 2 ^ f.p := by exact_mod_cast h.1
    have h7 : (2 : ℚ) ^ f.p = 2 * 2 ^ (f.p - 1) := by exact_mod_cast pow_pred f.hp
    have h8 : (2 : ℚ) ^ (f.p - 1) * 2 ≤ m' * 2 ^ (e' - e) := mul_le_mul h5 h4 (by norm_num) (by positivity)
    rw [← h3] at h8
    linarith
  have he : e = e' := le_antisymm (key h' h hv.symm) (key h h' hv)
  subst he
  have := mul_right_cancel₀ (two_zpow_pos e).ne' hv
  exact ⟨by exact_mod_cast this, rfl⟩

theorem ofFrac_congr (s : Bool) {n d n' d' : ℕ} (hn : 0 < n) (hd : 0 < d) (hn' : 0 < n') (hd' : 0 < d')
    (h : (n : ℚ) / d = n' / d') : ofFrac f s n d = ofFrac f s n' d' := by
  rcases ofFrac_cases (f := f) s hn hd with ⟨t, m, e, hc, he, hr, -⟩ | ⟨t, he⟩ <;>
  rcases ofFrac_cases (f := f) s hn' hd' with ⟨t', m', e', hc', he', hr', -⟩ | ⟨t', he'⟩
  · rw [he, he']
    rw [h] at hr
    obtain ⟨rfl, rfl⟩ := canon_unique hc hc' (hr.unique hr')
    rfl
  · rw [h] at t; exact absurd t (not_lt.2 t')
  · rw [h] at t; exact absurd t' (not_lt.2 t)
  · rw [he, he']

/-- A rational number, rounded; 0 gives the positive zero. -/
def rnd (f : FFmt) (q : ℚ) : FP f := ofFrac f (decide (q < 0)) q.num.natAbs q.den

theorem sign_mul_abs (q : ℚ) : (if decide (q < 0) then (-1 : ℚ) else 1) * ((q.num.natAbs : ℚ) / q.den) = q := by
  have h : ((q.num.natAbs : ℕ) : ℚ) = |(q.num : ℚ)| := by rw [Nat.cast_natAbs]; push_cast; rfl
  have hd : (0 : ℚ) < q.den := by exact_mod_cast q.den_pos
  have hq : (q.num : ℚ) / q.den = q := Rat.num_div_den q
  have hpos : (q.num : ℚ) < 0 ↔ q < 0 := by exact_mod_cast Rat.num_neg
  rw [h]
  by_cases h0 : q < 0
  · rw [abs_of_neg (hpos.2 h0)]
    simp only [h0, decide_true, if_true]
    rw [neg_div, hq]; ring
  · rw [abs_of_nonneg (not_lt.1 fun h => h0 (hpos.1 h))]
    simp only [h0, decide_false, Bool.false_eq_true, if_false]
    rw [hq]; ring

theorem rnd_isRounded {q : ℚ} (hq : q ≠ 0) : IsRounded q (rnd f q) := by
  have := isRounded_ofFrac (f := f) (decide (q < 0)) (n := q.num.natAbs) (d := q.den)
    (Int.natAbs_pos.2 (by rw [Ne, Rat.num_eq_zero]; exact hq)) q.den_pos
  rw [sign_mul_abs] at this
  exact this

theorem ofFrac_eq_rnd (s : Bool) {n d : ℕ} (hn : 0 < n) (hd : 0 < d) :
    ofFrac f s n d = rnd f ((if s then -1 else 1) * ((n : ℚ) / d)) := by
  obtain ⟨q, hq⟩ : ∃ q, q = (if s then (-1 : ℚ) else 1) * ((n : ℚ) / d) := ⟨_, rfl⟩
  have ha : (0 : ℚ) < (n : ℚ) / d := div_pos (by exact_mod_cast hn) (by exact_mod_cast hd)
  have hs : decide (q < 0) = s := by
    rw [hq]
    cases s
    · simp only [Bool.false_eq_true, if_false, one_mul]; exact decide_eq_false (not_lt.2 ha.le)
    · simp only [if_true, neg_mul, one_mul]; exact decide_eq_true (by linarith)
  have hq0 : q ≠ 0 := by rw [hq]; cases s <;> simp <;> omega
  rw [← hq]
  unfold rnd
  rw [hs]
  refine ofFrac_congr s hn hd (Int.natAbs_pos.2 (by rw [Ne, Rat.num_eq_zero]; exact hq0)) q.den_pos ?_
  have := sign_mul_abs q
  rw [hs, hq] at this
  rw [hq]
  cases s
  · simpa using this.symm
  · simp only [if_true, neg_mul, one_mul, neg_inj] at this ⊢
    exact this.symm

theorem ofScaled_eq_rnd (s : Bool) {n d : ℕ} (e : ℤ) (hn : 0 < n) (hd : 0 < d) :
    ofScaled f s n d e = rnd f ((if s then -1 else 1) * ((n : ℚ) / d * 2 ^ e)) := by
  unfold ofScaled
  rw [ofFrac_eq_rnd s (frac_num_pos hn) (frac_pos hd), frac_val n e hd]

/-! ### the operations -/

theorem val_fin (s : Bool) (m : ℕ) (e : ℤ) (h : f.Canon m e) : (fin s m e h).val = signed s m * 2 ^ e := by
  cases s <;> simp [val, signed]

theorem exactSum_val (s : Bool) (m : ℕ) (e : ℤ) (s' : Bool) (m' : ℕ) (e' : ℤ) :
    (exactSum s m e s' m' e' : ℚ) * 2 ^ min e e' = signed s m * 2 ^ e + signed s' m' * 2 ^ e' := by
  have key : ∀ (s : Bool) (m : ℕ) (e k : ℤ), k ≤ e → (signed s (m * 2 ^ (e - k).toNat) : ℚ) * 2 ^ k = signed s m * 2 ^ e := by
    intro s m e k hk
    have : ((m * 2 ^ (e - k).toNat : ℕ) : ℚ) * 2 ^ k = m * 2 ^ e := by
      push_cast
      rw [mul_assoc, ← zpow_natCast, ← zpow_add₀ (by norm_num)]
      congr 2; omega
    cases s
    · simp only [signed, Bool.false_eq_true, if_false]; exact_mod_cast this
    · simp only [signed, if_true]
      push_cast at this ⊢
      rw [neg_mul, neg_mul, this]
  unfold exactSum
  push_cast
  rw [add_mul, key _ _ _ _ (min_le_left _ _), key _ _ _ _ (min_le_right _ _)]

theorem signed_abs (z : ℤ) : (if decide (z < 0) then (-1 : ℚ) else 1) * (z.natAbs : ℚ) = z := by
  have h : ((z.natAbs : ℕ) : ℚ) = |(z : ℚ)| := by rw [Nat.cast_natAbs]; push_cast; rfl
  rw [h]
  by_cases h0 : z < 0
  · rw [abs_of_neg (by exact_mod_cast h0)]; simp [h0]
  · rw [abs_of_nonneg (by exact_mod_cast not_lt.1 h0)]; simp [h0]

/-- `float64(n)` is `n`, rounded. -/
theorem ofInt_eq_rnd (n : ℤ) : (ofInt n : FP f) = rnd f n := by
  unfold ofInt rnd
  have : ((n : ℚ) < 0) ↔ n < 0 := by exact_mod_cast Iff.rfl
  simp [this]

/-- The sign of a zero sum. -/
def zeroSign : FP f → FP f → Bool
  | .fin s _ _ _, .fin s' _ _ _ => s && s'
  | _, _ => false

theorem add_eq_rnd {x y : FP f} (hx : x.Finite) (hy : y.Finite) :
    add x y = if x.val + y.val = 0 then zero f (zeroSign x y) else rnd f (x.val + y.val) := by
  cases x with
  | nan => cases hx
  | inf => cases hx
  | fin s m e h =>
    cases y with
    | nan => cases hy
    | inf => cases hy
    | fin s' m' e' h' =>
      have hv := exactSum_val s m e s' m' e'
      simp only [add, zeroSign]
      rw [val_fin, val_fin, ← hv]
      obtain ⟨z, hz⟩ : ∃ z, z = exactSum s m e s' m' e' := ⟨_, rfl⟩
      rw [← hz]
      by_cases h0 : z = 0
      · simp [h0]
      · have h2 := (two_zpow_pos (K := ℚ) (min e e')).ne'
        rw [if_neg h0, if_neg (by simp [h0, h2]), ofScaled_eq_rnd _ _ (Int.natAbs_pos.2 h0) Nat.one_pos]
        congr 1
        rw [Nat.cast_one, div_one, ← mul_assoc, signed_abs]

theorem mul_sign (s s' : Bool) (a b : ℚ) :
    (if (s != s') then (-1 : ℚ) else 1) * (a * b) = ((if s then -1 else 1) * a) * ((if s' then -1 else 1) * b) := by
  cases s <;> cases s' <;> simp

/-- The sign of a product or quotient. -/
def prodSign : FP f → FP f → Bool
  | .fin s _ _ _, .fin s' _ _ _ => s != s'
  | _, _ => false

theorem mul_eq_rnd {x y : FP f} (hx : x.Finite) (hy : y.Finite) :
    mul x y = if x.val * y.val = 0 then zero f (prodSign x y) else rnd f (x.val * y.val) := by
  cases x with
  | nan => cases hx
  | inf => cases hx
  | fin s m e h =>
    cases y with
    | nan => cases hy
    | inf => cases hy
    | fin s' m' e' h' =>
      simp only [mul, prodSign]
      by_cases h0 : m * m' = 0
      · have : (fin s m e h).val * (fin s' m' e' h').val = 0 := by
          rcases Nat.mul_eq_zero.1 h0 with rfl | rfl <;> simp [val]
        rw [if_pos this, h0]
        unfold ofScaled frac
        split <;> simp [ofFrac]
      · have hpos : 0 < m * m' := Nat.pos_of_ne_zero h0
        have hm : (m : ℚ) ≠ 0 ∧ (m' : ℚ) ≠ 0 := by
          constructor <;> intro h <;> apply h0 <;> simp_all
        have : ¬ (fin s m e h).val * (fin s' m' e' h').val = 0 := by
          have h1 := (two_zpow_pos (K := ℚ) e).ne'
          have h2 := (two_zpow_pos (K := ℚ) e').ne'
          cases s <;> cases s' <;> simp [val, hm.1, hm.2, h1, h2]
        rw [if_neg this, ofScaled_eq_rnd _ _ hpos Nat.one_pos]
        congr 1
        simp only [val]
        rw [← mul_sign]
        congr 1
        push_cast
        rw [zpow_add₀ (by norm_num)]; ring

theorem div_eq_rnd {x y : FP f} (hx : x.Finite) (hy : y.Finite) (hy0 : y.val ≠ 0) :
    div x y = if x.val / y.val = 0 then zero f (prodSign x y) else rnd f (x.val / y.val) := by
  cases x with
  | nan => cases hx
  | inf => cases hx
  | fin s m e h =>
    cases y with
    | nan => cases hy
    | inf => cases hy
    | fin s' m' e' h' =>
      have hm' : m' ≠ 0 := by rintro rfl; apply hy0; simp [val]
      have hmq : (m' : ℚ) ≠ 0 := by exact_mod_cast hm'
      simp only [div, prodSign]
      rw [if_neg hm']
      by_cases h0 : m = 0
      · subst h0
        have : (fin s 0 e h).val / (fin s' m' e' h').val = 0 := by simp [val]
        rw [if_pos this]
        unfold ofScaled frac
        split <;> simp [ofFrac]
      · have hm : (m : ℚ) ≠ 0 := by exact_mod_cast h0
        have hx0 : (fin s m e h).val ≠ 0 := by
          have h1 := (two_zpow_pos (K := ℚ) e).ne'
          cases s <;> simp [val, hm, h1]
        rw [if_neg (div_ne_zero hx0 hy0), ofScaled_eq_rnd _ _ (Nat.pos_of_ne_zero h0) (Nat.pos_of_ne_zero hm')]
        congr 1
        have := (two_zpow_pos (K := ℚ) e').ne'
        rw [zpow_sub₀ (by norm_num)]
        cases s <;> cases s' <;> simp [val] <;> field_simp

theorem lt_iff {x y : FP f} (hx : x.Finite) (hy : y.Finite) : lt x y = true ↔ x.val < y.val := by
  cases x with
  | nan => cases hx
  | inf => cases hx
  | fin s m e h =>
    cases y with
    | nan => cases hy
    | inf => cases hy
    | fin s' m' e' h' =>
      have hv := exactSum_val s m e (!s') m' e'
      have hn : (signed (!s') m' : ℚ) = -signed s' m' := by cases s' <;> simp [signed]
      rw [hn, neg_mul, ← sub_eq_add_neg] at hv
      simp only [lt, decide_eq_true_eq]
      rw [val_fin, val_fin, ← sub_neg (a := (signed s m : ℚ) * 2 ^ e), ← hv]
      have := two_zpow_pos (K := ℚ) (min e e')
      rw [mul_neg_iff]
      constructor
      · intro h; right; exact ⟨by exact_mod_cast h, this⟩
      · rintro (⟨_, h⟩ | ⟨h, _⟩)
        · linarith
        · exact_mod_cast h

theorem eq_iff {x y : FP f} (hx : x.Finite) (hy : y.Finite) : eq x y = true ↔ x.val = y.val := by
  cases x with
  | nan => cases hx
  | inf => cases hx
  | fin s m e h =>
    cases y with
    | nan => cases hy
    | inf => cases hy
    | fin s' m' e' h' =>
      have hv := exactSum_val s m e (!s') m' e'
      have hn : (signed (!s') m' : ℚ) = -signed s' m' := by cases s' <;> simp [signed]
      rw [hn, neg_mul, ← sub_eq_add_neg] at hv
      simp only [eq, decide_eq_true_eq]
      rw [val_fin, val_fin, ← sub_eq_zero (a := (signed s m : ℚ) * 2 ^ e), ← hv]
      have := (two_zpow_pos (K := ℚ) (min e e')).ne'
      simp [this]

theorem neg_val (x : FP f) : (neg x).val = -x.val := by
  cases x with
  | nan => simp [neg, val]
  | inf => simp [neg, val]
  | fin s m e h => cases s <;> simp [neg, val]

theorem neg_finite {x : FP f} (h : x.Finite) : (neg x).Finite := by cases x <;> trivial

/-! ### consequences -/

theorem finite_lt_top {x : FP f} (h : x.Finite) : |x.val| < f.top := by
  cases x with
  | nan => cases h
  | inf => cases h
  | fin s m e hc =>
    have h0 : (0 : ℚ) ≤ m * 2 ^ e := by positivity
    have : |(fin s m e hc).val| = m * 2 ^ e := by cases s <;> simp [val, abs_of_nonneg h0]
    rw [this]
    have h1 : (m : ℚ) + 1 ≤ 2 ^ f.p := by exact_mod_cast hc.1
    calc (m : ℚ) * 2 ^ e ≤ m * 2 ^ f.emax :=
          mul_le_mul_of_nonneg_left (zpow_le_zpow_right₀ (by norm_num) hc.2.2.1) (by positivity)
      _ < (2 ^ f.p - 1 / 2) * 2 ^ f.emax := mul_lt_mul_of_pos_right (by linarith) (two_zpow_pos _)

theorem zero_val (s : Bool) : (zero f s).val = 0 := by simp [zero, val]

theorem zero_finite (s : Bool) : (zero f s).Finite := trivial

theorem rnd_zero : rnd f 0 = zero f false := by simp [rnd, ofFrac]

/-- Below the threshold the rounded number is finite. -/
theorem rnd_finite {q : ℚ} (h : |q| < f.top) : (rnd f q).Finite := by
  by_cases hq : q = 0
  · rw [hq, rnd_zero]; trivial
  · have := rnd_isRounded (f := f) hq
    cases hx : rnd f q with
    | nan => rw [hx] at this; cases this
    | inf s => rw [hx] at this; exact absurd this.1 (not_le.2 h)
    | fin => trivial

/-- A representable number is not changed. -/
theorem rnd_val {x : FP f} (h : x.Finite) : (rnd f x.val).Finite ∧ (rnd f x.val).val = x.val := by
  refine ⟨rnd_finite (finite_lt_top h), ?_⟩
  by_cases hq : x.val = 0
  · rw [hq, rnd_zero, zero_val]
  · have := rnd_isRounded (f := f) hq
    have hf := rnd_finite (finite_lt_top h)
    cases hx : rnd f x.val with
    | nan => rw [hx] at hf; cases hf
    | inf s => rw [hx] at hf; cases hf
    | fin s m e hc =>
      rw [hx] at this
      have := (this.2.2 x h).1
      rw [sub_self, abs_zero, abs_nonpos_iff] at this
      linarith

theorem rounds_zero : Rounds f (0 : K) 0 :=
  ⟨f.emin, 0, ⟨le_rfl, two_zpow_pos _, Or.inl rfl⟩, by rw [zero_div]; exact_mod_cast isRne_nat (K := K) 0, by simp⟩

/-- What rounding gives. -/
theorem rnd_cases (q : ℚ) :
    (|q| < f.top ∧ (rnd f q).Finite ∧ ∃ r, 0 ≤ r ∧ Rounds f |q| r ∧ (rnd f q).val = (if decide (q < 0) then -1 else 1) * r) ∨
    (f.top ≤ |q| ∧ rnd f q = .inf (decide (q < 0))) := by
  by_cases hq : q = 0
  · left
    subst hq
    rw [abs_zero, rnd_zero]
    exact ⟨top_pos f, trivial, 0, le_rfl, rounds_zero, by rw [zero_val]; simp⟩
  · have hn : 0 < q.num.natAbs := Int.natAbs_pos.2 (by rw [Ne, Rat.num_eq_zero]; exact hq)
    have habs : |q| = (q.num.natAbs : ℚ) / q.den := by
      have h := sign_mul_abs q
      have hp : (0 : ℚ) ≤ (q.num.natAbs : ℚ) / q.den := by positivity
      by_cases h0 : q < 0
      · simp only [h0, decide_true, if_true, neg_mul, one_mul] at h
        rw [abs_of_neg h0, ← h, neg_neg]
        rw [h]
      · simp only [h0, decide_false, Bool.false_eq_true, if_false, one_mul] at h
        rw [abs_of_nonneg (not_lt.1 h0), h]
    rw [habs]
    rcases ofFrac_cases (f := f) (decide (q < 0)) hn q.den_pos with ⟨t, m, e, hc, he, hr, -⟩ | ⟨t, he⟩
    · left
      refine ⟨t, by unfold rnd; rw [he]; trivial, _, by positivity, hr, ?_⟩
      unfold rnd
      rw [he]; rfl
    · exact Or.inr ⟨t, he⟩

/-- Rounding is monotone. -/
theorem rnd_mono_val {q q' : ℚ} (h : q ≤ q') (h1 : (rnd f q).Finite) (h2 : (rnd f q').Finite) : (rnd f q).val ≤ (rnd f q').val := by
  rcases rnd_cases (f := f) q with ⟨-, -, r, r0, hr, e⟩ | ⟨-, e⟩
  swap
  · rw [e] at h1; cases h1
  rcases rnd_cases (f := f) q' with ⟨-, -, r', r0', hr', e'⟩ | ⟨-, e'⟩
  swap
  · rw [e'] at h2; cases h2
  rw [e, e']
  by_cases c : q < 0
  · by_cases c' : q' < 0
    · have := hr'.mono hr (by rw [abs_of_neg c, abs_of_neg c']; linarith)
      simp only [c, c', decide_true, if_true]; linarith
    · simp only [c, c', decide_true, decide_false, if_true, Bool.false_eq_true, if_false]; linarith
  · have c' : ¬ q' < 0 := by linarith
    have := hr.mono hr' (by rw [abs_of_nonneg (not_lt.1 c), abs_of_nonneg (not_lt.1 c')]; exact h)
    simp only [c, c', decide_false, Bool.false_eq_true, if_false]; linarith

/-- Rounding is monotone, infinities included. -/
theorem rnd_mono {q q' : ℚ} (h : q ≤ q') : lt (rnd f q') (rnd f q) = false := by
  rcases rnd_cases (f := f) q with ⟨t, hf, -⟩ | ⟨t, e⟩ <;> rcases rnd_cases (f := f) q' with ⟨t', hf', -⟩ | ⟨t', e'⟩
  · rw [Bool.eq_false_iff, Ne, lt_iff hf' hf]
    exact not_lt.2 (rnd_mono_val h hf hf')
  · have : ¬ q' < 0 := by
      intro hn
      rw [abs_of_neg hn] at t'
      rw [abs_of_neg (by linarith)] at t
      linarith
    rw [e']
    simp only [this, decide_false]
    cases hx : rnd f q <;> rfl
  · have : q < 0 := by
      by_contra hn
      rw [abs_of_nonneg (not_lt.1 hn)] at t
      rw [abs_of_nonneg (by linarith)] at t'
      linarith
    rw [e]
    simp only [this, decide_true]
    cases hx : rnd f q' <;> simp [lt]
  · rw [e, e']
    by_cases c : q < 0
    · simp [c, lt]
    · have : ¬ q' < 0 := by linarith
      simp [this, lt]

/-- Rounding does not leave an interval with representable ends. -/
theorem rnd_between {lo hi : FP f} (hlo : lo.Finite) (hhi : hi.Finite) {q : ℚ} (h1 : lo.val ≤ q) (h2 : q ≤ hi.val) :
    (rnd f q).Finite ∧ lo.val ≤ (rnd f q).val ∧ (rnd f q).val ≤ hi.val := by
  have hf : (rnd f q).Finite := by
    apply rnd_finite
    have := finite_lt_top hlo
    have := finite_lt_top hhi
    rw [abs_lt] at *
    constructor <;> linarith
  obtain ⟨a1, a2⟩ := rnd_val hlo
  obtain ⟨b1, b2⟩ := rnd_val hhi
  refine ⟨hf, ?_, ?_⟩
  · rw [← a2]; exact rnd_mono_val h1 a1 hf
  · rw [← b2]; exact rnd_mono_val h2 hf b1

/-! ### integers -/

/-- Integers of up to `p` digits are representable. -/
theorem ofInt_exact {n : ℤ} (h0 : f.emin ≤ 0) (h1 : 0 < f.emax) (hn : |n| ≤ 2 ^ f.p) :
    (ofInt n : FP f).Finite ∧ (ofInt n : FP f).val = n := by
  rw [ofInt_eq_rnd]
  have hab : |(n : ℚ)| = (n.natAbs : ℚ) := by rw [Nat.cast_natAbs]; push_cast; rfl
  have hle : n.natAbs ≤ 2 ^ f.p := by have : ((n.natAbs : ℕ) : ℤ) ≤ 2 ^ f.p := by rw [Int.natCast_natAbs]; exact hn
                                      exact_mod_cast this
  have hgrid : OnGrid f |(n : ℚ)| := by
    rw [hab]
    rcases Nat.lt_or_eq_of_le hle with h | h
    · exact ⟨_, 0, h, h0, by simp⟩
    · refine ⟨2 ^ (f.p - 1), 1, Nat.pow_lt_pow_right (by norm_num) (by have := f.hp; omega), by omega, ?_⟩
      rw [h, pow_pred f.hp]; push_cast; ring
  have htop : |(n : ℚ)| < f.top := by
    rw [hab]
    have h2 : (n.natAbs : ℚ) ≤ 2 ^ f.p := by exact_mod_cast hle
    refine h2.trans_lt ?_
    unfold FFmt.top
    have h3 : (2 : ℚ) ≤ 2 ^ f.emax := by
      calc (2 : ℚ) = 2 ^ (1 : ℤ) := by simp
        _ ≤ 2 ^ f.emax := zpow_le_zpow_right₀ (by norm_num) (by omega)
    have h4 : (2 : ℚ) ≤ 2 ^ f.p := by
      calc (2 : ℚ) = 2 ^ 1 := by simp
        _ ≤ 2 ^ f.p := pow_le_pow_right₀ (by norm_num) (by have := f.hp; omega)
    nlinarith
  rcases rnd_cases (f := f) n with ⟨-, hf, r, r0, hr, e⟩ | ⟨t, -⟩
  · refine ⟨hf, ?_⟩
    rw [e, hr.exact hgrid, hab]
    have := signed_abs n
    have hc : ((n : ℚ) < 0) ↔ n < 0 := by exact_mod_cast Iff.rfl
    simp only [hc] at *
    exact this
  · exact absurd t (not_le.2 htop)

/-- `int(x)` is between 0 and `x`, and above `x - 1`, for `x ≥ 0`. -/
theorem trunc_nonneg {x : FP f} (hf : x.Finite) (h : 0 ≤ x.val) : 0 ≤ trunc x ∧ (trunc x : ℚ) ≤ x.val ∧ x.val < trunc x + 1 := by
  cases x with
  | nan => cases hf
  | inf => cases hf
  | fin s m e hc =>
    have hs : s = false ∨ m = 0 := by
      cases s
      · exact Or.inl rfl
      · right
        by_contra hm
        have : (0 : ℚ) < m * 2 ^ e := mul_pos (by exact_mod_cast Nat.pos_of_ne_zero hm) (two_zpow_pos _)
        simp only [val, if_true] at h
        linarith
    have hv : (fin s m e hc).val = m * 2 ^ e := by
      rcases hs with rfl | rfl <;> simp [val]
    have ht : trunc (fin s m e hc) = ((if 0 ≤ e then m * 2 ^ e.toNat else m / 2 ^ (-e).toNat : ℕ) : ℤ) := by
      rcases hs with rfl | rfl
      · simp [trunc, signed]
      · cases s <;> simp [trunc, signed]
    rw [hv, ht]
    refine ⟨Int.natCast_nonneg _, ?_⟩
    split
    · rename_i h0
      rw [zpow_toNat h0]
      push_cast
      exact ⟨le_rfl, by linarith⟩
    · rename_i h0
      have hp : 0 < 2 ^ (-e).toNat := Nat.pos_of_ne_zero (by simp)
      have h2 : (m : ℚ) * 2 ^ e = m / (2 ^ (-e).toNat : ℕ) := by
        rw [show (2 : ℚ) ^ e = ((2 : ℚ) ^ (-e))⁻¹ by rw [zpow_neg, inv_inv], zpow_toNat (by omega)]; rfl
      rw [h2]
      have hpq : (0 : ℚ) < (2 ^ (-e).toNat : ℕ) := by exact_mod_cast hp
      have h3 := Nat.div_mul_le_self m (2 ^ (-e).toNat)
      have h4 := Nat.lt_div_mul_add (a := m) hp
      constructor
      · rw [le_div_iff₀ hpq]; exact_mod_cast h3
      · rw [div_lt_iff₀ hpq, add_mul, one_mul]; exact_mod_cast h4

end FP
end Verif
