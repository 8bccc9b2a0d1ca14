import Verif.Props.ScalerIdeal
import Verif.Props.Float64Eval
import Verif.Props.Witness3
import Mathlib.Tactic.Linarith
import Mathlib.Tactic.GCongr
import Mathlib.Tactic.FieldSimp

/-! C41 with IEEE float64: how far the restored value is from the original. -/

namespace Verif

theorem abs_le_add {a b c : ℚ} (h : |a - b| ≤ c) : |a| ≤ |b| + c := by
  have := abs_add_le (a - b) b
  rw [sub_add_cancel] at this
  linarith

/-- The arithmetic of the error: six roundings. -/
theorem scaler_arith {u t x s k y1 y s' k' z1 r : ℚ} (hu : 0 ≤ u) (ht : 0 ≤ t) (hk : k ≠ 0) (h1 : |y1 - (x + s)| ≤ u * |x + s|)
    (h2 : |y - y1 * k| ≤ u * |y1 * k| + t) (h3 : |s' - -s * k| ≤ u * |-s * k| + t) (h4 : |k' - 1 / k| ≤ u * |1 / k| + t)
    (h5 : |z1 - (y + s')| ≤ u * |y + s'|) (h6 : |r - z1 * k'| ≤ u * |z1 * k'| + t) :
    |r - x| ≤ ((1 + u) ^ 3 + (1 + u) ^ 2 * |k| * t) * (|x| + ((1 + u) ^ 2 - 1) * (|x| + 2 * |s|) + 2 * t / |k|) + t - |x| := by
  have hK : 0 < |k| := abs_pos.2 hk
  have hX := abs_nonneg x
  have hS := abs_nonneg s
  have hxs : |x + s| ≤ |x| + |s| := abs_add_le _ _
  rw [abs_mul] at h2 h3 h6
  rw [abs_neg] at h3
  rw [abs_div, abs_one] at h4
  -- the shifted value
  have a1 : |y1 - (x + s)| ≤ u * (|x| + |s|) := h1.trans (by gcongr)
  have a1' : |y1| ≤ (1 + u) * (|x| + |s|) := by
    have := abs_le_add a1
    linarith
  -- the scaled value
  have a2 : |y - (x + s) * k| ≤ ((1 + u) ^ 2 - 1) * (|x| + |s|) * |k| + t := by
    have e : y - (x + s) * k = (y - y1 * k) + (y1 - (x + s)) * k := by ring
    rw [e]
    refine (abs_add_le _ _).trans ?_
    rw [abs_mul]
    have b1 : |y1 - (x + s)| * |k| ≤ u * (|x| + |s|) * |k| := by gcongr
    have b2 : u * (|y1| * |k|) ≤ u * ((1 + u) * (|x| + |s|) * |k|) := by gcongr
    nlinarith [b1, b2, h2]
  -- the sum that the inverse forms
  obtain ⟨E, hE⟩ : ∃ E, E = ((1 + u) ^ 2 - 1) * (|x| + 2 * |s|) := ⟨_, rfl⟩
  have hE0 : 0 ≤ E := by
    rw [hE]; apply mul_nonneg _ (by positivity); nlinarith
  have a3 : |y + s' - x * k| ≤ E * |k| + 2 * t := by
    have e : y + s' - x * k = (y - (x + s) * k) + (s' - -s * k) := by ring
    rw [e]
    refine (abs_add_le _ _).trans ?_
    have b1 : u * (|s| * |k|) ≤ ((1 + u) ^ 2 - 1) * |s| * |k| := by
      have : u ≤ (1 + u) ^ 2 - 1 := by nlinarith
      calc u * (|s| * |k|) = u * |s| * |k| := by ring
        _ ≤ _ := by gcongr
    rw [hE]
    nlinarith [a2, h3, b1]
  have hW0 : 0 ≤ |x| * |k| + (E * |k| + 2 * t) := by positivity
  have a3' : |y + s'| ≤ |x| * |k| + (E * |k| + 2 * t) := by
    have := abs_le_add a3
    rw [abs_mul] at this
    exact this
  have a5 : |z1 - x * k| ≤ (1 + u) * (E * |k| + 2 * t) + u * (|x| * |k|) := by
    have e : z1 - x * k = (z1 - (y + s')) + (y + s' - x * k) := by ring
    rw [e]
    refine (abs_add_le _ _).trans ?_
    have b1 : u * |y + s'| ≤ u * (|x| * |k| + (E * |k| + 2 * t)) := by gcongr
    linarith
  obtain ⟨W, hW⟩ : ∃ W, W = |x| + E + 2 * t / |k| := ⟨_, rfl⟩
  have hWK : W * |k| = |x| * |k| + (E * |k| + 2 * t) := by rw [hW]; field_simp; ring
  have hWp : 0 ≤ W := by rw [hW]; positivity
  have a5' : |z1| ≤ (1 + u) * (W * |k|) := by
    rw [hWK]
    have := abs_le_add h5
    have b1 : u * |y + s'| ≤ u * (|x| * |k| + (E * |k| + 2 * t)) := by gcongr
    linarith
  have a6 : |k'| ≤ (1 + u) * (1 / |k|) + t := by
    have := abs_le_add h4
    rw [abs_div, abs_one] at this
    linarith
  -- all together
  have e : r - x = (r - z1 * k') + (z1 * (k' - 1 / k) + (z1 - x * k) / k) := by field_simp; ring
  rw [e, ← hE]
  have c1 : |z1| * |k'| ≤ (1 + u) * (W * |k|) * ((1 + u) * (1 / |k|) + t) := by gcongr
  have c1' : (1 + u) * (W * |k|) * ((1 + u) * (1 / |k|) + t) = (1 + u) ^ 2 * W + (1 + u) * W * |k| * t := by field_simp
  have c2 : |z1 * (k' - 1 / k)| ≤ (1 + u) * (W * |k|) * (u * (1 / |k|) + t) := by rw [abs_mul]; gcongr
  have c2' : (1 + u) * (W * |k|) * (u * (1 / |k|) + t) = (1 + u) * u * W + (1 + u) * W * |k| * t := by field_simp
  have c3 : |(z1 - x * k) / k| ≤ (1 + u) * (E + 2 * t / |k|) + u * |x| := by
    rw [abs_div, div_le_iff₀ hK]
    refine a5.trans (le_of_eq ?_)
    field_simp
  have c4 : u * (|z1| * |k'|) ≤ u * ((1 + u) ^ 2 * W + (1 + u) * W * |k| * t) := by
    rw [← c1']; exact mul_le_mul_of_nonneg_left c1 hu
  rw [c2'] at c2
  refine (abs_add_le _ _).trans ?_
  have c5 := abs_add_le (z1 * (k' - 1 / k)) ((z1 - x * k) / k)
  have c6 : (1 + u) * (E + 2 * t / |k|) + u * |x| = (1 + u) * W - |x| := by rw [hW]; ring
  rw [c6] at c3
  rw [← hW]
  have : ((1 + u) ^ 3 + (1 + u) ^ 2 * |k| * t) * W + t - |x| =
    (u * ((1 + u) ^ 2 * W + (1 + u) * W * |k| * t) + t) + ((1 + u) * u * W + (1 + u) * W * |k| * t) + ((1 + u) * W - |x|) := by ring
  rw [this]
  linarith

/-- The same bound, in a form that can be read: `B = |x| + 2 |s|`. -/
theorem scaler_bound {u t x s k r : ℚ} (hu : 0 ≤ u) (hu' : u ≤ 1 / 100) (ht : 0 ≤ t) (ht' : t ≤ 1 / 100) (hk : k ≠ 0)
    (h : |r - x| ≤ ((1 + u) ^ 3 + (1 + u) ^ 2 * |k| * t) * (|x| + ((1 + u) ^ 2 - 1) * (|x| + 2 * |s|) + 2 * t / |k|) + t - |x|) :
    |r - x| ≤ 6 * u * (|x| + 2 * |s|) + 2 * t * (1 + 2 / |k| + |k| * (|x| + 2 * |s|)) := by
  have hK : 0 < |k| := abs_pos.2 hk
  obtain ⟨B, hB⟩ : ∃ B, B = |x| + 2 * |s| := ⟨_, rfl⟩
  have hA : 0 ≤ |x| := abs_nonneg x
  have hAB : |x| ≤ B := by rw [hB]; linarith [abs_nonneg s]
  rw [← hB] at h ⊢
  generalize |x| = A at *
  generalize |k| = K at *
  refine h.trans ?_
  have hB0 : 0 ≤ B := hA.trans hAB
  have p2 : (1 + u) ^ 2 ≤ 2 := by nlinarith
  have p3 : (1 + u) ^ 3 ≤ 2 := by nlinarith
  have p4 : (1 + u) ^ 4 ≤ 2 := by
    have : (1 + u) ^ 2 ≤ 11 / 10 := by nlinarith
    have h0 : 0 ≤ (1 + u) ^ 2 := by positivity
    calc (1 + u) ^ 4 = (1 + u) ^ 2 * (1 + u) ^ 2 := by ring
      _ ≤ 11 / 10 * (11 / 10) := by gcongr
      _ ≤ 2 := by norm_num
  have p5 : (1 + u) ^ 5 - 1 ≤ 6 * u := by
    have e : (1 + u) ^ 5 - 1 = u * (5 + u * (10 + u * (10 + u * (5 + u)))) := by ring
    rw [e, mul_comm 6 u]
    have q1 : 10 + u * (10 + u * (5 + u)) ≤ 100 := by
      have : u * (10 + u * (5 + u)) ≤ 1 * 90 := by
        gcongr
        · linarith
        · have : u * (5 + u) ≤ 1 * 6 := by gcongr <;> linarith
          linarith
      linarith
    have q2 : u * (10 + u * (10 + u * (5 + u))) ≤ 1 / 100 * 100 := by gcongr
    have : 5 + u * (10 + u * (10 + u * (5 + u))) ≤ 6 := by linarith
    gcongr
  have p3' : 1 ≤ (1 + u) ^ 3 := one_le_pow₀ (by linarith)
  have e1 : ((1 + u) ^ 3 + (1 + u) ^ 2 * K * t) * (A + ((1 + u) ^ 2 - 1) * B + 2 * t / K) + t - A =
      (((1 + u) ^ 3 - 1) * A + ((1 + u) ^ 5 - (1 + u) ^ 3) * B) + t * ((1 + u) ^ 3 * (2 / K) + (1 + u) ^ 2 * K * (A + ((1 + u) ^ 2 - 1) * B) +
        (1 + u) ^ 2 * (2 * t) + 1) := by field_simp; ring
  rw [e1]
  have r1 : ((1 + u) ^ 3 - 1) * A + ((1 + u) ^ 5 - (1 + u) ^ 3) * B ≤ 6 * u * B := by
    have a : ((1 + u) ^ 3 - 1) * A ≤ ((1 + u) ^ 3 - 1) * B := mul_le_mul_of_nonneg_left hAB (by linarith)
    have b : ((1 + u) ^ 5 - 1) * B ≤ 6 * u * B := mul_le_mul_of_nonneg_right p5 hB0
    linarith
  have r2 : (1 + u) ^ 3 * (2 / K) ≤ 2 * (2 / K) := by gcongr
  have r3 : (1 + u) ^ 2 * K * (A + ((1 + u) ^ 2 - 1) * B) ≤ 2 * (K * B) := by
    have : A + ((1 + u) ^ 2 - 1) * B ≤ (1 + u) ^ 2 * B := by linarith
    calc (1 + u) ^ 2 * K * (A + ((1 + u) ^ 2 - 1) * B) ≤ (1 + u) ^ 2 * K * ((1 + u) ^ 2 * B) := by gcongr
      _ = (1 + u) ^ 4 * (K * B) := by ring
      _ ≤ 2 * (K * B) := by gcongr
  have r4 : (1 + u) ^ 2 * (2 * t) ≤ 2 * (2 * (1 / 100)) := by gcongr
  have r5 : t * ((1 + u) ^ 3 * (2 / K) + (1 + u) ^ 2 * K * (A + ((1 + u) ^ 2 - 1) * B) + (1 + u) ^ 2 * (2 * t) + 1) ≤
      t * (2 * (1 + 2 / K + K * B)) := by
    apply mul_le_mul_of_nonneg_left _ ht
    linarith
  linarith

namespace Float64
open FP

/-- The shift of a column, 0 when the scaler has none. -/
def shiftOf (sc : Scaler Float64) (c : GoStr) : Float64 := (AMap.get sc.shift c).getD GoFloat.zero
/-- The scale of a column, 1 when the scaler has none. -/
def scaleOf (sc : Scaler Float64) (c : GoStr) : Float64 := (AMap.get sc.scale c).getD GoFloat.one

theorem zero_val : (GoFloat.zero : Float64).val = 0 := by
  show (FP.zero binary64 false).val = 0
  simp [FP.zero, FP.val]
theorem one_fin : (GoFloat.one : Float64).Finite := (ofInt_ok (by norm_num)).1
theorem one_val : (GoFloat.one : Float64).val = 1 := by
  have := (ofInt_ok (n := 1) (by norm_num)).2
  rw [Int.cast_one] at this
  exact this

theorem nan_scale (sc : Scaler Float64) (c : GoStr) : scaleVal sc c FP.nan = FP.nan := rfl

theorem div_nonzero {x y : Float64} (hx : x.Finite) (hy : y.Finite) (h : (FP.div x y).Finite) : y.val ≠ 0 := by
  cases x with
  | nan => exact hx.elim
  | inf s => exact hx.elim
  | fin s m e he =>
    cases y with
    | nan => exact hy.elim
    | inf s => exact hy.elim
    | fin s' m' e' he' =>
      intro h0
      have hm : m' = 0 := by
        simp only [FP.val] at h0
        have h2 := (two_zpow_pos (K := ℚ) e').ne'
        rcases mul_eq_zero.1 h0 with h | h
        · split at h <;> norm_num at h
        · rcases mul_eq_zero.1 h with h | h
          · exact_mod_cast h
          · exact absurd h h2
      simp only [FP.div, hm, if_true] at h
      split at h <;> exact h

theorem scale_roundtrip {sc : Scaler Float64} {c : GoStr} {x : Float64} (hr : (scaleVal sc.reverse c (scaleVal sc c x)).Finite) :
    x.Finite ∧ (shiftOf sc c).Finite ∧ (scaleOf sc c).Finite ∧ (scaleOf sc c).val ≠ 0 ∧
      |(scaleVal sc.reverse c (scaleVal sc c x)).val - x.val| ≤ 6 * ulp binary64 * (|x.val| + 2 * |(shiftOf sc c).val|) +
        2 * tiny binary64 * (1 + 2 / |(scaleOf sc c).val| + |(scaleOf sc c).val| * (|x.val| + 2 * |(shiftOf sc c).val|)) := by
  have hshift : AMap.get sc.reverse.shift c = (AMap.get sc.shift c).map (reverseShift sc.scale c) := by
    unfold Scaler.reverse
    exact get_map sc.shift (reverseShift sc.scale) c
  have hscale : AMap.get sc.reverse.scale c = (AMap.get sc.scale c).map fun v => GoFloat.div GoFloat.one v := by
    unfold Scaler.reverse
    exact get_map sc.scale (fun _ v => GoFloat.div GoFloat.one v) c
  obtain ⟨y1, hy1⟩ : ∃ y, y = FP.add x (shiftOf sc c) := ⟨_, rfl⟩
  obtain ⟨y, hy⟩ : ∃ y, y = FP.mul y1 (scaleOf sc c) := ⟨_, rfl⟩
  obtain ⟨z1, hz1⟩ : ∃ z, z = FP.add y (shiftOf sc.reverse c) := ⟨_, rfl⟩
  have ey : scaleVal sc c x = y := by rw [hy, hy1]; rfl
  rw [ey] at hr ⊢
  have er : scaleVal sc.reverse c y = FP.mul z1 (scaleOf sc.reverse c) := by rw [hz1]; rfl
  rw [er] at hr ⊢
  obtain ⟨fz, fk'⟩ := finite_of_mul hr
  obtain ⟨fy, fs'⟩ := finite_of_add (hz1 ▸ fz)
  obtain ⟨fy1, fk⟩ := finite_of_mul (hy ▸ fy)
  obtain ⟨fx, fs⟩ := finite_of_add (hy1 ▸ fy1)
  have hu0 := (ulp_pos binary64).le
  have ht0 := (tiny_pos binary64).le
  -- the parameters of the inverse
  have hk : (scaleOf sc c).val ≠ 0 ∧ |(scaleOf sc.reverse c).val - 1 / (scaleOf sc c).val| ≤
      ulp binary64 * |1 / (scaleOf sc c).val| + tiny binary64 := by
    unfold scaleOf at *
    rw [hscale] at fk' ⊢
    cases hk : AMap.get sc.scale c with
    | none =>
      simp only [Option.map_none, Option.getD_none, one_val]
      refine ⟨by norm_num, ?_⟩
      norm_num; linarith
    | some k =>
      rw [hk] at fk fk'
      simp only [Option.map_some, Option.getD_some] at fk fk' ⊢
      have h0 := div_nonzero one_fin fk fk'
      refine ⟨h0, ?_⟩
      have := div_err one_fin fk h0 fk'
      rw [one_val] at this
      exact this
  have hs : |(shiftOf sc.reverse c).val - -(shiftOf sc c).val * (scaleOf sc c).val| ≤
      ulp binary64 * |-(shiftOf sc c).val * (scaleOf sc c).val| + tiny binary64 := by
    unfold scaleOf shiftOf at *
    rw [hshift] at fs' ⊢
    cases hs : AMap.get sc.shift c with
    | none =>
      simp only [Option.map_none, Option.getD_none, zero_val]
      simp; linarith
    | some s =>
      rw [hs] at fs fs'
      simp only [Option.map_some, Option.getD_some] at fs fs' ⊢
      unfold reverseShift at fs' ⊢
      cases hk : AMap.get sc.scale c with
      | none =>
        simp only [Option.getD_none, one_val]
        have : (GoFloat.neg s : Float64).val = -s.val := neg_val s
        rw [this]
        simp only [mul_one, sub_self, abs_zero]
        positivity
      | some k =>
        rw [hk] at fk fs'
        simp only [Option.getD_some] at fk ⊢
        have := mul_err (neg_finite fs) fk fs'
        rw [neg_val] at this
        exact this
  refine ⟨fx, fs, fk, hk.1, ?_⟩
  refine scaler_bound hu0 ?_ ht0 ?_ hk.1 (scaler_arith (y1 := y1.val) (y := y.val) (z1 := z1.val) (s' := (shiftOf sc.reverse c).val)
    (k' := (scaleOf sc.reverse c).val) hu0 ht0 hk.1 ?_ ?_ hs hk.2 ?_ ?_)
  · show (1 : ℚ) / 2 ^ 53 ≤ 1 / 100
    norm_num
  · show (2 : ℚ) ^ (-1074 : ℤ) / 2 ≤ 1 / 100
    have : (2 : ℚ) ^ (-1074 : ℤ) ≤ 2 ^ (-7 : ℤ) := zpow_le_zpow_right₀ (by norm_num) (by norm_num)
    have h2 : (2 : ℚ) ^ (-7 : ℤ) = 1 / 128 := by norm_num
    rw [h2] at this
    linarith
  · rw [hy1]; exact add_err fx fs (hy1 ▸ fy1)
  · rw [hy]; exact mul_err fy1 fk (hy ▸ fy)
  · rw [hz1]; exact add_err fy fs' (hz1 ▸ fz)
  · exact mul_err fz fk' hr

/-- C41 with float64: `TransformInplace` then `InverseTransformInplace` with whatever parameters. All that is not shown by
a transformed column is as before; missing values are missing again; a value that comes back as a number was a number, and
it differs from the original by no more than `6 · 2^-53 · (|x| + 2|shift|)`, plus a few units of the smallest float64, 2^-1074. -/
theorem C41_float64 {df : DF} {h : Heap Float64} {sc : Scaler Float64} (wf : df.WF h) (nd : sc.transformedColumns.Nodup)
    (hcol : ∀ c ∈ sc.transformedColumns, ((abs h df).col .float c).isSome)
    (hr : df.rows.Nodup) (hu : Unaliased h df sc.transformedColumns)
    (hw : sc.transformedColumns = [] ∨ 0 < df.maxCPU) (hemp : [] ∉ sc.transformedColumns) {order order' : List GoStr}
    (hp : order.Perm sc.transformedColumns) (hp' : order'.Perm sc.transformedColumns) :
    ∃ h₁ h₂, sc.transformInplace df order h = .ok h₁ ∧ sc.inverseTransformInplace df order' h₁ = .ok h₂ ∧
      (∀ d : DF, locs h₂ d = locs h d) ∧
      (∀ c ∈ sc.transformedColumns, ∀ (i : Nat) (x : Float64), df.get h .float c i = .ok (.float x) →
        ∃ r : Float64, df.get h₂ .float c i = .ok (.float r) ∧ (x = FP.nan → r = FP.nan) ∧
          (r.Finite → x.Finite ∧ (shiftOf sc c).Finite ∧ (scaleOf sc c).Finite ∧ (scaleOf sc c).val ≠ 0 ∧
            |r.val - x.val| ≤ 6 / 2 ^ 53 * (|x.val| + 2 * |(shiftOf sc c).val|) +
              (1 + 2 / |(scaleOf sc c).val| + |(scaleOf sc c).val| * (|x.val| + 2 * |(shiftOf sc c).val|)) / 2 ^ 1074)) ∧
      (∀ (d : DF) k c' (j : Nat), (∀ c ∈ sc.transformedColumns, ∀ (i : Nat) l, cellOf h df .float c i = some l → cellOf h d k c' j ≠ some l) →
        d.get h₂ k c' j = d.get h k c' j) := by
  obtain ⟨h₁, e1, t1⟩ := C41_transform (sc := sc) wf nd hcol hr hu hw hemp hp
  have hcell1 : ∀ (d : DF) k c (j : Nat), cellOf h₁ d k c j = cellOf h d k c j := by
    intro d k c j; unfold cellOf; rw [t1.shape]
  obtain ⟨h₂, e2, t2⟩ := C41_transform (sc := sc.reverse) (df := df) (h := h₁) (order := order') (t1.wf df wf) (by rw [reverse_columns]; exact nd)
    (by rw [reverse_columns]; intro c hc
        have := hcol c hc
        have e : (locs h₁ df).col .float c = (locs h df).col .float c := by rw [t1.shape]
        simp only [abs, locs, Option.isSome_map] at this e ⊢
        have := congrArg Option.isSome e
        simp only [Option.isSome_map] at this
        rw [this]; assumption) hr
    (by rw [reverse_columns]
        intro c hc c' hc' hne i j l
        rw [hcell1, hcell1]
        exact hu c hc c' hc' hne i j l)
    (by rw [reverse_columns]; exact hw) (by rw [reverse_columns]; exact hemp) (by rw [reverse_columns]; exact hp')
  refine ⟨h₁, h₂, e1, e2, fun d => by rw [t2.shape, t1.shape], ?_, ?_⟩
  · intro c hc i x hx
    obtain ⟨l, hl, hat⟩ := (get_of_cellOf .float c i _).1 hx
    have hd1 := t1.hit c hc i l hl df .float c i _ hl hx
    have hd2 := t2.hit c (by rw [reverse_columns]; exact hc) i l (by rw [hcell1]; exact hl) df .float c i _ (by rw [hcell1]; exact hl) hd1
    refine ⟨_, hd2, ?_, ?_⟩
    · rintro rfl; rfl
    · intro hf
      have := scale_roundtrip (sc := sc) (c := c) (x := x) hf
      obtain ⟨a, b, d, e, g⟩ := this
      refine ⟨a, b, d, e, g.trans (le_of_eq ?_)⟩
      have t2 : 2 * tiny binary64 = 1 / 2 ^ 1074 := by
        show 2 * ((2 : ℚ) ^ (-1074 : ℤ) / 2) = _
        rw [zpow_neg, one_div]
        have : (2 : ℚ) ^ (1074 : ℤ) = 2 ^ (1074 : ℕ) := zpow_natCast 2 1074
        rw [this]; ring
      have u2 : 6 * ulp binary64 = 6 / 2 ^ 53 := by unfold ulp; rw [mul_one_div]; rfl
      rw [t2, u2]
      ring
  · intro d k c' j hno
    rw [t2.miss d k c' j, t1.miss d k c' j hno]
    intro c hc i l hl
    rw [reverse_columns] at hc
    rw [hcell1] at hl ⊢
    exact hno c hc i l hl

/-- A scaler with parameters that float64 cannot hold exactly: the shift is 1/10, the scale 1/3. -/
def sc3 : Scaler Float64 := ⟨[(b!"p", dec 1 10)], [(b!"p", dec 1 3)], ⟨false, true, true⟩⟩
-- the hypotheses of `C41_float64` hold, and the third value of the column does come back as a number
example := C41_float64 (sc := sc3) edf_wf (by decide) (by decide +kernel) (by decide +kernel)
  (by intro c hc d hd hne
      have h1 : c = b!"p" := by simpa [sc3, Scaler.transformedColumns, AMap.keys] using hc
      have h2 : d = b!"p" := by simpa [sc3, Scaler.transformedColumns, AMap.keys] using hd
      exact absurd (h1.trans h2.symm) hne)
  (Or.inr (by decide +kernel)) (by decide) (order := [b!"p"]) (order' := [b!"p"]) (by decide) (by decide)
example : okAnd (sc3.transformInplace edf [b!"p"] eh) (fun h₁ => okAnd (sc3.inverseTransformInplace edf [b!"p"] h₁) fun h₂ =>
    okAnd (edf.get h₂ .float b!"p" 2) fun v => match v with | .float x => finite x | _ => false) = true := by decide +kernel

end Float64
end Verif
