import Verif.Props.ScalerFloat64
import Verif.Props.Float64Demo
import Verif.Props.Witness3
import Verif.Proofs.AutoFit
import Verif.Proofs.Float64Stats

/-! C42 with IEEE float64: how close to 0 and 1 the mean and the variance of the transformed columns are. -/

namespace Verif
namespace Float64
open FP

/-- The numbers that a column holds, without the missing values. -/
def nums (l : List Float64) : List ℚ := (present l).map val

/-- A column on which nothing overflows or underflows while the scaler learns: its values that are not missing are numbers,
their computed mean `m` is one, and each value either is `m` or differs from `m` by at least 2^-480 and at most 2^480. -/
structure Ordinary (l : List Float64) : Prop where
  finite : ∀ x ∈ present l, x.Finite
  size : (present l).length + 10 ≤ 2 ^ 52
  mean : (fmean l).Finite
  tame : ∀ x ∈ present l, x.val = (fmean l).val ∨ (2 ^ (-480 : ℤ) ≤ |x.val - (fmean l).val| ∧ |x.val - (fmean l).val| ≤ 2 ^ (480 : ℤ))

/-- What `Transform` makes of one value, with the parameters that `Fit` learns. -/
def stdVal (l : List Float64) (x : Float64) : Float64 := mul (sub x (fmean l)) (fscale l)

theorem present_map {l : List Float64} {g : Float64 → Float64} (hnan : g FP.nan = FP.nan) (hfin : ∀ x ∈ present l, (g x).Finite) :
    present (l.map g) = (present l).map g := by
  induction l with
  | nil => rfl
  | cons x l ih =>
    unfold present at *
    rw [List.map_cons, List.filter_cons, List.filter_cons]
    by_cases hx : GoFloat.isNaN x = true
    · have e : x = FP.nan := by cases x <;> first | rfl | cases hx
      subst e
      rw [hnan]
      rw [List.filter_cons] at hfin
      exact ih hfin
    · have hx' : GoFloat.isNaN x = false := by simpa using hx
      rw [List.filter_cons] at hfin
      simp only [hx', Bool.not_false, if_true, List.map_cons] at hfin ⊢
      have hg : GoFloat.isNaN (g x) = false := isNaN_of_finite (hfin x (by simp))
      simp only [hg, Bool.not_false, if_true]
      rw [ih fun y hy => hfin y (by simp [hy])]

theorem len_ok {n : ℕ} (hn : n + 10 ≤ 2 ^ 52) : (GoFloat.ofInt (n : Int) : Float64).Finite ∧ (GoFloat.ofInt (n : Int) : Float64).val = n := by
  have h := ofInt_ok (n := (n : ℤ)) (by rw [abs_of_nonneg (by positivity)]; have : (n : ℤ) + 10 ≤ 2 ^ 52 := by exact_mod_cast hn
                                        linarith)
  refine ⟨h.1, ?_⟩
  rw [h.2]; simp

/-- One column. -/
theorem std_column {l : List Float64} (o : Ordinary l) :
    (∀ x ∈ present l, (stdVal l x).Finite) ∧
    ((∃ x ∈ nums l, x ≠ (fmean l).val) →
      0 < (fscale l).val ∧
      |(fscale l).val ^ 2 * qmean ((nums l).map fun x => (x - (fmean l).val) ^ 2) - 1| ≤ ((nums l).length + 10 : ℚ) / 2 ^ 52 ∧
      |qmean ((nums (l.map (stdVal l))).map (· ^ 2)) - 1| ≤ ((nums l).length + 10 : ℚ) / 2 ^ 52 ∧
      |qmean (nums (l.map (stdVal l)))| ≤
        (fscale l).val * (((nums l).length + 1) / 2 ^ 52 * qmean ((nums l).map fun x => |x|) + 1 / 2 ^ 1075) + 1 / 2 ^ 50) ∧
    ((∀ x ∈ nums l, x = (fmean l).val) → ∀ y ∈ nums (l.map (stdVal l)), y = 0) := by
  have hlen := len_ok o.size
  have hzero : (GoFloat.zero : Float64) = FP.zero binary64 false := rfl
  have hnan : stdVal l FP.nan = FP.nan := rfl
  have hnl : (nums l).length = (present l).length := by simp [nums]
  rw [hnl]
  by_cases hne : ∃ x ∈ present l, x.val ≠ (fmean l).val
  · obtain ⟨sq, k, hsq, s1, s2, hk, k1, k2, k3, k4, k5, k6⟩ := standardised (xs := present l) (m := fmean l)
      (c := GoFloat.ofInt (present l).length) o.mean o.finite o.size
      (fun x hx => by
        rcases o.tame x hx with h | h
        · left; rw [h, sub_self]
        · exact Or.inr h) hne hlen.1 hlen.2 rfl
    have hfs : fsquares l = sq := hsq.symm
    have hfk : fscale l = k := by
      unfold fscale
      rw [hfs]
      have : GoFloat.eq sq (GoFloat.zero : Float64) = false := by
        rw [Bool.eq_false_iff]
        intro h
        have := (FP.eq_iff s1 (zero_finite _)).1 h
        rw [FP.zero_val] at this
        exact s2.ne' this
      rw [this]
      exact hk.symm
    have hval : ∀ x, stdVal l x = mul (sub x (fmean l)) k := by intro x; unfold stdVal; rw [hfk]
    have hfin : ∀ x ∈ present l, (stdVal l x).Finite := fun x hx => by rw [hval]; exact k3 x hx
    have hout : nums (l.map (stdVal l)) = (present l).map fun x => (mul (sub x (fmean l)) k).val := by
      unfold nums
      rw [present_map hnan hfin, List.map_map]
      apply List.map_congr_left; intro x _
      simp only [Function.comp, hval]
    refine ⟨hfin, fun _ => ?_, ?_⟩
    · rw [hfk, hout, ← tiny64]
      simp only [nums, List.map_map]
      exact ⟨k2, k4, k5, k6⟩
    · intro h
      obtain ⟨x, hx, hxm⟩ := hne
      exact absurd (h _ (List.mem_map_of_mem hx)) hxm
  · push Not at hne
    have h1 : (GoFloat.ofInt (((present l).length + 1 : Nat) : Int) : Float64).Finite ∧
        (GoFloat.ofInt (((present l).length + 1 : Nat) : Int) : Float64).val = (present l).length + 1 := by
      have h := ofInt_ok (n := (((present l).length + 1 : Nat) : Int)) (by
        rw [abs_of_nonneg (by positivity)]
        have : ((present l).length : ℤ) + 10 ≤ 2 ^ 52 := by exact_mod_cast o.size
        push_cast; linarith)
      refine ⟨h.1, ?_⟩
      rw [h.2]; push_cast; ring
    obtain ⟨sq, k, hsq, s1, s2, hk, k1, k2⟩ := standardised_const (xs := present l) (m := fmean l) o.mean o.finite o.size hne h1.1 h1.2
      one_fin one_val
    have hfs : fsquares l = sq := hsq.symm
    have hfk : fscale l = k := by
      unfold fscale
      rw [hfs]
      have : GoFloat.eq sq (GoFloat.zero : Float64) = true := by
        refine (FP.eq_iff s1 (zero_finite _)).2 ?_
        rw [FP.zero_val, s2]
      rw [this]
      exact hk.symm
    have hval : ∀ x, stdVal l x = mul (sub x (fmean l)) k := by intro x; unfold stdVal; rw [hfk]
    have hfin : ∀ x ∈ present l, (stdVal l x).Finite := fun x hx => by rw [hval]; exact (k2 x hx).1
    refine ⟨hfin, ?_, fun _ => ?_⟩
    · rintro ⟨x, hx, hxm⟩
      obtain ⟨z, hz, rfl⟩ := List.mem_map.1 hx
      exact absurd (hne z hz) hxm
    · intro y hy
      unfold nums at hy
      rw [present_map hnan hfin, List.map_map] at hy
      obtain ⟨x, hx, rfl⟩ := List.mem_map.1 hy
      simp only [Function.comp, hval]
      exact (k2 x hx).2

/-- **C42** with float64. A scaler with centering and scaling, trained on a dataframe and applied to it. In a column on which
nothing overflows or underflows (`Ordinary`), with `n` values present, `m` the computed mean and `s` the learnt scale:
what was missing, and only that, is missing in the result, and all the rest are finite numbers; if the values are not all equal to
`m`, then `s` is within `(n+10)/2^52` of the inverse of the spread around `m`, the mean of the squares of the result
is within `(n+10)/2^52` of 1, its mean within `b = s·((n+1)/2^52·mean|x| + 2^-1075) + 2^-50` of 0, and its variance
therefore within `(n+10)/2^52 + b²` of 1; if they all are equal to `m`, the result is all 0. -/
theorem C42_float64 {df : DF} {h : Heap Float64} {sc : Scaler Float64} (hopt : sc.options = ⟨false, true, true⟩)
    {vals : GoStr → List Float64} (wf : df.WF h) (hv : FloatCols (abs h df) vals) (hr : df.rows.Nodup)
    (hu : Unaliased h df (namesOf (h.tab df.tab) .float)) (hcpu : 0 < df.maxCPU) (hemp : (abs h df).col .float [] = none)
    {order : List GoStr} (hp : order.Perm (namesOf (h.tab df.tab) .float)) :
    ∃ sc', sc.fit df order h = .ok sc' ∧ ∀ order', order'.Perm sc'.transformedColumns →
      ∃ h', sc'.transformInplace df order' h = .ok h' ∧ ∀ c, ((abs h df).col .float c).isSome → Ordinary (vals c) →
        ∃ (out : List Float64) (s b : ℚ), (abs h' df).floats c = some out ∧ out.length = (vals c).length ∧
          (∀ i : Nat, out[i]? = some FP.nan ↔ (vals c)[i]? = some FP.nan) ∧ (∀ y ∈ out, y = FP.nan ∨ y.Finite) ∧
          (∃ k, AMap.get sc'.scale c = some k ∧ k.val = s) ∧
          b = s * (((nums (vals c)).length + 1) / 2 ^ 52 * qmean ((nums (vals c)).map fun x => |x|) + 1 / 2 ^ 1075) + 1 / 2 ^ 50 ∧
          ((∃ x ∈ nums (vals c), x ≠ (fmean (vals c)).val) →
            0 < s ∧
            |s ^ 2 * qmean ((nums (vals c)).map fun x => (x - (fmean (vals c)).val) ^ 2) - 1| ≤ ((nums (vals c)).length + 10 : ℚ) / 2 ^ 52 ∧
            |qmean ((nums out).map (· ^ 2)) - 1| ≤ ((nums (vals c)).length + 10 : ℚ) / 2 ^ 52 ∧
            |qmean (nums out)| ≤ b ∧
            |qvariance (nums out) - 1| ≤ ((nums (vals c)).length + 10 : ℚ) / 2 ^ 52 + b ^ 2) ∧
          ((∀ x ∈ nums (vals c), x = (fmean (vals c)).val) → ∀ y ∈ nums out, y = 0) := by
  obtain ⟨sc', e, _, n1, n2, g1, g2⟩ := scaler_fit (sc := sc) hv (Or.inr hcpu) hemp hp
  obtain ⟨sc'', e', nd, hcols⟩ := C41_fit_columns (sc := sc) hv (Or.inr hcpu) hemp hp
  rw [e] at e'; cases e'
  have hcols' : ∀ c, c ∈ sc'.transformedColumns ↔ ((abs h df).col .float c).isSome := by
    intro c; rw [hcols, hopt]; simp
  refine ⟨sc', e, ?_⟩
  intro order' hp'
  obtain ⟨h', e2, tr⟩ := C41_transform (sc := sc') wf nd (fun c hc => (hcols' c).1 hc) hr
    (fun c h1 c' h2 => hu c (mem_namesOf_iff.2 ((hcols' c).1 h1)) c' (mem_namesOf_iff.2 ((hcols' c').1 h2))) (Or.inr hcpu)
    (by rw [hcols', hemp]; simp) hp'
  refine ⟨h', e2, ?_⟩
  intro c hc ho
  have hout := tr.floats ((hcols' c).2 hc) (hv c hc)
  have hg : (fun x => GoFloat.mul (GoFloat.add x ((AMap.get sc'.shift c).getD GoFloat.zero))
      ((AMap.get sc'.scale c).getD GoFloat.one)) = stdVal (vals c) := by
    funext x
    rw [g1, g2, if_pos hc, if_pos hc, hopt, scalerFitCol_standard]
    rfl
  have hk : AMap.get sc'.scale c = some (fscale (vals c)) := by
    rw [g2, if_pos hc, hopt, scalerFitCol_standard]
  obtain ⟨c1, c2, c3⟩ := std_column ho
  refine ⟨_, (fscale (vals c)).val, _, hout, by simp, ?_, ?_, ⟨_, hk, rfl⟩, rfl, ?_, ?_⟩
  · intro i
    rw [hg, List.getElem?_map]
    cases hi : (vals c)[i]? with
    | none => simp
    | some w =>
      simp only [Option.map_some, Option.some.injEq]
      constructor
      · intro hw
        cases hn : GoFloat.isNaN w with
        | true => cases w <;> first | rfl | cases hn
        | false =>
          have := c1 w (List.mem_filter.2 ⟨List.mem_of_getElem? hi, by rw [hn]; rfl⟩)
          rw [hw] at this; cases this
      · rintro rfl; rfl
  · intro y hy
    rw [hg] at hy
    obtain ⟨w, hw, rfl⟩ := List.mem_map.1 hy
    cases hn : GoFloat.isNaN w with
    | true =>
      left
      have : w = FP.nan := by cases w <;> first | rfl | cases hn
      subst this; rfl
    | false => exact Or.inr (c1 w (List.mem_filter.2 ⟨hw, by rw [hn]; rfl⟩))
  · intro hne
    rw [hg]
    obtain ⟨d1, d2, d3, d4⟩ := c2 hne
    refine ⟨d1, d2, d3, d4, ?_⟩
    have hnl : nums ((vals c).map (stdVal (vals c))) ≠ [] := by
      obtain ⟨x, hx, -⟩ := hne
      unfold nums at hx ⊢
      rw [present_map rfl c1, List.map_map]
      obtain ⟨z, hz, -⟩ := List.mem_map.1 hx
      exact List.ne_nil_of_mem (List.mem_map_of_mem hz)
    rw [qvariance_eq hnl]
    have hsq : qmean (nums ((vals c).map (stdVal (vals c)))) ^ 2 ≤ ((fscale (vals c)).val *
        (((nums (vals c)).length + 1) / 2 ^ 52 * qmean ((nums (vals c)).map fun x => |x|) + 1 / 2 ^ 1075) + 1 / 2 ^ 50) ^ 2 := by
      rw [← sq_abs]
      exact pow_le_pow_left₀ (abs_nonneg _) d4 2
    generalize qmean (nums ((vals c).map (stdVal (vals c)))) = M at *
    generalize (fscale (vals c)).val * (((nums (vals c)).length + 1) / 2 ^ 52 * qmean ((nums (vals c)).map fun x => |x|) + 1 / 2 ^ 1075) + 1 / 2 ^ 50 = B at *
    have e1 : qmean ((nums ((vals c).map (stdVal (vals c)))).map (· ^ 2)) - M ^ 2 - 1 =
      (qmean ((nums ((vals c).map (stdVal (vals c)))).map (· ^ 2)) - 1) + -M ^ 2 := by ring
    rw [e1]
    refine (abs_add_le _ _).trans (add_le_add d3 ?_)
    rw [abs_neg, abs_of_nonneg (sq_nonneg M)]
    exact hsq
  · rw [hg]; exact c3

/-! ### non-vacuity -/

/-- Differences between 1/1000 and 1000 are far from the limits. -/
theorem ordinary_of {l : List Float64} (h1 : ∀ x ∈ present l, finite x = true) (h2 : finite (fmean l) = true) (h3 : (present l).length ≤ 1000)
    (h4 : ∀ x ∈ present l, 1 / 1000 ≤ |x.val - (fmean l).val| ∧ |x.val - (fmean l).val| ≤ 1000) : Ordinary l where
  finite x hx := (finite_iff64 x).1 (h1 x hx)
  size := by omega
  mean := (finite_iff64 _).1 h2
  tame x hx := by
    right
    obtain ⟨a, b⟩ := h4 x hx
    refine ⟨le_trans ?_ a, b.trans ?_⟩
    · refine (two_zpow_le (b := -10) (by norm_num)).trans (by norm_num)
    · refine le_trans (by norm_num) (two_zpow_le (a := 10) (by norm_num))

theorem pcol_ordinary : Ordinary pcol := ordinary_of (by decide +kernel) (by decide +kernel) (by decide +kernel) (by decide +kernel)
theorem tcol_ordinary : Ordinary tcol := ordinary_of (by decide +kernel) (by decide +kernel) (by decide +kernel) (by decide +kernel)

theorem edf_unaliased : Unaliased eh edf (namesOf (eh.tab edf.tab) .float) := by
  rw [edf_names]; exact unaliased_of_arrs (by decide +kernel)
-- the hypotheses of `C42_float64` hold, both columns are ordinary, and their values are not all the same
example := C42_float64 (sc := newScaler ⟨false, true, true⟩) rfl edf_wf edf_fcols (by decide +kernel) edf_unaliased (by decide +kernel)
  (by decide +kernel) (order := [b!"t", b!"p"]) (by rw [edf_names]; decide)
example : (∃ x ∈ nums pcol, x ≠ (fmean pcol).val) ∧ ∃ x ∈ nums tcol, x ≠ (fmean tcol).val := by decide +kernel

end Float64
end Verif
