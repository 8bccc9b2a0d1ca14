import Verif.Go.Float32
import Verif.Props.Float64
import Verif.Props.Iter

/-! C28 for Go's own `float64` and `float32`: what the numbers of a row are. -/

namespace Verif
namespace FP
variable {f g : FFmt}

theorem conv_eq_rnd {x : FP f} (hx : x.Finite) (h0 : x.val ≠ 0) : conv g x = rnd g x.val := by
  cases x with
  | nan => cases hx
  | inf => cases hx
  | fin s m e h =>
    have hm : 0 < m := by
      rcases Nat.eq_zero_or_pos m with rfl | h
      · simp [val] at h0
      · exact h
    show ofScaled g s m 1 e = _
    rw [ofScaled_eq_rnd s e hm one_pos]
    simp [val]

/-- A converted number is the nearest one. -/
theorem conv_isRounded {x : FP f} (hx : x.Finite) : IsRounded x.val (conv g x) := by
  by_cases h0 : x.val = 0
  · cases x with
    | nan => cases hx
    | inf => cases hx
    | fin s m e h =>
      have hm : m = 0 := by
        rcases Nat.eq_zero_or_pos m with h1 | h1
        · exact h1
        · exfalso
          have : (0 : ℚ) < m * 2 ^ e := mul_pos (by exact_mod_cast h1) (two_zpow_pos _)
          cases s <;> simp [val] at h0 <;> rcases h0 with h0 | h0 <;> first | omega | (have := two_zpow_pos (K := ℚ) e; linarith)
      subst hm
      have hc : conv g (fin s 0 e h) = zero g s := by
        show ofFrac g s _ _ = _
        unfold ofFrac frac
        split <;> simp
      rw [hc, h0]
      refine ⟨by rw [abs_zero]; exact top_pos g, fun hh => absurd rfl hh, ?_⟩
      intro y _
      constructor
      · show |0 - (zero g s).val| ≤ _
        rw [zero_val, sub_zero, abs_zero]; exact abs_nonneg _
      · intros; rfl
  · rw [conv_eq_rnd hx h0]
    exact rnd_isRounded h0

theorem conv_nan : conv g (nan : FP f) = nan := rfl

end FP

namespace Float64
open FP

/-- **C28**, float32. What a row holds for a cell: for a float the nearest `float32` (NaN and infinities stay), for an int the
nearest `float32`, which is the int itself up to `2^24` in absolute value, for a bool 0 or 1. -/
theorem C28_float32 :
    (∀ x : Float64, x.Finite → IsRounded x.val (num32 (R := Float32) .float (.float x))) ∧
    num32 (R := Float32) .float (.float (GoFloat.nan : Float64)) = .nan ∧
    (∀ s, num32 (R := Float32) .float (.float (.inf s : Float64)) = .inf s) ∧
    (∀ n : ℤ, n ≠ 0 → IsRounded (n : ℚ) (num32 (F := Float64) (R := Float32) .int (.int n))) ∧
    (∀ n : ℤ, |n| ≤ 2 ^ 24 → (num32 (F := Float64) (R := Float32) .int (.int n)).Finite ∧
      (num32 (F := Float64) (R := Float32) .int (.int n)).val = n) ∧
    (∀ b, (num32 (F := Float64) (R := Float32) .bool (.bool b)).Finite ∧
      (num32 (F := Float64) (R := Float32) .bool (.bool b)).val = if b then 1 else 0) := by
  have hint : ∀ n : ℤ, |n| ≤ 2 ^ 24 → (FP.ofInt n : Float32).Finite ∧ (FP.ofInt n : Float32).val = n := fun n hn =>
    FP.ofInt_exact (f := binary32) (by decide) (by decide) hn
  refine ⟨fun x hx => conv_isRounded hx, rfl, fun _ => rfl, ?_, hint, ?_⟩
  · intro n hn
    show IsRounded _ (FP.ofInt n : Float32)
    rw [ofInt_eq_rnd]
    exact rnd_isRounded (by exact_mod_cast hn)
  · intro b
    cases b
    · exact ⟨trivial, zero_val _⟩
    · have := hint 1 (by norm_num)
      exact ⟨this.1, by rw [show num32 (F := Float64) (R := Float32) .bool (.bool true) = FP.ofInt 1 from rfl, this.2]; simp⟩

/-- Beyond, ints are rounded: `float32(2^24 + 1)` is `2^24`; and floats too large for `float32` become infinite. -/
theorem C28_float32_rounds : num32 (F := Float64) (R := Float32) .int (.int (2 ^ 24 + 1)) = num32 (F := Float64) (R := Float32) .int (.int (2 ^ 24)) ∧
    num32 (R := Float32) .float (.float (GoFloat.ofInt (2 ^ 128) : Float64)) = .inf false := by
  decide +kernel

/-- The top of `float32` is `(2^24-1)*2^104`, both signs: it is kept, everything up to half a step beyond
becomes it, and from there on a float of a row is infinite. -/
theorem C28_float32_top (s : Bool) : ∃ h : FFmt.Canon binary32 (2 ^ 24 - 1) 104,
    (∀ n : ℤ, n = 2 ^ 128 - 2 ^ 104 ∨ n = 2 ^ 128 - 2 ^ 103 - 2 ^ 75 →
      num32 (R := Float32) .float (.float (GoFloat.ofInt (if s then -n else n) : Float64)) = .fin s (2 ^ 24 - 1) 104 h) ∧
    num32 (R := Float32) .float (.float (GoFloat.ofInt (if s then -(2 ^ 128 - 2 ^ 103) else 2 ^ 128 - 2 ^ 103) : Float64)) = .inf s := by
  refine ⟨by decide +kernel, ?_, by cases s <;> decide +kernel⟩
  rintro n (rfl | rfl) <;> cases s <;> decide +kernel

end Float64
end Verif
