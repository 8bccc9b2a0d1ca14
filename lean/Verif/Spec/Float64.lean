import Verif.Go.Float64
import Mathlib.Algebra.Order.Field.Power
import Mathlib.Algebra.Order.Field.Rat

/-! What it means for a floating point operation to be correctly rounded (IEEE 754, round to nearest, ties to even). -/

namespace Verif
namespace FP
variable {f : FFmt}

/-- The number is neither NaN nor an infinity. -/
def Finite : FP f → Prop
  | .fin _ _ _ _ => True
  | _ => False

/-- The rational number a finite floating point number stands for. -/
def val : FP f → ℚ
  | .fin s m e _ => (if s then -1 else 1) * (m * 2 ^ e)
  | _ => 0

/-- From here on numbers are rounded to infinity: half-way between the largest finite number and the next power of two. -/
def _root_.Verif.FFmt.top (f : FFmt) : ℚ := (2 ^ f.p - 1 / 2) * 2 ^ f.emax

/-- `x` is `q`, rounded: the infinity of its sign if `|q|` is too large; else a finite number of its sign such that no finite
number is nearer to `q`, with an even mantissa if another one is as near. -/
def IsRounded (q : ℚ) : FP f → Prop
  | .nan => False
  | .inf s => f.top ≤ |q| ∧ s = decide (q < 0)
  | .fin s m e h => |q| < f.top ∧ (q ≠ 0 → s = decide (q < 0)) ∧
      ∀ y : FP f, y.Finite → |q - (fin s m e h).val| ≤ |q - y.val| ∧
        (|q - (fin s m e h).val| = |q - y.val| → y.val ≠ (fin s m e h).val → m % 2 = 0)

end FP
end Verif
