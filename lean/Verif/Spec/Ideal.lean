import Verif.Go.Basic
import Mathlib.Data.Real.Sqrt

/-! Idealised floating point: `float64` without rounding, without overflow and without signed zeros, with the
infinities and NaN. Theorems that say "up to rounding" in English are stated for this arithmetic. -/

namespace Verif

/-- A real number, an infinity, or NaN. -/
inductive Ideal where
  | nan
  | posInf
  | negInf
  | real (x : ℝ)

namespace Ideal

noncomputable section
open Classical

/-- `-x` -/
def neg : Ideal → Ideal
  | nan => nan
  | posInf => negInf
  | negInf => posInf
  | real x => real (-x)

/-- `x + y` -/
def add : Ideal → Ideal → Ideal
  | nan, _ => nan
  | _, nan => nan
  | posInf, negInf => nan
  | negInf, posInf => nan
  | posInf, _ => posInf
  | _, posInf => posInf
  | negInf, _ => negInf
  | _, negInf => negInf
  | real x, real y => real (x + y)

/-- An infinity with the sign of a product. -/
def infOfSign (x : ℝ) : Ideal := if x = 0 then nan else if 0 < x then posInf else negInf

/-- `x * y` -/
def mul : Ideal → Ideal → Ideal
  | nan, _ => nan
  | _, nan => nan
  | posInf, posInf => posInf
  | negInf, negInf => posInf
  | posInf, negInf => negInf
  | negInf, posInf => negInf
  | posInf, real y => infOfSign y
  | real x, posInf => infOfSign x
  | negInf, real y => neg (infOfSign y)
  | real x, negInf => neg (infOfSign x)
  | real x, real y => real (x * y)

/-- `x / y` -/
def div : Ideal → Ideal → Ideal
  | nan, _ => nan
  | _, nan => nan
  | real _, posInf => real 0
  | real _, negInf => real 0
  | posInf, real y => if y < 0 then negInf else posInf
  | negInf, real y => if y < 0 then posInf else negInf
  | real x, real y => if y = 0 then infOfSign x else real (x / y)
  | _, _ => nan

/-- `math.Abs` -/
def abs : Ideal → Ideal
  | nan => nan
  | posInf => posInf
  | negInf => posInf
  | real x => real |x|

/-- `math.Sqrt` -/
def sqrt : Ideal → Ideal
  | nan => nan
  | posInf => posInf
  | negInf => nan
  | real x => if x < 0 then nan else real (Real.sqrt x)

/-- `x < y` -/
def lt : Ideal → Ideal → Bool
  | nan, _ => false
  | _, nan => false
  | negInf, negInf => false
  | negInf, _ => true
  | _, negInf => false
  | posInf, _ => false
  | _, posInf => true
  | real x, real y => decide (x < y)

/-- `x == y` -/
def eq : Ideal → Ideal → Bool
  | posInf, posInf => true
  | negInf, negInf => true
  | real x, real y => decide (x = y)
  | _, _ => false

/-- `math.IsNaN` -/
def isNaN : Ideal → Bool
  | nan => true
  | _ => false

/-- `int(x)` (unspecified in Go for NaN and infinities). -/
def trunc : Ideal → Int
  | real x => if 0 ≤ x then ⌊x⌋ else ⌈x⌉
  | _ => 0

instance : GoFloat Ideal where
  zero := real 0
  one := real 1
  nan := nan
  posInf := posInf
  negInf := negInf
  add := add
  sub a b := add a (neg b)
  mul := mul
  div := div
  neg := neg
  abs := abs
  sqrt := sqrt
  lt := lt
  le a b := lt a b || eq a b
  eq := eq
  isNaN := isNaN
  ofInt n := real n
  trunc := trunc

end

/-- A number or a missing value: not an infinity. -/
def Plain : Ideal → Prop
  | nan => True
  | real _ => True
  | _ => False

/-- The numbers of a list. -/
def reals (l : List Ideal) : List ℝ := l.filterMap fun v => match v with | real x => some x | _ => none

end Ideal

/-- The mean of a list of numbers. -/
noncomputable def mean (l : List ℝ) : ℝ := l.sum / l.length

/-- The variance of a list of numbers. -/
noncomputable def variance (l : List ℝ) : ℝ := (l.map fun x => (x - mean l) ^ 2).sum / l.length

end Verif
