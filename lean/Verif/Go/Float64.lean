import Verif.Go.Basic

/-! IEEE 754 binary floating point, as Go's `float64` and `float32` have it: rounding to nearest, ties to even, subnormal
numbers, signed zeros, infinities, one NaN. Nothing in /repo implements this: it is the meaning of the type `float64` that
/repo computes with (e.g. dataframe/column_access.go:100-102, preprocessing/scaler.go, algorithms/linear_regression.go).
The definitions compute with natural numbers and integers only; `Proofs/Float64.lean` proves that the results are the nearest
representable numbers.

Simplifications: all NaNs are one value; no fused multiply-add (Go fuses on some architectures, not on amd64); `int(x)` of NaN,
of an infinity, which Go leaves to the implementation, is 0. -/

namespace Verif

/-- A format: the numbers `± m * 2 ^ e` with `m < 2 ^ p` and `emin ≤ e ≤ emax`. -/
structure FFmt where
  p : Nat
  emin : Int
  emax : Int
  hp : 1 < p
  he : emin ≤ emax

/-- `float64` -/
def binary64 : FFmt := ⟨53, -1074, 971, by decide, by decide⟩

/-- `float32` -/
def binary32 : FFmt := ⟨24, -149, 104, by decide, by decide⟩

/-- `m * 2 ^ e` is written with the least exponent, so that each number has one representation. -/
def FFmt.Canon (f : FFmt) (m : Nat) (e : Int) : Prop :=
  m < 2 ^ f.p ∧ f.emin ≤ e ∧ e ≤ f.emax ∧ (2 ^ (f.p - 1) ≤ m ∨ e = f.emin)

instance (f : FFmt) (m : Nat) (e : Int) : Decidable (f.Canon m e) := by unfold FFmt.Canon; exact inferInstance

/-- A floating point number: NaN, `± Inf`, or `± m * 2 ^ e`. -/
inductive FP (f : FFmt) where
  | nan
  | inf (neg : Bool)
  | fin (neg : Bool) (m : Nat) (e : Int) (h : f.Canon m e)
  deriving DecidableEq

namespace FP
variable {f : FFmt}

/-- `a / b` rounded to an integer, ties to even. -/
def divEven (a b : Nat) : Nat :=
  if 2 * (a % b) < b then a / b else if b < 2 * (a % b) then a / b + 1 else a / b + a / b % 2

/-- `n / d * 2 ^ e` as a fraction. -/
def frac (n d : Nat) (e : Int) : Nat × Nat := if 0 ≤ e then (n * 2 ^ e.toNat, d) else (n, d * 2 ^ (-e).toNat)

/-- `⌊log2 (n / d)⌋`, for positive `n` and `d`. -/
def logFrac (n d : Nat) : Int :=
  let l : Int := (n.log2 : Int) - d.log2
  if (frac d 1 l).1 ≤ n * (frac d 1 l).2 then l else l - 1

/-- The exponent with which `n / d` is written: `p` digits, unless it is subnormal. -/
def expOf (f : FFmt) (n d : Nat) : Int := max f.emin (logFrac n d - (f.p - 1 : Nat))

/-- The multiple of `2 ^ expOf` nearest to `n / d`. -/
def mantOf (f : FFmt) (n d : Nat) : Nat := divEven (frac n d (-expOf f n d)).1 (frac n d (-expOf f n d)).2

/-- `± m * 2 ^ e`, or an infinity if that is too large. (`m = 2 ^ p` comes from rounding up.) -/
def pack (f : FFmt) (neg : Bool) (m : Nat) (e : Int) : FP f :=
  if h : f.Canon m e then .fin neg m e h
  else if h : f.Canon (2 ^ (f.p - 1)) (e + 1) then .fin neg (2 ^ (f.p - 1)) (e + 1) h
  else .inf neg

/-- Zero. -/
def zero (f : FFmt) (neg : Bool) : FP f :=
  .fin neg 0 f.emin ⟨Nat.pos_of_ne_zero (by simp), Int.le_refl _, f.he, Or.inr rfl⟩

/-- The number nearest to `± n / d`; zero keeps the sign. -/
def ofFrac (f : FFmt) (neg : Bool) (n d : Nat) : FP f :=
  if n = 0 then zero f neg else pack f neg (mantOf f n d) (expOf f n d)

/-- The number nearest to `± n / d * 2 ^ e`. -/
def ofScaled (f : FFmt) (neg : Bool) (n d : Nat) (e : Int) : FP f := ofFrac f neg (frac n d e).1 (frac n d e).2

/-- `float64(n)` -/
def ofInt (n : Int) : FP f := ofFrac f (decide (n < 0)) n.natAbs 1

/-- `-x` -/
def neg : FP f → FP f
  | .nan => .nan
  | .inf s => .inf (!s)
  | .fin s m e h => .fin (!s) m e h

/-- `math.Abs(x)` -/
def abs : FP f → FP f
  | .nan => .nan
  | .inf _ => .inf false
  | .fin _ m e h => .fin false m e h

/-- `± m` -/
def signed (s : Bool) (m : Nat) : Int := if s then -(m : Int) else m

/-- The sum of `± m * 2 ^ e` and `± m' * 2 ^ e'` over the smaller power. -/
def exactSum (s : Bool) (m : Nat) (e : Int) (s' : Bool) (m' : Nat) (e' : Int) : Int :=
  signed s (m * 2 ^ (e - min e e').toNat) + signed s' (m' * 2 ^ (e' - min e e').toNat)

/-- `x + y`. A zero sum is positive unless both are negative. -/
def add : FP f → FP f → FP f
  | .nan, _ => .nan
  | _, .nan => .nan
  | .inf s, .inf s' => if s = s' then .inf s else .nan
  | .inf s, _ => .inf s
  | _, .inf s => .inf s
  | .fin s m e _, .fin s' m' e' _ =>
    let z := exactSum s m e s' m' e'
    if z = 0 then zero f (s && s') else ofScaled f (decide (z < 0)) z.natAbs 1 (min e e')

/-- `x - y` -/
def sub (x y : FP f) : FP f := add x (neg y)

/-- `x * y` -/
def mul : FP f → FP f → FP f
  | .nan, _ => .nan
  | _, .nan => .nan
  | .inf s, .inf s' => .inf (s != s')
  | .inf s, .fin s' m' _ _ => if m' = 0 then .nan else .inf (s != s')
  | .fin s m _ _, .inf s' => if m = 0 then .nan else .inf (s != s')
  | .fin s m e _, .fin s' m' e' _ => ofScaled f (s != s') (m * m') 1 (e + e')

/-- `x / y` -/
def div : FP f → FP f → FP f
  | .nan, _ => .nan
  | _, .nan => .nan
  | .inf _, .inf _ => .nan
  | .inf s, .fin s' _ _ _ => .inf (s != s')
  | .fin s _ _ _, .inf s' => zero f (s != s')
  | .fin s m e _, .fin s' m' e' _ =>
    if m' = 0 then (if m = 0 then .nan else .inf (s != s')) else ofScaled f (s != s') m m' (e - e')

/-- `math.Sqrt(x)`: the root of `m * 2 ^ e` is computed with more digits than `p`, and a last digit that tells whether the
computed root is the exact one. -/
def sqrt : FP f → FP f
  | .nan => .nan
  | .inf s => if s then .nan else .inf false
  | .fin s m e h =>
    if m = 0 then .fin s m e h
    else if s then .nan
    else
      let k := 2 * f.p + 2 + (e % 2).toNat
      let r := (m * 2 ^ k).sqrt
      ofScaled f false (2 * r + if r * r = m * 2 ^ k then 0 else 1) 1 ((e - k) / 2 - 1)

/-- `x < y` -/
def lt : FP f → FP f → Bool
  | .nan, _ => false
  | _, .nan => false
  | .inf s, .inf s' => s && !s'
  | .inf s, _ => s
  | _, .inf s => !s
  | .fin s m e _, .fin s' m' e' _ => decide (exactSum s m e (!s') m' e' < 0)

/-- `x == y` -/
def eq : FP f → FP f → Bool
  | .nan, _ => false
  | _, .nan => false
  | .inf s, .inf s' => s == s'
  | .inf _, _ => false
  | _, .inf _ => false
  | .fin s m e _, .fin s' m' e' _ => decide (exactSum s m e (!s') m' e' = 0)

/-- `math.IsNaN(x)` -/
def isNaN : FP f → Bool
  | .nan => true
  | _ => false

/-- `int(x)`: towards zero. -/
def trunc : FP f → Int
  | .fin s m e _ => signed s (if 0 ≤ e then m * 2 ^ e.toNat else m / 2 ^ (-e).toNat)
  | _ => 0

end FP

/-- Go's `float64`. -/
abbrev Float64 := FP binary64

instance : GoFloat Float64 where
  zero := FP.zero _ false
  one := FP.ofInt 1
  nan := .nan
  posInf := .inf false
  negInf := .inf true
  add := FP.add
  sub := FP.sub
  mul := FP.mul
  div := FP.div
  neg := FP.neg
  abs := FP.abs
  sqrt := FP.sqrt
  lt := FP.lt
  le a b := FP.lt a b || FP.eq a b
  eq := FP.eq
  isNaN := FP.isNaN
  ofInt := FP.ofInt
  trunc := FP.trunc

end Verif
