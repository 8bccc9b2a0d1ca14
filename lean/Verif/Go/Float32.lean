import Verif.Go.Float64
import Verif.Model.Batching

/-! `float32`, and its conversions from `float64` and `int` (dataframe/row_iterators.go:101-121). -/

namespace Verif

/-- Go's `float32`. -/
abbrev Float32 := FP binary32

/-- `float32(x)`: the number of the other format nearest to `x`. -/
def FP.conv {f : FFmt} (g : FFmt) : FP f → FP g
  | .nan => .nan
  | .inf s => .inf s
  | .fin s m e _ => FP.ofScaled g s m 1 e

instance : GoFloat32 Float64 Float32 where
  ofFloat := FP.conv binary32
  ofInt := FP.ofInt
  zero := FP.zero _ false
  one := FP.ofInt 1

end Verif
