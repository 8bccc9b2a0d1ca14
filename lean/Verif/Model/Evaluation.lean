import Verif.Model.Preproc

/-! Model of algorithms/evaluation.go, and of the `FloatAccess` objects it works on. -/

namespace Verif
variable {F : Type}

/-- column_access.go:8-17 `FloatAccess`: the row positions and the column slice, as they were when the accessor was
made. `contiguous` is not used by the functions below. -/
structure FloatAccess where
  indices : Idx
  raw : Slice
  deriving DecidableEq, Repr

/-- column_access.go:69-79 `Floats`. -/
def DF.floatAccess (df : DF) (h : Heap F) (c : GoStr) : Except Abort FloatAccess :=
  match AMap.get (h.tab df.tab) (.float, c) with
  | none => .error .panic
  | some s => .ok ⟨df.idx, s⟩

/-- column_access.go:110-112 `Size`. -/
def FloatAccess.size (a : FloatAccess) : Nat := a.indices.rows.length

/-- column_access.go:147-149 `Get`. -/
def FloatAccess.get [GoFloat F] (a : FloatAccess) (h : Heap F) (row : Int) : Except Abort F :=
  match a.indices.at row with
  | .error e => .error e
  | .ok i =>
    match h.cell a.raw i with
    | none => .error .panic
    | some v => .ok (asFloat v)

/-- evaluation.go:16-19: the loop of `MSE`, from row `i` with `n` rows left; `result` is the sum so far. -/
def mseLoop [GoFloat F] (h : Heap F) (yPred yTrue : FloatAccess) (i : Nat) : Nat → F → Except Abort F
  | 0, result => .ok result
  | n + 1, result =>
    match yPred.get h i, yTrue.get h i with
    | .ok p, .ok t =>
      let diff := GoFloat.sub p t
      mseLoop h yPred yTrue (i + 1) n (GoFloat.add result (GoFloat.mul diff diff))
    | .error e, _ => .error e
    | _, .error e => .error e

/-- evaluation.go:11-21 `MSE`. -/
def mse [GoFloat F] (h : Heap F) (yPred yTrue : FloatAccess) : Except Abort F :=
  if yPred.size ≠ yTrue.size then .error .panic
  else
    match mseLoop h yPred yTrue 0 yPred.size GoFloat.zero with
    | .error e => .error e
    | .ok result => .ok (GoFloat.div result (GoFloat.ofInt yPred.size))

/-- evaluation.go:30-32: the loop of `MAE`. -/
def maeLoop [GoFloat F] (h : Heap F) (yPred yTrue : FloatAccess) (i : Nat) : Nat → F → Except Abort F
  | 0, result => .ok result
  | n + 1, result =>
    match yPred.get h i, yTrue.get h i with
    | .ok p, .ok t => maeLoop h yPred yTrue (i + 1) n (GoFloat.add result (GoFloat.abs (GoFloat.sub p t)))
    | .error e, _ => .error e
    | _, .error e => .error e

/-- evaluation.go:25-34 `MAE`. -/
def mae [GoFloat F] (h : Heap F) (yPred yTrue : FloatAccess) : Except Abort F :=
  if yPred.size ≠ yTrue.size then .error .panic
  else
    match maeLoop h yPred yTrue 0 yPred.size GoFloat.zero with
    | .error e => .error e
    | .ok result => .ok (GoFloat.div result (GoFloat.ofInt yPred.size))

end Verif
