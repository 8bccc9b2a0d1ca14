import Verif.Model.Batching
import Verif.Model.Preproc

/-! Model of algorithms/linear_regression.go, `Predict`. -/

namespace Verif
variable {F : Type}

/-- linear_regression.go:39-44 `LinearRegressor`, 46-49 `NewLinearRegressor` (all fields empty). `scaler` is `none` before the first `Fit` (nil pointer). -/
structure LinearRegressor (F : Type) where
  scaler : Option (Scaler F)
  weights : List F
  features : List GoStr

/-- Row `i` of a matrix. -/
def Matrix.row [GoFloat F] (m : Matrix F) (i : Nat) : List F := (List.range m.cols).map fun j => (m.at i j).getD GoFloat.zero

/-- gonum's `yVec.MulVec(rows, weights)`: panics when the dimensions do not match. The order in which BLAS adds the
products is not part of the model: `dot` is whatever gonum computes for a row and the weights (simplification: it
only depends on these two). -/
def mulVec [GoFloat F] (dot : List F → List F → F) (m : Matrix F) (weights : List F) : Except Abort (List F) :=
  if m.cols = weights.length then .ok ((List.range m.rows).map fun i => dot (m.row i) weights) else .error .panic

/-- linear_regression.go:160-166: the loop over the batches, from batch `i` on. -/
def predictLoop [GoFloat F] (dot : List F → List F → F) (weights : List F) (batchSize : Nat) (h : Heap F) :
    List DF → Nat → Dense64Batching F → List F → Except Abort (List F)
  | [], _, _, pred => .ok pred
  | batch :: bs, i, bat, pred =>
    match bat.denseMatrix batch h with
    | .error e => .error e
    | .ok (rows, bat) =>
      let offset := i * batchSize
      if offset + batch.numRows ≤ pred.length then
        if batch.numRows = 0 then .error .panic
        else
          match mulVec dot rows weights with
          | .error e => .error e
          | .ok ys => predictLoop dot weights batchSize h bs (i + 1) bat (pred.take offset ++ ys ++ pred.drop (offset + batch.numRows))
      else .error .panic

/-- linear_regression.go:150-153: the batch size (integer division by the number of weights). -/
def predictBatchSize (nWeights : Nat) : Nat :=
  let batchSize := 4194304 / nWeights
  if batchSize < 32 then 32 else batchSize

/-- linear_regression.go:146-175 `Predict`. `order` is the order in which the inverse scaler gets its columns. -/
def LinearRegressor.predict [GoFloat F] (reg : LinearRegressor F) (dot : List F → List F → F) (df : DF) (resultColumn : GoStr)
    (order : List GoStr) (h : Heap F) : Except Abort (DF × Heap F) :=
  let df := df.resetIndexView
  if reg.weights.length = 0 then .error .panic
  else
    let batchSize := predictBatchSize reg.weights.length
    let pred : List F := List.replicate df.numRows GoFloat.zero
    match df.splitView batchSize h with
    | .error e => .error e
    | .ok (batches, h) =>
      match predictLoop dot reg.weights batchSize h batches 0 (newDense64Batching reg.features) pred with
      | .error e => .error e
      | .ok pred =>
        match df.view.overwrite .float b!"_target" (pred.map .float) false h with
        | .error e => .error e
        | .ok (result, h) =>
          match reg.scaler with
          | none => .error .panic
          | some sc =>
            match sc.inverseTransformInplace result order h with
            | .error e => .error e
            | .ok h =>
              match result.toRaw.rename b!"_target" resultColumn h with
              | .error e => .error e
              | .ok (raw, h) => .ok ({ result with toRaw := raw }, h)

end Verif
