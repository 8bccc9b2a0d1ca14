import Verif.Spec.LinReg
import Verif.Model.LinRegFit

/-! What `LinearRegressor.Fit` is specified to do: mini-batch gradient descent with momentum and weight decay, row by
row and entry by entry, on (features, target) pairs. Nothing here mentions dataframes or memory. -/

namespace Verif
variable {F : Type} [GoFloat F]

/-- Entry `j` of the gradient of a batch of (features, target) rows at the weights `w`: the `j`-th features against the
residuals "prediction minus target". -/
def gradAt (bl : Blas F) (batch : List (List F × F)) (w : List F) (j : Nat) : F :=
  bl.dotT (batch.map fun e => e.1.getD j GoFloat.zero) (batch.map fun e => GoFloat.sub (bl.dot e.1 w) e.2)

/-- One step on a batch, from the weights `s.1` and the direction `s.2` of the previous step. The direction is the
gradient, plus `Momentum` times the previous direction when there is momentum; every weight moves by `-LR` times the
direction and is then multiplied by `1 - WeightDecay` when there is decay. -/
def sgdStep (bl : Blas F) (p : LinRegTrainParams F) (batch : List (List F × F)) (s : List F × List F) : List F × List F :=
  let dir : Nat → F := fun j =>
    if GoFloat.lt GoFloat.zero p.momentum then bl.axpy (gradAt bl batch s.1 j) p.momentum (s.2.getD j GoFloat.zero)
    else gradAt bl batch s.1 j
  let moved : Nat → F := fun j => bl.axpy (s.1.getD j GoFloat.zero) (GoFloat.neg p.lr) (dir j)
  ((List.range s.1.length).map fun j =>
      if GoFloat.lt GoFloat.zero p.weightDecay then GoFloat.mul (GoFloat.sub GoFloat.one p.weightDecay) (moved j) else moved j,
    (List.range s.1.length).map dir)

/-- The steps on several batches of rows, given the row numbers of each batch. -/
def sgd (bl : Blas F) (p : LinRegTrainParams F) (data : Nat → List F × F) (batches : List (List Nat)) (s : List F × List F) :
    List F × List F :=
  batches.foldl (fun s is => sgdStep bl p (is.map data) s) s

/-- `parts` cuts the rows, in the order `order`, into batches of `b` rows; only the last one may be smaller, and it is
not empty. -/
structure IsBatches (order : List Nat) (b : Nat) (parts : List (List Nat)) : Prop where
  all : parts.flatten = order
  full : ∀ p ∈ parts.dropLast, p.length = b
  last : ∀ p ∈ parts.getLast?, 1 ≤ p.length ∧ p.length ≤ b

end Verif
