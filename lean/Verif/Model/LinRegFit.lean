import Verif.Model.LinReg
import Verif.Model.Utils

/-! Model of algorithms/linear_regression.go, `Fit`. (Logging, `params.Verbose`, is not modelled.) -/

namespace Verif
variable {F : Type}

/-- linear_regression.go:19-35 `LinRegTrainParams` (without `Verbose`). -/
structure LinRegTrainParams (F : Type) where
  epochs : Int
  lr : F
  batchSize : Int
  weightDecay : F
  momentum : F
  lowMemory : Bool

/-- What gonum computes, entry by entry. `dot`: an entry of `MulVec(rows, weights)` from the row and the weights; `dotT`:
an entry of `MulVec(rows.T(), diff)` from the column and the differences (the order of the additions is not part of the
model); `axpy a alpha b`: an entry of `AddScaledVec(a, alpha, b)`. -/
structure Blas (F : Type) where
  dot : List F → List F → F
  dotT : List F → List F → F
  axpy : F → F → F → F

/-- What the runtime chooses: the orders of the two `NameList` calls, the normal samples, what `rand.Shuffle` does in
every epoch, and the order of the scaler's queues (one key: no choice). -/
structure FitSched (F : Type) where
  names : List GoStr → List GoStr
  features : List GoStr → List GoStr
  norm : Nat → F
  shuffle : Nat → Nat → List Nat
  names_perm : ∀ l, (names l).Perm l
  features_perm : ∀ l, (features l).Perm l
  shuffle_perm : ∀ e n, (shuffle e n).Perm (List.range n)

/-- Column `j` of a matrix. -/
def Matrix.column [GoFloat F] (m : Matrix F) (j : Nat) : List F := (List.range m.rows).map fun i => (m.at i j).getD GoFloat.zero

/-- The variables of the training loop: the batching object, the weights, the previous gradients. -/
structure FitState (F : Type) where
  bat : Dense64Batching F
  weights : List F
  prev : List F

/-- linear_regression.go:118-121: the momentum. -/
def fitMomentum [GoFloat F] (bl : Blas F) (p : LinRegTrainParams F) (grad prev : List F) : List F × List F :=
  if GoFloat.lt GoFloat.zero p.momentum then
    let g := List.zipWith (fun g v => bl.axpy g p.momentum v) grad prev
    (g, g)
  else (grad, prev)

/-- linear_regression.go:122-127: the update of the weights. -/
def fitUpdate [GoFloat F] (bl : Blas F) (p : LinRegTrainParams F) (weights grad : List F) : List F :=
  let w := List.zipWith (fun w g => bl.axpy w (GoFloat.neg p.lr) g) weights grad
  if GoFloat.lt GoFloat.zero p.weightDecay then w.map (fun x => GoFloat.mul (GoFloat.sub GoFloat.one p.weightDecay) x) else w

/-- linear_regression.go:106-127: one batch. `diff[:batchSize]` panics beyond the capacity, gonum panics on an empty
vector and when dimensions do not match. -/
def fitBatch [GoFloat F] (bl : Blas F) (p : LinRegTrainParams F) (batch : DF) (s : FitState F) (h : Heap F) :
    Except Abort (FitState F × Heap F) :=
  if p.batchSize < batch.numRows ∨ batch.numRows = 0 then .error .panic
  else
    match batch.vecDense h b!"_target" with
    | .error e => .error e
    | .ok (y, h) =>
      match s.bat.denseMatrix batch h with
      | .error e => .error e
      | .ok (rows, bat) =>
        match mulVec bl.dot rows s.weights with
        | .error e => .error e
        | .ok pred =>
          let y := (h.read y).map asFloat
          if pred.length = batch.numRows ∧ y.length = batch.numRows then
            let diff := List.zipWith GoFloat.sub pred y
            let grad := (List.range rows.cols).map fun j => bl.dotT (rows.column j) diff
            let (grad, prev) := fitMomentum bl p grad s.prev
            .ok (⟨bat, fitUpdate bl p s.weights grad, prev⟩, h)
          else .error .panic

/-- linear_regression.go:105-128: the loop over the batches. -/
def fitBatches [GoFloat F] (bl : Blas F) (p : LinRegTrainParams F) : List DF → FitState F → Heap F →
    Except Abort (FitState F × Heap F)
  | [], s, h => .ok (s, h)
  | b :: bs, s, h =>
    match fitBatch bl p b s h with
    | .error e => .error e
    | .ok (s, h) => fitBatches bl p bs s h

/-- linear_regression.go:97-103: the shuffled data, copied unless memory is short. -/
def fitShuffled (p : LinRegTrainParams F) (perm : List Nat) (df : DF) (h : Heap F) : Except Abort (DF × Heap F) :=
  match df.shuffleView perm h with
  | .error e => .error e
  | .ok (d, h) => if p.lowMemory then .ok (d, h) else d.copy h

/-- linear_regression.go:96-133: one epoch. -/
def fitEpoch [GoFloat F] (bl : Blas F) (p : LinRegTrainParams F) (perm : List Nat) (df : DF) (s : FitState F) (h : Heap F) :
    Except Abort (FitState F × Heap F) :=
  match fitShuffled p perm df h with
  | .error e => .error e
  | .ok (d, h) =>
    match d.splitView p.batchSize h with
    | .error e => .error e
    | .ok (batches, h) => fitBatches bl p batches s h

/-- linear_regression.go:95-134: the loop over the epochs. -/
def fitEpochs [GoFloat F] (bl : Blas F) (p : LinRegTrainParams F) (sch : FitSched F) (df : DF) : List Int → FitState F → Heap F →
    Except Abort (FitState F × Heap F)
  | [], s, h => .ok (s, h)
  | e :: es, s, h =>
    match fitEpoch bl p (sch.shuffle e.toNat df.numRows) df s h with
    | .error e => .error e
    | .ok (s, h) => fitEpochs bl p sch df es s h

/-- linear_regression.go:76-81: the initial weights. -/
def fitInit [GoFloat F] (sch : FitSched F) (n : Nat) : List F :=
  (List.range n).map fun i => GoFloat.mul (sch.norm i) (GoFloat.sqrt (GoFloat.div (GoFloat.ofInt 2) (GoFloat.ofInt (n : Int))))

/-- linear_regression.go:75-136: from the choice of the features on. `df` is the dataframe with the scaled target. -/
def fitTrain [GoFloat F] (bl : Blas F) (sch : FitSched F) (p : LinRegTrainParams F) (sc : Scaler F) (features : List GoStr)
    (df : DF) (h : Heap F) : Except Abort (LinearRegressor F × Heap F) :=
  if features.length = 0 ∨ p.batchSize < 0 then .error .panic
  else
    match makeRange 1 (p.epochs + 1) 1 with
    | .error e => .error e
    | .ok es =>
      match fitEpochs bl p sch df es ⟨newDense64Batching features, fitInit sch features.length,
          List.replicate features.length GoFloat.zero⟩ h with
      | .error e => .error e
      | .ok (s, h) => .ok (⟨some sc, s.weights, features⟩, h)

/-- linear_regression.go:59-70: the columns that are used, and the target under its own name, detached and scaled. The
scaler's queues have one key, so that there is no choice of order. -/
def fitPrepare [GoFloat F] (names : List GoStr) (df : DF) (target : GoStr) (h : Heap F) : Except Abort (DF × Scaler F × Heap F) :=
  let (df, h) := df.columnView names h
  let (df, h) := df.detachedView [target] h
  match df.toRaw.rename target b!"_target" h with
  | .error e => .error e
  | .ok (raw, h) =>
    let df := { df with toRaw := raw }
    let (targetDF, h) := df.columnView [b!"_target"] h
    match (newScaler ⟨false, true, true⟩ : Scaler F).fit targetDF (namesOf (h.tab targetDF.tab) .float) h with
    | .error e => .error e
    | .ok sc =>
      match sc.transformInplace df sc.transformedColumns h with
      | .error e => .error e
      | .ok h => .ok (df, sc, h)

/-- linear_regression.go:56-136 `Fit`. (The headers are computed from the tables, without the memory they take.) -/
def linRegFit [GoFloat F] (bl : Blas F) (sch : FitSched F) (df : DF) (target : GoStr) (p : LinRegTrainParams F) (h : Heap F) :
    Except Abort (LinearRegressor F × Heap F) :=
  let floatsAndBools := sinsertAll (namesOf (h.tab df.tab) .float) (namesOf (h.tab df.tab) .bool)
  match fitPrepare (sch.names floatsAndBools) df target h with
  | .error e => .error e
  | .ok (df, sc, h) => fitTrain bl sch p sc (sch.features (sremove floatsAndBools [target])) df h

end Verif
