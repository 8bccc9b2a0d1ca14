import Verif.Model.Auto
import Verif.Model.LinRegFit
import Verif.Model.Evaluation
import Verif.Model.Json

/-! Model of examples/linreg.go:67-118: the experiment the library comes with, from the shuffle to the evaluation.
(Reading the CSV file comes before, writing the result comes after: see the models of these functions. Timing and
messages are left out.) -/

namespace Verif
variable {F : Type}

/-- The choices of the runtime during the experiment: what `rand.Shuffle` leaves in the slice, and the choices made in
the two runs of the preprocessor and in the training. -/
structure ExperimentSched (F : Type) where
  perm : List Nat
  fit : AutoSched
  train : FitSched F
  run : AutoSched

/-- The flags and arguments of examples/linreg.go:15-31 that matter here. -/
structure ExperimentFlags (F : Type) where
  split : F
  imputing : Bool
  scaling : Bool
  target : GoStr
  params : LinRegTrainParams F

/-- What the first half leaves: the preprocessed training set, the raw test set, and the two trained objects. -/
structure TrainedExperiment (F : Type) where
  train : DF
  test : DF
  preproc : AutoPreprocessor F
  model : LinearRegressor F

/-- What the experiment ends with. -/
structure ExperimentResult (F : Type) where
  test : DF
  mae : F

/-- examples/linreg.go:74-79: the options of the preprocessor. -/
def ExperimentFlags.options (fl : ExperimentFlags F) : AutoOptions := ⟨fl.imputing, fl.scaling, [fl.target]⟩

/-- examples/linreg.go:67-86 (`main`): shuffle, split, train and run the preprocessor, train the model. -/
def experimentTrain [GoFloat F] (bl : Blas F) (sch : ExperimentSched F) (fl : ExperimentFlags F) (df : DF) (h : Heap F) :
    Except Abort (TrainedExperiment F × Heap F) :=
  match df.shuffleView sch.perm h with
  | .error e => .error e
  | .ok (shuffled, h) =>
    match shuffled.splitTrainTestViews fl.split h with
    | .error e => .error e
    | .ok ((train, test), h) =>
      match (newAutoPreprocessor fl.options).fitTransform sch.fit train h with
      | .error e => .error e
      | .ok ((_, none), _) => .error .panic
      | .ok ((preproc, some train), h) =>
        match linRegFit bl sch.train train fl.target fl.params h with
        | .error e => .error e
        | .ok (model, h) => .ok (⟨train, test, preproc, model⟩, h)

/-- examples/linreg.go:88-101: an object is saved (an error panics) and restored. The error of `Unmarshal` is not looked
at: then the program goes on with what has been decoded so far (here: with the zero value; simplification, it does
not happen). -/
def saveAndRestore {α : Type} (enc : α → Option Json) (dec : Json → Option α) (zero a : α) : Except Abort α :=
  match marshal enc a with
  | none => .error .panic
  | some s => .ok ((unmarshal dec s).getD zero)

/-- examples/linreg.go:88-118 (`main`): save and restore the two objects, run them on the test set, evaluate. The inverse of the
target scaler has one column, so that there is no choice of order. -/
def experimentTest [GoFloat F] (j : JsonFloats F) (bl : Blas F) (sch : ExperimentSched F) (fl : ExperimentFlags F)
    (t : TrainedExperiment F) (h : Heap F) : Except Abort (ExperimentResult F × Heap F) :=
  match saveAndRestore (LinearRegressor.enc j) (LinearRegressor.dec j) ⟨none, [], []⟩ t.model with
  | .error e => .error e
  | .ok model =>
    match saveAndRestore (AutoPreprocessor.enc j) (AutoPreprocessor.dec j) ⟨none, none, none, none, ⟨false, false, []⟩⟩ t.preproc with
    | .error e => .error e
    | .ok preproc =>
      match preproc.transformView sch.run t.test h with
      | .error e => .error e
      | .ok (none, _) => .error .panic
      | .ok (some test, h) =>
        match model.predict bl.dot test b!"y_pred" [b!"_target"] h with
        | .error e => .error e
        | .ok (test, h) =>
          match test.floatAccess h fl.target with
          | .error e => .error e
          | .ok y =>
            match test.floatAccess h b!"y_pred" with
            | .error e => .error e
            | .ok pred =>
              match mae h y pred with
              | .error e => .error e
              | .ok m => .ok (⟨test, m⟩, h)

/-- examples/linreg.go:67-118 (`main`). -/
def experiment [GoFloat F] (j : JsonFloats F) (bl : Blas F) (sch : ExperimentSched F) (fl : ExperimentFlags F) (df : DF)
    (h : Heap F) : Except Abort ((TrainedExperiment F × ExperimentResult F) × Heap F) :=
  match experimentTrain bl sch fl df h with
  | .error e => .error e
  | .ok (t, h) =>
    match experimentTest j bl sch fl t h with
    | .error e => .error e
    | .ok (r, h) => .ok ((t, r), h)

end Verif
