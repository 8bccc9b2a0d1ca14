import Verif.Spec.History
import Verif.Model.Auto
import Verif.Model.LinRegFit
import Verif.Model.CSVFiles

/-! Programs that also use the preprocessing, algorithms and CSV-reading functions (C19, C59): the calls of `Spec/History`
and those below, on the same worlds. A preprocessor or a regressor is any value of its type: trained before, restored from
JSON, or made by the user. -/

namespace Verif
variable {F : Type}

/-- One call. The first argument is the receiver's position; `order`, `sch`, `jobs` and `who` are choices of the Go runtime. -/
inductive Step (F : Type) [GoFloat F] where
  /-- a call of `Spec/History` -/
  | call (c : Call F)
  /-- `imputer.TransformInplace(df)` -/
  | impute (i : Nat) (im : FloatImputer F)
  /-- `scaler.TransformInplace(df)` -/
  | scale (i : Nat) (sc : Scaler F) (order : List GoStr)
  /-- `scaler.InverseTransformInplace(df)` -/
  | unscale (i : Nat) (sc : Scaler F) (order : List GoStr)
  /-- `hashEncoder.TransformView(df)` -/
  | hashEncode (i : Nat) (enc : HashEncoder) (order : List GoStr)
  /-- `oneHotEncoder.TransformView(df)` -/
  | oneHotEncode (i : Nat) (enc : OneHotEncoder) (order : List GoStr)
  /-- `autoPreprocessor.TransformView(df)` -/
  | autoTransform (i : Nat) (p : AutoPreprocessor F) (sch : AutoSched)
  /-- `autoPreprocessor.Fit(df)` -/
  | autoFit (i : Nat) (p : AutoPreprocessor F) (sch : AutoSched)
  /-- `autoPreprocessor.FitTransform(df)` -/
  | autoFitTransform (i : Nat) (p : AutoPreprocessor F) (sch : AutoSched)
  /-- `regressor.Fit(df, target, params)` -/
  | linRegFit (i : Nat) (bl : Blas F) (sch : FitSched F) (target : GoStr) (p : LinRegTrainParams F)
  /-- `regressor.Predict(df, resultColumn)` -/
  | predict (i : Nat) (reg : LinearRegressor F) (dot : List F → List F → F) (out : GoStr) (order : List GoStr)
  /-- `FromCSV(reader, spec)` then `ToDataFrame()` -/
  | fromCSV (pf : GoStr → Option F) (jobs : List GoStr → List GoStr) (who : GoStr → Nat) (inp : CsvInput) (spec : CSVReadingSpec)
  /-- `FromCSVFilePattern(glob, spec)` then `ToDataFrame()` -/
  | fromFiles (pf : GoStr → Option F) (sch : FilesSched) (found : Option (List (GoStr × Option Bool)))
      (files : GoStr → Option CsvInput) (spec : CSVReadingSpec)
  /-- builders filled by `opss`, merged by rows or by columns, then `ToDataFrame()`; the builders are not used any more -/
  | merge (byRows : Bool) (opss : List (List (BOp F)))

/-- Replace the heap. -/
def World.setHeap (w : World F) : Except Abort (Heap F) → Except Abort (World F)
  | .error e => .error e
  | .ok h => .ok ⟨h, w.dfs⟩

/-- Add what a call returned, unless it returned an error; the heap may have changed in both cases. -/
def World.addOpt (w : World F) : Except Abort (Option DF × Heap F) → Except Abort (World F)
  | .error e => .error e
  | .ok (none, h) => .ok ⟨h, w.dfs⟩
  | .ok (some d, h) => .ok ⟨h, w.dfs ++ [d]⟩

/-- Fill builders one after the other. -/
def buildAll [GoFloat F] : List (List (BOp F)) → Heap F → List Raw × Heap F
  | [], h => ([], h)
  | ops :: l, h => ((build ops h).1 :: (buildAll l (build ops h).2).1, (buildAll l (build ops h).2).2)

/-- `ToDataFrame()`, if a structure was returned. -/
def World.addRaw (w : World F) : Except Abort (Option Raw × Heap F) → Except Abort (World F)
  | .error e => .error e
  | .ok (none, h) => .ok ⟨h, w.dfs⟩
  | .ok (some r, h) => w.add1 (r.toDataFrame h)

/-- One call. -/
def Step.run [GoFloat F] (w : World F) : Step F → Except Abort (World F)
  | .call c => c.run w
  | .impute i im => w.on i fun d => w.setHeap (im.transformInplace d w.h)
  | .scale i sc order => w.on i fun d => w.setHeap (sc.transformInplace d order w.h)
  | .unscale i sc order => w.on i fun d => w.setHeap (sc.inverseTransformInplace d order w.h)
  | .hashEncode i enc order => w.on i fun d => w.add1 (enc.transformView order d w.h)
  | .oneHotEncode i enc order => w.on i fun d => w.addOpt (enc.transformView order d w.h)
  | .autoTransform i p sch => w.on i fun d => w.addOpt (p.transformView sch d w.h)
  | .autoFit i p sch => w.on i fun d => w.setHeap ((p.fit sch d w.h).map (·.2))
  | .autoFitTransform i p sch => w.on i fun d => w.addOpt ((p.fitTransform sch d w.h).map fun x => (x.1.2, x.2))
  | .linRegFit i bl sch target p => w.on i fun d => w.setHeap ((Verif.linRegFit bl sch d target p w.h).map (·.2))
  | .predict i reg dot out order => w.on i fun d => w.add1 (reg.predict dot d out order w.h)
  | .fromCSV pf jobs who inp spec => w.addRaw (Verif.fromCSV pf jobs who inp spec w.h)
  | .fromFiles pf sch found files spec =>
      w.addRaw ((fromCSVFilePattern pf sch found files spec w.h).map fun x => (x.1.join, x.2))
  | .merge byRows opss =>
      w.addRaw (.ok ((fun x => (some x.1, x.2))
        ((if byRows then mergeRawDataRows else mergeRawDataColumns) (buildAll opss w.h).1 (buildAll opss w.h).2)))

/-- What a call must respect: string columns are hashed and predictions are made on dataframes that have a column. (The
other conditions only say that the choices are ones the runtime can make.) -/
def Step.Legal [GoFloat F] (w : World F) : Step F → Prop
  | .call c => c.Legal w
  | .hashEncode i enc _ => enc.categoricalColumns = [] ∨ ∀ d, w.dfs[i]? = some d → (abs w.h d).hasColumn
  | .oneHotEncode _ enc order => order.Perm enc.catCols
  | .autoTransform i p _ => p.stringToInt = none ∨ ∀ d, w.dfs[i]? = some d → (abs w.h d).hasColumn
  | .autoFit i _ _ | .autoFitTransform i _ _ | .predict i _ _ _ _ => ∀ d, w.dfs[i]? = some d → (abs w.h d).hasColumn
  | .fromCSV _ jobs _ _ _ => ∀ l, (jobs l).Perm l
  | _ => True

/-- A program: legal calls, none of which panics or blocks. -/
inductive Prog [GoFloat F] : World F → List (Step F) → World F → Prop
  | nil (w : World F) : Prog w [] w
  | cons {w w1 w2 : World F} {c : Step F} {cs : List (Step F)} :
      c.Legal w → c.run w = .ok w1 → Prog w1 cs w2 → Prog w (c :: cs) w2

/-- The calls that only make new dataframes, whatever their arguments: the views and copies of `Spec/History`, hash
encoding, reading text and files, and merging builders. (`oneHotEncode`, `autoTransform`, `autoFit`, `autoFitTransform`,
`linRegFit` and `predict` are not here: they leave the other dataframes alone when the encoder or regressor was trained by
this library, which C38, C44, C46 and C69 say one by one.) -/
def Step.IsView [GoFloat F] (w : World F) : Step F → Prop
  | .call c => c.IsView w
  | .hashEncode i enc order => (Call.hashStringsView (F := F) i enc.categoricalColumns order).IsView w
  | .fromCSV _ jobs _ _ _ => ∀ l, (jobs l).Perm l
  | .fromFiles _ _ _ _ _ | .merge _ _ => True
  | _ => False

end Verif
