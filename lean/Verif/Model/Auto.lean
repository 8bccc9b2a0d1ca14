import Verif.Model.Preproc
import Verif.Model.OneHot

/-! Model of preprocessing/hash_encoder.go and preprocessing/auto_preprocessor.go. (Timing and logging are left
out.) A pointer to a component is an `Option`: `none` is nil. -/

namespace Verif
variable {F : Type}

/-! ### hash_encoder.go -/

/-- hash_encoder.go:19-21 `HashEncoder`, 24-26 `NewHashEncoder` (no column). -/
structure HashEncoder where
  categoricalColumns : List GoStr

/-- column_header.go:162-165 `StringHeader`: the set of names marked as strings. -/
def DF.stringNames (df : DF) (h : Heap F) : List GoStr := sinsertAll [] (hdrList h df.strHdr)

/-- hash_encoder.go:29-32 `Fit`. `names` is the map iteration order of `NameList`. -/
def HashEncoder.fit (_enc : HashEncoder) (names : List GoStr → List GoStr) (df : DF) (h : Heap F) : HashEncoder :=
  ⟨names (df.stringNames h)⟩

/-- hash_encoder.go:36-38 `TransformView`. The returned error is always nil. -/
def HashEncoder.transformView [GoFloat F] (enc : HashEncoder) (order : List GoStr) (df : DF) (h : Heap F) :
    Except Abort (DF × Heap F) := df.hashStringsView enc.categoricalColumns order h

/-- hash_encoder.go:41-43 `TransformedColumns`. -/
def HashEncoder.transformedColumns (enc : HashEncoder) : List GoStr := enc.categoricalColumns

/-! ### auto_preprocessor.go -/

/-- auto_preprocessor.go:9-18 `AutoPreprocOptions`. `Verbose` only adds messages. -/
structure AutoOptions where
  imputing : Bool
  scaling : Bool
  exclude : List GoStr
  deriving DecidableEq, Repr

/-- auto_preprocessor.go:24-30 `AutoPreprocessor`. -/
structure AutoPreprocessor (F : Type) where
  stringToInt : Option HashEncoder
  intToBool : Option OneHotEncoder
  imputer : Option (FloatImputer F)
  scaler : Option (Scaler F)
  options : AutoOptions

/-- auto_preprocessor.go:33-37 `NewAutoPreprocessor`. -/
def newAutoPreprocessor (o : AutoOptions) : AutoPreprocessor F := ⟨none, none, none, none, o⟩

/-- auto_preprocessor.go:40-44 `TransformedColumns`: calling the method on a nil component panics. -/
def AutoPreprocessor.transformedColumns (p : AutoPreprocessor F) : Except Abort (List GoStr) :=
  match p.imputer with
  | none => .error .panic
  | some im =>
    match p.stringToInt with
    | none => .error .panic
    | some st => .ok (im.transformedColumns ++ st.transformedColumns)

/-- The choices the Go runtime makes: map iteration orders, and the orders in which workers take columns. -/
structure AutoSched where
  names : List GoStr → List GoStr
  jobs : List GoStr → List GoStr
  hash : List GoStr → List GoStr
  run : List GoStr → List GoStr
  oneHot : OneHotSched
  oneHotRun : List GoStr → List GoStr
  names_perm : ∀ l, (names l).Perm l
  jobs_perm : ∀ l, (jobs l).Perm l
  hash_perm : ∀ l, (hash l).Perm l
  run_perm : ∀ l, (run l).Perm l
  oneHotRun_perm : ∀ l, (oneHotRun l).Perm l

/-- auto_preprocessor.go:69: the float columns that are not excluded. (The order of the list does not matter
to `ColumnView` and `Unshare`, to which it is passed.) -/
def AutoPreprocessor.floatCols (p : AutoPreprocessor F) (df : DF) (h : Heap F) : List GoStr :=
  (namesOf (h.tab df.tab) .float).filter (fun c => decide (c ∉ p.options.exclude))

/-- auto_preprocessor.go:73-76: train the imputer. -/
def AutoPreprocessor.fitImputer [GoFloat F] (p : AutoPreprocessor F) (sch : AutoSched) (floatsOnly : DF) (h : Heap F) :
    Except Abort (AutoPreprocessor F) :=
  if p.options.imputing then
    match (newFloatImputer .mean).fit floatsOnly (sch.jobs (namesOf (h.tab floatsOnly.tab) .float)) h with
    | .error e => .error e
    | .ok im => .ok { p with imputer := some im }
  else .ok p

/-- auto_preprocessor.go:77-80: train the scaler. -/
def AutoPreprocessor.fitScaler [GoFloat F] (p : AutoPreprocessor F) (sch : AutoSched) (floatsOnly : DF) (h : Heap F) :
    Except Abort (AutoPreprocessor F) :=
  if p.options.scaling then
    match (newScaler ⟨false, true, true⟩).fit floatsOnly (sch.jobs (namesOf (h.tab floatsOnly.tab) .float)) h with
    | .error e => .error e
    | .ok sc => .ok { p with scaler := some sc }
  else .ok p

/-- auto_preprocessor.go:70-85: train the imputer and the scaler on the float columns. (`ColumnView` of no column
is the whole dataframe.) -/
def AutoPreprocessor.fitFloats [GoFloat F] (p : AutoPreprocessor F) (sch : AutoSched) (df : DF) (h : Heap F) :
    Except Abort (AutoPreprocessor F × Heap F) :=
  if p.options.imputing || p.options.scaling then
    let (floatsOnly, h) := df.columnView (p.floatCols df h) h
    match p.fitImputer sch floatsOnly h with
    | .error e => .error e
    | .ok p =>
      match p.fitScaler sch floatsOnly h with
      | .error e => .error e
      | .ok p => .ok (p, h)
  else .ok (p, h)

/-- auto_preprocessor.go:86-103: train and run the hash encoder if there is a string column; the columns for the
one-hot encoder. -/
def AutoPreprocessor.fitHash [GoFloat F] (p : AutoPreprocessor F) (sch : AutoSched) (df : DF) (h : Heap F) :
    Except Abort ((AutoPreprocessor F × DF × List GoStr) × Heap F) :=
  if (df.stringNames h).length > 0 then
    let enc := HashEncoder.fit ⟨[]⟩ sch.names df h
    match enc.transformView (sch.hash enc.categoricalColumns) df h with
    | .error e => .error e
    | .ok (view, h) => .ok (({ p with stringToInt := some enc }, view, enc.transformedColumns), h)
  else .ok ((p, df, namesOf (h.tab df.tab) .int), h)

/-- auto_preprocessor.go:104-116: train the one-hot encoder. -/
def AutoPreprocessor.fitOneHot (p : AutoPreprocessor F) (sch : AutoSched) (df : DF) (categorical : List GoStr)
    (h : Heap F) : Except Abort (AutoPreprocessor F × Heap F) :=
  if categorical.length > 0 then
    let (view, h) := df.columnView categorical h
    match (newOneHotEncoder ⟨.separateIfSeen, .sharedSeparate, false⟩).fit sch.oneHot view h with
    | .error e => .error e
    | .ok enc => .ok ({ p with intToBool := some enc }, h)
  else .ok (p, h)

/-- auto_preprocessor.go:131-134: the transformations in place, after `Unshare` (`View` then `Unshare` is
`DetachedView`). A nil imputer or scaler panics. -/
def AutoPreprocessor.runFloats [GoFloat F] (p : AutoPreprocessor F) (sch : AutoSched) (floatCols : List GoStr) (df : DF)
    (h : Heap F) : Except Abort (DF × Heap F) :=
  let (df, h) := df.detachedView floatCols h
  match p.imputer with
  | none => .error .panic
  | some im =>
    match im.transformInplace df h with
    | .error e => .error e
    | .ok h =>
      match p.scaler with
      | none => .error .panic
      | some sc =>
        match sc.transformInplace df (sch.run sc.transformedColumns) h with
        | .error e => .error e
        | .ok h => .ok (df, h)

/-- auto_preprocessor.go:67-140 `fit`. The outcome is the preprocessor, and `none` for a returned error, else the
dataframe (`none`: nil). -/
def AutoPreprocessor.fitWith [GoFloat F] (p : AutoPreprocessor F) (sch : AutoSched) (df : DF) (transform : Bool) (h : Heap F) :
    Except Abort ((AutoPreprocessor F × Option (Option DF)) × Heap F) :=
  let floatCols := p.floatCols df h
  match p.fitFloats sch df h with
  | .error e => .error e
  | .ok (p, h) =>
    match p.fitHash sch df h with
    | .error e => .error e
    | .ok ((p, df, categorical), h) =>
      match p.fitOneHot sch df categorical h with
      | .error e => .error e
      | .ok (p, h) =>
        if transform then
          match p.intToBool with
          | some enc =>
            match enc.transformView (sch.oneHotRun enc.catCols) df h with
            | .error e => .error e
            | .ok (none, h) => .ok ((p, none), h)
            | .ok (some df, h) =>
              match p.runFloats sch floatCols df h with
              | .error e => .error e
              | .ok (df, h) => .ok ((p, some (some df)), h)
          | none =>
            if !p.options.imputing && !p.options.scaling then .ok ((p, some (some df)), h)
            else
              match p.runFloats sch floatCols df h with
              | .error e => .error e
              | .ok (df, h) => .ok ((p, some (some df)), h)
        else .ok ((p, some none), h)

/-- auto_preprocessor.go:48-51 `Fit`: the preprocessor, and whether the returned error is nil. -/
def AutoPreprocessor.fit [GoFloat F] (p : AutoPreprocessor F) (sch : AutoSched) (df : DF) (h : Heap F) :
    Except Abort ((AutoPreprocessor F × Bool) × Heap F) :=
  match p.fitWith sch df false h with
  | .error e => .error e
  | .ok ((p, r), h) => .ok ((p, r.isSome), h)

/-- auto_preprocessor.go:59-65 `FitTransform`: an error makes it panic. The result may be nil in principle. -/
def AutoPreprocessor.fitTransform [GoFloat F] (p : AutoPreprocessor F) (sch : AutoSched) (df : DF) (h : Heap F) :
    Except Abort ((AutoPreprocessor F × Option DF) × Heap F) :=
  match p.fitWith sch df true h with
  | .error e => .error e
  | .ok ((_, none), _) => .error .panic
  | .ok ((p, some r), h) => .ok ((p, r), h)

/-- auto_preprocessor.go:148-152: detach the columns that are going to change. -/
def AutoPreprocessor.detach (p : AutoPreprocessor F) (sch : AutoSched) (df : DF) (h : Heap F) : DF × Heap F :=
  match p.imputer with
  | some im => df.detachedView (sch.names im.transformedColumns) h
  | none =>
    match p.scaler with
    | some sc => df.detachedView (sch.names sc.transformedColumns) h
    | none => (df, h)

/-- auto_preprocessor.go:154-156. -/
def imputeIf [GoFloat F] (im : Option (FloatImputer F)) (df : DF) (h : Heap F) : Except Abort (Heap F) :=
  match im with
  | some im => im.transformInplace df h
  | none => .ok h

/-- auto_preprocessor.go:157-159. -/
def scaleIf [GoFloat F] (sc : Option (Scaler F)) (sch : AutoSched) (df : DF) (h : Heap F) : Except Abort (Heap F) :=
  match sc with
  | some sc => sc.transformInplace df (sch.run sc.transformedColumns) h
  | none => .ok h

/-- auto_preprocessor.go:160-166. -/
def hashIf [GoFloat F] (enc : Option HashEncoder) (sch : AutoSched) (df : DF) (h : Heap F) : Except Abort (DF × Heap F) :=
  match enc with
  | some enc => enc.transformView (sch.hash enc.categoricalColumns) df h
  | none => .ok (df, h)

/-- auto_preprocessor.go:146-175 `TransformView`. The outcome `none` is a returned error. -/
def AutoPreprocessor.transformView [GoFloat F] (p : AutoPreprocessor F) (sch : AutoSched) (df : DF) (h : Heap F) :
    Except Abort (Option DF × Heap F) :=
  let (df, h) := p.detach sch df h
  match imputeIf p.imputer df h with
  | .error e => .error e
  | .ok h =>
    match scaleIf p.scaler sch df h with
    | .error e => .error e
    | .ok h =>
      match hashIf p.stringToInt sch df h with
      | .error e => .error e
      | .ok (df, h) =>
        match p.intToBool with
        | some enc => enc.transformView (sch.oneHotRun enc.catCols) df h
        | none => .ok (some df, h)

end Verif
