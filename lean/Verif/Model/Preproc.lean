import Verif.Model.DataFrame

/-! Model of preprocessing/float_imputer.go and preprocessing/scaler.go. -/

namespace Verif
variable {F : Type}

/-- `df.Floats(col)` followed by `Get` for every row (column_access.go:72-81, 167-169). -/
def DF.floatVals [GoFloat F] (df : DF) (h : Heap F) (c : GoStr) : Except Abort (List F) :=
  match AMap.get (h.tab df.tab) (.float, c) with
  | none => .error .panic
  | some s =>
    match gather h s df.rows with
    | .error e => .error e
    | .ok vs => .ok (vs.map asFloat)

/-- The loop `for i := 0; i < access.Size(); i++ { ... access.Set(i, f(access.Get(i))) }` over the raw
positions of the rows; `f x = none` when the iteration stores nothing. -/
def updFloats [GoFloat F] (f : F → Option F) (s : Slice) : List Nat → Heap F → Except Abort (Heap F)
  | [], h => .ok h
  | i :: is, h =>
    match h.cell s i with
    | none => .error .panic
    | some v =>
      match f (asFloat v) with
      | none => updFloats f s is h
      | some y =>
        match h.write s i (.float y) with
        | .error e => .error e
        | .ok h => updFloats f s is h

/-- One column of an in-place float transformation: `df.Floats(col)` then the loop. -/
def DF.updFloatCol [GoFloat F] (df : DF) (c : GoStr) (f : F → Option F) (h : Heap F) : Except Abort (Heap F) :=
  match AMap.get (h.tab df.tab) (.float, c) with
  | none => .error .panic
  | some s => updFloats f s df.rows h

/-! ### float_imputer.go -/

/-- float_imputer.go:9-18 `ImputingPolicy`. -/
inductive ImputingPolicy where
  | mean | zero | one
  deriving DecidableEq, Repr

/-- float_imputer.go:22-30 `FloatImputer`. -/
structure FloatImputer (F : Type) where
  fallback : AMap GoStr F
  policy : ImputingPolicy

/-- float_imputer.go:33-38 `NewFloatImputer`. -/
def newFloatImputer (p : ImputingPolicy) : FloatImputer F := ⟨[], p⟩

/-- float_imputer.go:40-49 `TransformedColumns`. -/
def FloatImputer.transformedColumns (im : FloatImputer F) : List GoStr := AMap.keys im.fallback

/-- float_imputer.go:54-62: `sum` and `n`. -/
def imputerSum [GoFloat F] (vals : List F) : F × Nat :=
  vals.foldl (fun a v => if GoFloat.isNaN v then a else (GoFloat.add a.1 v, a.2 + 1)) (GoFloat.zero, 0)

/-- float_imputer.go:54-63: the fallback of one column. -/
def imputerMean [GoFloat F] (vals : List F) : F :=
  GoFloat.div (imputerSum vals).1 (GoFloat.ofInt (imputerSum vals).2)

/-- float_imputer.go:51-65 and 86-88: the job of one column, as seen in the resulting map. -/
def imputerJob [GoFloat F] (df : DF) (h : Heap F) (c : GoStr) (m : AMap GoStr F) : Except Abort (AMap GoStr F) :=
  match df.floatVals h c with
  | .error e => .error e
  | .ok vals => .ok (AMap.set m c (imputerMean vals))

/-- float_imputer.go:69-91 `Fit`. `order` is the order in which the workers take the columns (and, for the
results, the order in which they come back: only the map that results matters). -/
def FloatImputer.fit [GoFloat F] (im : FloatImputer F) (df : DF) (order : List GoStr) (h : Heap F) :
    Except Abort (FloatImputer F) :=
  let columns := namesOf (h.tab df.tab) .float
  match im.policy with
  | .zero => .ok { im with fallback := columns.foldl (fun m c => AMap.set m c GoFloat.zero) [] }
  | .one => .ok { im with fallback := columns.foldl (fun m c => AMap.set m c GoFloat.one) [] }
  | .mean =>
    match runQueue columns order df.maxCPU (imputerJob df h) [] with
    | .error e => .error e
    | .ok m => .ok { im with fallback := m }

/-- float_imputer.go:99-101. -/
def imputeVal [GoFloat F] (fallback x : F) : Option F := if GoFloat.isNaN x then some fallback else none

/-- The loop of float_imputer.go:96-103 over the entries of the map (in iteration order). -/
def imputeLoop [GoFloat F] (df : DF) : AMap GoStr F → Heap F → Except Abort (Heap F)
  | [], h => .ok h
  | (c, fb) :: m, h =>
    match df.updFloatCol c (imputeVal fb) h with
    | .error e => .error e
    | .ok h => imputeLoop df m h

/-- float_imputer.go:94-105 `TransformInplace`. -/
def FloatImputer.transformInplace [GoFloat F] (im : FloatImputer F) (df : DF) (h : Heap F) :
    Except Abort (Heap F) := imputeLoop df im.fallback h

/-! ### scaler.go -/

/-- scaler.go:9-16 `ScalerOptions`. -/
structure ScalerOptions where
  minMax : Bool
  centering : Bool
  scaling : Bool
  deriving DecidableEq, Repr

/-- scaler.go:21-25 `Scaler`. -/
structure Scaler (F : Type) where
  shift : AMap GoStr F
  scale : AMap GoStr F
  options : ScalerOptions

/-- scaler.go:28-32 `NewScaler`. -/
def newScaler (o : ScalerOptions) : Scaler F := ⟨[], [], o⟩

/-- scaler.go:46-56: `min` and `max`. -/
def scalerMinMax [GoFloat F] (vals : List F) : F × F :=
  vals.foldl (fun a v => (if GoFloat.lt v a.1 then v else a.1, if GoFloat.lt a.2 v then v else a.2))
    (GoFloat.posInf, GoFloat.negInf)

/-- scaler.go:63-72: `mean` and `n`. -/
def scalerMean [GoFloat F] (vals : List F) : F × Nat :=
  let r := imputerSum vals
  (GoFloat.div r.1 (GoFloat.ofInt r.2), r.2)

/-- scaler.go:78-84: `squaresum`. -/
def scalerSquares [GoFloat F] (mean : F) (vals : List F) : F :=
  vals.foldl (fun a v => if GoFloat.isNaN v then a else
    GoFloat.add a (GoFloat.mul (GoFloat.sub v mean) (GoFloat.sub v mean))) GoFloat.zero

/-- scaler.go:39-94, one column: the shift and the scale that `workerFits` finds. -/
def scalerFitCol [GoFloat F] (opt : ScalerOptions) (vals : List F) : Option F × Option F :=
  if opt.minMax then
    let (mn, mx) := scalerMinMax vals
    (some (GoFloat.neg mn), some (GoFloat.sub mx mn))
  else if opt.scaling || opt.centering then
    let (mean, n) := scalerMean vals
    let shift := if opt.centering then some (GoFloat.neg mean) else none
    let scale :=
      if opt.scaling then
        let sq := scalerSquares mean vals
        if GoFloat.eq sq GoFloat.zero then
          some (GoFloat.sqrt (GoFloat.div (GoFloat.ofInt ((n + 1 : Nat) : Int)) (GoFloat.add sq GoFloat.one)))
        else some (GoFloat.sqrt (GoFloat.div (GoFloat.ofInt (n : Int)) sq))
      else none
    (shift, scale)
  else (none, none)

/-- `if result.x != nil { m[key] = *result.x }` (scaler.go:107-112). -/
def setOpt (m : AMap GoStr F) (c : GoStr) : Option F → AMap GoStr F
  | none => m
  | some x => AMap.set m c x

/-- scaler.go:39-94 and 106-113: the job of one column, as seen in the two resulting maps. -/
def scalerJob [GoFloat F] (opt : ScalerOptions) (df : DF) (h : Heap F) (c : GoStr) (m : AMap GoStr F × AMap GoStr F) :
    Except Abort (AMap GoStr F × AMap GoStr F) :=
  match df.floatVals h c with
  | .error e => .error e
  | .ok vals => .ok (setOpt m.1 c (scalerFitCol opt vals).1, setOpt m.2 c (scalerFitCol opt vals).2)

/-- scaler.go:97-115 `Fit`. -/
def Scaler.fit [GoFloat F] (sc : Scaler F) (df : DF) (order : List GoStr) (h : Heap F) :
    Except Abort (Scaler F) :=
  let columns := namesOf (h.tab df.tab) .float
  match runQueue columns order df.maxCPU (scalerJob sc.options df h) ([], []) with
  | .error e => .error e
  | .ok m => .ok { sc with shift := m.1, scale := m.2 }

/-- scaler.go:170-177 `TransformedColumns`, 179-187 `mapKeys`. -/
def Scaler.transformedColumns (sc : Scaler F) : List GoStr :=
  if sc.shift.length > 0 then AMap.keys sc.shift else AMap.keys sc.scale

/-- scaler.go:121-127: shift (0 by default) and scale (1 by default) of a column, and the new value. -/
def scaleVal [GoFloat F] (sc : Scaler F) (c : GoStr) (x : F) : F :=
  GoFloat.mul (GoFloat.add x ((AMap.get sc.shift c).getD GoFloat.zero)) ((AMap.get sc.scale c).getD GoFloat.one)

/-- scaler.go:132-150 `TransformInplace`, with the workers of 116-130. -/
def Scaler.transformInplace [GoFloat F] (sc : Scaler F) (df : DF) (order : List GoStr) (h : Heap F) :
    Except Abort (Heap F) :=
  let m := if sc.scale.length > sc.shift.length then sc.scale else sc.shift
  if m.length = 0 then .ok h
  else runQueue sc.transformedColumns order df.maxCPU
    (fun c h => df.updFloatCol c (fun x => some (scaleVal sc c x)) h) h

/-- scaler.go:157-163: the shift of the reverse scaler. -/
def reverseShift [GoFloat F] (scale : AMap GoStr F) (c : GoStr) (shift : F) : F :=
  match AMap.get scale c with
  | some s => GoFloat.mul (GoFloat.neg shift) s
  | none => GoFloat.neg shift

/-- scaler.go:153-168: the scaler that undoes a scaler. -/
def Scaler.reverse [GoFloat F] (sc : Scaler F) : Scaler F where
  shift := sc.shift.map (fun e => (e.1, reverseShift sc.scale e.1 e.2))
  scale := sc.scale.map (fun e => (e.1, GoFloat.div GoFloat.one e.2))
  options := ⟨false, false, false⟩

/-- scaler.go:152-168 `InverseTransformInplace`. -/
def Scaler.inverseTransformInplace [GoFloat F] (sc : Scaler F) (df : DF) (order : List GoStr) (h : Heap F) :
    Except Abort (Heap F) := sc.reverse.transformInplace df order h

end Verif
