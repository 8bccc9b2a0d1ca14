import Verif.Model.Evaluation

/-! Column accessors (column_access.go) as objects of their own: the program may keep one and use it while it goes on
working with dataframes. (`DF.get`, `DF.set` and their string versions are an accessor made and used at once.) -/

namespace Verif
variable {F : Type}

/-- column_access.go:8-42 `IntAccess`, `FloatAccess`, `BoolAccess`, `ObjectAccess`: the row positions, whether they are all the
rows in order (only set for floats), and the column slice, as they were when the accessor was made. -/
structure Access where
  kind : Kind
  indices : Idx
  contiguous : Bool
  raw : Slice
  deriving DecidableEq, Repr

/-- column_access.go:45-92 `Ints`, `Bools`, `Floats`, `Objects`. -/
def DF.access (df : DF) (h : Heap F) (k : Kind) (c : GoStr) : Except Abort Access :=
  match AMap.get (h.tab df.tab) (k, c) with
  | some s => .ok ⟨k, df.idx, decide (k = .float) && !df.indexViewed, s⟩
  | none => .error .panic

/-- column_access.go:95-107 `Strings`; a `StringAccess` holds what an `ObjectAccess` holds. -/
def DF.stringAccess (df : DF) (h : Heap F) (c : GoStr) : Except Abort Access :=
  match AMap.get (h.tab df.tab) (.obj, c) with
  | some s => if hdrContains h df.strHdr c then .ok ⟨.obj, df.idx, false, s⟩ else .error .panic
  | none => .error .panic

/-- column_access.go:110-112 `Size`. -/
def Access.size (a : Access) : Nat := a.indices.rows.length

/-- column_access.go:117-119 `SharedIndex`. -/
def Access.sharedIndex (a : Access) (row : Int) : Except Abort Nat := a.indices.at row

/-- column_access.go:147-149, 157-159, 167-169, 177-179 `Get`. -/
def Access.get (a : Access) (h : Heap F) (row : Int) : Except Abort (Val F) :=
  match a.indices.at row with
  | .error e => .error e
  | .ok i =>
    match h.cell a.raw i with
    | some v => .ok v
    | none => .error .panic

/-- column_access.go:152-154, 162-164, 172-174, 182-184 `Set`. -/
def Access.set (a : Access) (h : Heap F) (row : Int) (v : Val F) : Except Abort (Heap F) :=
  match a.indices.at row with
  | .error e => .error e
  | .ok i => h.write a.raw i v

/-- column_access.go:187-189 `Get` of a `StringAccess`: the value must be a string. -/
def Access.getString (a : Access) (h : Heap F) (row : Int) : Except Abort GoStr :=
  match a.get h row with
  | .error e => .error e
  | .ok (.str s) => .ok s
  | .ok _ => .error .panic

/-- column_access.go:192-194 `Set` of a `StringAccess`. -/
def Access.setString (a : Access) (h : Heap F) (row : Int) (s : GoStr) : Except Abort (Heap F) := a.set h row (.str s)

/-- column_access.go:124-130 `VecDenseCopy`. -/
def Access.vecDenseCopy (a : Access) (h : Heap F) : Except Abort (Slice × Heap F) :=
  match gather h a.raw a.indices.rows with
  | .error e => .error e
  | .ok vs => if vs.length = 0 then .error .panic else .ok (h.newArr vs)

/-- column_access.go:137-142 `VecDense`. -/
def Access.vecDense (a : Access) (h : Heap F) : Except Abort (Slice × Heap F) :=
  if a.contiguous then
    if a.raw.len = 0 then .error .panic else .ok (a.raw, h)
  else a.vecDenseCopy h

end Verif
