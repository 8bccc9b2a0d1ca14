import Verif.Model.DataFrame

/-! Model of dataframe/float_batching.go, row_iterators.go and dense_gonum_batching.go.

Simplifications: an iterator keeps the dataframe it walks by value (the code keeps the pointer), so
in-place changes of that dataframe's structure during an iteration are not covered; the buffers of an
iterator or a batching object belong to it alone and are kept by value (what the user does with a buffer
that was handed out to him is a separate step, see Spec/Batching.lean). -/

namespace Verif
variable {F : Type}

/-- The conversions to Go's `float32`: from `float64`, from `int`, and the constants 0 and 1. -/
class GoFloat32 (F R : Type) where
  ofFloat : F → R
  ofInt : Int → R
  zero : R
  one : R

/-- float_batching.go:7-13 `FloatBatching` (15-20 `imin` is `min`); row_iterators.go:28-30 `Columns` returns the field `columns`. -/
structure FloatBatching where
  bColumns : List Nat
  iColumns : List Nat
  fColumns : List Nat
  columns : List GoStr
  initialized : Bool
  deriving DecidableEq, Repr

/-- float_batching.go:29-41: the loop over the columns from position `i` on; a column is looked up among
the floats, then the bools, then the ints. -/
def FloatBatching.classify (t : Table) : List GoStr → Nat → FloatBatching → Except Abort FloatBatching
  | [], _, b => .ok b
  | c :: cs, i, b =>
    if (AMap.get t (.float, c)).isSome then classify t cs (i + 1) { b with fColumns := b.fColumns ++ [i] }
    else if (AMap.get t (.bool, c)).isSome then classify t cs (i + 1) { b with bColumns := b.bColumns ++ [i] }
    else if (AMap.get t (.int, c)).isSome then classify t cs (i + 1) { b with iColumns := b.iColumns ++ [i] }
    else .error .panic

/-- float_batching.go:22-43 `initialize`. -/
def FloatBatching.initialize (b : FloatBatching) (t : Table) (columns : List GoStr) :
    Except Abort FloatBatching :=
  if b.initialized then .ok b
  else FloatBatching.classify t columns 0
    { initialized := true, columns := columns, fColumns := [], bColumns := [], iColumns := [] }

/-- `ite.columns[col]`. -/
def FloatBatching.name (b : FloatBatching) (i : Nat) : Except Abort GoStr :=
  match b.columns[i]? with
  | some c => .ok c
  | none => .error .panic

/-! ### row_iterators.go -/

/-- row_iterators.go:7-13 `RowIterator` and 19-22 `Float32Iterator`. `rows` is the buffer. -/
structure Float32Iterator (R : Type) extends FloatBatching where
  df : DF
  rowOffset : Nat
  dfIndex : Nat
  subInds : List Nat
  rows : List (List R)

section
variable {R : Type}

/-- The number of rows of the buffer (row_iterators.go:21). -/
def iterRows : Nat := 128

/-- row_iterators.go:75-85 `NewFloat32Iterator`. -/
def newFloat32Iterator [GoFloat32 F R] (df : DF) (columns : List GoStr) (h : Heap F) :
    Except Abort (Float32Iterator R) :=
  match FloatBatching.initialize ⟨[], [], [], [], false⟩ (h.tab df.tab) columns with
  | .error e => .error e
  | .ok b => .ok { b with df := df, rowOffset := 0, dfIndex := 0, subInds := [],
                          rows := List.replicate iterRows (List.replicate b.columns.length (GoFloat32.zero F)) }

/-- row_iterators.go:38-43 and the two loops like it: every listed column must be a column of that kind. -/
def checkCols (b : FloatBatching) (t : Table) (k : Kind) : List Nat → Except Abort Unit
  | [] => .ok ()
  | i :: is =>
    match b.name i with
    | .error e => .error e
    | .ok c => if (AMap.get t (k, c)).isSome then checkCols b t k is else .error .panic

/-- row_iterators.go:35-60 `Reset`. -/
def Float32Iterator.reset (ite : Float32Iterator R) (df : DF) (check : Bool) (h : Heap F) :
    Except Abort (Float32Iterator R) :=
  let t := h.tab df.tab
  let c : Except Abort Unit :=
    if check then
      match checkCols ite.toFloatBatching t .bool ite.bColumns with
      | .error e => .error e
      | .ok _ =>
        match checkCols ite.toFloatBatching t .int ite.iColumns with
        | .error e => .error e
        | .ok _ => checkCols ite.toFloatBatching t .float ite.fColumns
    else .ok ()
  match c with
  | .error e => .error e
  | .ok _ => .ok { ite with rowOffset := 0, dfIndex := 0, df := df }

/-- row_iterators.go:101-107 (bools), 112-114 (ints), 119-121 (floats): the element of a row. -/
def cell32 [GoFloat32 F R] (k : Kind) (v : Val F) : R :=
  match k, v with
  | .bool, .bool true => GoFloat32.one F
  | .int, .int n => GoFloat32.ofInt F n
  | .float, .float x => GoFloat32.ofFloat x
  | _, _ => GoFloat32.zero F

/-- The loop `for j, i := range indices { ite.rows[j][colIx] = ...vals[i]... }` from `j` on. -/
def fillRows [GoFloat32 F R] (h : Heap F) (k : Kind) (s : Slice) (colIx : Nat) :
    List Nat → Nat → List (List R) → Except Abort (List (List R))
  | [], _, rows => .ok rows
  | i :: is, j, rows =>
    match h.cell s i with
    | none => .error .panic
    | some v =>
      match rows[j]? with
      | none => .error .panic
      | some row =>
        if colIx < row.length then fillRows h k s colIx is (j + 1) (rows.set j (row.set colIx (cell32 k v)))
        else .error .panic

/-- The loop over the columns of one kind (row_iterators.go:99-108, 110-115, 117-122). -/
def fillKind [GoFloat32 F R] (h : Heap F) (ite : Float32Iterator R) (k : Kind) (indices : List Nat) :
    List Nat → List (List R) → Except Abort (List (List R))
  | [], rows => .ok rows
  | colIx :: cs, rows =>
    match ite.name colIx with
    | .error e => .error e
    | .ok c =>
      match fillRows h k (tabCol (h.tab ite.df.tab) (k, c)) colIx indices 0 rows with
      | .error e => .error e
      | .ok rows => fillKind h ite k indices cs rows

/-- row_iterators.go:61-70 `nextIndices`. -/
def Float32Iterator.nextIndices (ite : Float32Iterator R) : Except Abort (List Nat) :=
  let e := ite.dfIndex + 128
  let e := if e > ite.df.numRows then ite.df.numRows else e
  match ite.df.idx.reslice ite.dfIndex e with
  | .error e => .error e
  | .ok x => .ok x.rows

/-- row_iterators.go:96-123: refill the buffer. -/
def Float32Iterator.refill [GoFloat32 F R] (ite : Float32Iterator R) (h : Heap F) :
    Except Abort (Float32Iterator R) :=
  match ite.nextIndices with
  | .error e => .error e
  | .ok indices =>
    let ite := { ite with subInds := indices }
    match fillKind h ite .bool indices ite.bColumns ite.rows with
    | .error e => .error e
    | .ok rows =>
      match fillKind h ite .int indices ite.iColumns rows with
      | .error e => .error e
      | .ok rows =>
        match fillKind h ite .float indices ite.fColumns rows with
        | .error e => .error e
        | .ok rows => .ok { ite with rows := rows }

/-- row_iterators.go:93-131 `NextRow`: the row (`none` for nil), the two numbers, and the iterator. -/
def Float32Iterator.nextRow [GoFloat32 F R] (ite : Float32Iterator R) (h : Heap F) :
    Except Abort ((Option (List R) × Nat × Nat) × Float32Iterator R) :=
  if ite.dfIndex = ite.df.numRows then
    .ok ((none, ite.df.numRows, numAllocatedRows (h.tab ite.df.tab)), ite)
  else
    match (if ite.rowOffset = 0 then ite.refill h else .ok ite) with
    | .error e => .error e
    | .ok ite =>
      match ite.rows[ite.rowOffset]?, ite.subInds[ite.rowOffset]? with
      | some row, some i =>
        .ok ((some row, ite.dfIndex + 1 - 1, i),
          { ite with rowOffset := (ite.rowOffset + 1) % ite.rows.length, dfIndex := ite.dfIndex + 1 })
      | _, _ => .error .panic

end

/-! ### dense_gonum_batching.go -/

/-- dense_gonum_batching.go:7-10 `Dense64Batching`. `data` is the content of the slice up to its capacity,
of which `len` elements are visible. -/
structure Dense64Batching (F : Type) extends FloatBatching where
  data : List F
  len : Nat

/-- dense_gonum_batching.go:18-22 `NewDense64Batching`. -/
def newDense64Batching (columns : List GoStr) : Dense64Batching F :=
  { bColumns := [], iColumns := [], fColumns := [], columns := columns, initialized := false,
    data := [], len := 0 }

/-- A gonum matrix: `NewDense(dim, nRows, data).T()`, an `nRows × dim` matrix stored column by column. -/
structure Matrix (F : Type) where
  rows : Nat
  cols : Nat
  data : List F
  deriving DecidableEq

/-- `m.At(i, j)`. -/
def Matrix.at (m : Matrix F) (i j : Nat) : Option F :=
  if i < m.rows ∧ j < m.cols then m.data[j * m.rows + i]? else none

/-- `float64(...)` of an element of a column of that kind (dense_gonum_batching.go:48, 58, 65-69). -/
def cell64 [GoFloat F] (k : Kind) (v : Val F) : F :=
  match k, v with
  | .bool, .bool true => GoFloat.one
  | .int, .int n => GoFloat.ofInt n
  | .float, .float x => x
  | _, _ => GoFloat.zero

/-- The loop `for i, j := range df.indices { subslice[i] = ...rawdata[j]... }` from `i` on; `subslice` is
`data[off:len]`. -/
def denseLoop [GoFloat F] (h : Heap F) (k : Kind) (s : Slice) (off len : Nat) :
    List Nat → Nat → List F → Except Abort (List F)
  | [], _, data => .ok data
  | j :: js, i, data =>
    match h.cell s j with
    | none => .error .panic
    | some v =>
      if off + i < len then denseLoop h k s off len js (i + 1) (data.set (off + i) (cell64 k v))
      else .error .panic

/-- `copy(subslice, rawdata)` with `subslice = data[off:len]`. -/
def denseCopy (data : List F) (off len : Nat) (src : List F) : List F :=
  data.take off ++ src.take (len - off) ++ data.drop (off + min (len - off) src.length)

/-- One column (dense_gonum_batching.go:43-52, 54-60, 61-71): `data[nRows*colIx:]` panics beyond the length. -/
def denseCol [GoFloat F] (h : Heap F) (b : FloatBatching) (df : DF) (k : Kind) (len : Nat) (colIx : Nat)
    (data : List F) : Except Abort (List F) :=
  let off := df.numRows * colIx
  if len < off then .error .panic
  else
    match b.name colIx with
    | .error e => .error e
    | .ok c =>
      let s := tabCol (h.tab df.tab) (k, c)
      if k = .float ∧ df.indexViewed = false then .ok (denseCopy data off len ((h.read s).map (cell64 k)))
      else denseLoop h k s off len df.rows 0 data

/-- The loop over the columns of one kind. -/
def denseKind [GoFloat F] (h : Heap F) (b : FloatBatching) (df : DF) (k : Kind) (len : Nat) :
    List Nat → List F → Except Abort (List F)
  | [], data => .ok data
  | colIx :: cs, data =>
    match denseCol h b df k len colIx data with
    | .error e => .error e
    | .ok data => denseKind h b df k len cs data

/-- `append(data, make([]float64, n)...)`: in place when the capacity allows it, else with the spare
capacity the runtime decides. -/
def appendZeros [GoFloat F] (rt : Runtime) (data : List F) (len n : Nat) : List F × Nat :=
  if len + n ≤ data.length then
    (data.take len ++ List.replicate n GoFloat.zero ++ data.drop (len + n), len + n)
  else
    (data.take len ++ List.replicate n GoFloat.zero ++ List.replicate (rt.spare (len + n)) GoFloat.zero, len + n)

/-- dense_gonum_batching.go:32-75 `DenseMatrix`. `NewDense` panics on a zero dimension. -/
def Dense64Batching.denseMatrix [GoFloat F] (bat : Dense64Batching F) (df : DF) (h : Heap F) :
    Except Abort (Matrix F × Dense64Batching F) :=
  match bat.toFloatBatching.initialize (h.tab df.tab) bat.columns with
  | .error e => .error e
  | .ok b =>
    let dim := b.columns.length
    let nRows := df.numRows
    let missing : Int := (dim : Int) * ((nRows : Int) - (bat.len : Int))
    let (data, len) := if missing > 0 then appendZeros h.rt bat.data bat.len missing.toNat else (bat.data, bat.len)
    match denseKind h b df .float len b.fColumns data with
    | .error e => .error e
    | .ok data =>
      match denseKind h b df .int len b.iColumns data with
      | .error e => .error e
      | .ok data =>
        match denseKind h b df .bool len b.bColumns data with
        | .error e => .error e
        | .ok data =>
          if nRows * dim ≤ data.length then
            if dim = 0 ∨ nRows = 0 then .error .panic
            else .ok (⟨nRows, dim, data.take (nRows * dim)⟩, { b with data := data, len := len })
          else .error .panic

end Verif
