import Verif.Model.DataFrame

/-! Model of dataframe/dataframe_internals.go and of the accessors that tell positions in the backing data. -/

namespace Verif
variable {F : Type}

/-- view.go:13-15 `AreIndicesAltered`. -/
def DF.areIndicesAltered (df : DF) : Bool := df.indexViewed

/-- dataframe_internals.go:11-13 `GetMask`. -/
def DF.internalMask (df : DF) : Slice := df.mask

/-- dataframe_internals.go:15-17 `GetIndices`, the elements of the returned slice. (The slice is the dataframe's own; the model
does not let the caller store into it.) -/
def DF.internalIndices (df : DF) : List Nat := df.rows

/-- dataframe_internals.go:19-33 `FloatData`, `IntData`, `BoolData`, `ObjectData`: the map is read without a test, a missing
column is a nil slice. -/
def DF.internalData (df : DF) (h : Heap F) (k : Kind) (c : GoStr) : Slice := (AMap.get (h.tab df.tab) (k, c)).getD Slice.nil

/-- column_access.go:117-119 `SharedIndex`, on an accessor made by `Ints`, `Floats`, `Bools`, `Objects` or `Strings`
(column_access.go:48-107), all of which take the dataframe's indices. -/
def DF.sharedIndex (df : DF) (local_ : Int) : Except Abort Nat := df.idx.at local_

end Verif
