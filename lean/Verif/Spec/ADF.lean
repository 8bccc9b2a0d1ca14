import Verif.Model.DataFrame

/-! The vocabulary of the property statements.

`abs h df` is what the API shows of a dataframe: its number of rows, for every typed column the list
of its values (`none` for a cell whose reading would panic), the string marks and the text encoding.
`ADF.select` is row selection. `DF.WF` is the documented consistency of a dataframe: every column is
as long as every other, every shown row exists in the columns, and a dataframe whose indices are not
altered shows exactly the allocated rows in order. -/

namespace Verif
variable {F : Type}

/-- A dataframe seen from outside, with cells of type `C`: a typed column is the list of its cells,
one per row; `none` is a cell that cannot be accessed. -/
structure ADF (C : Type) where
  nRows : Nat
  col : Kind → GoStr → Option (List (Option C))
  isStr : GoStr → Bool
  enc : Option Nat

/-- The observable content of a dataframe in a heap: rows, column values, string marks, encoding. -/
def abs (h : Heap F) (df : DF) : ADF (Val F) where
  nRows := df.numRows
  col k c := (AMap.get (h.tab df.tab) (k, c)).map fun s => df.rows.map (h.cell s)
  isStr c := decide (c ∈ hdrList h df.strHdr)
  enc := df.enc

/-- The memory cells (array, position) behind a dataframe: two dataframes share a cell exactly when
the same location appears in both. -/
def locs (h : Heap F) (df : DF) : ADF (Nat × Nat) where
  nRows := df.numRows
  col k c := (AMap.get (h.tab df.tab) (k, c)).map fun s =>
    df.rows.map fun r => if r < s.len then some (s.arr, s.off + r) else none
  isStr c := decide (c ∈ hdrList h df.strHdr)
  enc := df.enc

/-- The rows `is` of a dataframe, in that order (repetitions allowed). -/
def ADF.select {C : Type} (a : ADF C) (is : List Nat) : ADF C where
  nRows := is.length
  col k c := (a.col k c).map fun l => is.map fun i => (l[i]?).join
  isStr := a.isStr
  enc := a.enc

/-- Rows `from, from+1, ..., to-1`. -/
def rowRange (from_ to : Nat) : List Nat := List.range' from_ (to - from_)

/-- A slice lies inside its backing array. -/
def Slice.Valid (h : Heap F) (s : Slice) : Prop :=
  s.len ≤ s.cap ∧ (s.cap = 0 ∨ s.arr < h.next ∧ s.off + s.cap ≤ (h.arr s.arr).length)

/-- The references held by a `RawData` point to existing objects. -/
structure Raw.WF (h : Heap F) (r : Raw) : Prop where
  tab_lt : r.tab < h.next
  shared_lt : ∀ i, r.shared = some i → i < h.next
  str_lt : ∀ i, r.strHdr = some i → i < h.next
  keys : (AMap.keys (h.tab r.tab)).Nodup
  slices : ∀ k s, AMap.get (h.tab r.tab) k = some s → s.Valid h

/-- The string marks and the list of shared columns are not one and the same map. (True of every
dataframe made through the API, see C19.) -/
def Raw.Sep (r : Raw) : Prop := ∀ i, r.shared = some i → r.strHdr ≠ some i

/-- Consistency of a dataframe. -/
structure DF.WF (h : Heap F) (df : DF) : Prop extends Raw.WF h df.toRaw where
  idx_len : df.idx.len ≤ df.idx.data.length
  rect : ∃ N, (∀ k s, AMap.get (h.tab df.tab) k = some s → s.len = N) ∧
    (∀ i ∈ df.rows, i < N) ∧ (df.indexViewed = false → df.rows = List.range N)

/-- The preallocated mask is large enough and lies inside its backing array. -/
structure DF.MaskWF (h : Heap F) (df : DF) : Prop where
  len_ge : df.numRows ≤ df.mask.len
  len_le : df.mask.len ≤ df.mask.cap
  valid : df.mask.cap = 0 ∨
    df.mask.arr < h.next ∧ df.mask.off + df.mask.cap ≤ (h.msk df.mask.arr).length

/-- `v` in heap `h'` is the view of `df` (in heap `h`) on the rows `is`: it shows these rows with the
values, types, string marks and encoding of `df`, it shares `df`'s memory cells, it is consistent,
and no dataframe that existed before is changed in any observable way. -/
structure RowView (h : Heap F) (df : DF) (h' : Heap F) (v : DF) (is : List Nat) : Prop where
  shows : abs h' v = (abs h df).select is
  shares : locs h' v = (locs h df).select is
  wf : v.WF h'
  others : ∀ d : DF, d.WF h → abs h' d = abs h d ∧ locs h' d = locs h d ∧ d.WF h'

/-- Every object that exists in `h` is the same in `h'`. -/
structure Heap.Ext (h h' : Heap F) : Prop where
  next_le : h.next ≤ h'.next
  arr : ∀ i, i < h.next → h'.arr i = h.arr i
  tab : ∀ i, i < h.next → h'.tab i = h.tab i
  hdr : ∀ i, i < h.next → h'.hdr i = h.hdr i
  msk : ∀ i, i < h.next → h'.msk i = h.msk i

end Verif

namespace Verif

/-- The columns named in `cols` only. A name is a string column of the result when it is an object
column marked as string. -/
def ADF.project {C : Type} (a : ADF C) (cols : List GoStr) : ADF C where
  nRows := a.nRows
  col k c := if c ∈ cols then a.col k c else none
  isStr c := decide (c ∈ cols) && ((a.col .obj c).isSome && a.isStr c)
  enc := a.enc

end Verif
