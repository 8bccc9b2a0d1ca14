import Verif.Spec.ADF
import Verif.Model.Batching

/-! Vocabulary for C28 and C29: what the rows of numeric columns are, and the sequences of calls a user
makes on one iterator or one batching object. -/

namespace Verif
variable {F R : Type}

/-- The store a numeric column is read from: float before bool before int. -/
def ADF.numKind {C : Type} (a : ADF C) (c : GoStr) : Option Kind :=
  if (a.col .float c).isSome then some .float
  else if (a.col .bool c).isSome then some .bool
  else if (a.col .int c).isSome then some .int
  else none

/-- The value of a column at a row. -/
def ADF.cell {C : Type} (a : ADF C) (k : Kind) (c : GoStr) (r : Nat) : Option C :=
  (a.col k c).bind fun l => (l[r]?).join

/-- A value of a numeric column as a 32-bit float: `true` is 1, `false` is 0, numbers are converted. -/
def num32 [GoFloat32 F R] : Kind → Val F → R
  | .bool, .bool b => if b then GoFloat32.one F else GoFloat32.zero F
  | .int, .int n => GoFloat32.ofInt F n
  | .float, .float x => GoFloat32.ofFloat x
  | _, _ => GoFloat32.zero F

/-- A value of a numeric column as a 64-bit float: `true` is 1, `false` is 0, ints are converted. -/
def num64 [GoFloat F] : Kind → Val F → F
  | .bool, .bool b => if b then GoFloat.one else GoFloat.zero
  | .int, .int n => GoFloat.ofInt n
  | .float, .float x => x
  | _, _ => GoFloat.zero

/-- Number of rows of the backing data. -/
def allocRows (h : Heap F) (df : DF) : Nat :=
  match h.tab df.tab with
  | [] => 0
  | e :: _ => e.2.len

/-- A call on an iterator. `scribble` is the user overwriting the row he got last (the documentation
allows it). -/
inductive IterEv (R : Type) where
  | next
  | reset (df : DF) (check : Bool)
  | scribble (row : List R)

/-- The rows handed out are slices of the same length as the list of columns. -/
def scribbleRow (rows : List (List R)) (j : Nat) (new : List R) : List (List R) :=
  rows.modify j (fun old => if new.length = old.length then new else old)

/-- The calls, one after the other: what the `NextRow` calls return. `last` is the place of the row that
was returned last. -/
def runIter [GoFloat32 F R] (h : Heap F) :
    List (IterEv R) → Nat → Float32Iterator R → Except Abort (List (Option (List R) × Nat × Nat))
  | [], _, _ => .ok []
  | .next :: es, last, ite =>
    match ite.nextRow h with
    | .error e => .error e
    | .ok (o, ite') =>
      match runIter h es (if o.1.isSome then ite.rowOffset else last) ite' with
      | .error e => .error e
      | .ok os => .ok (o :: os)
  | .reset df check :: es, last, ite =>
    match ite.reset df check h with
    | .error e => .error e
    | .ok ite' => runIter h es last ite'
  | .scribble row :: es, last, ite =>
    runIter h es last { ite with rows := scribbleRow ite.rows last row }

/-- What one `NextRow` should return when `r` rows of `df` have been delivered: row `r` (the values of the
columns `cols`, in that order), `r` itself and its position in the backing data; after the last row: nil, the
number of rows and the number of allocated rows. -/
def expectedRow [GoFloat32 F R] (h : Heap F) (kind : GoStr → Kind) (cols : List GoStr) (df : DF) (r : Nat) :
    Option (List (Option R)) × Nat × Nat :=
  match df.rows[r]? with
  | some i => (some (cols.map fun c => ((abs h df).cell (kind c) c r).map (num32 (kind c))), r, i)
  | none => (none, (abs h df).nRows, allocRows h df)

/-- What a sequence of calls should return: a counter that restarts with `Reset`. -/
def expectedRows [GoFloat32 F R] (h : Heap F) (kind : GoStr → Kind) (cols : List GoStr) :
    List (IterEv R) → DF → Nat → List (Option (List (Option R)) × Nat × Nat)
  | [], _, _ => []
  | .next :: es, df, r => expectedRow h kind cols df r :: expectedRows h kind cols es df (min (r + 1) (abs h df).nRows)
  | .reset df' _ :: es, _, _ => expectedRows h kind cols es df' 0
  | .scribble _ :: es, df, r => expectedRows h kind cols es df r

/-- The dataframes passed to `Reset` are consistent and have the columns, in the same stores. -/
def IterEv.Legal (h : Heap F) (kind : GoStr → Kind) (cols : List GoStr) : IterEv R → Prop
  | .reset df _ => df.WF h ∧ ∀ c ∈ cols, ((abs h df).col (kind c) c).isSome
  | _ => True

/-! ### C29 -/

/-- A call on a batching object. `scribble` is the user changing a matrix he got: the matrices share the
object's buffer, so this puts anything at all into the buffer. -/
inductive DenseEv (F : Type) where
  | batch (h : Heap F) (df : DF)
  | scribble (data : List F)

/-- The calls one after the other: what the `DenseMatrix` calls return. -/
def runDense [GoFloat F] : List (DenseEv F) → Dense64Batching F → Except Abort (List (Matrix F))
  | [], _ => .ok []
  | .batch h df :: es, bat =>
    match bat.denseMatrix df h with
    | .error e => .error e
    | .ok (m, bat) =>
      match runDense es bat with
      | .error e => .error e
      | .ok ms => .ok (m :: ms)
  | .scribble data :: es, bat =>
    runDense es (if data.length = bat.data.length then { bat with data := data } else bat)

/-- The batches of a sequence of calls. -/
def batches (es : List (DenseEv F)) : List (Heap F × DF) :=
  es.filterMap fun | .batch h df => some (h, df) | .scribble _ => none

/-- `m` is the matrix of the values of the columns `cols` of `df`: row `i`, column `j` is the value of the
`j`-th column at row `i`. -/
def IsMatrixOf [GoFloat F] (kind : GoStr → Kind) (cols : List GoStr) (h : Heap F) (df : DF) (m : Matrix F) : Prop :=
  m.rows = (abs h df).nRows ∧ m.cols = cols.length ∧
  ∀ i j c, i < m.rows → cols[j]? = some c →
    (m.at i j).isSome ∧ m.at i j = ((abs h df).cell (kind c) c i).map (num64 (kind c))

end Verif
