import Verif.Spec.Batching
import Verif.Spec.Edit
import Verif.Model.OneHot

/-! Vocabulary of C38 and C39. -/

namespace Verif
variable {F : Type}

/-- What an int column shows in a row. -/
def ADF.intAt (a : ADF (Val F)) (c : GoStr) (j : Nat) : Option Int :=
  match a.cell .int c j with
  | some (.int v) => some v
  | _ => none

/-- The int columns of `a`, with their values in row order. -/
def IntCols (a : ADF (Val F)) (vals : GoStr → List Int) : Prop :=
  ∀ c, (a.col .int c).isSome → a.col .int c = some ((vals c).map fun v => some (.int v))

/-- A code says, for a categorical column and a value, which boolean column must be true; `none`: no column,
the value is forbidden. -/
abbrev Code := GoStr → Int → Option GoStr

/-- Some visible value is forbidden. -/
def Forbidden (a : ADF (Val F)) (cats : List GoStr) (T : Code) : Prop :=
  ∃ c ∈ cats, ∃ j v, a.intAt c j = some v ∧ T c v = none

/-- What `TransformView` should show: the columns `news` are boolean columns, true in a row exactly when the
code of one of the row's categorical values is that column; the categorical columns are gone unless `keep`;
everything else is as before. -/
def ADF.oneHot (a : ADF (Val F)) (cats news : List GoStr) (T : Code) (keep : Bool) : ADF (Val F) where
  nRows := a.nRows
  col k n :=
    if keep = false ∧ n ∈ cats then none
    else if k = .bool ∧ n ∈ news then
      some ((List.range a.nRows).map fun j =>
        some (.bool (cats.any fun c => (a.intAt c j).any fun v => decide (T c v = some n))))
    else a.col k n
  isStr c := (keep || !decide (c ∈ cats)) && a.isStr c
  enc := a.enc

/-- A most frequent category among the training values (-1 stands for a missing value and is no category). -/
def MostFrequent (vals : List Int) (v : Int) : Prop :=
  v ∈ vals ∧ v ≠ -1 ∧ ∀ w ∈ vals, w ≠ -1 → vals.count w ≤ vals.count v

/-- What the code of one column should be, for training values `vals` and a pair of policies. -/
structure Learnt (o : OneHotOptions) (col : GoStr) (vals : List Int) (T : Int → Option GoStr) : Prop where
  /-- Every category seen has its own column. -/
  seen : ∀ v ∈ vals, v ≠ -1 → ∃ i, T v = some (onehotName col i)
  inj : ∀ v ∈ vals, v ≠ -1 → ∀ w ∈ vals, w ≠ -1 → T v = T w → v = w
  missing : match o.missing with
    | .returnError => T (-1) = none
    | .separate => T (-1) = some (missingName col)
    | .imputeMostFrequent => ∃ v, MostFrequent vals v ∧ T (-1) = T v
    | .separateIfSeen =>
      if (-1 : Int) ∈ vals then T (-1) = some (missingName col) else ∃ v, MostFrequent vals v ∧ T (-1) = T v
    | .sharedSeparate => False
  unknown : ∀ v, v ≠ -1 → v ∉ vals → match o.unknown with
    | .returnError => T v = none
    | .separate => T v = some (unkName col)
    | .imputeMostFrequent => ∃ w, MostFrequent vals w ∧ T v = T w
    | .sharedSeparate => T v = T (-1)
    | .separateIfSeen => False
  /-- Unknown values are not told apart. -/
  same : ∀ v w, v ≠ -1 → v ∉ vals → w ≠ -1 → w ∉ vals → T v = T w

/-- The policies can be followed for training values `vals`: where a most frequent category is needed there
is one, and "shared" has something to share. -/
structure CanFit (o : OneHotOptions) (vals : List Int) : Prop where
  missing : o.missing ≠ .sharedSeparate
  unknown : o.unknown ≠ .separateIfSeen
  imputeMissing : o.missing = .imputeMostFrequent ∨ (o.missing = .separateIfSeen ∧ (-1 : Int) ∉ vals) → ∃ v ∈ vals, v ≠ -1
  imputeUnknown : o.unknown = .imputeMostFrequent → ∃ v ∈ vals, v ≠ -1
  shared : o.unknown = .sharedSeparate → o.missing ≠ .returnError

end Verif
