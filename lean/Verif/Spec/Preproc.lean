import Verif.Props.Writes
import Verif.Model.Preproc

/-! Vocabulary of C40-C43 and C60. -/

namespace Verif
variable {F : Type}

/-- From `h` to `h'`, the visible values of the float columns `cols` of `df` went through `f` (column by
column), and nothing else happened, whoever looks: a dataframe that shows a cell of these columns at some row
reads the new value there, and everything else reads as before. -/
structure Transformed [GoFloat F] (h h' : Heap F) (df : DF) (cols : List GoStr) (f : GoStr → F → F) : Prop where
  shape : ∀ d : DF, locs h' d = locs h d
  wf : ∀ d : DF, d.WF h → d.WF h'
  hit : ∀ c ∈ cols, ∀ (i : Nat) l, cellOf h df .float c i = some l →
    ∀ (d : DF) k c' (j : Nat) x, cellOf h d k c' j = some l → d.get h k c' j = .ok (.float x) →
      d.get h' k c' j = .ok (.float (f c x))
  miss : ∀ (d : DF) k c' (j : Nat), (∀ c ∈ cols, ∀ i : Nat, ∀ l, cellOf h df .float c i = some l → cellOf h d k c' j ≠ some l) →
    d.get h' k c' j = d.get h k c' j

/-- No memory cell is shown by two different columns of `cols`. -/
def Unaliased (h : Heap F) (df : DF) (cols : List GoStr) : Prop :=
  ∀ c ∈ cols, ∀ c' ∈ cols, c ≠ c' → ∀ (i j : Nat) l, cellOf h df .float c i = some l → cellOf h df .float c' j ≠ some l

/-- What a float column shows: the numbers, in row order. -/
def ADF.floats (a : ADF (Val F)) (c : GoStr) : Option (List F) :=
  match a.col .float c with
  | none => none
  | some l => l.mapM fun v => match v with | some (.float x) => some x | _ => none

/-- The sum of a list of floats, from left to right, starting with 0. -/
def fsum [GoFloat F] (l : List F) : F := l.foldl GoFloat.add GoFloat.zero

/-- The values that are not missing. -/
def present [GoFloat F] (l : List F) : List F := l.filter (fun x => !GoFloat.isNaN x)

/-- The mean of the values that are not missing. -/
def fmean [GoFloat F] (l : List F) : F := GoFloat.div (fsum (present l)) (GoFloat.ofInt (present l).length)

end Verif
