import Verif.Spec.ADF

/-! Vocabulary of the sorting properties. -/

namespace Verif
variable {F : Type}

/-- `is` lists the rows of `df` once each, in the order of the underlying rows they show; rows that show the same underlying row
(samples with replacement) come in the order in which `df` shows them. There is exactly one such list. -/
def DF.BackingOrder (df : DF) (is : List Nat) : Prop :=
  is.Perm (List.range df.numRows) ∧
    is.Pairwise fun r s => df.rows.getD r 0 < df.rows.getD s 0 ∨ (df.rows.getD r 0 = df.rows.getD s 0 ∧ r < s)

/-- `x` is lower than `y`: float order, int order, false before true. -/
def valLt [GoFloat F] : Val F → Val F → Bool
  | .float x, .float y => GoFloat.lt x y
  | .int x, .int y => decide (x < y)
  | .bool x, .bool y => !x && y
  | _, _ => false

/-- The column that decides the order: the bool column of that name, else the float one, else the int
one. -/
def ADF.keyCol {C : Type} (a : ADF C) (c : GoStr) : Option (List (Option C)) :=
  match a.col .bool c with
  | some l => some l
  | none =>
    match a.col .float c with
    | some l => some l
    | none => a.col .int c

/-- Row `p` is lower than row `q` in column `c`. -/
def ADF.lower [GoFloat F] (a : ADF (Val F)) (c : GoStr) (p q : Nat) : Prop :=
  ∃ l x y, a.keyCol c = some l ∧ l[p]? = some (some x) ∧ l[q]? = some (some y) ∧ valLt x y = true

/-- No row is lower than a row before it. -/
def ADF.Ascending [GoFloat F] (a : ADF (Val F)) (c : GoStr) : Prop :=
  ∀ i j : Nat, i < j → ¬ a.lower c j i

/-- No row is lower than a row after it. -/
def ADF.Descending [GoFloat F] (a : ADF (Val F)) (c : GoStr) : Prop :=
  ∀ i j : Nat, i < j → ¬ a.lower c i j

/-- What is asked of gonum's `floats.Argsort`: it returns a permutation of the positions; when no value
is NaN the values met along it never decrease. Nothing is said about ties. -/
structure IsArgsort [GoFloat F] (argsort : List F → List Nat) : Prop where
  perm : ∀ xs, (argsort xs).Perm (List.range xs.length)
  sorted : ∀ xs, (∀ x ∈ xs, GoFloat.isNaN x = false) →
    (argsort xs).Pairwise fun p q => ∀ x y, xs[p]? = some x → xs[q]? = some y → GoFloat.lt y x = false

/-- Column `c` can be sorted by: a bool column, or a float column without NaN, or an int column
whose values keep their order when converted to float64. -/
inductive ADF.Sortable [GoFloat F] (a : ADF (Val F)) (c : GoStr) : Prop where
  | bool (l) (h : a.col .bool c = some l) (ty : ∀ x ∈ l, ∃ b, x = some (.bool b))
  | float (l) (hb : a.col .bool c = none) (h : a.col .float c = some l)
      (ty : ∀ x ∈ l, ∃ f, x = some (.float f) ∧ GoFloat.isNaN f = false)
  | int (l) (hb : a.col .bool c = none) (hf : a.col .float c = none) (h : a.col .int c = some l)
      (ty : ∀ x ∈ l, ∃ n, x = some (.int n) ∧ GoFloat.isNaN (GoFloat.ofInt n : F) = false)
      (order : ∀ m n : Int, some (.int m) ∈ l → some (.int n) ∈ l → m < n →
        GoFloat.lt (GoFloat.ofInt m : F) (GoFloat.ofInt n) = true)

end Verif
