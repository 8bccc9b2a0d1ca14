import Verif.Spec.ADF

/-! What concatenations should show. -/

namespace Verif

/-- The rows of `a0`, then those of the dataframes in `as`, with the columns of `a0`. -/
def ADF.stack {C : Type} (a0 : ADF C) (as : List (ADF C)) : ADF C where
  nRows := ((a0 :: as).map (·.nRows)).sum
  col k c := (a0.col k c).map fun _ => (a0 :: as).flatMap fun a => (a.col k c).getD []
  isStr c := (a0 :: as).any (·.isStr c)
  enc := none

/-- The columns of several dataframes side by side (the rows and the encoding of the first). -/
def ADF.beside {C : Type} (a0 : ADF C) (as : List (ADF C)) : ADF C where
  nRows := a0.nRows
  col k c := (a0 :: as).findSome? fun a => a.col k c
  isStr c := (a0 :: as).any (·.isStr c)
  enc := a0.enc

/-- No column name occurs twice: neither in two dataframes nor with two types in one. -/
def NoOverlap {C : Type} (as : List (ADF C)) : Prop :=
  as.Pairwise (fun a b => ∀ k k' c, (a.col k c).isSome → ¬ (b.col k' c).isSome) ∧
  ∀ a ∈ as, ∀ k k' c, (a.col k c).isSome → (a.col k' c).isSome → k = k'

end Verif
