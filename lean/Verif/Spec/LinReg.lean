import Verif.Spec.Batching
import Verif.Model.LinReg

/-! Vocabulary of C46. -/

namespace Verif
variable {F : Type}

/-- `xs` are the features of row `r` of `df`: the values of the columns `cols`, in that order, as floats. -/
def IsRowOf [GoFloat F] (kind : GoStr → Kind) (cols : List GoStr) (h : Heap F) (df : DF) (r : Nat) (xs : List F) : Prop :=
  xs.length = cols.length ∧ ∀ (j : Nat) (c : GoStr), cols[j]? = some c → xs[j]? = ((abs h df).cell (kind c) c r).map (num64 (kind c))

/-- A dataframe with one column added or replaced. -/
def ADF.withCol {C : Type} (a : ADF C) (k : Kind) (c : GoStr) (vals : List C) : ADF C :=
  { a with col := fun k' c' => if k' = k ∧ c' = c then some (vals.map some) else a.col k' c' }

end Verif
