import Verif.Spec.Auto
import Verif.Spec.LinRegFit
import Verif.Model.Experiment
import Verif.Spec.Json

/-! Vocabulary of C79. -/

namespace Verif
variable {F : Type}

/-- The entries of a list at the positions `is`. -/
def takeRows {α : Type} (l : List α) (is : List Nat) : List α := is.filterMap fun i => l[i]?

/-- `xs` are the features of row `r` of a dataframe that shows `a`: the values of the columns `cols`, in that order, as
floats (`true` is 1, `false` is 0). -/
def FeaturesOf [GoFloat F] (kind : GoStr → Kind) (cols : List GoStr) (a : ADF (Val F)) (r : Nat) (xs : List F) : Prop :=
  xs.length = cols.length ∧ ∀ (j : Nat) (c : GoStr), cols[j]? = some c → xs[j]? = (a.cell (kind c) c r).map (num64 (kind c))

/-- The names of the columns are texts, and the values of the int columns are ints. -/
structure ADF.Textual (a : ADF (Val F)) (ivals : GoStr → List Int) : Prop where
  names : ∀ k c, (a.col k c).isSome → IsText c
  ints : ∀ c, (a.col .int c).isSome → ∀ v ∈ ivals c, IsInt64 v

/-- How many of the rows `is` of `df` show the same underlying row as the `j`-th of them (1 unless `df` repeats a row). -/
def DF.repeatsIn (df : DF) (is : List Nat) (j : Nat) : Nat :=
  match is[j]? with
  | none => 0
  | some r => is.countP fun i => df.rows.getD i 0 == df.rows.getD r 0

/-- What a trained regressor should be, for a training set that shows `a` with the target values `ys`: its features are
the float and boolean columns other than the target, the target is scaled by the shift `s` and the scale `k` that
`Scaler.Fit` finds for `ys`, and the weights are those of gradient descent on the rows, `Epochs` times all rows once, each
time in the order of that epoch's shuffle, in batches of `BatchSize`. The scaling is applied `rep r` times to the target of row `r`: as often
as its underlying row is shown. -/
structure RegressorTrained [GoFloat F] (bl : Blas F) (sch : FitSched F) (p : LinRegTrainParams F) (target : GoStr)
    (a : ADF (Val F)) (rep : Nat → Nat) (ys : List F) (kind : GoStr → Kind) (s k : F) (reg : LinearRegressor F) : Prop where
  nodup : reg.features.Nodup
  features : ∀ c, c ∈ reg.features ↔ c ≠ target ∧ ((a.col .float c).isSome ∨ (a.col .bool c).isSome)
  kinds : ∀ c ∈ reg.features, kind c = if (a.col .float c).isSome then .float else .bool
  scaling : scalerFitCol ⟨false, true, true⟩ ys = (some s, some k)
  scaler : reg.scaler = some ⟨[(b!"_target", s)], [(b!"_target", k)], ⟨false, true, true⟩⟩
  weights : ∃ (data : Nat → List F × F) (pss : List (List (List Nat))),
    (∀ (r : Nat) (y : F), ys[r]? = some y →
      FeaturesOf kind reg.features a r (data r).1 ∧ (data r).2 = times (rep r) (fun x => GoFloat.mul (GoFloat.add x s) k) y) ∧
    (pss.length : Int) = p.epochs ∧
    (∀ (e : Nat) (parts : List (List Nat)), pss[e]? = some parts → IsBatches (sch.shuffle (e + 1) ys.length) p.batchSize.toNat parts) ∧
    reg.weights.length = reg.features.length ∧
    reg.weights = (sgd bl p data pss.flatten
      ((List.range reg.features.length).map (fun i => GoFloat.mul (sch.norm i)
        (GoFloat.sqrt (GoFloat.div (GoFloat.ofInt 2) (GoFloat.ofInt (reg.features.length : Int))))),
        List.replicate reg.features.length GoFloat.zero)).1

end Verif
