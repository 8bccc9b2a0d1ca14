import Verif.Spec.OneHot
import Verif.Spec.Preproc
import Verif.Props.Imputer
import Verif.Props.Scaler
import Verif.Props.Hash
import Verif.Props.OneHot
import Verif.Model.Auto

/-! Vocabulary of C44. -/

namespace Verif
variable {F : Type}

/-- A function on numbers, applied to a cell. -/
def onFloat (g : F → F) : Val F → Val F
  | .float x => .float (g x)
  | v => v

/-- The float columns `cols`, with every value `x` of column `c` and row `j` replaced by `g c j x`; everything
else is as before. -/
def ADF.mapFloats (a : ADF (Val F)) (cols : List GoStr) (g : GoStr → Nat → F → F) : ADF (Val F) where
  nRows := a.nRows
  col k c :=
    if k = .float ∧ c ∈ cols then (a.col k c).map fun l => l.mapIdx fun j v => v.map (onFloat (g c j))
    else a.col k c
  isStr := a.isStr
  enc := a.enc

/-- How many rows of the dataframe are the same underlying row as row `j` (more than one only in views with
repeated rows, such as samples with replacement). -/
def DF.repeats (df : DF) (j : Nat) : Nat :=
  match df.rows[j]? with
  | none => 0
  | some r => df.rows.count r

/-- The float columns an `AutoPreprocessor` works on: those that are not excluded, or all of them if all are
excluded. -/
def Chosen (o : AutoOptions) (a : ADF (Val F)) (c : GoStr) : Prop :=
  (a.col .float c).isSome ∧ (c ∉ o.exclude ∨ ∀ d, (a.col .float d).isSome → d ∈ o.exclude)

/-- The columns an `AutoPreprocessor` one-hot encodes: the string columns, or the int columns if there is no string
column. -/
def Categorical (a : ADF (Val F)) (c : GoStr) : Prop :=
  a.isStr c = true ∨ (∀ s, a.isStr s = false) ∧ (a.col .int c).isSome

/-- The ints that stand for the values of a categorical column: hashes for strings (-1 for a missing string). -/
def catVals (a : ADF (Val F)) (ivals : GoStr → List Int) (c : GoStr) : List Int :=
  if a.isStr c then ((a.col .obj c).getD []).map fun v => match v with | some v => hashVal v | none => -1 else ivals c

/-- What an `AutoPreprocessor` requires of the dataframe it is trained on: string marks are on existing object
columns, not on all columns; no column it works on is named ""; there is a row if there is something to encode;
no categorical column has the name of a one-hot column of another one, or the name of a float column. -/
structure AutoReady (a : ADF (Val F)) : Prop where
  strings : ∀ c, a.isStr c = true → (a.col .obj c).isSome
  other : (∃ c, a.isStr c = true) → ∃ k c, a.isStr c = false ∧ (a.col k c).isSome
  named : a.col .float [] = none ∧ ¬ Categorical a []
  rows : (∃ c, Categorical a c) → 0 < a.nRows
  names : ∀ c d, Categorical a c → Categorical a d → (∀ i, c ≠ onehotName d i) ∧ c ≠ missingName d
  kinds : ∀ c, Categorical a c → a.col .float c = none

/-- What a trained `AutoPreprocessor` requires of the dataframe `b` it transforms: it has the columns the training
dataframe `a` had, with the same types. -/
structure AutoFits (o : AutoOptions) (a b : ADF (Val F)) : Prop where
  floats : ∀ c, Chosen o a c → (b.col .float c).isSome
  strings : ∀ c, a.isStr c = true → (b.col .obj c).isSome
  other : (∃ c, a.isStr c = true) → ∃ k c, a.isStr c = false ∧ (b.col k c).isSome
  ints : (∀ c, a.isStr c = false) → ∀ c, (a.col .int c).isSome → (b.col .int c).isSome ∧ b.isStr c = false

section
variable [GoFloat F]

/-- The sum of the squared distances to the mean. -/
def fsquares (l : List F) : F :=
  fsum ((present l).map fun v => GoFloat.mul (GoFloat.sub v (fmean l)) (GoFloat.sub v (fmean l)))

/-- The inverse of the standard deviation (smoothed when all values are the same). -/
def fscale (l : List F) : F :=
  if GoFloat.eq (fsquares l) GoFloat.zero then
    GoFloat.sqrt (GoFloat.div (GoFloat.ofInt (((present l).length + 1 : Nat) : Int)) (GoFloat.add (fsquares l) GoFloat.one))
  else GoFloat.sqrt (GoFloat.div (GoFloat.ofInt ((present l).length : Int)) (fsquares l))

/-- Missing values replaced by the fallbacks of an imputer (if there is one). -/
def ADF.imputeWith (a : ADF (Val F)) : Option (FloatImputer F) → ADF (Val F)
  | none => a
  | some im => a.mapFloats im.transformedColumns (fun c _ => imputed im.fallback c)

/-- `x ↦ (x + shift) * scale` with the parameters of a scaler (if there is one), as many times as the row is shown. -/
def ADF.scaleWith (a : ADF (Val F)) (rep : Nat → Nat) : Option (Scaler F) → ADF (Val F)
  | none => a
  | some sc => a.mapFloats sc.transformedColumns (fun c j => times (rep j) fun x =>
      GoFloat.mul (GoFloat.add x ((AMap.get sc.shift c).getD GoFloat.zero)) ((AMap.get sc.scale c).getD GoFloat.one))

/-- Strings replaced by their hashes (if there is a hash encoder). -/
def ADF.hashWith (a : ADF (Val F)) : Option HashEncoder → ADF (Val F)
  | none => a
  | some st => a.hashed st.categoricalColumns

/-- The columns of a one-hot encoder (if there is one) encoded with the code `T`. -/
def ADF.encodeWith (a : ADF (Val F)) (T : Code) : Option OneHotEncoder → ADF (Val F)
  | none => a
  | some enc => a.oneHot enc.catCols enc.newCols T false

/-- What a dataframe showing `a` should look like after an `AutoPreprocessor` with code `T`. -/
def AutoPreprocessor.shown (p : AutoPreprocessor F) (T : Code) (rep : Nat → Nat) (a : ADF (Val F)) : ADF (Val F) :=
  (((a.hashWith p.stringToInt).encodeWith T p.intToBool).imputeWith p.imputer).scaleWith rep p.scaler

/-- What an `AutoPreprocessor` with options `o` should learn from a dataframe that shows `a`; `fvals` are the numbers
of the float columns, `cvals` the codes (hashes or ints) of the categorical columns. -/
structure AutoTrained (o : AutoOptions) (a : ADF (Val F)) (fvals : GoStr → List F) (cvals : GoStr → List Int) (T : Code)
    (p : AutoPreprocessor F) : Prop where
  options : p.options = o
  no_imputer : o.imputing = false → p.imputer = none
  imputer : o.imputing = true → ∃ im, p.imputer = some im ∧ im.transformedColumns.Nodup ∧
    (∀ c, c ∈ im.transformedColumns ↔ Chosen o a c) ∧ ∀ c, Chosen o a c → AMap.get im.fallback c = some (fmean (fvals c))
  no_scaler : o.scaling = false → p.scaler = none
  scaler : o.scaling = true → ∃ sc, p.scaler = some sc ∧ sc.transformedColumns.Nodup ∧
    (∀ c, c ∈ sc.transformedColumns ↔ Chosen o a c) ∧ ∀ c, Chosen o a c →
      AMap.get sc.shift c = some (GoFloat.neg (fmean (fvals c))) ∧ AMap.get sc.scale c = some (fscale (fvals c))
  no_hash : (∀ c, a.isStr c = false) → p.stringToInt = none
  hash : (∃ c, a.isStr c = true) → ∃ st, p.stringToInt = some st ∧ st.categoricalColumns.Nodup ∧
    ∀ c, c ∈ st.categoricalColumns ↔ a.isStr c = true
  no_codes : (∀ c, ¬ Categorical a c) → p.intToBool = none
  codes : (∃ c, Categorical a c) → ∃ enc, p.intToBool = some enc ∧ enc.options = ⟨.separateIfSeen, .sharedSeparate, false⟩ ∧
    enc.catCols.Nodup ∧ (∀ c, c ∈ enc.catCols ↔ Categorical a c) ∧
    (∀ c, Categorical a c → Learnt ⟨.separateIfSeen, .sharedSeparate, false⟩ c (cvals c) (T c)) ∧
    (enc.newCols.Nodup ∧ ∀ n, n ∈ enc.newCols ↔ ∃ c, Categorical a c ∧ ∃ v, T c v = some n) ∧ Encodes (F := F) enc T

end

end Verif
