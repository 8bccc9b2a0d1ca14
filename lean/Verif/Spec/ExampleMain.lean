import Verif.Model.ExampleMain
import Verif.Spec.CSVParsing
import Verif.Spec.Experiment

/-! Vocabulary of C82: what the example program makes of the text of a CSV file. -/

namespace Verif
variable {F : Type}

/-- The cells that mean "missing" to the example program. -/
def exampleMissing : List GoStr := [b!"", b!" ", b!"NA", b!"-"]

/-- A column of the file that the program reads. -/
def ReadColumn (hdr exclude : List GoStr) (c : GoStr) : Prop := c ∈ hdr ∧ c ∉ exclude

/-- All cells of the column are numbers or missing. -/
def NumberColumn (pf : GoStr → Option F) (hdr : List GoStr) (rec : List (List GoStr)) (c : GoStr) : Prop :=
  ∀ v ∈ cellsUnder hdr rec c, FloatCell pf exampleMissing v

/-- The dataframe `a` shows the file with this header and these records: a row per record, in the order of the file, a float
column for every read column of numbers (`fvals`; NaN where a cell is missing), a string column for every other read column (nil
where a cell is missing), and nothing else. -/
structure ShowsFile [GoFloat F] (pf : GoStr → Option F) (exclude hdr : List GoStr) (rec : List (List GoStr)) (fvals : GoStr → List F)
    (a : ADF (Val F)) : Prop where
  rows : a.nRows = rec.length
  numbers : ∀ c, ReadColumn hdr exclude c → NumberColumn pf hdr rec c → a.floats c = some (fvals c) ∧
    RowByRow (AsFloat pf exampleMissing) (cellsUnder hdr rec c) ((fvals c).map .float)
  texts : ∀ c, ReadColumn hdr exclude c → ¬ NumberColumn pf hdr rec c → ∃ vs, a.col .obj c = some (vs.map some) ∧
    RowByRow (AsString exampleMissing) (cellsUnder hdr rec c) vs
  only : ∀ k c, (a.col k c).isSome → ReadColumn hdr exclude c ∧ (k = .float ∧ NumberColumn pf hdr rec c ∨ k = .obj ∧ ¬ NumberColumn pf hdr rec c)
  marks : ∀ c, a.isStr c = true ↔ ReadColumn hdr exclude c ∧ ¬ NumberColumn pf hdr rec c
  encoding : a.enc = none

end Verif
