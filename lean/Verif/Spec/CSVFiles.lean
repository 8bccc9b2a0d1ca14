import Verif.Model.CSVFiles
import Verif.Spec.CSVParsing

/-! What `FromCSVFilePattern` is documented to read (C68). -/

namespace Verif
variable {F : Type}

/-- The file can be opened and its text holds this header and these records. -/
def FileHolds (spec : CSVReadingSpec) (files : GoStr → Option CsvInput) (path : GoStr) (header : List GoStr)
    (records : List (List GoStr)) : Prop :=
  ∃ inp, files path = some inp ∧ Holds spec inp header records

/-- The file cannot be opened, or its text is not a CSV table. -/
def FileBad (spec : CSVReadingSpec) (files : GoStr → Option CsvInput) (path : GoStr) : Prop :=
  files path = none ∨ ∃ inp, files path = some inp ∧
    (inp.fails = true ∨ (∃ a ∈ inp.records, ∃ b ∈ inp.records, a.length ≠ b.length) ∨
      (spec.header = [] ∧ inp.records = []))

/-- Reading this table gives the column `c`, of kind `k`, with these values (the documented rule of `FromCSV`). -/
def ReadsCol [GoFloat F] (pf : GoStr → Option F) (spec : CSVReadingSpec) (header : List GoStr)
    (records : List (List GoStr)) (k : Kind) (c : GoStr) (vs : List (Val F)) : Prop :=
  c ∈ header ∧ c ∉ spec.exclude ∧ Inferred pf spec.missingValues (cellsUnder header records c) k vs

/-- What a file contributes to the column `c` of kind `k`: its values, or nothing if it has no such column. -/
def Contributes [GoFloat F] (pf : GoStr → Option F) (spec : CSVReadingSpec) (header : List GoStr)
    (records : List (List GoStr)) (k : Kind) (c : GoStr) (vs : List (Val F)) : Prop :=
  ReadsCol pf spec header records k c vs ∨ (vs = [] ∧ ∀ ws : List (Val F), ¬ ReadsCol pf spec header records k c ws)

end Verif
