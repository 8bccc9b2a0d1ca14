import Verif.Model.CSVParsing
import Verif.Spec.Raw
import Mathlib.Data.List.Forall2
import Mathlib.Data.Nat.Digits.Defs

/-! What `FromCSV` is documented to read (C30, C31). -/

namespace Verif
variable {F : Type}

/-- Row by row, the cell text `v` and the stored value `x` are related by `p`. -/
abbrev RowByRow (p : GoStr → Val F → Prop) (cells : List GoStr) (vals : List (Val F)) : Prop :=
  List.Forall₂ p cells vals

/-- The bool literals of Go's `strconv`, and their values. -/
inductive BoolLit : GoStr → Bool → Prop where
  | one : BoolLit b!"1" true
  | t : BoolLit b!"t" true
  | T : BoolLit b!"T" true
  | TRUE : BoolLit b!"TRUE" true
  | true : BoolLit b!"true" true
  | True : BoolLit b!"True" true
  | zero : BoolLit b!"0" false
  | f : BoolLit b!"f" false
  | F : BoolLit b!"F" false
  | FALSE : BoolLit b!"FALSE" false
  | false : BoolLit b!"false" false
  | False : BoolLit b!"False" false

/-- Decimal digits, most significant first, as ASCII text. -/
def asciiDigits (ds : List Nat) : GoStr := ds.map fun d => UInt8.ofNat (48 + d)

/-- The value of decimal digits, most significant first. -/
def decimal (ds : List Nat) : Nat := Nat.ofDigits 10 ds.reverse

/-- The int literals of Go's `strconv` in base 10, and their values: at least one decimal digit, after `+`, `-` or no
sign, such that the value is a 64-bit int. -/
def IntLit (v : GoStr) (n : Int) : Prop :=
  (-2 ^ 63 ≤ n ∧ n < 2 ^ 63) ∧ ∃ ds : List Nat, ds ≠ [] ∧ (∀ d ∈ ds, d < 10) ∧
    ((v = asciiDigits ds ∧ n = decimal ds) ∨
      (v = b!"+" ++ asciiDigits ds ∧ n = decimal ds) ∨
      (v = b!"-" ++ asciiDigits ds ∧ n = -(decimal ds : Int)))

/-- A cell that can be read as a bool. -/
def BoolCell (v : GoStr) : Prop := ∃ b, BoolLit v b

/-- A missing cell or one that can be read as an int. -/
def IntCell (missing : List GoStr) (v : GoStr) : Prop := v ∈ missing ∨ ∃ n, IntLit v n

/-- A missing cell or one that can be read as a float. -/
def FloatCell (pf : GoStr → Option F) (missing : List GoStr) (v : GoStr) : Prop := v ∈ missing ∨ ∃ x, pf v = some x

/-- A bool cell and its value. -/
def AsBool (v : GoStr) (x : Val F) : Prop := ∃ b, BoolLit v b ∧ x = .bool b

/-- An int cell and its value: -1 when it is missing. -/
def AsInt (missing : List GoStr) (v : GoStr) (x : Val F) : Prop :=
  (v ∈ missing ∧ x = .int (-1)) ∨ (v ∉ missing ∧ ∃ n, IntLit v n ∧ x = .int n)

/-- A float cell and its value: NaN when it is missing. -/
def AsFloat [GoFloat F] (pf : GoStr → Option F) (missing : List GoStr) (v : GoStr) (x : Val F) : Prop :=
  (v ∈ missing ∧ x = .float GoFloat.nan) ∨ (v ∉ missing ∧ ∃ y, pf v = some y ∧ x = .float y)

/-- A string cell and its value: nil when it is missing. -/
def AsString (missing : List GoStr) (v : GoStr) (x : Val F) : Prop :=
  (v ∈ missing ∧ x = .nil) ∨ (v ∉ missing ∧ x = .str v)

/-- The documented rule for the default options (csv_parsing.go:171-178): the kind of the column made of
these cells, and its values. -/
inductive Inferred [GoFloat F] (pf : GoStr → Option F) (missing cells : List GoStr) : Kind → List (Val F) → Prop where
  | bool {vs} (h : ∀ v ∈ cells, BoolCell v) (r : RowByRow AsBool cells vs) : Inferred pf missing cells .bool vs
  | int {vs} (h : ¬ ∀ v ∈ cells, BoolCell v) (hi : ∀ v ∈ cells, IntCell missing v)
      (r : RowByRow (AsInt missing) cells vs) : Inferred pf missing cells .int vs
  | float {vs} (h : ¬ ∀ v ∈ cells, BoolCell v) (hi : ¬ ∀ v ∈ cells, IntCell missing v)
      (hf : ∀ v ∈ cells, FloatCell pf missing v) (r : RowByRow (AsFloat pf missing) cells vs) :
      Inferred pf missing cells .float vs
  | str {vs} (h : ¬ ∀ v ∈ cells, BoolCell v) (hi : ¬ ∀ v ∈ cells, IntCell missing v)
      (hf : ¬ ∀ v ∈ cells, FloatCell pf missing v) (r : RowByRow (AsString missing) cells vs) :
      Inferred pf missing cells .obj vs

/-- The cells under the header name `c`: those of the first column of that name. -/
def cellsUnder (header : List GoStr) (records : List (List GoStr)) (c : GoStr) : List GoStr :=
  records.map fun r => (r[header.idxOf c]?).getD []

/-- With these options the text holds this header and these records: either the first line is the header or
the options give one. Every record has as many fields as the header, and there is no read error. -/
structure Holds (spec : CSVReadingSpec) (inp : CsvInput) (header : List GoStr) (records : List (List GoStr)) : Prop where
  text : (spec.header = [] ∧ inp = ⟨header :: records, false⟩) ∨
    (spec.header ≠ [] ∧ header = spec.header ∧ inp = ⟨records, false⟩)
  fields : ∀ r ∈ records, r.length = header.length

end Verif
