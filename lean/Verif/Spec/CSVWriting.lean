import Verif.Model.CSVWriting
import Verif.Spec.Batching

/-! What the CSV writing functions are documented to write (C32, C33, C55, C64). -/

namespace Verif
variable {F : Type}

/-- The text of an element of a column of kind `k`: bools and ints as Go prints them, floats by the given
conversion, strings as they are, nil as the missing marker. -/
inductive TextOf (ff : F → GoStr) (marker : GoStr) : Kind → Val F → GoStr → Prop where
  | tt : TextOf ff marker .bool (.bool true) b!"true"
  | ff : TextOf ff marker .bool (.bool false) b!"false"
  | nat (n : Nat) : TextOf ff marker .int (.int n) (natDec n)
  | neg (n : Nat) : TextOf ff marker .int (.int (-(n + 1 : Nat))) (b!"-" ++ natDec (n + 1))
  | float (x : F) : TextOf ff marker .float (.float x) (ff x)
  | str (s : GoStr) : TextOf ff marker .obj (.str s) s
  | nil : TextOf ff marker .obj .nil marker

/-- The columns that are written: the bool, int and float columns and those marked as strings. -/
def ADF.Written (a : ADF (Val F)) (k : Kind) (c : GoStr) : Prop :=
  if k = .obj then a.isStr c = true else (a.col k c).isSome

/-- Bools first, then ints, floats, strings. -/
def csvRank : Kind → Nat
  | .bool => 0
  | .int => 1
  | .float => 2
  | .obj => 3

/-- `out` is the CSV of the dataframe `a` with this header: a record with the names of the written columns,
then a record per row, in row order, with the text of the row's elements. -/
structure CsvOf (ff : F → GoStr) (marker : GoStr) (a : ADF (Val F)) (header : List (Kind × GoStr))
    (out : List (List GoStr)) : Prop where
  cols : ∀ k c, (k, c) ∈ header ↔ a.Written k c
  once : header.Nodup
  order : header.Pairwise fun x y => csvRank x.1 ≤ csvRank y.1
  records : ∃ recs, out = header.map (·.2) :: recs ∧ recs.length = a.nRows ∧
    ∀ r rec, recs[r]? = some rec →
      List.Forall₂ (fun (kc : Kind × GoStr) t => ∃ v, a.cell kc.1 kc.2 r = some v ∧ TextOf ff marker kc.1 v t) header rec

/-- Every element to write has a text. For bool, int and float columns that is their type; an object column
marked as string must exist and hold strings and nils (if there are rows at all). -/
def ADF.HasTexts (a : ADF (Val F)) (ff : F → GoStr) (marker : GoStr) : Prop :=
  ∀ k c, a.Written k c → ∀ r, r < a.nRows → ∃ v t, a.cell k c r = some v ∧ TextOf ff marker k v t

/-- The documented use of the options: a delimiter that `encoding/csv` accepts. -/
def CSVWritingSpec.DelimOk (opt : CSVWritingSpec) : Prop := opt.comma = 0 ∨ validDelim opt.comma = true

/-- Column types: a bool, int or float column holds elements of that type. -/
def ADF.TypeOk (a : ADF (Val F)) : Prop :=
  (∀ c r v, a.cell .bool c r = some v → ∃ b, v = .bool b) ∧ (∀ c r v, a.cell .int c r = some v → ∃ n, v = .int n) ∧
  (∀ c r v, a.cell .float c r = some v → ∃ x, v = .float x)

end Verif
