import Verif.Model.CSVText

/-! What a CSV text written by the library holds when it is read again (C33, C74). -/

namespace Verif

/-- Every carriage return that comes before a line feed is dropped. -/
def dropCRLF : GoStr → GoStr
  | [] => []
  | b :: s => if b = 13 ∧ s.head? = some 10 then dropCRLF s else b :: dropCRLF s

/-- What is left of a field: without `UseCRLF` the pair `\r\n` is read as `\n`, with it every `\r` is lost. -/
def survives (crlf : Bool) (f : GoStr) : GoStr := if crlf then f.filter (· ≠ 13) else dropCRLF f

/-- A record that is written as an empty line. -/
def blank (r : List GoStr) : Bool := r = [] ∨ r = [[]]

/-- A field that survives. -/
def TextSafe (crlf : Bool) (f : GoStr) : Prop := if crlf then 13 ∉ f else ¬ [13, 10] <:+: f

end Verif
