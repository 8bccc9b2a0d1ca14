import Verif.Spec.Batching
import Verif.Spec.History
import Verif.Model.Access

/-! Vocabulary of C80. -/

namespace Verif
variable {F : Type}

/-- The memory cell an accessor addresses at a row. -/
def Access.cellAt (a : Access) (i : Nat) : Option (Nat × Nat) :=
  (a.indices.rows[i]?).bind fun r => if r < a.raw.len then some (a.raw.arr, a.raw.off + r) else none

/-- The call writes no cell of an existing column: every function that returns a view or a copy (`HashStringsView` must leave
a column out, see C37), a new builder, writing into a mask, and the in-place operations that alter the structure only
(rename, drop, allocate, convert, unshare, settings). -/
def Call.ReadOnly (w : World F) : Call F → Prop
  | .build _ | .maskWrite _ _ _ => True
  | .edit _ e => e.structural = true
  | c => c.IsView w

/-- A history of legal calls that write no cell. -/
inductive ReadOnlyHist [GoFloat F] : World F → List (Call F) → World F → Prop
  | nil (w : World F) : ReadOnlyHist w [] w
  | cons {w w1 w2 : World F} {c : Call F} {cs : List (Call F)} :
      c.Legal w → c.ReadOnly w → c.run w = .ok w1 → ReadOnlyHist w1 cs w2 → ReadOnlyHist w (c :: cs) w2

end Verif
