import Verif.Spec.CSVWriting
import Verif.Spec.Batching
import Verif.Model.Printing

/-! The vocabulary of C71–C73: what the printing functions should print for a dataframe seen from outside. -/

namespace Verif
variable {F : Type}

/-- `l` lists the names that satisfy `P`, each one once, in bytewise alphabetical order. -/
def IsListing (P : GoStr → Prop) (l : List GoStr) : Prop := l.Pairwise (· < ·) ∧ ∀ c, c ∈ l ↔ P c

/-- `Shown fm ff strs utf8 c i k v t`: the text `t` is how the value `v`, the `i`-th one of column `c` of kind `k`, is to be
printed with the float format `ff`; `strs` says whether the column is marked as strings, `utf8` whether the
dataframe's text is in UTF-8. -/
inductive Shown (fm : Fmt F) (ff : GoStr) (strs utf8 : Bool) (c : GoStr) (i : Nat) : Kind → Val F → GoStr → Prop where
  | float (x : F) : Shown fm ff strs utf8 c i .float (.float x) (fm.float ff x)
  | nat (n : Nat) : Shown fm ff strs utf8 c i .int (.int n) (32 :: natDec n)
  | neg (n : Nat) : Shown fm ff strs utf8 c i .int (.int (-(n + 1 : Nat))) (32 :: 45 :: natDec (n + 1))
  | one : Shown fm ff strs utf8 c i .bool (.bool true) b!" 1"
  | zero : Shown fm ff strs utf8 c i .bool (.bool false) b!" 0"
  | missing : Shown fm ff strs utf8 c i .obj .nil b!" <missing>"
  | text (s : GoStr) (h : strs = true) (hu : utf8 = true) : Shown fm ff strs utf8 c i .obj (.str s) (b!" '" ++ (s ++ b!"'"))
  | coded (v : Val F) (hv : v ≠ .nil) (h : strs = true) (hu : utf8 = false) : Shown fm ff strs utf8 c i .obj v b!" <NOT-UTF8>"
  | object (v : Val F) (hv : v ≠ .nil) (h : strs = false) : Shown fm ff strs utf8 c i .obj v (b!" " ++ fm.addr c i)

/-- `t` is the text of the element at row `i` of column `c` of kind `k`. -/
def ADF.Shows (a : ADF (Val F)) (fm : Fmt F) (ff : GoStr) (k : Kind) (c : GoStr) (i : Nat) (t : GoStr) : Prop :=
  ∃ v, a.cell k c i = some v ∧ Shown fm ff (a.isStr c) a.enc.isNone c i k v t

/-- The line of `PrintHead` for one column: its name, then its first `m` elements. -/
def ADF.HeadLine (a : ADF (Val F)) (fm : Fmt F) (ff : GoStr) (m : Nat) (k : Kind) (c : GoStr) (line : GoStr) : Prop :=
  ∃ ts : List GoStr, ts.length = m ∧ (∀ (i : Nat) t, ts[i]? = some t → a.Shows fm ff k c i t) ∧
    line = c ++ (b!":" ++ (ts.flatten ++ b!"\n"))

/-- What `PrintHead` should print: a line per column; the float columns in alphabetical order, then the ints, the bools,
the objects. -/
def ADF.HeadText (a : ADF (Val F)) (fm : Fmt F) (ff : GoStr) (m : Nat) (out : GoStr) : Prop :=
  ∃ (names : Kind → List GoStr) (lines : List GoStr), (∀ k, IsListing (fun c => (a.col k c).isSome) (names k)) ∧
    List.Forall₂ (fun (kc : Kind × GoStr) line => a.HeadLine fm ff m kc.1 kc.2 line)
      ([Kind.float, .int, .bool, .obj].flatMap fun k => (names k).map fun c => (k, c)) lines ∧
    out = lines.flatten

/-- The number of rows to print for the argument `n` (all of them when `n` is negative or too large). -/
def headCount (n : Int) (rows : Nat) : Nat := if 0 ≤ n ∧ n ≤ rows then n.toNat else rows

/-- The documented default of the float format. -/
def headFormat (f : GoStr) : GoStr := b!" " ++ (if f = [] then b!"%.3f" else f)

/-- There is an element among the first `m` rows that cannot be printed: something else than a string in a column marked
as strings, in UTF-8. -/
def ADF.Unprintable (a : ADF (Val F)) (m : Nat) : Prop :=
  ∃ c i v, i < m ∧ a.cell .obj c i = some v ∧ a.isStr c = true ∧ a.enc = none ∧ v ≠ .nil ∧ ∀ s, v ≠ .str s

/-- The kind under which `PrintRecords` should show a column: a name may stand for several typed columns, the order of
preference is float, object, int, bool. -/
def ADF.RecordKind (a : ADF (Val F)) (c : GoStr) (k : Kind) : Prop :=
  (a.col k c).isSome ∧ ∀ k', (a.col k' c).isSome →
    [Kind.float, .obj, .int, .bool].idxOf k ≤ [Kind.float, .obj, .int, .bool].idxOf k'

/-- The line of `PrintRecords` for row `i`: the position of the row, the position of its backing row `j`, and the columns
with the names that `name` gives them. -/
def ADF.RecordLine (a : ADF (Val F)) (fm : Fmt F) (ff : GoStr) (name : GoStr → GoStr) (cols : List GoStr) (w i j : Nat)
    (line : GoStr) : Prop :=
  ∃ ts : List GoStr, List.Forall₂ (fun c t => ∃ k, a.RecordKind c k ∧ a.Shows fm ff k c i t) cols ts ∧
    line = b!"[" ++ (List.replicate (w - (natDec i).length) 32 ++ (natDec i ++ (b!":" ++ (natDec j ++ (b!"]" ++
      ((List.zipWith (fun c t => b!" " ++ (name c ++ (b!":" ++ t))) cols ts).flatten ++ b!"\n"))))))

/-- The number of columns the row numbers are aligned on: the digits of the last one, up to four. -/
def recordWidth (m : Nat) : Nat := if m ≤ 10000 then (natDec (m - 1)).length else 0

/-- What `PrintRecords` should print: a line per row among the first `m`, with the columns in alphabetical order, each
under the name that `name` gives it. `rows` are the positions of the backing rows. -/
def ADF.RecordText (a : ADF (Val F)) (fm : Fmt F) (ff : GoStr) (name : GoStr → GoStr) (rows : List Nat) (m : Nat)
    (out : GoStr) : Prop :=
  ∃ (cols lines : List GoStr), IsListing (fun c => ∃ k, (a.col k c).isSome) cols ∧ lines.length = m ∧
    (∀ (i j : Nat) line, rows[i]? = some j → lines[i]? = some line → a.RecordLine fm ff name cols (recordWidth m) i j line) ∧
    out = lines.flatten

/-- An element that `PrintRecords` cannot print is among the first `m` rows. -/
def ADF.UnprintableRecord (a : ADF (Val F)) (m : Nat) : Prop :=
  ∃ c i v, i < m ∧ a.RecordKind c .obj ∧ a.cell .obj c i = some v ∧ a.isStr c = true ∧ a.enc = none ∧ v ≠ .nil ∧ ∀ s, v ≠ .str s

/-- A list of names in brackets. -/
def nameList (l : List GoStr) : GoStr := b!"[" ++ ((l.intersperse b!" ").flatten ++ b!"]")

/-- A line with a label and names; nothing when there is no name. -/
def summaryLine (label : GoStr) (l : List GoStr) : GoStr := if l = [] then [] else label ++ (nameList l ++ b!"\n")

end Verif
