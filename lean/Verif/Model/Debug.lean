import Verif.Model.DataFrame
import Verif.Model.CSVWriting

/-! Model of the identifiers that /repo keeps for debugging: raw_data.go:33-35 (`structureUID`, `dataUID`), dataframe.go:17
(`debug`), what the library functions do to them, and the texts in which they are shown. The identifiers are kept beside the
dataframe (`Tags`), since nothing else depends on them. The numbers drawn by `rand.Uint32` are arguments. -/

namespace Verif
variable {F : Type}

/-- raw_data.go:34-35 `structureUID`, `dataUID`; dataframe.go:10-18 `debug`. -/
structure Tags where
  structureUID : Nat
  dataUID : Nat
  debug : Bool
  deriving DecidableEq, Repr

/-- A byte of strconv's `digits` "0123456789abcdefghijklmnopqrstuvwxyz". -/
def digit36 (d : Nat) : UInt8 := if d < 10 then UInt8.ofNat (48 + d) else UInt8.ofNat (87 + d)

/-- `strconv.FormatInt(i, 36)` for `i ≥ 0`: the digits are produced from the last to the first, in at most `fuel` rounds. -/
def format36 : Nat → Nat → GoStr → GoStr
  | 0, _, out => out
  | fuel + 1, n, out => if n < 36 then digit36 n :: out else format36 fuel (n / 36) (digit36 (n % 36) :: out)

/-- raw_data.go:63-69: the loop, from bit `i` on. A `uint64` is 0 after 64 rounds. -/
def uidLoop : Nat → Nat → Nat → GoStr
  | 0, _, _ => []
  | fuel + 1, i, v =>
    if v > 0 then (if v % 2 = 1 then b!"|" ++ format36 13 i [] else []) ++ uidLoop fuel (i + 1) (v / 2) else []

/-- raw_data.go:60-72 `printableDataUID`. -/
def printableDataUID (v : Nat) : GoStr := uidLoop 64 0 v ++ b!"|"

/-- raw_data.go:74-76 `resetStructureUID`: the value stored. -/
def newStructureUID (rand : Nat) : Nat := rand % 65536

/-- raw_data.go:78-81 `generateDataUID`. -/
def generateDataUID (rand : Nat) : Nat := 1 <<< (rand % 64)

/-- raw_data.go:499-502 `PrintUIDs`: the text printed. -/
def Tags.printUIDs (t : Tags) : GoStr :=
  b!"structure UID: " ++ fmtInt t.structureUID ++ b!"; data UID: " ++ printableDataUID t.dataUID ++ b!"\n"

/-- dataframe.go:99-102 `Debug`. -/
def Tags.setDebug (t : Tags) (enable : Bool) : Tags := { t with debug := enable }

/-- print.go:239-245 `debugPrint`: the message handed to the logger, if any. -/
def DF.debugPrint (df : DF) (t : Tags) (context : GoStr) (h : Heap F) : Option GoStr :=
  if t.debug then
    some (context ++ b!" [structure: " ++ fmtInt t.structureUID ++ b!" data: " ++ printableDataUID t.dataUID ++ b!" dim: " ++
      fmtInt df.numRows ++ b!"x" ++ fmtInt (numColumns (h.tab df.tab)) ++ b!" allocated: " ++
      fmtInt (numAllocatedRows (h.tab df.tab)) ++ b!"]")
  else none

/-- raw_data.go:488-497 `allocateEmptyMaps`, dataframe.go:30-31 `EmptyDataFrame`, csv_parsing.go:233-234 `FromCSV`: both
identifiers are drawn. -/
def newTags (r s : Nat) : Tags := ⟨newStructureUID s, generateDataUID r, false⟩

/-- raw_data.go:133-146 `ToDataFrame`. -/
def Tags.toDataFrame (t : Tags) (s : Nat) : Tags := ⟨newStructureUID s, t.dataUID, false⟩

/-- view.go:409-414 `View`, and the functions that go through it (`IndexView`, `MaskView`, `ReverseView`, ...): the structure is
copied with its identifiers. -/
def Tags.view (t : Tags) : Tags := t

/-- view.go:90-96 `ColumnView`: `allocateEmptyMaps` draws both, then the data identifier is the parent's. -/
def Tags.columnView (t : Tags) (cols : List GoStr) (r s : Nat) : Tags :=
  if cols = [] then t.view
  else { t.view with structureUID := (newTags r s).structureUID, dataUID := t.dataUID }

/-- raw_data.go:340-344 `TransferRawDataFrom` into a structure with `n` columns. -/
def Tags.transfer (t src : Tags) (n : Nat) : Tags :=
  if n = 0 then { t with dataUID := src.dataUID } else { t with dataUID := t.dataUID ||| src.dataUID }

/-- raw_data.go:180-193 `Unshare`. (`reallocateMaps`, 477-486, does not change the identifiers or the number of columns.) -/
def Tags.unshare (t : Tags) (data : Raw) (cols : List GoStr) (h : Heap F) (r : Nat) : Tags :=
  if data.sharedMaps = false ∧ hdrNum h data.shared = 0 then t
  else if cols.length = 0 ∨ cols.length = numColumns (h.tab data.tab) then { t with dataUID := generateDataUID r }
  else { t with dataUID := t.dataUID ||| generateDataUID r }

/-- dataframe.go:108-120 `ShallowCopy`. -/
def Tags.shallowCopy (t : Tags) (r s : Nat) : Tags := ({ newTags r s with debug := t.debug } : Tags).transfer t 0

/-- dataframe.go:126-187 `Copy`. -/
def Tags.copy (t : Tags) (r s : Nat) : Tags := { newTags r s with debug := t.debug }

/-- view.go:394-400 `DetachedView`. -/
def Tags.detachedView (t : Tags) (df : DF) (cols : List GoStr) (h : Heap F) (r : Nat) : Tags :=
  t.view.unshare df.view.toRaw cols h r

/-- view.go:359-377 `HashStringsView`. -/
def Tags.hashStringsView (t : Tags) (df : DF) (cols : List GoStr) (h : Heap F) (r r' s : Nat) : Tags :=
  if cols = [] then t.view
  else
    let t := t.columnView ((tabNames (h.tab df.tab)).filter fun c => decide (c ∉ cols)) r' s
    if cols.length = numColumns (h.tab df.tab) then { t with dataUID := generateDataUID r }
    else { t with dataUID := t.dataUID ||| generateDataUID r }

/-- concat.go:26-75 `RowConcat`: the result comes from `EmptyDataFrame`. -/
def Tags.rowConcat (r s : Nat) : Tags := newTags r s

/-- concat.go:109-152 `ColumnConcatView`: a shallow copy of the first dataframe `t`, into which the other ones are merged without
looking at their identifiers. -/
def Tags.columnConcatView (t : Tags) (r s : Nat) : Tags := t.shallowCopy r s

/-- concat.go:160-183 `ColumnCopyConcat`: `ColumnConcatView` of copies. -/
def Tags.columnCopyConcat (t : Tags) (r s r' s' : Nat) : Tags := (t.copy r s).columnConcatView r' s'

end Verif
