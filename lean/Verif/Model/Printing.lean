import Verif.Model.Print
import Verif.Model.CSVWriting

/-! Model of the output of dataframe/print.go: `PrintHead`, `PrintRecords`, `PrintSummary`. The standard output is
the byte string that is returned. (When a function panics, what it has printed before is not modelled. The headers are
computed from the tables, without the memory they take.) -/

namespace Verif
variable {F : Type}

/-- Insert a string into a sorted list. -/
def insertStr (x : GoStr) : List GoStr → List GoStr
  | [] => [x]
  | y :: ys => if x ≤ y then x :: y :: ys else y :: insertStr x ys

/-- Go's `sort.Strings` (bytewise lexicographic order), print.go:19, 24, 29, 34, 39, 44, 79, 91, 103, 115, 144. -/
def sortStrs : List GoStr → List GoStr
  | [] => []
  | x :: xs => insertStr x (sortStrs xs)

/-- What the `fmt` package does: `float format x` is `fmt.Sprintf(format, x)` for a float; `plain s` is `fmt.Sprintf(s)`,
without arguments, where the contract is the package's: a text without `%` stands for itself, `%%` for `%`. `addr c i` is
what `%v` prints for the address of the `i`-th printed object of the column `c`. -/
structure Fmt (F : Type) where
  float : GoStr → F → GoStr
  plain : GoStr → GoStr
  addr : GoStr → Nat → GoStr
  plain_text : ∀ s, 37 ∉ s → plain s = s
  plain_percent : plain b!"%%" = b!"%"

/-- print.go:70-74, 134-138: the format of floats. -/
def floatFormat (f : GoStr) : GoStr := if f.length = 0 then b!" %.3f" else b!" " ++ f

/-- print.go:67-69, 131-133: the number of rows to print. -/
def printCount (n : Int) (rows : Nat) : Nat := if n < 0 ∨ (rows : Int) < n then rows else n.toNat

/-- print.go:201-213 `printObject`; the type assertion panics. -/
def printObject (fm : Fmt F) (enc : Option Nat) (isString : Bool) (c : GoStr) (i : Nat) (v : Val F) : Except Abort GoStr :=
  match v with
  | .nil => .ok b!" <missing>"
  | v =>
    if isString && enc.isNone then
      match v with
      | .str s => .ok (b!" '" ++ s ++ b!"'")
      | _ => .error .panic
    else if isString then .ok b!" <NOT-UTF8>"
    else .ok (b!" " ++ fm.addr c i)

/-- print.go:215-221 `printBool`. -/
def printBool (b : Bool) : GoStr := if b then b!" 1" else b!" 0"

/-- print.go:83, 95, 107, 120 and 154-164: one element. (A bool, int or float column has no element of another type; the
model then takes the zero value.) -/
def printCell [GoFloat F] (fm : Fmt F) (ff : GoStr) (enc : Option Nat) (isString : Bool) (c : GoStr) (i : Nat) :
    Kind → Val F → Except Abort GoStr
  | .float, .float x => .ok (fm.float ff x)
  | .float, _ => .ok (fm.float ff GoFloat.zero)
  | .int, .int n => .ok (b!" " ++ fmtInt n)
  | .int, _ => .ok b!" 0"
  | .bool, .bool b => .ok (printBool b)
  | .bool, _ => .ok (printBool false)
  | .obj, v => printObject fm enc isString c i v

/-- The loops `for _, j := range indices { fmt.Printf(...vals[j]) }` of `PrintHead`, from the `i`-th row on. -/
def printVals [GoFloat F] (fm : Fmt F) (ff : GoStr) (df : DF) (h : Heap F) (k : Kind) (c : GoStr) (s : Slice) :
    List Nat → Nat → Except Abort GoStr
  | [], _ => .ok []
  | j :: js, i =>
    match h.cell s j with
    | none => .error .panic
    | some v =>
      match printCell fm ff df.enc (hdrContains h df.strHdr c) c i k v with
      | .error e => .error e
      | .ok t =>
        match printVals fm ff df h k c s js (i + 1) with
        | .error e => .error e
        | .ok ts => .ok (t ++ ts)

/-- print.go:80-87 and the three loops like it: one line per column. -/
def printCols [GoFloat F] (fm : Fmt F) (ff : GoStr) (df : DF) (h : Heap F) (indices : List Nat) :
    List (Kind × GoStr) → Except Abort GoStr
  | [] => .ok []
  | (k, c) :: cs =>
    match printVals fm ff df h k c (tabCol (h.tab df.tab) (k, c)) indices 0 with
    | .error e => .error e
    | .ok t =>
      match printCols fm ff df h indices cs with
      | .error e => .error e
      | .ok ts => .ok (c ++ b!":" ++ t ++ b!"\n" ++ ts)

/-- print.go:66-126 `PrintHead`. `ord` gives the map iteration orders of the `NameList` calls. -/
def DF.printHead [GoFloat F] (df : DF) (fm : Fmt F) (ord : List GoStr → List GoStr) (n : Int) (format : GoStr) (h : Heap F) :
    Except Abort GoStr :=
  let names (k : Kind) := (sortStrs (ord (namesOf (h.tab df.tab) k))).map fun c => (k, c)
  printCols fm (floatFormat format) df h (df.rows.take (printCount n df.rows.length))
    (names .float ++ names .int ++ names .bool ++ names .obj)

/-- print.go:223-237 `intFormat`: the width it asks for. -/
def intWidth (maxInt : Int) : Nat :=
  if maxInt ≤ 9 then 0 else if maxInt ≤ 99 then 2 else if maxInt ≤ 999 then 3 else if maxInt ≤ 9999 then 4 else 0

/-- `fmt.Sprintf("%wd", n)`: padded with spaces. -/
def padInt (w n : Nat) : GoStr := List.replicate (w - (natDec n).length) 32 ++ natDec n

/-- print.go:153-165: the first kind in the order float, object, int, bool that has the column. -/
def recordKind (t : Table) (c : GoStr) : Option Kind :=
  if (AMap.get t (.float, c)).isSome then some .float
  else if (AMap.get t (.obj, c)).isSome then some .obj
  else if (AMap.get t (.int, c)).isSome then some .int
  else if (AMap.get t (.bool, c)).isSome then some .bool
  else none

/-- print.go:153-165: the value of column `c` in row `j`, the `i`-th that is printed. -/
def recordVal [GoFloat F] (fm : Fmt F) (ff : GoStr) (df : DF) (h : Heap F) (i j : Nat) (c : GoStr) : Except Abort GoStr :=
  match recordKind (h.tab df.tab) c with
  | none => .ok b!" @ERROR@"
  | some k =>
    match h.cell (tabCol (h.tab df.tab) (k, c)) j with
    | none => .error .panic
    | some v => printCell fm ff df.enc (hdrContains h df.strHdr c) c i k v

/-- print.go:145-166: the loop over the columns. The column name, or its shorthand, is used as a format string. -/
def recordCols [GoFloat F] (fm : Fmt F) (ff : GoStr) (short : AMap GoStr GoStr) (df : DF) (h : Heap F) (i j : Nat) :
    List GoStr → Except Abort GoStr
  | [] => .ok []
  | c :: cs =>
    match recordVal fm ff df h i j c with
    | .error e => .error e
    | .ok t =>
      match recordCols fm ff short df h i j cs with
      | .error e => .error e
      | .ok ts => .ok (b!" " ++ fm.plain (displayName short c) ++ b!":" ++ t ++ ts)

/-- print.go:140-168: the loop over the rows, from the `i`-th row on. -/
def recordRows [GoFloat F] (fm : Fmt F) (ff : GoStr) (short : AMap GoStr GoStr) (df : DF) (h : Heap F) (n : Nat)
    (order : List GoStr) : List Nat → Nat → Except Abort GoStr
  | [], _ => .ok []
  | j :: js, i =>
    if n ≤ i then .ok []
    else
      match recordCols fm ff short df h i j order with
      | .error e => .error e
      | .ok t =>
        match recordRows fm ff short df h n order js (i + 1) with
        | .error e => .error e
        | .ok ts => .ok (b!"[" ++ padInt (intWidth ((n : Int) - 1)) i ++ b!":" ++ natDec j ++ b!"]" ++ t ++ b!"\n" ++ ts)

/-- All the column names (column_header.go:169-171), each one once. -/
def allNames (t : Table) : List GoStr :=
  sinsertAll (sinsertAll (sinsertAll (sinsertAll [] (namesOf t .int)) (namesOf t .bool)) (namesOf t .obj)) (namesOf t .float)

/-- print.go:130-174 `PrintRecords`. -/
def DF.printRecords [GoFloat F] (df : DF) (fm : Fmt F) (ord : List GoStr → List GoStr) (n : Int) (format : GoStr)
    (short : AMap GoStr GoStr) (h : Heap F) : Except Abort GoStr :=
  recordRows fm (floatFormat format) short df h (printCount n df.rows.length) (sortStrs (ord (allNames (h.tab df.tab))))
    df.rows 0

/-- `%s` of a `[]string`. -/
def printList : List GoStr → GoStr
  | [] => b!"[]"
  | x :: xs => b!"[" ++ x ++ xs.flatMap (fun y => b!" " ++ y) ++ b!"]"

/-- print.go:16-56 `PrintSummary`. `uid` is the structure ID. -/
def DF.printSummary (df : DF) (ord : List GoStr → List GoStr) (uid : Nat) (h : Heap F) : GoStr :=
  let t := h.tab df.tab
  let line (label : GoStr) (cs : List GoStr) : GoStr := label ++ printList (sortStrs (ord cs)) ++ b!"\n"
  let strs := sinsertAll [] (hdrList h df.strHdr)
  let shared := sinsertAll [] (hdrList h df.shared)
  (if (namesOf t .float).length > 0 then line b!"float   " (namesOf t .float) else []) ++
  (if (namesOf t .int).length > 0 then line b!"int     " (namesOf t .int) else []) ++
  (if (namesOf t .bool).length > 0 then line b!"bool    " (namesOf t .bool) else []) ++
  (if (namesOf t .obj).length > 0 then line b!"object  " (sremove (namesOf t .obj) strs) else []) ++
  (if strs.length > 0 then line b!"string  " strs else []) ++
  (if shared.length > 0 then line b!"viewed  " shared else []) ++
  (if df.sharedMaps then b!"shared  YES (structure ID: " ++ natDec uid ++ b!")\n" else []) ++
  (b!"rows    " ++ natDec df.rows.length ++ b!"\n") ++
  (b!"max CPU " ++ fmtInt df.actualMaxCPU ++ b!"\n") ++
  (if df.indexViewed then b!"row-wise view: " ++ natDec df.rows.length ++ b!" / " ++ natDec df.mask.len ++ b!" rows\n" else [])

end Verif
