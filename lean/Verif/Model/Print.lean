import Verif.Model.DataFrame

/-! Model of the part of dataframe/print.go that computes something: `GoodShortNames`. (What the `Print*`
functions write to the standard output is in Model/Printing.) -/

namespace Verif
variable {F : Type}

/-- print.go:178-184, the inner loop: the first prefix of `col` that is not taken, trying `n` lengths from
`len` on. -/
def firstFree (inv : AMap GoStr GoStr) (col : GoStr) : Nat → Nat → Option GoStr
  | _, 0 => none
  | len, n + 1 =>
    if (AMap.get inv (col.take len)).isNone then some (col.take len) else firstFree inv col (len + 1) n

/-- print.go:177-185, one iteration of the outer loop. -/
def shortStep (minLength : Nat) (inv : AMap GoStr GoStr) (col : GoStr) : AMap GoStr GoStr :=
  match firstFree inv col minLength (col.length + 1 - minLength) with
  | none => inv
  | some p => AMap.set inv p col

/-- print.go:176-199 `GoodShortNames`. `ord` is the iteration order over the set of column names; the second
loop (187-189) visits the entries of the inverse map in the order `ord2`. -/
def DF.goodShortNames (df : DF) (h : Heap F) (ord : List GoStr → List GoStr)
    (ord2 : AMap GoStr GoStr → AMap GoStr GoStr) (minLength : Int) : AMap GoStr GoStr :=
  let m := if minLength ≤ 0 then 3 else minLength
  let (hd, h) := header h df.tab
  let inv := (ord (hdrList h hd)).foldl (shortStep m.toNat) []
  (ord2 inv).foldl (fun r e => AMap.set r e.2 e.1) []

/-- print.go:145-149: what `PrintRecords` prints for a column name. -/
def displayName (short : AMap GoStr GoStr) (col : GoStr) : GoStr := (AMap.get short col).getD col

end Verif
