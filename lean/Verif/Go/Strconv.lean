import Verif.Go.Float64
import Verif.Model.CSVWriting
import Verif.Model.Json

/-! `strconv.ParseFloat(s, 64)`, `strconv.FormatFloat(x, 'f', -1, 64)` and the floats of `encoding/json`, for `Float64`: what
dataframe/csv_parsing.go:110 and :124, dataframe/csv_writing.go:86 and the JSON of preprocessing/ and algorithms/ call. Like
`Go/Float64.lean` this models Go's library (strconv/atof.go, strconv/ftoa.go, encoding/json/encode.go), not a file of /repo. The rest of
the model takes these functions as parameters; here they are. -/

namespace Verif

/-! ### Reading -/

/-- `± m * 10 ^ e`, rounded. -/
def FP.ofDec (f : FFmt) (neg : Bool) (m : Nat) (e : Int) : FP f :=
  if 0 ≤ e then ofFrac f neg (m * 10 ^ e.toNat) 1 else ofFrac f neg m (10 ^ (-e).toNat)

/-- atoi.go `lower`. -/
def lowerByte (b : UInt8) : UInt8 := b ||| 32

/-- Ignoring the case of ASCII letters: atof.go `commonPrefixLenIgnoreCase`. -/
def lowerAZ (s : GoStr) : GoStr := s.map fun b => if between 65 90 b then b + 32 else b

/-- An optional sign: is it a minus, and what follows. -/
def readSign : GoStr → Bool × GoStr
  | 43 :: s => (false, s)
  | 45 :: s => (true, s)
  | s => (false, s)

/-- atof.go `special`. (It reads a prefix; `ParseFloat` wants all of the text.) -/
def specialFloat (f : FFmt) (s : GoStr) : Option (FP f) :=
  if lowerAZ s = b!"nan" then some .nan
  else if lowerAZ (readSign s).2 = b!"inf" ∨ lowerAZ (readSign s).2 = b!"infinity" then some (.inf (readSign s).1)
  else none

/-- The value of a digit. -/
def digitVal (hex : Bool) (b : UInt8) : Option Nat :=
  if isDigit b then some (b.toNat - 48)
  else if hex && between 97 102 (lowerByte b) then some ((lowerByte b).toNat - 87)
  else none

/-- What `readFloat` gathers of the digits. -/
structure Mant where
  /-- there is a point -/
  dot : Bool
  /-- there is a digit -/
  some : Bool
  /-- all digits, as a number -/
  m : Nat
  /-- the number of digits after the point -/
  frac : Nat

/-- atof.go `readFloat`: digits, with at most one point. Underscores are skipped. (Go keeps 19 digits, and reads the text again if there
are more; here all digits are kept.) -/
def scanMant (hex : Bool) : Mant → GoStr → Mant × GoStr
  | a, [] => (a, [])
  | a, b :: s =>
    if b = 95 then scanMant hex a s
    else if b = 46 then if a.dot then (a, b :: s) else scanMant hex { a with dot := true } s
    else
      match digitVal hex b with
      | none => (a, b :: s)
      | Option.some d => scanMant hex ⟨a.dot, true, (if hex then 16 else 10) * a.m + d, if a.dot then a.frac + 1 else a.frac⟩ s

/-- atof.go `readFloat`: the digits of the exponent. Beyond 10000 they are not counted. -/
def scanExp : Nat → GoStr → Nat × GoStr
  | n, [] => (n, [])
  | n, b :: s =>
    if b = 95 then scanExp n s
    else if isDigit b then scanExp (if n < 10000 then 10 * n + (b.toNat - 48) else n) s
    else (n, b :: s)

/-- atof.go `readFloat`: the exponent, and what follows; `none`: an error. -/
def readExp (hex : Bool) : GoStr → Option (Int × GoStr)
  | [] => if hex then none else some (0, [])
  | b :: s =>
    if lowerByte b = (if hex then 112 else 101) then
      match (readSign s).2 with
      | [] => none
      | c :: t =>
        if isDigit c then
          some (FP.signed (readSign s).1 (scanExp 0 (c :: t)).1, (scanExp 0 (c :: t)).2)
        else none
    else if hex then none
    else some (0, b :: s)

/-- atoi.go `underscoreOK`: each underscore is between two digits. `last` is the class of the last character. -/
def underscoreScan (hex : Bool) : UInt8 → GoStr → Bool
  | last, [] => last != 95
  | last, b :: s =>
    if isDigit b || (hex && between 97 102 (lowerByte b)) then underscoreScan hex 48 s
    else if b = 95 then last == 48 && underscoreScan hex 95 s
    else last != 95 && underscoreScan hex 33 s

/-- atoi.go `underscoreOK`. -/
def underscoreOK (s : GoStr) : Bool :=
  match (readSign s).2 with
  | 48 :: b :: t =>
    if lowerByte b = 98 ∨ lowerByte b = 111 ∨ lowerByte b = 120 then underscoreScan (lowerByte b == 120) 48 t
    else underscoreScan false 94 (48 :: b :: t)
  | t => underscoreScan false 94 t

/-- atof.go `readFloat`: is it hexadecimal, and the rest. -/
def readPrefix : GoStr → Bool × GoStr
  | 48 :: b :: c :: s => if lowerByte b = 120 then (true, c :: s) else (false, 48 :: b :: c :: s)
  | s => (false, s)

/-- `strconv.ParseFloat(s, 64)`; `none`: an error. A number that is too large is an error. -/
def parseFloat64 (s : GoStr) : Option Float64 :=
  match specialFloat binary64 s with
  | some x => some x
  | none =>
    let neg := (readSign s).1
    let p := readPrefix (readSign s).2
    let a := scanMant p.1 ⟨false, false, 0, 0⟩ p.2
    if a.1.some then
      match readExp p.1 a.2 with
      | some (e, []) =>
        if 95 ∈ s ∧ underscoreOK s = false then none
        else
          match (if p.1 then FP.ofScaled binary64 neg a.1.m 1 (e - 4 * a.1.frac) else FP.ofDec binary64 neg a.1.m (e - a.1.frac)) with
          | .inf _ => none
          | x => some x
      | _ => none
    else none

/-! ### Writing -/

/-- `n / d / 10 ^ k` as a fraction. -/
def decFrac (n d : Nat) (k : Int) : Nat × Nat := if 0 ≤ k then (n, d * 10 ^ k.toNat) else (n * 10 ^ (-k).toNat, d)

/-- The two multiples of `10 ^ k` around `n / d`, the nearest first. -/
def decNear (n d : Nat) (k : Int) : List Nat :=
  let (a, b) := decFrac n d k
  if FP.divEven a b = a / b then [a / b, a / b + 1] else [a / b + 1, a / b]

/-- The first of them that is read as `x`, with as few digits as possible: from `10 ^ k` down to `10 ^ (k - steps)`. -/
def decSearch {f : FFmt} (x : FP f) (n d : Nat) : Nat → Int → Option (Nat × Int)
  | 0, _ => none
  | steps + 1, k =>
    match (decNear n d k).find? fun c => FP.ofDec f false c k = x with
    | some c => some (c, k)
    | none => decSearch x n d steps (k - 1)

/-- A power of ten greater than `n / d`: the exponent. -/
def decTop (n d : Nat) : Int := (natDec n).length - (natDec d).length + 1

/-- ftoa.go, shortest digits: the digits and the exponent of a number that is read as `m * 2 ^ e` (not 0), with as few digits as possible.
(The search ends at the exact digits; Go knows that it ends after 17.) -/
def shortestDec {f : FFmt} (m : Nat) (e : Int) (h : f.Canon m e) : Nat × Int :=
  let q := FP.frac m 1 e
  match decSearch (FP.fin false m e h) q.1 q.2 (decTop q.1 q.2 - min 0 e + 1).toNat (decTop q.1 q.2) with
  | some r => r
  | none => if 0 ≤ e then (m * 2 ^ e.toNat, 0) else (m * 5 ^ (-e).toNat, e)

/-- ftoa.go `fmtF`: `c * 10 ^ k` without exponent. -/
def decFixed (c : Nat) (k : Int) : GoStr :=
  if 0 ≤ k then natDec (c * 10 ^ k.toNat)
  else natDec (c / 10 ^ (-k).toNat) ++ 46 :: padDec (-k).toNat (c % 10 ^ (-k).toNat)

/-- ftoa.go `fmtE`: `c * 10 ^ k` with exponent, as `encoding/json` leaves it (no zero before the exponent's only digit). -/
def decSci (c : Nat) (k : Int) : GoStr :=
  let e : Int := k + ((natDec c).length - 1 : Nat)
  (natDec c).take 1 ++ (if (natDec c).length = 1 then [] else 46 :: (natDec c).drop 1) ++
    101 :: (if e < 0 then 45 else 43) :: natDec e.natAbs

/-- The sign. -/
def fmtSign (neg : Bool) : GoStr := if neg then [45] else []

/-- `strconv.FormatFloat(x, 'f', -1, 64)`, csv_writing.go:86. -/
def fmtFloat64 : Float64 → GoStr
  | .nan => b!"NaN"
  | .inf s => if s then b!"-Inf" else b!"+Inf"
  | .fin s m e h => fmtSign s ++ if m = 0 then b!"0" else decFixed (shortestDec m e h).1 (shortestDec m e h).2

/-- encode.go `floatEncoder`: very small and very large numbers are written with an exponent. (NaN and infinities: an error, see
`JsonFloats.enc`.) -/
def fmtJson64 : Float64 → GoStr
  | .fin s m e h =>
    if m ≠ 0 ∧ (FP.lt (.fin false m e h) (FP.ofDec binary64 false 1 (-6)) ∨ ¬ FP.lt (.fin false m e h) (FP.ofDec binary64 false 1 21)) then
      fmtSign s ++ decSci (shortestDec m e h).1 (shortestDec m e h).2
    else fmtFloat64 (.fin s m e h)
  | x => fmtFloat64 x

end Verif
