import Verif.Model.CSVText
import Verif.Model.Auto
import Verif.Model.LinReg

/-! Saving and restoring trained objects with `encoding/json`, as preprocessing/README.md:47-55 and examples/linreg.go:88-101
tell users to. /repo has no JSON code of its own: what is kept is what the structures export. The first part transcribes
the parts of Go 1.15's `encoding/json` (encode.go, decode.go, scanner.go) that are used; the reader is a recursive descent
instead of a state machine. The second part is what the library does with the structures of /repo. -/

namespace Verif
variable {F : Type}

/-! ### UTF-8 -/

/-- A continuation byte between `lo` and `hi`. -/
def between (lo hi b : UInt8) : Bool := decide (lo ≤ b) && decide (b ≤ hi)

/-- The length of the valid UTF-8 sequence a text starts with, 0 if there is none (`utf8.DecodeRune`). -/
def runeLen : GoStr → Nat
  | [] => 0
  | a :: s =>
    if a < 0x80 then 1
    else if between 0xC2 0xDF a then
      match s with
      | b :: _ => if between 0x80 0xBF b then 2 else 0
      | _ => 0
    else if between 0xE0 0xEF a then
      match s with
      | b :: c :: _ =>
        if between (if a = 0xE0 then 0xA0 else 0x80) (if a = 0xED then 0x9F else 0xBF) b && between 0x80 0xBF c then 3 else 0
      | _ => 0
    else if between 0xF0 0xF4 a then
      match s with
      | b :: c :: d :: _ =>
        if between (if a = 0xF0 then 0x90 else 0x80) (if a = 0xF4 then 0x8F else 0xBF) b && between 0x80 0xBF c &&
          between 0x80 0xBF d then 4 else 0
      | _ => 0
    else 0

/-- The UTF-8 text of `utf8.RuneError`, U+FFFD. -/
def runeError : GoStr := [0xEF, 0xBF, 0xBD]

/-! ### Writing -/

/-- A JSON value. A number is its text, a string is its content. -/
inductive Json where
  | null
  | bool (b : Bool)
  | num (text : GoStr)
  | str (s : GoStr)
  | arr (l : List Json)
  | obj (l : List (GoStr × Json))

/-- A hexadecimal digit, encode.go `hex`. -/
def hexDigit (n : Nat) : UInt8 := if n < 10 then UInt8.ofNat (48 + n) else UInt8.ofNat (87 + n)

/-- tables.go `htmlSafeSet`: the ASCII characters that are written as they are. -/
def htmlSafe (b : UInt8) : Bool :=
  decide (32 ≤ b ∧ b < 128 ∧ b ≠ 34 ∧ b ≠ 92 ∧ b ≠ 60 ∧ b ≠ 62 ∧ b ≠ 38)

/-- encode.go `encodeState.string`: an ASCII character. -/
def jsonByte (b : UInt8) : GoStr :=
  if htmlSafe b then [b]
  else if b = 92 ∨ b = 34 then [92, b]
  else if b = 10 then b!"\\n"
  else if b = 13 then b!"\\r"
  else if b = 9 then b!"\\t"
  else b!"\\u00" ++ [hexDigit (b.toNat / 16), hexDigit (b.toNat % 16)]

/-- encode.go `encodeState.string`: the characters of a text, at most `n`. U+2028 and U+2029 are escaped, bytes that are not
UTF-8 become U+FFFD. -/
def jsonChars : Nat → GoStr → GoStr
  | _, [] => []
  | 0, _ => []
  | n + 1, b :: s =>
    if b < 0x80 then jsonByte b ++ jsonChars n s
    else if runeLen (b :: s) = 0 then b!"\\ufffd" ++ jsonChars n s
    else if (b :: s).take 3 = [0xE2, 0x80, 0xA8] then b!"\\u2028" ++ jsonChars n (s.drop 2)
    else if (b :: s).take 3 = [0xE2, 0x80, 0xA9] then b!"\\u2029" ++ jsonChars n (s.drop 2)
    else (b :: s).take (runeLen (b :: s)) ++ jsonChars n ((b :: s).drop (runeLen (b :: s)))

/-- encode.go `encodeState.string`. -/
def jsonString (s : GoStr) : GoStr := 34 :: (jsonChars s.length s ++ [34])

mutual
/-- The text of a value, encode.go. -/
def Json.text : Json → GoStr
  | .null => b!"null"
  | .bool true => b!"true"
  | .bool false => b!"false"
  | .num t => t
  | .str s => jsonString s
  | .arr l => 91 :: (textElems l ++ [93])
  | .obj l => 123 :: (textFields l ++ [125])

/-- The elements of an array, separated by commas. -/
def textElems : List Json → GoStr
  | [] => []
  | [v] => v.text
  | v :: w :: l => v.text ++ (44 :: textElems (w :: l))

/-- The members of an object, separated by commas. -/
def textFields : List (GoStr × Json) → GoStr
  | [] => []
  | [(k, v)] => jsonString k ++ (58 :: v.text)
  | (k, v) :: e :: l => jsonString k ++ (58 :: (v.text ++ (44 :: textFields (e :: l))))
end

/-! ### Reading -/

/-- scanner.go `isSpace`. -/
def jsonSpace (b : UInt8) : Bool := b == 32 || b == 9 || b == 13 || b == 10

/-- Skip the spaces. -/
def skipSpaces (s : GoStr) : GoStr := s.dropWhile jsonSpace

/-- The value of a hexadecimal digit. -/
def hexVal (b : UInt8) : Option Nat :=
  if between 48 57 b then some (b.toNat - 48)
  else if between 97 102 b then some (b.toNat - 87)
  else if between 65 70 b then some (b.toNat - 55)
  else none

/-- decode.go `getu4`, after `\u`. -/
def hex4 : GoStr → Option (Nat × GoStr)
  | a :: b :: c :: d :: s =>
    match hexVal a, hexVal b, hexVal c, hexVal d with
    | some a, some b, some c, some d => some (((a * 16 + b) * 16 + c) * 16 + d, s)
    | _, _, _, _ => none
  | _ => none

/-- decode.go `unquoteBytes`: the rune of an escape `\uXXXX`, and what follows. A high surrogate followed by `\u` and a low
one are one rune; a lone surrogate becomes U+FFFD. -/
def jsonEscape (r : Nat) (s : GoStr) : GoStr × GoStr :=
  if 0xD800 ≤ r ∧ r < 0xE000 then
    match s with
    | 92 :: 117 :: s' =>
      match hex4 s' with
      | some (q, rest) =>
        if r < 0xDC00 ∧ 0xDC00 ≤ q ∧ q < 0xE000 then (utf8 (0x10000 + (r - 0xD800) * 1024 + (q - 0xDC00)), rest)
        else (runeError, s)
      | none => (runeError, s)
    | _ => (runeError, s)
  else (utf8 r, s)

/-- A one-letter escape. -/
def shortEscape (b : UInt8) : Option UInt8 :=
  if b = 34 ∨ b = 92 ∨ b = 47 then some b
  else if b = 98 then some 8
  else if b = 102 then some 12
  else if b = 110 then some 10
  else if b = 114 then some 13
  else if b = 116 then some 9
  else none

/-- The rest of a string, after the opening quote: its content, and what follows the closing quote. At most `n` steps. -/
def readString : Nat → GoStr → Option (GoStr × GoStr)
  | 0, _ => none
  | _, [] => none
  | n + 1, b :: s =>
    if b = 34 then some ([], s)
    else if b = 92 then
      match s with
      | [] => none
      | 117 :: s =>
        match hex4 s with
        | none => none
        | some (r, s) => (readString n (jsonEscape r s).2).map fun p => ((jsonEscape r s).1 ++ p.1, p.2)
      | e :: s =>
        match shortEscape e with
        | none => none
        | some c => (readString n s).map fun p => (c :: p.1, p.2)
    else if b < 32 then none
    else if b < 0x80 then (readString n s).map fun p => (b :: p.1, p.2)
    else if runeLen (b :: s) = 0 then (readString n s).map fun p => (runeError ++ p.1, p.2)
    else (readString n ((b :: s).drop (runeLen (b :: s)))).map fun p => ((b :: s).take (runeLen (b :: s)) ++ p.1, p.2)

/-- A decimal digit. -/
def isDigit (b : UInt8) : Bool := between 48 57 b

/-- The characters of numbers. -/
def numChar (b : UInt8) : Bool := isDigit b || b == 43 || b == 45 || b == 46 || b == 69 || b == 101

/-- Some digits, and nothing else. -/
def allDigits (s : GoStr) : Bool := !s.isEmpty && s.all isDigit

/-- decode.go `isValidNumber`: the exponent. -/
def validExp : GoStr → Bool
  | [] => true
  | e :: s =>
    (e == 69 || e == 101) &&
      match s with
      | [] => false
      | c :: s' => if c = 43 ∨ c = 45 then allDigits s' else allDigits (c :: s')

/-- decode.go `isValidNumber`: the fraction and the exponent. -/
def validFrac : GoStr → Bool
  | 46 :: s => !(s.takeWhile isDigit).isEmpty && validExp (s.dropWhile isDigit)
  | s => validExp s

/-- decode.go `isValidNumber`: without a sign. -/
def validUnsigned : GoStr → Bool
  | [] => false
  | 48 :: s => validFrac s
  | b :: s => between 49 57 b && validFrac (s.dropWhile isDigit)

/-- decode.go `isValidNumber`. -/
def validNumber : GoStr → Bool
  | 45 :: s => validUnsigned s
  | s => validUnsigned s

mutual
/-- A value, and what follows it. At most `n` nested steps. -/
def readValue : Nat → GoStr → Option (Json × GoStr)
  | 0, _ => none
  | n + 1, s =>
    match skipSpaces s with
    | 91 :: s =>
      match skipSpaces s with
      | 93 :: s => some (.arr [], s)
      | s => (readElems n s).map fun p => (.arr p.1, p.2)
    | 123 :: s =>
      match skipSpaces s with
      | 125 :: s => some (.obj [], s)
      | s => (readFields n s).map fun p => (.obj p.1, p.2)
    | 34 :: s => (readString (s.length + 1) s).map fun p => (.str p.1, p.2)
    | 110 :: 117 :: 108 :: 108 :: s => some (.null, s)
    | 116 :: 114 :: 117 :: 101 :: s => some (.bool true, s)
    | 102 :: 97 :: 108 :: 115 :: 101 :: s => some (.bool false, s)
    | s => if validNumber (s.takeWhile numChar) then some (.num (s.takeWhile numChar), s.dropWhile numChar) else none

/-- The elements of an array, up to the closing bracket. -/
def readElems : Nat → GoStr → Option (List Json × GoStr)
  | 0, _ => none
  | n + 1, s =>
    match readValue n s with
    | none => none
    | some (v, s) =>
      match skipSpaces s with
      | 44 :: s => (readElems n s).map fun p => (v :: p.1, p.2)
      | 93 :: s => some ([v], s)
      | _ => none

/-- The members of an object, up to the closing brace. -/
def readFields : Nat → GoStr → Option (List (GoStr × Json) × GoStr)
  | 0, _ => none
  | n + 1, s =>
    match skipSpaces s with
    | 34 :: s =>
      match readString (s.length + 1) s with
      | none => none
      | some (k, s) =>
        match skipSpaces s with
        | 58 :: s =>
          match readValue n s with
          | none => none
          | some (v, s) =>
            match skipSpaces s with
            | 44 :: s => (readFields n s).map fun p => ((k, v) :: p.1, p.2)
            | 125 :: s => some ([(k, v)], s)
            | _ => none
        | _ => none
    | _ => none
end

/-- The value a text is; `none`: a syntax error. -/
def Json.parse (s : GoStr) : Option Json :=
  match readValue (s.length + 1) s with
  | none => none
  | some (v, rest) => if skipSpaces rest = [] then some v else none

/-! ### Go values -/

/-- `!math.IsInf(x, 0) && !math.IsNaN(x)`. -/
def finite [GoFloat F] (x : F) : Bool := !(GoFloat.isNaN x || GoFloat.eq x GoFloat.posInf || GoFloat.eq x GoFloat.negInf)

/-- The `float64` part of `encoding/json` and `strconv`: `fmt` is encode.go `floatEncoder`, `parse` is `strconv.ParseFloat`.
The contract is the library's: the text of a finite number is a JSON number, and is read as the same number. -/
structure JsonFloats (F : Type) [GoFloat F] where
  fmt : F → GoStr
  parse : GoStr → Option F
  valid : ∀ x, finite x = true → validNumber (fmt x) = true
  back : ∀ x, finite x = true → parse (fmt x) = some x

section
variable [GoFloat F]

/-- encode.go `floatEncoder`: NaN and infinities are an error. -/
def JsonFloats.enc (j : JsonFloats F) (x : F) : Option Json := if finite x then some (.num (j.fmt x)) else none

/-- decode.go `literalStore`, into a float. -/
def JsonFloats.dec (j : JsonFloats F) : Json → Option F
  | .num t => j.parse t
  | .null => some GoFloat.zero
  | _ => none

end

/-- Insert an entry into a list of entries sorted by key. -/
def insertEntry {α : Type} (e : GoStr × α) : List (GoStr × α) → List (GoStr × α)
  | [] => [e]
  | f :: l => if e.1 ≤ f.1 then e :: f :: l else f :: insertEntry e l

/-- encode.go `mapEncoder`: the entries are sorted by key. -/
def sortEntries {α : Type} : List (GoStr × α) → List (GoStr × α)
  | [] => []
  | e :: l => insertEntry e (sortEntries l)

/-- The values of some entries, when they can all be written. -/
def encEntries {α : Type} (f : α → Option Json) : List (GoStr × α) → Option (List (GoStr × Json))
  | [] => some []
  | (k, v) :: l =>
    match f v, encEntries f l with
    | some v, some l => some ((k, v) :: l)
    | _, _ => none

/-- encode.go `mapEncoder`, with string keys. (A nil map is written `null`; the model does not tell it from an empty one.) -/
def encMap {α : Type} (f : α → Option Json) (m : AMap GoStr α) : Option Json := (encEntries f (sortEntries m)).map .obj

/-- encode.go `mapEncoder`, with int keys: the keys are the decimal texts. -/
def encIntMap {α : Type} (f : α → Option Json) (m : AMap Int α) : Option Json := encMap f (m.map fun e => (fmtInt e.1, e.2))

/-- decode.go `object`, into a map with string keys. -/
def decEntries {α : Type} (f : Json → Option α) : List (GoStr × Json) → AMap GoStr α → Option (AMap GoStr α)
  | [], m => some m
  | (k, v) :: l, m =>
    match f v with
    | none => none
    | some v => decEntries f l (AMap.set m k v)

/-- decode.go, into a map with string keys that was nil. -/
def decMap {α : Type} (f : Json → Option α) : Json → Option (AMap GoStr α)
  | .obj l => decEntries f l []
  | .null => some []
  | _ => none

/-- decode.go `object`, the int keys. -/
def intKeys {α : Type} : AMap GoStr α → AMap Int α → Option (AMap Int α)
  | [], m => some m
  | (k, v) :: l, m =>
    match parseInt k with
    | none => none
    | some k => intKeys l (AMap.set m k v)

/-- decode.go, into a map with int keys that was nil. -/
def decIntMap {α : Type} (f : Json → Option α) (v : Json) : Option (AMap Int α) :=
  match decMap f v with
  | none => none
  | some m => intKeys m []

/-- decode.go, into a string. -/
def decStr : Json → Option GoStr
  | .str s => some s
  | .null => some []
  | _ => none

/-- decode.go, into a bool. -/
def decBool : Json → Option Bool
  | .bool b => some b
  | .null => some false
  | _ => none

/-- decode.go, into an int. -/
def decInt : Json → Option Int
  | .num t => parseInt t
  | .null => some 0
  | _ => none

/-- decode.go, into a slice. -/
def decSlice {α : Type} (f : Json → Option α) : Json → Option (List α)
  | .arr l => l.mapM f
  | .null => some []
  | _ => none

/-- decode.go, into a pointer that was nil. -/
def decPtr {α : Type} (f : Json → Option α) : Json → Option (Option α)
  | .null => some none
  | v => (f v).map some

/-- The member of an object for a field of a structure; `null`, which changes nothing, if there is none. (The names the
library has written match exactly.) -/
def Json.field (name : GoStr) : Json → Json
  | .obj l => (AMap.get l name).getD .null
  | _ => .null

/-- A pointer: nil is `null`. -/
def encPtr {α : Type} (f : α → Option Json) : Option α → Option Json
  | none => some .null
  | some a => f a

/-! ### The structures of /repo -/

/-- scaler.go:21-25: `Shift` and `Scale` are exported, `options` is not. -/
def Scaler.enc [GoFloat F] (j : JsonFloats F) (sc : Scaler F) : Option Json :=
  match encMap j.enc sc.shift, encMap j.enc sc.scale with
  | some a, some b => some (.obj [(b!"Shift", a), (b!"Scale", b)])
  | _, _ => none

/-- scaler.go:21-25, into a new `Scaler`. -/
def Scaler.dec [GoFloat F] (j : JsonFloats F) (v : Json) : Option (Scaler F) :=
  match decMap j.dec (v.field b!"Shift"), decMap j.dec (v.field b!"Scale") with
  | some a, some b => some ⟨a, b, ⟨false, false, false⟩⟩
  | _, _ => none

/-- float_imputer.go:22-25: `Fallback` is exported, `options` is not. -/
def FloatImputer.enc [GoFloat F] (j : JsonFloats F) (im : FloatImputer F) : Option Json :=
  (encMap j.enc im.fallback).map fun a => .obj [(b!"Fallback", a)]

/-- float_imputer.go:22-25, into a new `FloatImputer`. The zero policy is `Mean`. -/
def FloatImputer.dec [GoFloat F] (j : JsonFloats F) (v : Json) : Option (FloatImputer F) :=
  (decMap j.dec (v.field b!"Fallback")).map fun a => ⟨a, .mean⟩

/-- hash_encoder.go:19-21. -/
def HashEncoder.enc (e : HashEncoder) : Json := .obj [(b!"CategoricalColumns", .arr (e.categoricalColumns.map .str))]

/-- hash_encoder.go:19-21. -/
def HashEncoder.dec (v : Json) : Option HashEncoder :=
  (decSlice decStr (v.field b!"CategoricalColumns")).map fun l => ⟨l⟩

/-- one_hot.go:28-44: the numbers of the policies. -/
def CategoryPolicy.code : CategoryPolicy → Int
  | .separateIfSeen => 0
  | .sharedSeparate => 1
  | .separate => 2
  | .imputeMostFrequent => 3
  | .returnError => 4

/-- one_hot.go:28-44. (A policy with another number, which the type allows, is left out of the model.) -/
def CategoryPolicy.ofCode (n : Int) : Option CategoryPolicy :=
  if n = 0 then some .separateIfSeen
  else if n = 1 then some .sharedSeparate
  else if n = 2 then some .separate
  else if n = 3 then some .imputeMostFrequent
  else if n = 4 then some .returnError
  else none

/-- one_hot.go:9-13. -/
def OneHotOptions.enc (o : OneHotOptions) : Json :=
  .obj [(b!"MissingPolicy", .num (fmtInt o.missing.code)), (b!"UnknownPolicy", .num (fmtInt o.unknown.code)),
    (b!"KeepUsedColumns", .bool o.keep)]

/-- one_hot.go:9-13. -/
def OneHotOptions.dec (v : Json) : Option OneHotOptions :=
  match (decInt (v.field b!"MissingPolicy")).bind CategoryPolicy.ofCode,
      (decInt (v.field b!"UnknownPolicy")).bind CategoryPolicy.ofCode, decBool (v.field b!"KeepUsedColumns") with
  | some a, some b, some c => some ⟨a, b, c⟩
  | _, _, _ => none

/-- The `[]string` of the two fallbacks, one_hot.go:22. -/
def decPair (v : Json) : Option (GoStr × GoStr) :=
  match decSlice decStr v with
  | some [a, b] => some (a, b)
  | _ => none

/-- one_hot.go:18-24: everything is exported. -/
def OneHotEncoder.enc (e : OneHotEncoder) : Option Json :=
  match encMap (encIntMap fun s => some (.str s)) e.categories, encMap (fun p => some (.arr [.str p.1, .str p.2])) e.fallback with
  | some cats, some fb => some (.obj [(b!"CategoricalColumns", .arr (e.catCols.map .str)), (b!"NewColumns", .arr (e.newCols.map .str)),
      (b!"Categories", cats), (b!"Fallback", fb), (b!"Options", e.options.enc)])
  | _, _ => none

/-- one_hot.go:18-24, into a new `OneHotEncoder`. -/
def OneHotEncoder.dec (v : Json) : Option OneHotEncoder :=
  match decSlice decStr (v.field b!"CategoricalColumns"), decSlice decStr (v.field b!"NewColumns"),
      decMap (decIntMap decStr) (v.field b!"Categories"), decMap decPair (v.field b!"Fallback"), OneHotOptions.dec (v.field b!"Options") with
  | some a, some b, some c, some d, some e => some ⟨a, b, c, d, e⟩
  | _, _, _, _, _ => none

/-- auto_preprocessor.go:24-30: the four components are exported, `options` is not. -/
def AutoPreprocessor.enc [GoFloat F] (j : JsonFloats F) (p : AutoPreprocessor F) : Option Json :=
  match encPtr OneHotEncoder.enc p.intToBool, encPtr (FloatImputer.enc j) p.imputer, encPtr (Scaler.enc j) p.scaler with
  | some b, some c, some d => some (.obj [(b!"StringToInt", (p.stringToInt.map HashEncoder.enc).getD .null), (b!"IntToBool", b),
      (b!"Imputer", c), (b!"Scaler", d)])
  | _, _, _ => none

/-- auto_preprocessor.go:24-30, into a new `AutoPreprocessor`. -/
def AutoPreprocessor.dec [GoFloat F] (j : JsonFloats F) (v : Json) : Option (AutoPreprocessor F) :=
  match decPtr HashEncoder.dec (v.field b!"StringToInt"), decPtr OneHotEncoder.dec (v.field b!"IntToBool"),
      decPtr (FloatImputer.dec j) (v.field b!"Imputer"), decPtr (Scaler.dec j) (v.field b!"Scaler") with
  | some a, some b, some c, some d => some ⟨a, b, c, d, ⟨false, false, []⟩⟩
  | _, _, _, _ => none

/-- The elements of a slice, when they can all be written. -/
def encFloats [GoFloat F] (j : JsonFloats F) (l : List F) : Option Json := (l.mapM j.enc).map .arr

/-- linear_regression.go:39-44. -/
def LinearRegressor.enc [GoFloat F] (j : JsonFloats F) (r : LinearRegressor F) : Option Json :=
  match encPtr (Scaler.enc j) r.scaler, encFloats j r.weights with
  | some a, some b => some (.obj [(b!"TargetScaler", a), (b!"Weights", b), (b!"Features", .arr (r.features.map .str))])
  | _, _ => none

/-- linear_regression.go:39-44, into a new `LinearRegressor`. -/
def LinearRegressor.dec [GoFloat F] (j : JsonFloats F) (v : Json) : Option (LinearRegressor F) :=
  match decPtr (Scaler.dec j) (v.field b!"TargetScaler"), decSlice j.dec (v.field b!"Weights"),
      decSlice decStr (v.field b!"Features") with
  | some a, some b, some c => some ⟨a, b, c⟩
  | _, _, _ => none

/-- `json.Marshal`; `none` is a returned error. -/
def marshal {α : Type} (enc : α → Option Json) (a : α) : Option GoStr := (enc a).map Json.text

/-- `json.Unmarshal` into a new structure; `none` is a returned error. -/
def unmarshal {α : Type} (dec : Json → Option α) (s : GoStr) : Option α := (Json.parse s).bind dec

end Verif
