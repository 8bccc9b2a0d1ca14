import Verif.Model.CSVWriting

/-! The text layer of the CSV functions: Go's standard library `encoding/csv` (Go 1.15, the version of go.mod),
as csv_writing.go:37-42 and csv_parsing.go:180-188 configure it. It is not code of /repo: this file is a
transcription of `encoding/csv/writer.go` and `encoding/csv/reader.go`, from bytes to records and back.
Reading errors of the underlying file are left out (`CsvInput.fails` covers them in the layer above). -/

namespace Verif

/-- `utf8.EncodeRune` of a valid rune. -/
def utf8 (r : Nat) : GoStr :=
  if r < 0x80 then [UInt8.ofNat r]
  else if r < 0x800 then [UInt8.ofNat (0xC0 + r / 64), UInt8.ofNat (0x80 + r % 64)]
  else if r < 0x10000 then [UInt8.ofNat (0xE0 + r / 4096), UInt8.ofNat (0x80 + r / 64 % 64), UInt8.ofNat (0x80 + r % 64)]
  else [UInt8.ofNat (0xF0 + r / 262144), UInt8.ofNat (0x80 + r / 4096 % 64), UInt8.ofNat (0x80 + r / 64 % 64),
    UInt8.ofNat (0x80 + r % 64)]

/-- The UTF-8 texts of the runes for which `unicode.IsSpace` is true. -/
def spaceRunes : List GoStr :=
  [[9], [10], [11], [12], [13], [32], [0xC2, 0x85], [0xC2, 0xA0], [0xE1, 0x9A, 0x80],
   [0xE2, 0x80, 0x80], [0xE2, 0x80, 0x81], [0xE2, 0x80, 0x82], [0xE2, 0x80, 0x83], [0xE2, 0x80, 0x84], [0xE2, 0x80, 0x85],
   [0xE2, 0x80, 0x86], [0xE2, 0x80, 0x87], [0xE2, 0x80, 0x88], [0xE2, 0x80, 0x89], [0xE2, 0x80, 0x8A],
   [0xE2, 0x80, 0xA8], [0xE2, 0x80, 0xA9], [0xE2, 0x80, 0xAF], [0xE2, 0x81, 0x9F], [0xE3, 0x80, 0x80]]

/-- The space the text starts with, if it does. -/
def leadSpace (s : GoStr) : Option GoStr := spaceRunes.find? fun r => r.isPrefixOf s

/-- `bytes.IndexRune` followed by the two slicings: what is before the first `sep`, and what is after it. -/
def cutSep (sep : GoStr) : GoStr → Option (GoStr × GoStr)
  | [] => none
  | b :: s =>
    if sep.isPrefixOf (b :: s) then some ([], (b :: s).drop sep.length)
    else (cutSep sep s).map fun p => (b :: p.1, p.2)

/-! ### csv.Writer -/

/-- The options of `csv.Writer`: csv_writing.go:38-41. `sep` is the UTF-8 text of `Comma`. -/
structure TextWriter where
  sep : GoStr
  crlf : Bool

/-- writer.go `fieldNeedsQuotes`. -/
def TextWriter.needsQuotes (w : TextWriter) (f : GoStr) : Bool :=
  if f = [] then false
  else f == b!"\\." || (cutSep w.sep f).isSome || f.contains 34 || f.contains 13 || f.contains 10 || (leadSpace f).isSome

/-- writer.go `Write`: the inside of a quoted field. -/
def TextWriter.quoteByte (w : TextWriter) (b : UInt8) : GoStr :=
  if b = 34 then [34, 34]
  else if b = 13 then (if w.crlf then [] else [13])
  else if b = 10 then (if w.crlf then [13, 10] else [10])
  else [b]

/-- writer.go `Write`: one field. -/
def TextWriter.field (w : TextWriter) (f : GoStr) : GoStr :=
  if w.needsQuotes f then 34 :: (f.flatMap w.quoteByte ++ [34]) else f

/-- writer.go `Write`: the fields of a record, with the separators. -/
def TextWriter.fields (w : TextWriter) : List GoStr → GoStr
  | [] => []
  | [f] => w.field f
  | f :: fs => w.field f ++ (w.sep ++ w.fields fs)

/-- writer.go `Write`: a line. -/
def TextWriter.record (w : TextWriter) (r : List GoStr) : GoStr :=
  w.fields r ++ (if w.crlf then [13, 10] else [10])

/-- The text of some records. -/
def TextWriter.text (w : TextWriter) (rs : List (List GoStr)) : GoStr := rs.flatMap w.record

/-! ### csv.Reader -/

/-- The options of `csv.Reader`: csv_parsing.go:180-188. `sep` and `comment` are the UTF-8 texts of the runes
(`none`: 0). -/
structure TextReader where
  sep : GoStr
  comment : Option GoStr
  lazyQuotes : Bool
  trim : Bool

/-- `ReadSlice('\n')`: up to and including the first line feed. -/
def takeLine : GoStr → GoStr × GoStr
  | [] => ([], [])
  | b :: s => if b = 10 then ([10], s) else (b :: (takeLine s).1, (takeLine s).2)

/-- reader.go `readLine`: `\r\n` at the end of a line becomes `\n`, `\r` at the end of the text is dropped. -/
def normLine : GoStr → GoStr
  | [] => []
  | b :: s => if b = 13 ∧ (s = [] ∨ s = [10]) then s else b :: normLine s

/-- reader.go `readLine`: a line and the rest of the text; `none` at the end of the text. -/
def readLine (s : GoStr) : Option (GoStr × GoStr) :=
  if s = [] then none else some (normLine (takeLine s).1, (takeLine s).2)

/-- `bytes.TrimLeftFunc(line, unicode.IsSpace)`, at most `n` runes. -/
def trimLeft : Nat → GoStr → GoStr
  | 0, s => s
  | n + 1, s =>
    match leadSpace s with
    | none => s
    | some r => trimLeft n (s.drop r.length)

/-- How a quoted field ends: before a separator, at the end of the record, or with an error. -/
inductive Quoted where
  | next (field line rest : GoStr)
  | done (field rest : GoStr)
  | bad
  deriving DecidableEq, Repr

/-- reader.go `readRecord`: the inside of a quoted field. `line` is what is left of the current line, `rest` the following
lines, `field` what was found so far. At most `n` iterations. -/
def TextReader.quoted (o : TextReader) : Nat → GoStr → GoStr → GoStr → Quoted
  | 0, _, _, _ => .bad
  | n + 1, line, rest, field =>
    match cutSep [34] line with
    | some (a, line) =>
      if line.head? = some 34 then o.quoted n (line.drop 1) rest (field ++ a ++ [34])
      else if o.sep.isPrefixOf line then .next (field ++ a) (line.drop o.sep.length) rest
      else if line = [] ∨ line = [10] then .done (field ++ a) rest
      else if o.lazyQuotes then o.quoted n line rest (field ++ a ++ [34])
      else .bad
    | none =>
      if line ≠ [] then
        match readLine rest with
        | none => o.quoted n [] [] (field ++ line)
        | some (l, r) => o.quoted n l r (field ++ line)
      else if o.lazyQuotes then .done field rest
      else .bad

/-- `field[:len(field)-lengthNL(field)]`. -/
def dropNL (s : GoStr) : GoStr := if s.getLast? = some 10 then s.dropLast else s

/-- reader.go `readRecord`: the fields of a record and the text after it; `none` is a syntax error. At most `n` fields. -/
def TextReader.fields (o : TextReader) : Nat → GoStr → GoStr → List GoStr → Option (List GoStr × GoStr)
  | 0, _, _, _ => none
  | n + 1, line, rest, acc =>
    let line := if o.trim then trimLeft line.length line else line
    if line.head? = some 34 then
      match o.quoted (line.length + rest.length + 1) (line.drop 1) rest [] with
      | .next f line rest => o.fields n line rest (acc ++ [f])
      | .done f rest => some (acc ++ [f], rest)
      | .bad => none
    else
      match cutSep o.sep line with
      | some (f, line) =>
        if o.lazyQuotes = false ∧ 34 ∈ f then none else o.fields n line rest (acc ++ [f])
      | none =>
        let f := dropNL line
        if o.lazyQuotes = false ∧ 34 ∈ f then none else some (acc ++ [f], rest)

/-- Whether a line is a comment: `r.Comment != 0 && nextRune(line) == r.Comment`. -/
def TextReader.isComment (o : TextReader) (line : GoStr) : Bool :=
  match o.comment with
  | none => false
  | some c => c.isPrefixOf line

/-- `ReadAll`, without the check of the number of fields (that is `readAll`): empty lines and comments are skipped.
At most `n` lines. -/
def TextReader.records (o : TextReader) : Nat → GoStr → CsvInput
  | 0, _ => ⟨[], true⟩
  | n + 1, s =>
    match readLine s with
    | none => ⟨[], false⟩
    | some (line, rest) =>
      if o.isComment line then o.records n rest
      else if line = [] ∨ line = [10] then o.records n rest
      else
        match o.fields (line.length + rest.length + 1) line rest [] with
        | none => ⟨[], true⟩
        | some (r, rest) => ⟨r :: (o.records n rest).records, (o.records n rest).fails⟩

/-- What `encoding/csv` finds in a text. -/
def TextReader.input (o : TextReader) (s : GoStr) : CsvInput := o.records (s.length + 1) s

/-- The options that configure the reader, csv_parsing.go:180-188: `Comma`, `Comment` (runes, 0 when not given), `LazyQuotes`
and `TrimLeadingSpace`. -/
structure CSVTextSpec where
  comma : Nat
  comment : Nat
  lazyQuotes : Bool
  trimLeadingSpace : Bool

/-- csv_parsing.go:180-188 and reader.go `readRecord`: with an invalid separator every read is an error. -/
def csvRead (t : CSVTextSpec) (s : GoStr) : CsvInput :=
  let comma := if t.comma ≠ 0 then t.comma else 44
  if comma = t.comment ∨ validDelim comma = false ∨ (t.comment ≠ 0 ∧ validDelim t.comment = false) then ⟨[], true⟩
  else
    TextReader.input ⟨utf8 comma, if t.comment ≠ 0 then some (utf8 t.comment) else none, t.lazyQuotes, t.trimLeadingSpace⟩ s

/-- csv_writing.go:37-41: the text `encoding/csv` makes of the records (with a valid separator). -/
def csvText (comma : Nat) (crlf : Bool) (rs : List (List GoStr)) : GoStr :=
  TextWriter.text ⟨utf8 (if comma ≠ 0 then comma else 44), crlf⟩ rs

end Verif
