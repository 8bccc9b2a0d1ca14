import Verif.Model.CSVWriting
import Verif.Model.CSVFiles
import Verif.Model.CSVText

/-! Model of `ToCSVFiles`, `ToCSVDir` (dataframe/csv_writing.go:144-194) and of the pattern reading of dataframe/csv_parsing.go:254-308 on a
disk that may already hold files. -/

namespace Verif
variable {F : Type}

/-- The regular files of the disk: their texts, by path. -/
abbrev Disk := GoStr → Option GoStr

/-- The text `s` is now what is in the file `p`. -/
def Disk.put (d : Disk) (p s : GoStr) : Disk := fun q => if q = p then some s else d q

/-- Several files are written. -/
def Disk.putAll (d : Disk) : List (GoStr × GoStr) → Disk
  | [] => d
  | (p, s) :: rest => Disk.putAll (d.put p s) rest

/-- csv_writing.go:150-158: `os.Create` creates or empties the files one after the other, until one of them cannot be
created. The answer is whether they all could. -/
def Disk.create (can : GoStr → Bool) (d : Disk) : List GoStr → Bool × Disk
  | [] => (true, d)
  | p :: ps => if can p then Disk.create can (d.put p []) ps else (false, d)

/-- csv_writing.go:149-160 `ToCSVFiles` on a disk. `full p` is the buffering of the writer of the file `p`. Simplified: the paths name different
files and what is written reaches the disk (no disk is full). The outcome `false` is a returned error. -/
def DF.toCSVFilesOn [GoFloat F] (ff : F → GoStr) (ord : Nat → Kind → List GoStr → List GoStr) (df : DF) (can : GoStr → Bool)
    (full : GoStr → Nat → Bool) (opt : CSVWritingSpec) (crlf : Bool) (paths : List GoStr) (d : Disk) (h : Heap F) :
    Except Abort ((Bool × Disk) × Heap F) :=
  if (d.create can paths).1 = true then
    match df.toCSVs ff ord (paths.map fun p => newCsvSink none (full p)) opt h with
    | .error e => .error e
    | .ok ((ok, ws), h') =>
      .ok ((ok, (d.create can paths).2.putAll (paths.zip (ws.map fun w => csvText opt.comma crlf w.written))), h')
  else .ok ((false, (d.create can paths).2), h)

/-- csv_writing.go:172-194 `ToCSVDir` on a disk. -/
def DF.toCSVDirOn [GoFloat F] (ff : F → GoStr) (ord : Nat → Kind → List GoStr → List GoStr) (df : DF) (can : GoStr → Bool)
    (full : GoStr → Nat → Bool) (opt : CSVWritingSpec) (crlf : Bool) (pre : GoStr) (d : Disk) (h : Heap F) :
    Except Abort ((List GoStr × Bool × Disk) × Heap F) :=
  match csvPaths pre (csvNumFiles df.numRows opt.minRowsPerFile df.actualMaxCPU) with
  | .error e => .error e
  | .ok paths =>
    match df.toCSVFilesOn ff ord can full opt crlf paths d h with
    | .error e => .error e
    | .ok (r, h) => .ok ((paths, r), h)

/-- csv_parsing.go:245-252 `FromCSVFile`: what `os.Open` and `encoding/csv` find in the files of the disk. -/
def Disk.files (d : Disk) (t : CSVTextSpec) (p : GoStr) : Option CsvInput := (d p).map (csvRead t)

end Verif
