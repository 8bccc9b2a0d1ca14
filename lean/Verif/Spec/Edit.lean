import Verif.Spec.ADF

/-! In-place operations a user can apply to a dataframe, as data, so that statements can range over
any history of them. Each constructor stands for the library call named in its comment. -/

namespace Verif
variable {F : Type}

/-- An in-place operation on a dataframe. -/
inductive Edit (F : Type) where
  /-- `df.Ints(c).Set(row, v)`, `df.Floats(c)...`, `df.Bools(c)...`, `df.Objects(c)...` -/
  | set (k : Kind) (c : GoStr) (row : Int) (v : Val F)
  /-- `df.Strings(c).Set(row, v)` -/
  | setString (c : GoStr) (row : Int) (v : GoStr)
  /-- `df.Rename(old, new)` -/
  | rename (old new : GoStr)
  /-- `df.Drop(cols...)` -/
  | drop (cols : List GoStr)
  /-- `df.AllocInts(cols...)`, `AllocFloats`, `AllocBools`, `AllocObjects` -/
  | alloc (k : Kind) (cols : List GoStr)
  /-- `df.AllocStrings(cols...)` -/
  | allocStrings (cols : List GoStr)
  /-- `df.IntToFloats(cols...)` -/
  | intToFloats (cols : List GoStr)
  /-- `df.BoolToFloats(cols...)` -/
  | boolToFloats (cols : List GoStr)
  /-- `df.OverwriteInts(c, vals)`, ... -/
  | overwrite (k : Kind) (c : GoStr) (vals : List (Val F)) (asString : Bool)
  /-- `df.Encode(new)` -/
  | encode (cd : Codec) (new : Option Nat)
  /-- `df.Unshare(cols...)` -/
  | unshare (cols : List GoStr)
  /-- `df.SetMaxCPU(n)` -/
  | setMaxCPU (n : Int)
  /-- `df.ThreadSafeMasking(b)` -/
  | threadSafeMasking (b : Bool)

/-- The dataframe and the heap after the operation. -/
def Edit.run [GoFloat F] (e : Edit F) (d : DF) (h : Heap F) : Except Abort (DF × Heap F) :=
  match e with
  | .set k c row v =>
    match d.set h k c row v with
    | .error x => .error x
    | .ok h' => .ok (d, h')
  | .setString c row v =>
    match d.setString h c row v with
    | .error x => .error x
    | .ok h' => .ok (d, h')
  | .rename old new =>
    match d.toRaw.rename old new h with
    | .error x => .error x
    | .ok p => .ok (d.withRaw p)
  | .drop cols => .ok (d, d.toRaw.drop cols h)
  | .alloc k cols => .ok (d.withRaw (d.toRaw.alloc k cols h))
  | .allocStrings cols => .ok (d.withRaw (d.toRaw.allocStrings cols h))
  | .intToFloats cols => .ok (d.withRaw (d.toRaw.intToFloats cols h))
  | .boolToFloats cols => .ok (d.withRaw (d.toRaw.boolToFloats cols h))
  | .overwrite k c vals b => d.overwrite k c vals b h
  | .encode cd new =>
    match d.encode cd new h with
    | .error x => .error x
    | .ok ((_, d'), h') => .ok (d', h')
  | .unshare cols => .ok (d.withRaw (d.toRaw.unshare cols h))
  | .setMaxCPU n => .ok ({ d with toRaw := d.toRaw.setMaxCPU h n }, h)
  | .threadSafeMasking b => .ok (d.threadSafeMasking b, h)

/-- The operation alters the structure only: no existing cell is written. -/
def Edit.structural : Edit F → Bool
  | .set .. | .setString .. | .overwrite .. | .encode .. => false
  | _ => true

/-- Operations on one of two dataframes (`true` = the first one), one after the other. -/
def runPair [GoFloat F] : List (Bool × Edit F) → DF × DF → Heap F → Except Abort ((DF × DF) × Heap F)
  | [], p, h => .ok (p, h)
  | (true, e) :: es, (a, b), h =>
    match e.run a h with
    | .error x => .error x
    | .ok (a', h') => runPair es (a', b) h'
  | (false, e) :: es, (a, b), h =>
    match e.run b h with
    | .error x => .error x
    | .ok (b', h') => runPair es (a, b') h'

end Verif

namespace Verif
variable {F : Type}

/-- `for j, v := range values { df.Xs(c).Set(i+j, v) }`. -/
def DF.setRows (d : DF) (k : Kind) (c : GoStr) : Nat → List (Val F) → Heap F → Except Abort (Heap F)
  | _, [], h => .ok h
  | i, v :: vs, h =>
    match d.set h k c i v with
    | .error e => .error e
    | .ok h' => DF.setRows d k c (i + 1) vs h'

/-- The columns after an allocation. -/
def ADF.allocCols [GoFloat F] (a : ADF (Val F)) (k : Kind) (cols : List GoStr) : ADF (Val F) :=
  { a with col := fun k' c => if k' = k ∧ c ∈ cols then some (List.replicate a.nRows (some k.zero)) else a.col k' c }

/-- The marks after `AllocStrings`. -/
def ADF.markCols {C : Type} (a : ADF C) (cols : List GoStr) : ADF C :=
  { a with isStr := fun c => decide (c ∈ cols) || a.isStr c }

/-- The columns after a conversion to float: the float column `c` is the converted `kOld` column, the
`kErase` column of that name is gone. -/
def ADF.convCols (a : ADF (Val F)) (kOld kErase : Kind) (f : Val F → Val F) (cols : List GoStr) : ADF (Val F) :=
  { a with col := fun k c =>
      if c ∈ cols ∧ k = .float then (a.col kOld c).map (·.map (Option.map f))
      else if c ∈ cols ∧ k = kErase then none
      else a.col k c }

/-- The columns and marks after dropping the names `cols`. -/
def ADF.dropCols {C : Type} (a : ADF C) (cols : List GoStr) : ADF C :=
  { a with col := fun k c => if c ∈ cols then none else a.col k c
           isStr := fun c => !decide (c ∈ cols) && a.isStr c }

/-- Rename the `k` column `old`. -/
def ADF.renameCol {C : Type} (a : ADF C) (k : Kind) (old new : GoStr) : ADF C :=
  { a with
    col := fun k' c => if k' = k ∧ c = old then none else if k' = k ∧ c = new then a.col k old else a.col k' c
    isStr := fun c => if k = .obj ∧ a.isStr old = true then decide (c = new) || (!decide (c = old) && a.isStr c)
      else a.isStr c }

end Verif

namespace Verif
variable {F : Type}

/-- `h'` is reached from `h` by any sequence of cell writes through consistent dataframes. -/
inductive Written : Heap F → Heap F → Prop
  | refl (h : Heap F) : Written h h
  | step {h h1 h2 : Heap F} (d : DF) (k : Kind) (c : GoStr) (i : Int) (v : Val F) :
      Written h h1 → d.WF h1 → d.set h1 k c i v = .ok h2 → Written h h2

end Verif
