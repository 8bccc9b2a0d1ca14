import Verif.Model.DataFrame

/-! What the in-place functions have written when they panic, for callers that recover from the panic. Each function below
follows the function it is named after and returns the memory at the point where that function returns or panics.
`Set` writes its cell last (column_access.go:152-194), so that a panicking `Set` has written nothing; `Drop`, `Alloc*`,
`IntToFloats`, `BoolToFloats`, `Unshare` and `SetMaxCPU` do not panic. -/

namespace Verif
variable {F : Type}

/-- The loop `for j, i := range df.indices { col[i] = values[j] }` (inplace.go:95-97 and the like). `values[j]` is
evaluated before anything is stored. -/
def overwriteReached (s : Slice) : List Nat → List (Val F) → Heap F → Heap F
  | i :: is, v :: vs, h =>
    match h.write s i v with
    | .error _ => h
    | .ok h => overwriteReached s is vs h
  | _, _, h => h

/-- inplace.go:88-209 `OverwriteInts` and the like: the column is created before the first value is stored. -/
def DF.overwriteReached [GoFloat F] (df : DF) (k : Kind) (c : GoStr) (vals : List (Val F)) (asString : Bool) (h : Heap F) :
    DF × Heap F :=
  let (df, h) :=
    if (tabCol (h.tab df.tab) (k, c)).len = 0 then
      if k = .obj ∧ asString then df.withRaw (df.toRaw.allocStrings [c] h)
      else df.withRaw (df.toRaw.alloc k [c] h)
    else (df, h)
  (df, Verif.overwriteReached (tabCol (h.tab df.tab) (k, c)) df.rows vals h)

/-- raw_data.go:247-265 `Rename` of a column that does not exist: the maps are reallocated before the panic. -/
def DF.renameReached (df : DF) (h : Heap F) : DF × Heap F := df.withRaw (df.toRaw.own h)

/-- inplace.go:7-32 `inplaceEncoding`: it stops at the first value that cannot be transcoded, and panics at the first value
that is neither nil nor a string. -/
def inplaceReached (cd : Codec) (from_ to : Option Nat) (s : Slice) : List Nat → Heap F → Heap F
  | [], h => h
  | i :: is, h =>
    match h.cell s i with
    | some .nil => inplaceReached cd from_ to s is h
    | some (.str v) =>
      match transcode cd from_ to v with
      | none => h
      | some w =>
        match h.write s i (.str w) with
        | .error _ => h
        | .ok h => inplaceReached cd from_ to s is h
    | _ => h

/-- inplace.go:69-71: revert the columns done before, up to the one that panics. -/
def revertReached (cd : Codec) (from_ to : Option Nat) (tab : Nat) (rows : List Nat) : List GoStr → Heap F → Heap F
  | [], h => h
  | c :: cs, h =>
    match inplaceEncoding cd from_ to (tabCol (h.tab tab) (.obj, c)) rows 0 h with
    | .error _ => inplaceReached cd from_ to (tabCol (h.tab tab) (.obj, c)) rows h
    | .ok (_, h) => revertReached cd from_ to tab rows cs h

/-- inplace.go:53-74: the loop over the string columns, up to the one that panics. -/
def encodeLoopReached (cd : Codec) (old new : Option Nat) (tab : Nat) (rows : List Nat) :
    List GoStr → List GoStr → Heap F → Heap F
  | [], _, h => h
  | c :: cs, done, h =>
    match inplaceEncoding cd old new (tabCol (h.tab tab) (.obj, c)) rows 0 h with
    | .error _ => inplaceReached cd old new (tabCol (h.tab tab) (.obj, c)) rows h
    | .ok (none, h) => encodeLoopReached cd old new tab rows cs (done ++ [c]) h
    | .ok (some w, h) =>
      match inplaceEncoding cd new old (tabCol (h.tab tab) (.obj, c)) (rows.take w) 0 h with
      | .error _ => inplaceReached cd new old (tabCol (h.tab tab) (.obj, c)) (rows.take w) h
      | .ok (_, h) => revertReached cd new old tab rows done h

/-- inplace.go:38-78 `Encode`: the recorded encoding is changed after the loop only (line 75). -/
def DF.encodeReached (cd : Codec) (df : DF) (new : Option Nat) (h : Heap F) : DF × Heap F :=
  (df, encodeLoopReached cd df.enc new df.tab df.rows (hdrList h df.strHdr) [] h)

end Verif
