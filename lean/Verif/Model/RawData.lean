import Verif.Model.Header

/-! Model of dataframe/raw_data.go and dataframe/builder.go. Debug fields (`structureUID`, `dataUID`)
are left out: they only feed `PrintUIDs`/`PrintSummary`. -/

namespace Verif
variable {F : Type}

/-- dataframe/raw_data.go:18-41 `RawData`. `tab` is the reference to the four maps, `shared` and
`strHdr` are the references behind the two `ColumnHeader`s (`none` = nil map), `enc` the text
encoding (`none` = nil = UTF-8). -/
structure Raw where
  tab : Nat
  shared : Option Nat
  sharedMaps : Bool
  enc : Option Nat
  maxCPU : Int
  strHdr : Option Nat
  deriving DecidableEq, Repr

/-- The length of the first column of a kind that a map iteration yields. -/
def firstLen (t : Table) (k : Kind) : Option Nat :=
  (t.find? (fun e => decide (e.1.1 = k))).map (·.2.len)

/-- raw_data.go:88-102 `NumAllocatedRows`. -/
def numAllocatedRows (t : Table) : Nat :=
  match firstLen t .obj with
  | some n => n
  | none =>
    match firstLen t .float with
    | some n => n
    | none =>
      match firstLen t .int with
      | some n => n
      | none =>
        match firstLen t .bool with
        | some n => n
        | none => 0

/-- raw_data.go:150-152 `NumColumns`. -/
def numColumns (t : Table) : Nat := t.length

/-- raw_data.go:158-165 `SetMaxCPU` (the value stored). -/
def clampCPU (numCPU : Nat) (maxCPU : Int) : Int :=
  if maxCPU ≤ 0 ∨ maxCPU ≥ numCPU then numCPU else maxCPU

/-- raw_data.go:158-165 `SetMaxCPU`. -/
def Raw.setMaxCPU (r : Raw) (h : Heap F) (n : Int) : Raw :=
  { r with maxCPU := clampCPU h.rt.numCPU n }

/-- raw_data.go:172-174 `ActualMaxCPU`. -/
def Raw.actualMaxCPU (r : Raw) : Int := r.maxCPU

/-- raw_data.go:53-58 `NewRawData` and 488-497 `allocateEmptyMaps`. -/
def newRawData (h : Heap F) : Raw × Heap F :=
  let (t, h) := h.newTab []
  ({ tab := t, shared := none, sharedMaps := false, enc := none,
     maxCPU := clampCPU h.rt.numCPU (-1), strHdr := none }, h)

/-- Column names of a table (with one entry per typed column). -/
def tabNames (t : Table) : List GoStr := t.map (·.1.2)

/-- The loops `for col, vals := range from.X { data.X[col] = vals }`. -/
def tabSetAll (t : Table) (es : Table) : Table := es.foldl (fun t e => AMap.set t e.1 e.2) t

/-- raw_data.go:340-363, the body of `TransferRawDataFrom` once the receiver owns its maps. -/
def Raw.transferCore (data src : Raw) (h : Heap F) : Raw × Heap F :=
  let es := h.tab src.tab
  let h := h.setTab data.tab (tabSetAll (h.tab data.tab) es)
  let (sh, h) := hdrAddEach h data.shared (tabNames es)
  let (st, h) := hdrAddEach h data.strHdr (hdrList h src.strHdr)
  ({ data with shared := sh, strHdr := st }, h)

/-- raw_data.go:477-486 `reallocateMaps`. Note that `stringHeader` is not replaced. -/
def Raw.reallocateMaps (data : Raw) (h : Heap F) : Raw × Heap F :=
  let (tmp, h) := newRawData h
  let (tmp, h) := tmp.transferCore data h
  ({ data with tab := tmp.tab, shared := tmp.shared, sharedMaps := false }, h)

/-- `if data.sharedMaps { data.reallocateMaps() }`. -/
def Raw.own (data : Raw) (h : Heap F) : Raw × Heap F :=
  if data.sharedMaps then data.reallocateMaps h else (data, h)

/-- raw_data.go:336-364 `TransferRawDataFrom`. When the receiver's maps are reallocated first and
`from` is the receiver itself, the two hold the same entries. -/
def Raw.transferFrom (data src : Raw) (h : Heap F) : Raw × Heap F :=
  let (data, h) := data.own h
  data.transferCore src h

/-- Visit every column of a table, threading the heap: the loops
`for col, v := range data.X { ... data.X[col] = ... }` over the four maps. -/
def mapCols (f : Key → Slice → Heap F → Except Abort (Slice × Heap F)) :
    Table → Heap F → Except Abort (Table × Heap F)
  | [], h => .ok ([], h)
  | (k, s) :: t, h =>
    match f k s h with
    | .error e => .error e
    | .ok (s', h) =>
      match mapCols f t h with
      | .error e => .error e
      | .ok (t', h) => .ok ((k, s') :: t', h)

/-- Same, for loop bodies that cannot panic. -/
def mapColsT (f : Key → Slice → Heap F → Slice × Heap F) : Table → Heap F → Table × Heap F
  | [], h => ([], h)
  | (k, s) :: t, h =>
    let r := f k s h
    let rest := mapColsT f t r.2
    ((k, r.1) :: rest.1, rest.2)

/-- raw_data.go:194-221, one column: copy it when it is shared and asked for. -/
def unshareCol (sh colSet : List GoStr) (k : Key) (s : Slice) (h : Heap F) : Slice × Heap F :=
  if k.2 ∈ sh ∧ k.2 ∈ colSet then h.newArr (h.read s) else (s, h)

/-- raw_data.go:178-225 `Unshare`. -/
def Raw.unshare (data : Raw) (cols : List GoStr) (h : Heap F) : Raw × Heap F :=
  if data.sharedMaps = false ∧ hdrNum h data.shared = 0 then (data, h)
  else
    let (data, h) := data.own h
    let t := h.tab data.tab
    let colSet := if cols.length = 0 ∨ cols.length = numColumns t then tabNames t else cols
    let sh := hdrList h data.shared
    let (t', h) := mapColsT (unshareCol sh colSet) t h
    let h := h.setTab data.tab t'
    (data, hdrRemove h data.shared colSet)

/-- Delete a name from the four maps. -/
def tabEraseName (t : Table) (c : GoStr) : Table := t.filter (fun e => decide (e.1.2 ≠ c))

/-- raw_data.go:228-240 `Drop`. It never reallocates shared maps. -/
def Raw.drop (data : Raw) (cols : List GoStr) (h : Heap F) : Heap F :=
  cols.foldl (fun h c =>
    let h := hdrRemove h data.shared [c]
    let h := hdrRemove h data.strHdr [c]
    h.setTab data.tab (tabEraseName (h.tab data.tab) c)) h

/-- raw_data.go:251-269, the first kind in the order float, object, int, bool that has the column. -/
def renameKind (t : Table) (c : GoStr) : Option Kind :=
  if (AMap.get t (.float, c)).isSome then some .float
  else if (AMap.get t (.obj, c)).isSome then some .obj
  else if (AMap.get t (.int, c)).isSome then some .int
  else if (AMap.get t (.bool, c)).isSome then some .bool
  else none

/-- raw_data.go:247-274 `Rename`. -/
def Raw.rename (data : Raw) (old new : GoStr) (h : Heap F) : Except Abort (Raw × Heap F) :=
  let (data, h) := data.own h
  let t := h.tab data.tab
  match renameKind t old with
  | none => .error .panic
  | some k =>
    match AMap.get t (k, old) with
    | none => .error .panic
    | some s =>
      let h := h.setTab data.tab (AMap.erase (AMap.set t (k, new) s) (k, old))
      let (data, h) :=
        if k = .obj ∧ hdrContains h data.strHdr old then
          let h := hdrRemove h data.strHdr [old]
          let (st, h) := hdrAdd h data.strHdr [new]
          ({ data with strHdr := st }, h)
        else (data, h)
      if hdrContains h data.shared old then
        let h := hdrRemove h data.shared [old]
        let (sh, h) := hdrAdd h data.shared [new]
        .ok ({ data with shared := sh }, h)
      else .ok (data, h)

/-- The loop `for _, col := range columns { data.X[col] = make([]T, nRows) }`. -/
def allocLoop [GoFloat F] (k : Kind) (n : Nat) (tab : Nat) (cols : List GoStr) (h : Heap F) :
    Heap F :=
  cols.foldl (fun h c =>
    let (s, h) := h.newArr (List.replicate n k.zero)
    h.setTab tab (AMap.set (h.tab tab) (k, c) s)) h

/-- raw_data.go:277-285 `AllocInts`, 288-296 `AllocFloats`, 299-307 `AllocBools`,
310-318 `AllocObjects`. -/
def Raw.alloc [GoFloat F] (data : Raw) (k : Kind) (cols : List GoStr) (h : Heap F) :
    Raw × Heap F :=
  let (data, h) := if cols = [] then (data, h) else data.own h
  (data, allocLoop k (numAllocatedRows (h.tab data.tab)) data.tab cols h)

/-- raw_data.go:321-329 `AllocStrings`. -/
def Raw.allocStrings [GoFloat F] (data : Raw) (cols : List GoStr) (h : Heap F) : Raw × Heap F :=
  let (data, h) := if cols = [] then (data, h) else data.own h
  let (data, h) := data.alloc .obj cols h
  let (st, h) := hdrAddEach h data.strHdr cols
  ({ data with strHdr := st }, h)

/-- `float64(v)` on the elements of an int column (raw_data.go:439). -/
def intToFloatVal [GoFloat F] : Val F → Val F
  | .int n => .float (GoFloat.ofInt n)
  | _ => .float GoFloat.zero

/-- raw_data.go:457-461 on the elements of a bool column. -/
def boolToFloatVal [GoFloat F] : Val F → Val F
  | .bool true => .float GoFloat.one
  | _ => .float GoFloat.zero

/-- The column slice a map lookup returns: the nil slice when the column is absent. -/
def tabCol (t : Table) (k : Key) : Slice := (AMap.get t k).getD Slice.nil

/-- raw_data.go:431-444 `IntToFloats`. A column that is not an int column reads as nil and becomes an
empty float column. -/
def Raw.intToFloats [GoFloat F] (data : Raw) (cols : List GoStr) (h : Heap F) : Raw × Heap F :=
  let (data, h) := data.own h
  (data, cols.foldl (fun h c =>
    let old := tabCol (h.tab data.tab) (.int, c)
    let (s, h) := h.newArr ((h.read old).map intToFloatVal)
    h.setTab data.tab (AMap.set (AMap.erase (h.tab data.tab) (.int, c)) (.float, c) s)) h)

/-- raw_data.go:450-465 `BoolToFloats`. Line 462 deletes from `ints`, not from `bools`. -/
def Raw.boolToFloats [GoFloat F] (data : Raw) (cols : List GoStr) (h : Heap F) : Raw × Heap F :=
  let (data, h) := data.own h
  (data, cols.foldl (fun h c =>
    let old := tabCol (h.tab data.tab) (.bool, c)
    let (s, h) := h.newArr ((h.read old).map boolToFloatVal)
    h.setTab data.tab (AMap.set (AMap.erase (h.tab data.tab) (.int, c)) (.float, c) s)) h)

/-- raw_data.go:369-377 `MergeRawDataColumns`. -/
def mergeRawDataColumns (l : List Raw) (h : Heap F) : Raw × Heap F :=
  l.foldl (fun (r, h) e =>
    let (r, h) := r.transferFrom e h
    ({ r with enc := e.enc, maxCPU := e.maxCPU }, h)) (newRawData h)

/-- Go `append(s, xs...)`: in place when the capacity suffices, otherwise a new array with some spare
capacity (filled with the zero `z`). -/
def Heap.append (h : Heap F) (z : Val F) (s : Slice) (xs : List (Val F)) : Slice × Heap F :=
  if s.len + xs.length ≤ s.cap then
    let a := h.arr s.arr
    ({ s with len := s.len + xs.length },
     h.setArr s.arr (a.take (s.off + s.len) ++ xs ++ a.drop (s.off + s.len + xs.length)))
  else
    let content := h.read s ++ xs
    let (s', h) := h.newArr (content ++ List.replicate (h.rt.spare content.length) z)
    ({ s' with len := content.length }, h)

/-- The loop `for col, vals := range data.X { result.X[col] = append(result.X[col], vals...) }`,
raw_data.go:410-423. -/
def appendCols [GoFloat F] (tab : Nat) (es : Table) (h : Heap F) : Heap F :=
  es.foldl (fun h e =>
    let (s, h) := h.append (e.1.1.zero) (tabCol (h.tab tab) e.1) (h.read e.2)
    h.setTab tab (AMap.set (h.tab tab) e.1 s)) h

/-- The loops raw_data.go:396-407: `result.X[col] = make([]T, 0, size)`. -/
def preallocCols [GoFloat F] (tab : Nat) (size : Nat) (es : Table) (h : Heap F) : Heap F :=
  es.foldl (fun h e =>
    let (s, h) := h.newArr (List.replicate size e.1.1.zero)
    h.setTab tab (AMap.set (h.tab tab) e.1 { s with len := 0 })) h

/-- raw_data.go:386-425 `MergeRawDataRows`. -/
def mergeRawDataRows [GoFloat F] (l : List Raw) (h : Heap F) : Raw × Heap F :=
  let (r, h) := newRawData h
  match l with
  | [] => (r, h)
  | d0 :: _ =>
    let size := (l.map fun d => numAllocatedRows (h.tab d.tab)).sum
    let h := preallocCols r.tab size (h.tab d0.tab) h
    (r, l.foldl (fun h d => appendCols r.tab (h.tab d.tab) h) h)

/-! ### dataframe/builder.go -/

/-- builder.go:13-38 `AddFloats`, `AddBools`, `AddInts`, `AddObjects`. -/
def Raw.add [GoFloat F] (r : Raw) (k : Kind) (c : GoStr) (vals : List (Val F)) (h : Heap F) :
    Heap F :=
  let (s, h) := h.append k.zero (tabCol (h.tab r.tab) (k, c)) vals
  h.setTab r.tab (AMap.set (h.tab r.tab) (k, c) s)

/-- builder.go:42-45 `MarkAsString`. -/
def Raw.markAsString (r : Raw) (c : GoStr) (h : Heap F) : Raw × Heap F :=
  let (st, h) := hdrAdd h r.strHdr [c]
  ({ r with strHdr := st }, h)

/-- builder.go:51-60 `AddStrings`. -/
def Raw.addStrings [GoFloat F] (r : Raw) (c : GoStr) (vals : List GoStr) (h : Heap F) :
    Raw × Heap F :=
  let h := r.add .obj c (vals.map .str) h
  r.markAsString c h

/-- builder.go:65-94 `SetFloats`, `SetBools`, `SetInts`, `SetObjects`: the caller's slice is stored. -/
def Raw.setCol (r : Raw) (k : Kind) (c : GoStr) (s : Slice) (h : Heap F) : Heap F :=
  h.setTab r.tab (AMap.set (h.tab r.tab) (k, c) s)

/-- builder.go:103-106 `TextEncoding`. -/
def Raw.textEncoding (r : Raw) (e : Option Nat) : Raw := { r with enc := e }

end Verif
