import Verif.Model.RawData
import Verif.Model.Utils

/-! Model of dataframe/dataframe.go, view.go, column_access.go, inplace.go, concat.go, checks.go,
conversions.go. A `*DataFrame` method that works in place takes the struct and returns the new
struct together with the new heap. -/

namespace Verif
variable {F : Type}

/-- dataframe/dataframe.go:10-18 `DataFrame` (embeds `RawData`; `debug` and `uid` left out).
The field `indexViewed` is what view.go:13-15 `AreIndicesAltered` returns. -/
structure DF extends Raw where
  idx : Idx
  mask : Slice
  indexViewed : Bool
  mThreadSafe : Bool
  deriving DecidableEq, Repr

/-- The raw positions shown by the dataframe, in order. -/
def DF.rows (df : DF) : List Nat := df.idx.rows

/-- dataframe.go:84-86 `NumRows`. -/
def DF.numRows (df : DF) : Nat := df.rows.length

/-- The columns of a dataframe in a heap. -/
def DF.table (df : DF) (h : Heap F) : Table := h.tab df.tab

/-! ### dataframe.go -/

/-- dataframe.go:23-39 `EmptyDataFrame`. -/
def emptyDataFrame (h : Heap F) (nRows : Int) (maxCPU : Int) : DF × Heap F :=
  let (t, h) := h.newTab []
  let raw : Raw :=
    { tab := t, shared := none, sharedMaps := false, enc := none, maxCPU := maxCPU, strHdr := none }
  if nRows > 0 then
    let (m, h) := h.newMsk (List.replicate nRows.toNat false)
    ({ raw with idx := Idx.mk' (List.range nRows.toNat), mask := m,
                indexViewed := false, mThreadSafe := false }, h)
  else
    ({ raw with idx := ⟨[], 0⟩, mask := Slice.nil, indexViewed := false, mThreadSafe := false }, h)

/-- A mask slice is read through its own store. -/
def Heap.readMask (h : Heap F) (s : Slice) : List Bool := ((h.msk s.arr).drop s.off).take s.len

/-- The loop `for i := 0; i < nRows; i++ { df.mask[i] = false }` (dataframe.go:59-61): positions
`i, i+1, ..., i+n-1` of a mask slice. -/
def zeroMaskLoop (h : Heap F) (s : Slice) (i : Nat) : Nat → Except Abort (Heap F)
  | 0 => .ok h
  | n + 1 =>
    if i < s.len then
      zeroMaskLoop (h.setMsk s.arr ((h.msk s.arr).set (s.off + i) false)) s (i + 1) n
    else .error .panic

/-- dataframe.go:53-63 `ZeroMask`. -/
def DF.zeroMask (df : DF) (h : Heap F) : Except Abort (Slice × Heap F) :=
  if df.mThreadSafe then .ok (h.newMsk (List.replicate df.numRows false))
  else
    match zeroMaskLoop h df.mask 0 df.numRows with
    | .error e => .error e
    | .ok h =>
      match df.mask.reslice 0 df.numRows with
      | .error e => .error e
      | .ok m => .ok (m, h)

/-- dataframe.go:75-81 `EmptyMask`. -/
def DF.emptyMask (df : DF) (h : Heap F) : Except Abort (Slice × Heap F) :=
  if df.mThreadSafe then .ok (h.newMsk (List.replicate df.numRows false))
  else
    match df.mask.reslice 0 df.numRows with
    | .error e => .error e
    | .ok m => .ok (m, h)

/-- A user storing into a mask handed out to him: `m[i] = b`. -/
def maskWrite (h : Heap F) (s : Slice) (i : Nat) (b : Bool) : Except Abort (Heap F) :=
  if i < s.len then .ok (h.setMsk s.arr ((h.msk s.arr).set (s.off + i) b)) else .error .panic

/-- dataframe.go:90-93 `ThreadSafeMasking`. -/
def DF.threadSafeMasking (df : DF) (b : Bool) : DF := { df with mThreadSafe := b }

/-- Apply an in-place `RawData` method to the embedded structure. -/
def DF.withRaw (df : DF) (r : Raw × Heap F) : DF × Heap F := ({ df with toRaw := r.1 }, r.2)

/-- dataframe.go:108-120 `ShallowCopy`. -/
def DF.shallowCopy (df : DF) (h : Heap F) : DF × Heap F :=
  let (r, h) := emptyDataFrame h (-1) df.maxCPU
  let r := { r with mThreadSafe := df.mThreadSafe, idx := df.idx, mask := df.mask,
                    indexViewed := df.indexViewed }
  r.withRaw (r.toRaw.transferFrom df.toRaw h)

/-- `series[j] = v[index]` for every index: fails like Go when an index is out of range. -/
def gather (h : Heap F) (s : Slice) : List Nat → Except Abort (List (Val F))
  | [] => .ok []
  | i :: is =>
    match h.cell s i with
    | none => .error .panic
    | some v =>
      match gather h s is with
      | .error e => .error e
      | .ok vs => .ok (v :: vs)

/-- dataframe.go:134-161 (index-viewed: element by element) and 163-183 (`copy` of the whole column),
one column. -/
def copyCol (df : DF) (_ : Key) (s : Slice) (h : Heap F) : Except Abort (Slice × Heap F) :=
  if df.indexViewed then
    match gather h s df.rows with
    | .error e => .error e
    | .ok vs => .ok (h.newArr vs)
  else .ok (h.newArr (h.read s))

/-- dataframe.go:126-187 `Copy`. -/
def DF.copy (df : DF) (h : Heap F) : Except Abort (DF × Heap F) :=
  let (r, h) := emptyDataFrame h df.idx.rows.length df.maxCPU
  let (st, h) := hdrCopy h df.strHdr
  let r := { r with mThreadSafe := df.mThreadSafe, strHdr := st }
  match mapCols (copyCol df) (h.tab df.tab) h with
  | .error e => .error e
  | .ok (t, h) => .ok (r, h.setTab r.tab t)

/-- dataframe/raw_data.go:108-147 `ToDataFrame`, and builder.go:112-114 which calls it. (The checks of lines 113-132 compare every column
with the first one.) -/
def Raw.toDataFrame (data : Raw) (h : Heap F) : Except Abort (DF × Heap F) :=
  let t := h.tab data.tab
  let nRows := numAllocatedRows t
  if t.all (fun e => decide (e.2.len = nRows)) then
    let (m, h) := h.newMsk (List.replicate nRows false)
    .ok ({ tab := data.tab, shared := none, sharedMaps := false, enc := data.enc,
           maxCPU := data.maxCPU, strHdr := data.strHdr, idx := Idx.mk' (List.range nRows),
           mask := m, indexViewed := false, mThreadSafe := false }, h)
  else .error .panic

/-! ### column_access.go -/

/-- column_access.go:44-92 `Ints`, `Bools`, `Floats`, `Objects` followed by `Get` (147-149, 157-159,
167-169, 177-179). -/
def DF.get (df : DF) (h : Heap F) (k : Kind) (c : GoStr) (row : Int) : Except Abort (Val F) :=
  match AMap.get (h.tab df.tab) (k, c) with
  | none => .error .panic
  | some s =>
    match df.idx.at row with
    | .error e => .error e
    | .ok i =>
      match h.cell s i with
      | none => .error .panic
      | some v => .ok v

/-- The same accessors followed by `Set` (column_access.go:152-154, 162-164, 172-174, 182-184). -/
def DF.set (df : DF) (h : Heap F) (k : Kind) (c : GoStr) (row : Int) (v : Val F) :
    Except Abort (Heap F) :=
  match AMap.get (h.tab df.tab) (k, c) with
  | none => .error .panic
  | some s =>
    match df.idx.at row with
    | .error e => .error e
    | .ok i => h.write s i v

/-- column_access.go:95-107 `Strings` then 187-189 `Get`: the column must be marked as string and the
value must be a string. -/
def DF.getString (df : DF) (h : Heap F) (c : GoStr) (row : Int) : Except Abort GoStr :=
  match AMap.get (h.tab df.tab) (.obj, c) with
  | none => .error .panic
  | some _ =>
    if hdrContains h df.strHdr c then
      match df.get h .obj c row with
      | .ok (.str s) => .ok s
      | .ok _ => .error .panic
      | .error e => .error e
    else .error .panic

/-- column_access.go:95-107 `Strings` then 192-194 `Set`. -/
def DF.setString (df : DF) (h : Heap F) (c : GoStr) (row : Int) (v : GoStr) :
    Except Abort (Heap F) :=
  match AMap.get (h.tab df.tab) (.obj, c) with
  | none => .error .panic
  | some _ => if hdrContains h df.strHdr c then df.set h .obj c row (.str v) else .error .panic

/-- column_access.go:124-130 `VecDenseCopy` (the entries; gonum panics on an empty vector). -/
def DF.vecDenseCopy (df : DF) (h : Heap F) (c : GoStr) : Except Abort (Slice × Heap F) :=
  match AMap.get (h.tab df.tab) (.float, c) with
  | none => .error .panic
  | some s =>
    match gather h s df.rows with
    | .error e => .error e
    | .ok vs => if vs.length = 0 then .error .panic else .ok (h.newArr vs)

/-- column_access.go:137-142 `VecDense`: shares the column when contiguous. -/
def DF.vecDense (df : DF) (h : Heap F) (c : GoStr) : Except Abort (Slice × Heap F) :=
  match AMap.get (h.tab df.tab) (.float, c) with
  | none => .error .panic
  | some s =>
    if df.indexViewed = false then
      if s.len = 0 then .error .panic else .ok (s, h)
    else df.vecDenseCopy h c

/-! ### view.go -/

/-- view.go:409-414 `View`. -/
def DF.view (df : DF) : DF := { df with sharedMaps := true }

/-- `result.indices[j] = df.indices[index]` for every index (view.go:27-29). -/
def pickRows (x : Idx) : List Int → Except Abort (List Nat)
  | [] => .ok []
  | i :: is =>
    match x.at i with
    | .error e => .error e
    | .ok r =>
      match pickRows x is with
      | .error e => .error e
      | .ok rs => .ok (r :: rs)

/-- `append(mask, make([]bool, n)...)` on a mask slice (view.go:34). -/
def Heap.appendMask (h : Heap F) (s : Slice) (n : Nat) : Slice × Heap F :=
  if s.len + n ≤ s.cap then
    let a := h.msk s.arr
    ({ s with len := s.len + n },
     h.setMsk s.arr (a.take (s.off + s.len) ++ List.replicate n false ++ a.drop (s.off + s.len + n)))
  else
    let content := h.readMask s ++ List.replicate n false
    let (s', h) := h.newMsk (content ++ List.replicate (h.rt.spare content.length) false)
    ({ s' with len := content.length }, h)

/-- view.go:24-39 `IndexView`. -/
def DF.indexView (df : DF) (indices : List Int) (h : Heap F) : Except Abort (DF × Heap F) :=
  match pickRows df.idx indices with
  | .error e => .error e
  | .ok rs =>
    let r := { df.view with idx := Idx.mk' rs, indexViewed := true }
    if df.numRows < indices.length then
      let (m, h) := h.appendMask df.mask (indices.length - df.numRows)
      .ok ({ r with mask := m }, h)
    else .ok (r, h)

/-- The loop of view.go:77-82: the row positions under the `true`s of the mask. -/
def maskRows (x : Idx) : List Bool → Nat → Except Abort (List Nat)
  | [], _ => .ok []
  | b :: bs, j =>
    if b then
      match x.at j with
      | .error e => .error e
      | .ok r =>
        match maskRows x bs (j + 1) with
        | .error e => .error e
        | .ok rs => .ok (r :: rs)
    else maskRows x bs (j + 1)

/-- view.go:73-87 `MaskView`. The result keeps the capacity of the mask's length: the slots after the
kept rows hold zeros. -/
def DF.maskView (df : DF) (mask : List Bool) : Except Abort DF :=
  match maskRows df.idx mask 0 with
  | .error e => .error e
  | .ok rs =>
    .ok { df.view with idx := ⟨rs ++ List.replicate (mask.length - rs.length) 0, rs.length⟩,
                       indexViewed := true }

/-- view.go:316-325 `ReverseView`. -/
def DF.reverseView (df : DF) : DF :=
  { df.view with idx := Idx.mk' df.rows.reverse, indexViewed := true }

/-- inplace.go:225, 229, 233, 237: `df.X[col] = vals[from:to]` for one column. -/
def resliceCol (a b : Int) (_ : Key) (s : Slice) (h : Heap F) : Except Abort (Slice × Heap F) :=
  match s.reslice a b with
  | .error e => .error e
  | .ok s => .ok (s, h)

/-- inplace.go:211-243 `cut`. -/
def DF.cut (df : DF) (from_ to : Int) (h : Heap F) : Except Abort (DF × Heap F) :=
  let worthReallocating := decide (to - from_ > 10 * (numColumns (h.tab df.tab) : Int))
  if df.indexViewed || (df.sharedMaps && !worthReallocating) then
    match df.idx.reslice from_ to with
    | .error e => .error e
    | .ok x => .ok ({ df with idx := x, indexViewed := true }, h)
  else
    let (raw, h) := df.toRaw.own h
    match df.idx.reslice 0 (to - from_) with
    | .error e => .error e
    | .ok x =>
      match mapCols (resliceCol from_ to) (h.tab raw.tab) h with
      | .error e => .error e
      | .ok (t, h) =>
        let h := h.setTab raw.tab t
        let (sh, h) := hdrAddEach h raw.shared (tabNames t)
        .ok ({ df with toRaw := { raw with shared := sh }, idx := x }, h)

/-- view.go:46-60 `SliceView`. -/
def DF.sliceView (df : DF) (from_ to : Int) (h : Heap F) : Except Abort (DF × Heap F) :=
  let n : Int := df.numRows
  let from_ := if from_ < 0 then from_ + (n + 1) else from_
  let to := if to < 0 then to + (n + 1) else to
  if from_ > to then (df.reverseView.view).cut to from_ h
  else df.view.cut from_ to h

/-- view.go:90-128 `ColumnView`. `shared` still refers to the parent's map when that one is not nil. -/
def DF.columnView (df : DF) (cols : List GoStr) (h : Heap F) : DF × Heap F :=
  if cols = [] then (df.view, h)
  else
    let (t, h) := h.newTab []
    let r := { df.view with tab := t, sharedMaps := false, strHdr := none }
    let (sh, h) := hdrAdd h r.shared cols
    let stringCols := hdrList h df.strHdr
    let sel := (h.tab df.tab).filter (fun e => decide (e.1.2 ∈ cols))
    let h := h.setTab t sel
    let (st, h) := hdrAddEach h none ((namesOf sel .obj).filter (fun c => decide (c ∈ stringCols)))
    ({ r with shared := sh, strHdr := st }, h)

/-- view.go:137-141 `ShuffleView`. `perm` is what `rand.Shuffle` leaves in the slice. -/
def DF.shuffleView (df : DF) (perm : List Nat) (h : Heap F) : Except Abort (DF × Heap F) :=
  df.indexView (perm.map Int.ofNat) h

/-- view.go:147-160 `SampleView`. -/
def DF.sampleView (df : DF) (n : Int) (replacement : Bool) (perm : List Nat) (h : Heap F) :
    Except Abort (DF × Heap F) :=
  if replacement then .error .panic
  else if n > df.numRows then .error .panic
  else
    match df.shuffleView perm h with
    | .error e => .error e
    | .ok (r, h) =>
      match r.idx.reslice 0 n with
      | .error e => .error e
      | .ok x => .ok ({ r with idx := x }, h)

/-- The loop view.go:213-218 followed by the last batch (219-222): `m` full batches from row `i`, then
the rest. -/
def DF.splitLoop (df : DF) (b : Nat) : Nat → Nat → Heap F → Except Abort (List DF × Heap F)
  | i, 0, h =>
    match df.view.cut i df.numRows h with
    | .error e => .error e
    | .ok (d, h) => .ok ([d], h)
  | i, m + 1, h =>
    match df.view.cut i (i + b) h with
    | .error e => .error e
    | .ok (d, h) =>
      match DF.splitLoop df b (i + b) m h with
      | .error e => .error e
      | .ok (ds, h) => .ok (d :: ds, h)

/-- view.go:199-225 `SplitView`. -/
def DF.splitView (df : DF) (batchSize : Int) (h : Heap F) : Except Abort (List DF × Heap F) :=
  if batchSize ≤ 0 then .error .panic
  else
    let b := batchSize.toNat
    let n := df.numRows / b
    let n := if df.numRows % b ≠ 0 then n + 1 else n
    if n ≤ 1 then .ok ([df.view], h) else df.splitLoop b 0 (n - 1) h

/-- view.go:166-194 `SplitNView`. (The padding dataframes are one and the same pointer in the code.) -/
def DF.splitNView (df : DF) (n : Int) (h : Heap F) : Except Abort (List DF × Heap F) :=
  if n < 0 then .error .panic
  else if n = 0 then .ok ([], h)
  else if n = 1 ∨ df.numRows = 0 then .ok ([df.view], h)
  else
    let nn := n.toNat
    let b := df.numRows / nn
    let b := if df.numRows % nn ≠ 0 then b + 1 else b
    match df.splitView b h with
    | .error e => .error e
    | .ok (ds, h) =>
      if ds.length < nn then
        let (e, h) := emptyDataFrame h 0 df.maxCPU
        .ok (ds ++ List.replicate (nn - ds.length) e, h)
      else .ok (ds, h)

/-- view.go:233-243 `SplitTrainTestViews`. -/
def DF.splitTrainTestViews [GoFloat F] (df : DF) (ratio : F) (h : Heap F) :
    Except Abort ((DF × DF) × Heap F) :=
  if GoFloat.lt ratio (GoFloat.zero : F) || GoFloat.lt (GoFloat.one : F) ratio then .error .panic
  else
    let nRows : Int := df.numRows
    let n := GoFloat.trunc (GoFloat.mul (GoFloat.ofInt nRows) ratio : F)
    match df.sliceView 0 (nRows - n) h with
    | .error e => .error e
    | .ok (train, h) =>
      match df.sliceView (nRows - n) nRows h with
      | .error e => .error e
      | .ok (test, h) => .ok ((train, test), h)

/-- The bool a bool column's element is. -/
def asBool : Val F → Bool
  | .bool b => b
  | _ => false

/-- The stable partition of view.go:254-263: positions of the false values, then of the true ones. -/
def boolOrder (vals : List (Val F)) : List Nat :=
  let ps := vals.zipIdx
  ((ps.filter (fun p => !asBool p.1)).map (·.2)) ++ ((ps.filter (fun p => asBool p.1)).map (·.2))

/-- The float a float column's element is. -/
def asFloat [GoFloat F] : Val F → F
  | .float x => x
  | _ => GoFloat.zero

/-- `float64(vals[i])` for an int column's element. -/
def intAsFloat [GoFloat F] : Val F → F
  | .int n => GoFloat.ofInt n
  | _ => GoFloat.zero

/-- view.go:251-280 `SortedView`. `argsort` is utils.go:17-29 `FloatArgSort` around gonum's
`floats.Argsort` (the order it returns; the copy it sorts is private). -/
def DF.sortedView [GoFloat F] (argsort : List F → List Nat) (df : DF) (c : GoStr) (h : Heap F) :
    Except Abort (DF × Heap F) :=
  match AMap.get (h.tab df.tab) (.bool, c) with
  | some s =>
    match gather h s df.rows with
    | .error e => .error e
    | .ok vs => df.indexView ((boolOrder vs).map Int.ofNat) h
  | none =>
    match AMap.get (h.tab df.tab) (.float, c) with
    | some s =>
      match gather h s df.rows with
      | .error e => .error e
      | .ok vs => df.indexView ((argsort (vs.map asFloat)).map Int.ofNat) h
    | none =>
      match AMap.get (h.tab df.tab) (.int, c) with
      | some s =>
        match gather h s df.rows with
        | .error e => .error e
        | .ok vs => df.indexView ((argsort (vs.map intAsFloat)).map Int.ofNat) h
      | none => .error .panic

/-- view.go:293-313 `TopView`. When all the rows are asked for unsorted it returns `df` itself (the
same pointer). -/
def DF.topView [GoFloat F] (argsort : List F → List Nat) (df : DF) (c : GoStr) (n : Int)
    (ascending sorted : Bool) (h : Heap F) : Except Abort (DF × Heap F) :=
  let len : Int := df.numRows
  if n ≥ len ∧ sorted = false then .ok (df, h)
  else if n < 0 ∧ ¬ n ≥ len then .error .panic
  else
    let n := if n ≥ len then len else n
    match df.sortedView argsort c h with
    | .error e => .error e
    | .ok (r, h) =>
      if ascending then
        match r.idx.reslice 0 n with
        | .error e => .error e
        | .ok x => .ok ({ r with idx := x }, h)
      else
        match r.idx.reslice (len - n) r.idx.len with
        | .error e => .error e
        | .ok x =>
          let r := { r with idx := x }
          .ok (if sorted then r.reverseView else r, h)

/-- `sort.Ints` on row positions: insertion into a sorted list. (Any sorting algorithm gives the same
list.) -/
def insertNat (x : Nat) : List Nat → List Nat
  | [] => [x]
  | y :: ys => if x ≤ y then x :: y :: ys else y :: insertNat x ys

/-- `sort.Ints`. -/
def sortNat : List Nat → List Nat
  | [] => []
  | x :: xs => insertNat x (sortNat xs)

/-- view.go:423-430 `ResetIndexView`. -/
def DF.resetIndexView (df : DF) : DF := { df.view with idx := Idx.mk' (sortNat df.rows) }

/-- view.go:394-400 `DetachedView`. -/
def DF.detachedView (df : DF) (cols : List GoStr) (h : Heap F) : DF × Heap F :=
  df.view.withRaw (df.view.toRaw.unshare cols h)

/-- hash/fnv `New64a` applied to a byte string. -/
def fnv1a64 (s : GoStr) : UInt64 :=
  s.foldl (fun (acc : UInt64) (b : UInt8) => (acc ^^^ b.toUInt64) * 1099511628211)
    14695981039346656037

/-- view.go:329 `maxInt` on a 64-bit system. -/
def maxInt : Nat := 2 ^ 63 - 1

/-- view.go:338-349: the int stored for an object cell. -/
def hashVal : Val F → Int
  | .str s => ((fnv1a64 s).toNat % maxInt : Nat)
  | _ => -1

/-- raw_data.go:468-470 `CreateColumnQueue` and what its callers do with the queue:
run a `[]string` of jobs through `utils.StringQ` (utils/string_q.go), sequential summary: jobs run
one after the other in some order `order` of the keys. A worker stops at an empty key and no worker
is started when the worker count is not positive, so in these cases the final `Wait` never returns.
`Verif.Props.Pool` relates this summary to the interleaved transition system. -/
def runQueue {σ : Type} (keys order : List GoStr) (maxWorkers : Int)
    (job : GoStr → σ → Except Abort σ) (s : σ) : Except Abort σ :=
  if keys = [] then .ok s
  else if maxWorkers ≤ 0 ∨ ([] : GoStr) ∈ keys then .error .hang
  else order.foldlM (fun s k => job k s) s

/-- view.go:331-352 `workerHashes`, one column: `out` is the new int column. -/
def hashColumn (src dst : Slice) : List Nat → Heap F → Except Abort (Heap F)
  | [], h => .ok h
  | i :: is, h =>
    match h.cell src i with
    | none => .error .panic
    | some v =>
      match h.write dst i (.int (hashVal v)) with
      | .error e => .error e
      | .ok h => hashColumn src dst is h

/-- view.go:361-384 `HashStringsView`. `order` is the order in which the workers take the columns. -/
def DF.hashStringsView [GoFloat F] (df : DF) (cols order : List GoStr) (h : Heap F) :
    Except Abort (DF × Heap F) :=
  if cols = [] then .ok (df.view, h)
  else
    let (hd, h) := header h df.tab
    let (hd, h) := hdrExcept h hd cols
    let others := hdrList h hd
    let (r, h) := df.columnView others h
    let h := allocLoop .int (numAllocatedRows (h.tab df.tab)) r.tab cols h
    match runQueue cols order df.maxCPU (fun c h =>
        hashColumn (tabCol (h.tab df.tab) (.obj, c)) (tabCol (h.tab r.tab) (.int, c)) df.rows h) h
      with
    | .error e => .error e
    | .ok h => .ok (r, h)

/-! ### inplace.go -/

/-- `for j, i := range df.indices { col[i] = values[j] }` (inplace.go:95-97 and the like). -/
def overwriteLoop (s : Slice) : List Nat → List (Val F) → Heap F → Except Abort (Heap F)
  | [], _, h => .ok h
  | _ :: _, [], _ => .error .panic
  | i :: is, v :: vs, h =>
    match h.write s i v with
    | .error e => .error e
    | .ok h => overwriteLoop s is vs h

/-- inplace.go:88-209 `OverwriteInts`, `OverwriteFloats64`, `OverwriteFloats32`, `OverwriteBools`,
`OverwriteObjects`, `OverwriteStrings`. `asString` says whether a created object column is marked as
string (`OverwriteStrings`, or `OverwriteObjects` with `StringObject`). -/
def DF.overwrite [GoFloat F] (df : DF) (k : Kind) (c : GoStr) (vals : List (Val F))
    (asString : Bool) (h : Heap F) : Except Abort (DF × Heap F) :=
  let (df, h) :=
    if (tabCol (h.tab df.tab) (k, c)).len = 0 then
      if k = .obj ∧ asString then df.withRaw (df.toRaw.allocStrings [c] h)
      else df.withRaw (df.toRaw.alloc k [c] h)
    else (df, h)
  match overwriteLoop (tabCol (h.tab df.tab) (k, c)) df.rows vals h with
  | .error e => .error e
  | .ok h => .ok (df, h)

/-- x/text encodings: partial decoding and encoding functions per encoding. -/
structure Codec where
  dec : Nat → GoStr → Option GoStr
  enc : Nat → GoStr → Option GoStr

/-- inplace.go:13-26: decode (nil decoder = UTF-8) then encode. `none` is an error. -/
def transcode (cd : Codec) (from_ to : Option Nat) (s : GoStr) : Option GoStr :=
  match (match from_ with | none => some s | some e => cd.dec e s) with
  | none => none
  | some u => match to with | none => some u | some e => cd.enc e u

/-- inplace.go:7-32 `inplaceEncoding`: the new heap and, on error, the position where it stopped. -/
def inplaceEncoding (cd : Codec) (from_ to : Option Nat) (s : Slice) :
    List Nat → Nat → Heap F → Except Abort (Option Nat × Heap F)
  | [], _, h => .ok (none, h)
  | i :: is, j, h =>
    match h.cell s i with
    | none => .error .panic
    | some .nil => inplaceEncoding cd from_ to s is (j + 1) h
    | some (.str v) =>
      match transcode cd from_ to v with
      | none => .ok (some j, h)
      | some w =>
        match h.write s i (.str w) with
        | .error e => .error e
        | .ok h => inplaceEncoding cd from_ to s is (j + 1) h
    | some _ => .error .panic

/-- inplace.go:69-71: revert the columns done before. -/
def revertCols (cd : Codec) (from_ to : Option Nat) (tab : Nat) (rows : List Nat) :
    List GoStr → Heap F → Except Abort (Heap F)
  | [], h => .ok h
  | c :: cs, h =>
    match inplaceEncoding cd from_ to (tabCol (h.tab tab) (.obj, c)) rows 0 h with
    | .error e => .error e
    | .ok (_, h) => revertCols cd from_ to tab rows cs h

/-- inplace.go:53-74: the loop over the string columns; `done` are the columns already transcoded.
`true` = error returned. -/
def encodeLoop (cd : Codec) (old new : Option Nat) (tab : Nat) (rows : List Nat) :
    List GoStr → List GoStr → Heap F → Except Abort (Bool × Heap F)
  | [], _, h => .ok (false, h)
  | c :: cs, done, h =>
    match inplaceEncoding cd old new (tabCol (h.tab tab) (.obj, c)) rows 0 h with
    | .error e => .error e
    | .ok (none, h) => encodeLoop cd old new tab rows cs (done ++ [c]) h
    | .ok (some w, h) =>
      match inplaceEncoding cd new old (tabCol (h.tab tab) (.obj, c)) (rows.take w) 0 h with
      | .error e => .error e
      | .ok (_, h) =>
        match revertCols cd new old tab rows done h with
        | .error e => .error e
        | .ok h => .ok (true, h)

/-- inplace.go:38-78 `Encode`: `true` = an error is returned. -/
def DF.encode (cd : Codec) (df : DF) (new : Option Nat) (h : Heap F) :
    Except Abort ((Bool × DF) × Heap F) :=
  if df.enc = new then .ok ((false, df), h)
  else
    match encodeLoop cd df.enc new df.tab df.rows (hdrList h df.strHdr) [] h with
    | .error e => .error e
    | .ok (true, h) => .ok ((true, df), h)
    | .ok (false, h) => .ok ((false, { df with enc := new }), h)

/-! ### checks.go, concat.go -/

/-- checks.go:12-41 `CheckNoColumnOverlap`, one dataframe: the names seen so far grow, `none` is an
error. -/
def overlapStep : List GoStr → List GoStr → Option (List GoStr)
  | seen, [] => some seen
  | seen, c :: cs => if c ∈ seen then none else overlapStep (c :: seen) cs

/-- checks.go:12-41 `CheckNoColumnOverlap`: `true` = nil error. -/
def checkNoColumnOverlap (h : Heap F) (dfs : List DF) : Bool :=
  (dfs.foldlM (fun seen df => overlapStep seen (tabNames (h.tab df.tab))) ([] : List GoStr)).isSome

/-- Whether an object holds a string. -/
def Val.isString : Val F → Bool
  | .str _ => true
  | _ => false

/-- checks.go:43-89 `CheckConsistency` (what it returns; the messages to the test object are left out). -/
def Raw.checkConsistency (data : Raw) (h : Heap F) : Bool :=
  let t := h.tab data.tab
  t.all (fun e => decide (e.2.len = numAllocatedRows t)) &&
    ((hdrList h data.strHdr).all (fun c => (AMap.get t (.obj, c)).isSome) &&
      t.all (fun e => decide (e.1.1 ≠ .obj) || (hdrContains h data.strHdr e.1.2 || (h.read e.2).all (fun v => !v.isString))))

/-- The loop concat.go:43-45 `vals[j + offset] = from[i]`. -/
def copyRows (src dst : Slice) : Nat → List Nat → Heap F → Except Abort (Heap F)
  | _, [], h => .ok h
  | off, i :: is, h =>
    match h.cell src i with
    | none => .error .panic
    | some v =>
      match h.write dst off v with
      | .error e => .error e
      | .ok h => copyRows src dst (off + 1) is h

/-- concat.go:41-76, one dataframe: copy its rows into every result column. `none` = a column is
missing. -/
def concatCols (srcTab : Table) (rows : List Nat) (off : Nat) :
    Table → Heap F → Except Abort (Option (Heap F))
  | [], h => .ok (some h)
  | (k, dst) :: t, h =>
    match AMap.get srcTab k with
    | none => .ok none
    | some src =>
      match copyRows src dst off rows h with
      | .error e => .error e
      | .ok h => concatCols srcTab rows off t h

/-- concat.go:37-78: the loop over the dataframes. -/
def concatLoop (res : DF) : List DF → Nat → Option Nat → Heap F →
    Except Abort (Option (Option Nat × Heap F))
  | [], _, st, h => .ok (some (st, h))
  | d :: ds, off, st, h =>
    let (st, h) := hdrAnd h st [d.strHdr]
    match concatCols (h.tab d.tab) d.rows off (h.tab res.tab) h with
    | .error e => .error e
    | .ok none => .ok none
    | .ok (some h) => concatLoop res ds (off + d.numRows) st h

/-- concat.go:24-35: `result.X[col] = make([]T, nRows)` for one column. -/
def makeCol [GoFloat F] (n : Nat) (k : Key) (_ : Slice) (h : Heap F) : Slice × Heap F :=
  h.newArr (List.replicate n k.1.zero)

/-- concat.go:13-80 `RowConcat`; `none` = an error is returned. -/
def rowConcat [GoFloat F] (dfs : List DF) (h : Heap F) : Except Abort (Option (DF × Heap F)) :=
  match dfs with
  | [] => .ok none
  | d0 :: _ =>
    let nRows := (dfs.map DF.numRows).sum
    let (r, h) := emptyDataFrame h nRows d0.maxCPU
    let (t, h) := mapColsT (makeCol nRows) (h.tab d0.tab) h
    let h := h.setTab r.tab t
    match concatLoop r dfs 0 r.strHdr h with
    | .error e => .error e
    | .ok none => .ok none
    | .ok (some (st, h)) => .ok (some ({ r with strHdr := st }, h))

/-- concat.go:130-151: merge the columns of the remaining dataframes into the result. Line 149 throws
away the header returned by `And`. -/
def mergeViews : List DF → DF → Heap F → DF × Heap F
  | [], r, h => (r, h)
  | d :: ds, r, h =>
    let es := h.tab d.tab
    let h := h.setTab r.tab (tabSetAll (h.tab r.tab) es)
    let (sh, h) := hdrAddEach h r.shared (tabNames es)
    let (_, h) := hdrAnd h r.strHdr [d.strHdr]
    mergeViews ds { r with shared := sh } h

/-- concat.go:109-152 `ColumnConcatView`; `none` = an error is returned; panics on an empty list. -/
def columnConcatView (dfs : List DF) (h : Heap F) : Except Abort (Option (DF × Heap F)) :=
  if checkNoColumnOverlap h dfs = false then .ok none
  else
    match dfs with
    | [] => .error .panic
    | d0 :: rest =>
      if dfs.any (·.indexViewed) ∧
          rest.any (fun d => hashIntSlice d.rows != hashIntSlice d0.rows) then .ok none
      else
        let (r, h) := d0.shallowCopy h
        .ok (some (mergeViews rest r h))

/-- concat.go:171-174: copy each dataframe. -/
def copyAll : List DF → Heap F → Except Abort (List DF × Heap F)
  | [], h => .ok ([], h)
  | d :: ds, h =>
    match d.copy h with
    | .error e => .error e
    | .ok (c, h) =>
      match copyAll ds h with
      | .error e => .error e
      | .ok (cs, h) => .ok (c :: cs, h)

/-- concat.go:161-183 `ColumnCopyConcat`; `none` = an error is returned; panics on an empty list. -/
def columnCopyConcat (dfs : List DF) (h : Heap F) : Except Abort (Option (DF × Heap F)) :=
  match dfs with
  | [] => .error .panic
  | d0 :: rest =>
    if rest.any (fun d => d.numRows != d0.numRows) then .ok none
    else
      match copyAll dfs h with
      | .error e => .error e
      | .ok (cs, h) =>
        match columnConcatView cs h with
        | .error e => .error e
        | .ok none => .ok none
        | .ok (some (r, h)) => .ok (some ({ r with shared := none }, h))

/-- concat.go:91-100 `ColumnSmartConcat`. -/
def columnSmartConcat (dfs : List DF) (h : Heap F) : Except Abort (Option (DF × Heap F)) :=
  match columnConcatView dfs h with
  | .error e => .error e
  | .ok (some r) => .ok (some r)
  | .ok none => columnCopyConcat dfs h

/-! ### conversions.go -/

/-- conversions.go:9-37 `CopyValuesToInterfaces`. -/
def DF.copyValuesToInterfaces (df : DF) (h : Heap F) (c : GoStr) : Except Abort (List (Val F)) :=
  match AMap.get (h.tab df.tab) (.obj, c) with
  | some s => gather h s df.rows
  | none =>
    match AMap.get (h.tab df.tab) (.float, c) with
    | some s => gather h s df.rows
    | none =>
      match AMap.get (h.tab df.tab) (.int, c) with
      | some s => gather h s df.rows
      | none =>
        match AMap.get (h.tab df.tab) (.bool, c) with
        | some s => gather h s df.rows
        | none => .error .panic

/-- conversions.go:53-65: the loop of `LabelToInt`. -/
def labelLoop (h : Heap F) (s : Slice) :
    List Nat → AMap GoStr Nat → Except Abort (List Int × AMap GoStr Nat)
  | [], m => .ok ([], m)
  | i :: is, m =>
    match h.cell s i with
    | none => .error .panic
    | some .nil =>
      match labelLoop h s is m with
      | .error e => .error e
      | .ok (l, m) => .ok (-1 :: l, m)
    | some (.str v) =>
      let (ord, m) := match AMap.get m v with
        | some o => (o, m)
        | none => (m.length, AMap.set m v m.length)
      match labelLoop h s is m with
      | .error e => .error e
      | .ok (l, m) => .ok ((ord : Int) :: l, m)
    | some _ => .error .panic

/-- conversions.go:45-67 `LabelToInt`. -/
def DF.labelToInt (df : DF) (h : Heap F) (c : GoStr) : Except Abort (List Int × AMap GoStr Nat) :=
  if c ∈ hdrList h df.strHdr then labelLoop h (tabCol (h.tab df.tab) (.obj, c)) df.rows []
  else .error .panic

end Verif
