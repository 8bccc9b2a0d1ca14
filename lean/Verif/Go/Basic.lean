/-
Runtime layer: the parts of the Go language that the library's behaviour depends on.

These definitions model Go itself (the language specification), not a file of /repo: byte strings,
panics, blocking, finite maps, slices with a capacity, and a heap of shared objects.
-/

namespace Verif

/-- Go `string`: an immutable byte sequence. -/
abbrev GoStr := List UInt8

open Lean in
/-- `b!"text"` is the UTF-8 byte list of a literal (reduces in the kernel, unlike `String.toUTF8`). -/
macro:max "b!" s:str : term => do
  let bs := s.getString.toUTF8.toList
  let elems ← bs.mapM fun b => `(($(quote b.toNat) : UInt8))
  `(([$(elems.toArray),*] : GoStr))

/-- How a Go call can fail to return: a run-time panic, or blocking forever. -/
inductive Abort where
  | panic
  | hang
  deriving DecidableEq, Repr

/-! ### Finite maps (Go `map`)

An association list. The order of the list stands for the (unspecified) iteration order of the Go
map; statements only ever depend on `get`. -/

/-- Go `map[κ]α`. -/
abbrev AMap (κ α : Type) := List (κ × α)

namespace AMap
variable {κ α β : Type} [DecidableEq κ]

/-- `v, ok := m[k]`. -/
def get : AMap κ α → κ → Option α
  | [], _ => none
  | (k, v) :: m, q => if k = q then some v else get m q

/-- `m[k] = v`. -/
def set : AMap κ α → κ → α → AMap κ α
  | [], k, v => [(k, v)]
  | (k', v') :: m, k, v => if k' = k then (k, v) :: m else (k', v') :: set m k v

/-- `delete(m, k)`. -/
def erase : AMap κ α → κ → AMap κ α
  | [], _ => []
  | (k', v') :: m, k => if k' = k then erase m k else (k', v') :: erase m k

/-- The keys, in iteration order. -/
def keys (m : AMap κ α) : List κ := m.map (·.1)

end AMap

/-! ### Slices -/

/-- A Go slice: backing array, offset of its first element, length, capacity. -/
structure Slice where
  arr : Nat
  off : Nat
  len : Nat
  cap : Nat
  deriving DecidableEq, Repr

/-- `s[a:b]` : legal iff `0 ≤ a ≤ b ≤ cap(s)` (capacity, not length). -/
def Slice.reslice (s : Slice) (a b : Int) : Except Abort Slice :=
  if 0 ≤ a ∧ a ≤ b ∧ b ≤ s.cap then
    .ok { arr := s.arr, off := s.off + a.toNat, len := (b - a).toNat, cap := s.cap - a.toNat }
  else .error .panic

/-- The nil slice. -/
def Slice.nil : Slice := ⟨0, 0, 0, 0⟩

/-- A slice of row positions. The code never writes an element of a `[]int` of row positions once
the slice is shared, so the content is kept by value: `data` is everything from the first element
up to the capacity, of which the first `len` elements are visible. -/
structure Idx where
  data : List Nat
  len : Nat
  deriving DecidableEq, Repr

/-- The visible elements. -/
def Idx.rows (x : Idx) : List Nat := x.data.take x.len

/-- `x[a:b]` for a slice of row positions: legal up to the capacity. -/
def Idx.reslice (x : Idx) (a b : Int) : Except Abort Idx :=
  if 0 ≤ a ∧ a ≤ b ∧ b ≤ x.data.length then
    .ok { data := x.data.drop a.toNat, len := (b - a).toNat }
  else .error .panic

/-- A freshly made slice (`len = cap`). -/
def Idx.mk' (l : List Nat) : Idx := ⟨l, l.length⟩

/-- `x[i]` for an element read with a Go `int`: panics outside `[0, len)`. -/
def Idx.at (x : Idx) (i : Int) : Except Abort Nat :=
  if 0 ≤ i then
    match x.rows[i.toNat]? with
    | some r => .ok r
    | none => .error .panic
  else .error .panic

/-! ### Values -/

/-- The operations of Go's `float64` (and its conversions) that the library uses. No law is assumed
here: theorems that only need `[GoFloat F]` hold for IEEE-754 arithmetic and for any other
semantics. -/
class GoFloat (F : Type) where
  zero : F
  one : F
  nan : F
  /-- `math.Inf(1)` -/
  posInf : F
  /-- `math.Inf(-1)` -/
  negInf : F
  add : F → F → F
  sub : F → F → F
  mul : F → F → F
  div : F → F → F
  neg : F → F
  abs : F → F
  sqrt : F → F
  lt : F → F → Bool
  le : F → F → Bool
  eq : F → F → Bool
  isNaN : F → Bool
  ofInt : Int → F
  trunc : F → Int

/-- The four typed column stores of a `RawData`. -/
inductive Kind where
  | float | int | bool | obj
  deriving DecidableEq, Repr

/-- A cell value: an element of a `[]float64`, `[]int`, `[]bool` or `[]interface{}`.
`nil`, `str` and `other` are interface values; `other` stands for any dynamic type but string. -/
inductive Val (F : Type) where
  | float (x : F)
  | int (n : Int)
  | bool (b : Bool)
  | nil
  | str (s : GoStr)
  | other (tag : Nat)
  deriving DecidableEq, Repr

/-- The zero value that `make` fills a column of that kind with. -/
def Kind.zero {F : Type} [GoFloat F] : Kind → Val F
  | .float => .float GoFloat.zero
  | .int => .int 0
  | .bool => .bool false
  | .obj => .nil

/-- A column name together with the typed store it lives in. -/
abbrev Key := Kind × GoStr

/-- The four maps `objects`, `floats`, `ints`, `bools` of one `RawData` (dataframe/raw_data.go:19-22).
The code always shares or replaces the four maps together, so they are one heap object. -/
abbrev Table := AMap Key Slice

/-- What the machine and the Go runtime decide: the number of cores (`runtime.NumCPU`) and the spare
capacity that a growing `append` reserves. -/
structure Runtime where
  numCPU : Nat
  numCPU_pos : 0 < numCPU
  spare : Nat → Nat

/-- The heap. Ids of all objects come from one counter. Typed column arrays, column tables, header
sets (`map[string]bool`) and mask arrays are separate stores. -/
structure Heap (F : Type) where
  rt : Runtime
  next : Nat
  arr : Nat → List (Val F)
  tab : Nat → Table
  hdr : Nat → List GoStr
  msk : Nat → List Bool

namespace Heap
variable {F : Type}

/-- `make([]T, ...)` filled with `xs`: a new array. -/
def newArr (h : Heap F) (xs : List (Val F)) : Slice × Heap F :=
  (⟨h.next, 0, xs.length, xs.length⟩,
   { h with next := h.next + 1, arr := fun i => if i = h.next then xs else h.arr i })

/-- Four new maps. -/
def newTab (h : Heap F) (t : Table) : Nat × Heap F :=
  (h.next, { h with next := h.next + 1, tab := fun i => if i = h.next then t else h.tab i })

/-- A new `map[string]bool`. -/
def newHdr (h : Heap F) (s : List GoStr) : Nat × Heap F :=
  (h.next, { h with next := h.next + 1, hdr := fun i => if i = h.next then s else h.hdr i })

/-- A new mask array of exactly these values. -/
def newMsk (h : Heap F) (m : List Bool) : Slice × Heap F :=
  (⟨h.next, 0, m.length, m.length⟩,
   { h with next := h.next + 1, msk := fun i => if i = h.next then m else h.msk i })

/-- Replace the content of a column table. -/
def setTab (h : Heap F) (id : Nat) (t : Table) : Heap F :=
  { h with tab := fun i => if i = id then t else h.tab i }

/-- Replace the content of a header set. -/
def setHdr (h : Heap F) (id : Nat) (s : List GoStr) : Heap F :=
  { h with hdr := fun i => if i = id then s else h.hdr i }

/-- Replace the content of a mask array. -/
def setMsk (h : Heap F) (id : Nat) (m : List Bool) : Heap F :=
  { h with msk := fun i => if i = id then m else h.msk i }

/-- Replace the content of a column array. -/
def setArr (h : Heap F) (id : Nat) (xs : List (Val F)) : Heap F :=
  { h with arr := fun i => if i = id then xs else h.arr i }

/-- The elements of a column slice. -/
def read (h : Heap F) (s : Slice) : List (Val F) := ((h.arr s.arr).drop s.off).take s.len

/-- `s[i]` (element `i` of a slice, `none` when out of range). -/
def cell (h : Heap F) (s : Slice) (i : Nat) : Option (Val F) :=
  if i < s.len then (h.arr s.arr)[s.off + i]? else none

/-- `s[i] = v`; panics when `i` is out of range. -/
def write (h : Heap F) (s : Slice) (i : Nat) (v : Val F) : Except Abort (Heap F) :=
  if i < s.len then .ok (h.setArr s.arr ((h.arr s.arr).set (s.off + i) v)) else .error .panic

end Heap

end Verif
