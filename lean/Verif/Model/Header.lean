import Verif.Go.Basic

/-! Model of dataframe/column_header.go: `ColumnHeader`, a `map[string]bool` behind a reference that
may be nil (`none`). The code only ever stores `true`, so the map is the set of its keys. -/

namespace Verif
variable {F : Type}

/-- `h.columns[col] = true` on the key set. -/
def sinsert (s : List GoStr) (c : GoStr) : List GoStr := if c ∈ s then s else s ++ [c]

/-- Insert several names. -/
def sinsertAll (s : List GoStr) (cs : List GoStr) : List GoStr := cs.foldl sinsert s

/-- `delete(h.columns, col)` for each `col`. -/
def sremove (s : List GoStr) (cs : List GoStr) : List GoStr := s.filter (fun x => decide (x ∉ cs))

/-- The names in a header; column_header.go:25-32 `NameSet`, 34-46 `NameList`, 198-203 `get`; utils.go:52-58 `ToStringSet`, 60-68 `StringSetKeys`
(nil behaves as the empty set). -/
def hdrList (h : Heap F) (o : Option Nat) : List GoStr :=
  match o with
  | none => []
  | some i => h.hdr i

/-- column_header.go:16-23 `Num`. -/
def hdrNum (h : Heap F) (o : Option Nat) : Nat := (hdrList h o).length

/-- column_header.go:191-196 `contains`. -/
def hdrContains (h : Heap F) (o : Option Nat) (c : GoStr) : Bool := decide (c ∈ hdrList h o)

/-- column_header.go:173-180 `add` (pointer receiver: allocates the map when nil). -/
def hdrAdd (h : Heap F) (o : Option Nat) (cs : List GoStr) : Option Nat × Heap F :=
  match o with
  | none => let (i, h) := h.newHdr (sinsertAll [] cs); (some i, h)
  | some i => (some i, h.setHdr i (sinsertAll (h.hdr i) cs))

/-- A loop `for ... { hdr.add(col) }`: nothing happens (no allocation) when there is no iteration. -/
def hdrAddEach (h : Heap F) (o : Option Nat) (cs : List GoStr) : Option Nat × Heap F :=
  match cs with
  | [] => (o, h)
  | _ => hdrAdd h o cs

/-- column_header.go:182-189 `remove` (value receiver: nil stays nil). -/
def hdrRemove (h : Heap F) (o : Option Nat) (cs : List GoStr) : Heap F :=
  match o with
  | none => h
  | some i => h.setHdr i (sremove (h.hdr i) cs)

/-- column_header.go:93-105 `Copy`: a new map, nil for nil. -/
def hdrCopy (h : Heap F) (o : Option Nat) : Option Nat × Heap F :=
  match o with
  | none => (none, h)
  | some i => let (j, h) := h.newHdr (h.hdr i); (some j, h)

/-- column_header.go:9-15 `Columns`. -/
def hdrColumns (h : Heap F) (cs : List GoStr) : Option Nat × Heap F :=
  let (i, h) := h.newHdr (sinsertAll [] cs); (some i, h)

/-- column_header.go:79-91 `And`: allocates when the receiver is nil, otherwise adds in place;
returns a header over the (possibly new) map. -/
def hdrAnd (h : Heap F) (o : Option Nat) (others : List (Option Nat)) : Option Nat × Heap F :=
  let (i, h) := match o with
    | none => h.newHdr []
    | some i => (i, h)
  (some i, others.foldl (fun h o' => h.setHdr i (sinsertAll (h.hdr i) (hdrList h o'))) h)

/-- column_header.go:65-75 `Except`: removes in place. -/
def hdrExcept (h : Heap F) (o : Option Nat) (cs : List GoStr) : Option Nat × Heap F :=
  (o, hdrRemove h o cs)

/-- column_header.go:51-63 `ExceptHeader`: removes in place the names of the other headers.
(When a header is excepted from itself the Go loop deletes every key, as here.) -/
def hdrExceptHeader (h : Heap F) (o : Option Nat) (others : List (Option Nat)) :
    Option Nat × Heap F :=
  match o with
  | none => (none, h)
  | some i => (some i, others.foldl (fun h o' => h.setHdr i (sremove (h.hdr i) (hdrList h o'))) h)

/-- The names of the columns of one kind in a table. -/
def namesOf (t : Table) (k : Kind) : List GoStr :=
  (t.filter (fun e => decide (e.1.1 = k))).map (·.1.2)

/-- column_header.go:109-118 `IntHeader`, 123-132 `ObjectHeader`, 136-145 `FloatHeader`,
149-158 `BoolHeader`: a nil header when there is no such column, otherwise a new map. -/
def kindHeader (h : Heap F) (tab : Nat) (k : Kind) : Option Nat × Heap F :=
  match namesOf (h.tab tab) k with
  | [] => (none, h)
  | ns => let (i, h) := h.newHdr (sinsertAll [] ns); (some i, h)

/-- column_header.go:169-171 `Header`. The arguments of `And` are evaluated after its receiver. -/
def header (h : Heap F) (tab : Nat) : Option Nat × Heap F :=
  let (i, h) := kindHeader h tab .int
  let (b, h) := kindHeader h tab .bool
  let (o, h) := kindHeader h tab .obj
  let (f, h) := kindHeader h tab .float
  hdrAnd h i [b, o, f]

end Verif
