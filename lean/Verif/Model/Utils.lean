import Verif.Go.Basic

/-! Model of utils/utils.go and utils/group_indexer.go. -/

namespace Verif

/-- The loop of `MakeRange` (utils/utils.go:11-13): fill the remaining `k` slots, starting at `n`.
A write past the last slot panics; slots not reached keep the zero of `make`. -/
def makeRangeFill (n to s : Int) : Nat → Except Abort (List Int)
  | 0 => if n < to then .error .panic else .ok []
  | k + 1 =>
    if n < to then
      match makeRangeFill (n + s) to s k with
      | .ok r => .ok (n :: r)
      | .error e => .error e
    else .ok (List.replicate (k + 1) 0)

/-- utils/utils.go:9-15 `MakeRange`. Division by zero and a negative `make` size panic. Integers are
unbounded. -/
def makeRange (from_ to s : Int) : Except Abort (List Int) :=
  if s = 0 then .error .panic
  else
    let size := (to - from_).tdiv s
    if size < 0 then .error .panic else makeRangeFill from_ to s size.toNat

/-- utils/utils.go:44-50 `HashIntSlice`, with 64-bit wrap-around. -/
def hashIntSlice (l : List Nat) : UInt64 :=
  l.foldl (fun r v => 7 * r + UInt64.ofNat v) (UInt64.ofNat l.length)

/-- utils/utils.go:70-77 `IndexOfString`. -/
def indexOfString (e : GoStr) : List GoStr → Nat → Int
  | [], _ => -1
  | v :: vs, k => if e = v then k else indexOfString e vs (k + 1)

/-- utils/group_indexer.go:5-11 `GroupIndexer`. -/
structure GroupIndexer where
  nGroups : Int
  groupSize : Int
  elementIdx : Int
  end_ : Int
  groupIdx : Int
  deriving DecidableEq, Repr

/-- utils/group_indexer.go:13-32 `CreateGroupIndexer` / `Initialize`. A negative `nGroups` panics, and
so does the division when it is zero (also after clamping to `nElements = 0`). -/
def createGroupIndexer (nElements nGroups : Int) : Except Abort GroupIndexer :=
  if nGroups < 0 then .error .panic
  else
    let nGroups := if nGroups > nElements then nElements else nGroups
    if nGroups = 0 then .error .panic
    else
      let gs := nElements.tdiv nGroups
      let gs := if nElements.tmod nGroups ≠ 0 then gs + 1 else gs
      .ok ⟨nGroups, gs, 0, nElements, 0⟩

/-- utils/group_indexer.go:34-36 `HasNext`. -/
def GroupIndexer.hasNext (g : GroupIndexer) : Bool := decide (g.elementIdx < g.end_)

/-- utils/group_indexer.go:38-48 `Next`: (group, left, right) and the advanced indexer. -/
def GroupIndexer.next (g : GroupIndexer) : (Int × Int × Int) × GroupIndexer :=
  let current := g.elementIdx
  let nextIdx := current + g.groupSize
  let nextIdx := if nextIdx > g.end_ then g.end_ else nextIdx
  ((g.groupIdx, current, nextIdx),
   { g with elementIdx := nextIdx, groupIdx := g.groupIdx + 1 })

/-- The loop `for indexer.HasNext() { ... indexer.Next() ... }` (utils/utils.go:37-40, also used by
the callers of `GroupIndexer`): the triples produced. The fuel is the number of elements plus one;
`none` means the loop is still running when the fuel is spent. -/
def GroupIndexer.run (g : GroupIndexer) : Nat → Option (List (Int × Int × Int))
  | 0 => none
  | fuel + 1 =>
    if g.hasNext then
      match g.next with
      | (t, g') => (g'.run fuel).map (t :: ·)
    else some []

/-- The assignments `result[i] = strings[left:right]` of utils/utils.go:37-40: index and bounds
checked, group slots start out nil. -/
def assignGroups (strs : List GoStr) :
    List (List GoStr) → List (Int × Int × Int) → Except Abort (List (List GoStr))
  | res, [] => .ok res
  | res, (i, l, r) :: ts =>
    if 0 ≤ i ∧ i < res.length ∧ 0 ≤ l ∧ l ≤ r ∧ r ≤ strs.length then
      assignGroups strs (res.set i.toNat ((strs.drop l.toNat).take (r - l).toNat)) ts
    else .error .panic

/-- utils/utils.go:31-42 `SplitStringSlice` (nil is the empty list). -/
def splitStringSlice (strs : List GoStr) (nGroups : Int) : Except Abort (List (List GoStr)) :=
  if strs.length = 0 ∨ nGroups = 0 then .ok []
  else
    match createGroupIndexer strs.length nGroups with
    | .error e => .error e
    | .ok g =>
      match g.run (strs.length + 1) with
      | none => .error .hang
      | some ts => assignGroups strs (List.replicate g.nGroups.toNat []) ts

end Verif
