import Verif.Spec.Edit
import Verif.Spec.Builder

/-! Histories of API calls on any number of dataframes (C19).

A `World` is the heap and the dataframes made so far. A `Call` is one call of the library on dataframes
of the world, named by their position. `Call.run` appends the dataframes a call returns; an in-place
call replaces its receiver. A call that returns an error, or that names a position that does not exist,
leaves the world as it is. -/

namespace Verif
variable {F : Type}

/-- The heap and the dataframes made so far. -/
structure World (F : Type) where
  h : Heap F
  dfs : List DF

/-- A library call; the first argument is the receiver's position. -/
inductive Call (F : Type) where
  /-- a `DataBuilder` filled by `ops`, then `ToDataFrame()`; the builder is not used any more -/
  | build (ops : List (BOp F))
  | emptyDataFrame (n maxCPU : Int)
  | edit (i : Nat) (e : Edit F)
  | view (i : Nat)
  | indexView (i : Nat) (is : List Int)
  | sliceView (i : Nat) (a b : Int)
  | maskView (i : Nat) (m : List Bool)
  | columnView (i : Nat) (cols : List GoStr)
  | shuffleView (i : Nat) (perm : List Nat)
  | sampleView (i : Nat) (n : Int) (replacement : Bool) (perm : List Nat)
  | splitView (i : Nat) (batchSize : Int)
  | splitNView (i : Nat) (n : Int)
  | splitTrainTestViews (i : Nat) (ratio : F)
  | sortedView (i : Nat) (argsort : List F → List Nat) (c : GoStr)
  | topView (i : Nat) (argsort : List F → List Nat) (c : GoStr) (n : Int) (ascending sorted : Bool)
  | reverseView (i : Nat)
  | resetIndexView (i : Nat)
  | detachedView (i : Nat) (cols : List GoStr)
  | hashStringsView (i : Nat) (cols order : List GoStr)
  | shallowCopy (i : Nat)
  | copy (i : Nat)
  | rowConcat (is : List Nat)
  | columnConcatView (is : List Nat)
  | columnCopyConcat (is : List Nat)
  | columnSmartConcat (is : List Nat)
  /-- `df.ZeroMask()` / `df.EmptyMask()` -/
  | zeroMask (i : Nat)
  | emptyMask (i : Nat)
  /-- the user stores into some mask he got -/
  | maskWrite (s : Slice) (i : Nat) (b : Bool)

/-- Add what a call returned. -/
def World.add1 (w : World F) : Except Abort (DF × Heap F) → Except Abort (World F)
  | .error e => .error e
  | .ok (d, h) => .ok ⟨h, w.dfs ++ [d]⟩

/-- Add what a call returned, unless it returned an error. -/
def World.addErr (w : World F) : Except Abort (Option (DF × Heap F)) → Except Abort (World F)
  | .error e => .error e
  | .ok none => .ok w
  | .ok (some (d, h)) => .ok ⟨h, w.dfs ++ [d]⟩

/-- Add several dataframes. -/
def World.addN (w : World F) : Except Abort (List DF × Heap F) → Except Abort (World F)
  | .error e => .error e
  | .ok (ds, h) => .ok ⟨h, w.dfs ++ ds⟩

/-- Call a function on the dataframe at a position. -/
def World.on (w : World F) (i : Nat) (f : DF → Except Abort (World F)) : Except Abort (World F) :=
  match w.dfs[i]? with
  | none => .ok w
  | some d => f d

/-- The dataframes at some positions. -/
def World.pick (w : World F) (is : List Nat) : List DF := is.filterMap (w.dfs[·]?)

/-- The number of dataframes of `SplitNView` before the padding ones. -/
def splitParts (rows : Nat) (n : Int) : Nat :=
  if rows = 0 ∨ n ≤ 1 then 1 else
    let b := (rows + n.toNat - 1) / n.toNat
    (rows + b - 1) / b

/-- One call. (`TopView` that returns its receiver makes no new dataframe; the padding dataframes of
`SplitNView` are one pointer, so only the first of them is new.) -/
def Call.run [GoFloat F] (w : World F) : Call F → Except Abort (World F)
  | .build ops => w.add1 ((Verif.build ops w.h).1.toDataFrame (Verif.build ops w.h).2)
  | .emptyDataFrame n cpu => w.add1 (.ok (Verif.emptyDataFrame w.h n cpu))
  | .edit i e => w.on i fun d =>
      match e.run d w.h with
      | .error x => .error x
      | .ok (d', h') => .ok ⟨h', w.dfs.set i d'⟩
  | .view i => w.on i fun d => w.add1 (.ok (d.view, w.h))
  | .indexView i is => w.on i fun d => w.add1 (d.indexView is w.h)
  | .sliceView i a b => w.on i fun d => w.add1 (d.sliceView a b w.h)
  | .maskView i m => w.on i fun d =>
      match d.maskView m with
      | .error x => .error x
      | .ok v => w.add1 (.ok (v, w.h))
  | .columnView i cols => w.on i fun d => w.add1 (.ok (d.columnView cols w.h))
  | .shuffleView i p => w.on i fun d => w.add1 (d.shuffleView p w.h)
  | .sampleView i n r p => w.on i fun d => w.add1 (d.sampleView n r p w.h)
  | .splitView i b => w.on i fun d => w.addN (d.splitView b w.h)
  | .splitNView i n => w.on i fun d =>
      match d.splitNView n w.h with
      | .error x => .error x
      | .ok (vs, h) => w.addN (.ok (vs.take (splitParts d.numRows n + 1), h))
  | .splitTrainTestViews i r => w.on i fun d =>
      match d.splitTrainTestViews r w.h with
      | .error x => .error x
      | .ok ((a, b), h) => w.addN (.ok ([a, b], h))
  | .sortedView i o c => w.on i fun d => w.add1 (d.sortedView o c w.h)
  | .topView i o c n a s => w.on i fun d =>
      if n ≥ d.numRows ∧ s = false then .ok w else w.add1 (d.topView o c n a s w.h)
  | .reverseView i => w.on i fun d => w.add1 (.ok (d.reverseView, w.h))
  | .resetIndexView i => w.on i fun d => w.add1 (.ok (d.resetIndexView, w.h))
  | .detachedView i cols => w.on i fun d => w.add1 (.ok (d.detachedView cols w.h))
  | .hashStringsView i cols o => w.on i fun d => w.add1 (d.hashStringsView cols o w.h)
  | .shallowCopy i => w.on i fun d => w.add1 (.ok (d.shallowCopy w.h))
  | .copy i => w.on i fun d => w.add1 (d.copy w.h)
  | .rowConcat is => w.addErr (Verif.rowConcat (w.pick is) w.h)
  | .columnConcatView is => w.addErr (Verif.columnConcatView (w.pick is) w.h)
  | .columnCopyConcat is => w.addErr (Verif.columnCopyConcat (w.pick is) w.h)
  | .columnSmartConcat is => w.addErr (Verif.columnSmartConcat (w.pick is) w.h)
  | .zeroMask i => w.on i fun d =>
      match d.zeroMask w.h with
      | .error x => .error x
      | .ok (_, h) => .ok { w with h := h }
  | .emptyMask i => w.on i fun d =>
      match d.emptyMask w.h with
      | .error x => .error x
      | .ok (_, h) => .ok { w with h := h }
  | .maskWrite s i b =>
      match Verif.maskWrite w.h s i b with
      | .error x => .error x
      | .ok h => .ok { w with h := h }

/-- The dataframe shows at least one column. -/
def ADF.hasColumn {C : Type} (a : ADF C) : Prop := ∃ k c, (a.col k c).isSome

/-- What an in-place call must respect: columns are allocated next to existing ones, conversions are
asked for existing columns, each once. -/
def Edit.Legal (a : ADF (Val F)) : Edit F → Prop
  | .alloc _ _ | .allocStrings _ | .overwrite _ _ _ _ => a.hasColumn
  | .intToFloats cols => cols.Nodup ∧ ∀ c ∈ cols, (a.col .int c).isSome
  | .boolToFloats cols => cols.Nodup ∧ ∀ c ∈ cols, (a.col .bool c).isSome
  | _ => True

/-- A bound of `SliceView` is a row position of the dataframe. -/
def SliceBound (n : Nat) (a : Int) : Prop := -(n : Int) - 1 ≤ a ∧ a ≤ n

/-- The dataframes show the same rows of columns of the same length; if their indices are not altered
these are all the rows. -/
def SameShape (h : Heap F) (ds : List DF) : Prop :=
  (∀ d ∈ ds, ∀ d2 ∈ ds, d.rows = d2.rows) ∧
  ∃ N, ∀ d ∈ ds, (∀ k s, AMap.get (h.tab d.tab) k = some s → s.len = N) ∧ (∀ i ∈ d.rows, i < N) ∧
    (d.indexViewed = false → d.numRows = N)

/-- What a call must respect. Everything that is not listed is unrestricted. -/
def Call.Legal [GoFloat F] (w : World F) : Call F → Prop
  | .edit i e => ∀ d, w.dfs[i]? = some d → e.Legal (abs w.h d)
  | .sliceView i a b => ∀ d, w.dfs[i]? = some d → SliceBound d.numRows a ∧ SliceBound d.numRows b
  | .splitTrainTestViews i r => ∀ d, w.dfs[i]? = some d →
      0 ≤ GoFloat.trunc (GoFloat.mul (GoFloat.ofInt d.numRows) r : F) ∧
      GoFloat.trunc (GoFloat.mul (GoFloat.ofInt d.numRows) r : F) ≤ d.numRows
  | .hashStringsView i cols _ => cols = [] ∨ ∀ d, w.dfs[i]? = some d → (abs w.h d).hasColumn
  | .columnConcatView is => SameShape w.h (w.pick is)
  | .columnSmartConcat is => SameShape w.h (w.pick is) ∨ Verif.columnConcatView (w.pick is) w.h = .ok none
  | _ => True

/-- A history of legal calls, none of which panics or blocks. -/
inductive Hist [GoFloat F] : World F → List (Call F) → World F → Prop
  | nil (w : World F) : Hist w [] w
  | cons {w w1 w2 : World F} {c : Call F} {cs : List (Call F)} :
      c.Legal w → c.run w = .ok w1 → Hist w1 cs w2 → Hist w (c :: cs) w2

/-- The functions that return views or copies, to which C59 applies. `HashStringsView` must leave a column
out; `order` is an order in which its workers take the columns. -/
def Call.IsView (w : World F) : Call F → Prop
  | .build _ | .edit _ _ | .maskWrite _ _ _ => False
  | .hashStringsView i cols order => (∀ c ∈ order, c ∈ cols) ∧ (cols = [] ∨
      ∀ d, w.dfs[i]? = some d → ∃ k c, c ∉ cols ∧ ((abs w.h d).col k c).isSome)
  | _ => True

end Verif
