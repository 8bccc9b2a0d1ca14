import Verif.Model.DataFrame

/-! Goroutines that mask dataframes at the same time, as a transition system: one step is one access of one goroutine to
the mask memory, in any order. Each goroutine follows the documentation of `ZeroMask` and `EmptyMask` (dataframe.go:42-52,
66-74): get a mask, store into it, call `MaskView`. -/

namespace Verif
variable {F : Type}

/-- Where a goroutine is. `edits`: the stores `m[i] = b` still to do.
`start`: before the call of `ZeroMask` (`zero = true`) or `EmptyMask`; `clear i`: in the loop of `ZeroMask` (dataframe.go:59-61),
before the store into `df.mask[i]`; `fill m`: it got the mask `m`; `scan m j rows`: in the loop of `MaskView` (view.go:77-82), before
the read of `mask[j]`, `rows` being the row positions stored in `result.indices` so far; `done v`: `MaskView` returned `v`;
`dead`: it panicked. -/
inductive MaskThread where
  | start (zero : Bool) (edits : List (Nat × Bool))
  | clear (i : Nat) (edits : List (Nat × Bool))
  | fill (m : Slice) (edits : List (Nat × Bool))
  | scan (m : Slice) (j : Nat) (rows : List Nat)
  | done (v : DF)
  | dead

/-- dataframe.go:62, 80: `return df.mask[:nRows]`. -/
def MaskThread.give (df : DF) (edits : List (Nat × Bool)) : MaskThread :=
  match df.mask.reslice 0 df.numRows with
  | .ok m => .fill m edits
  | .error _ => .dead

/-- view.go:83-86: the end of `MaskView`. -/
def maskResult (df : DF) (len : Nat) (rows : List Nat) : DF :=
  { df.view with idx := ⟨rows ++ List.replicate (len - rows.length) 0, rows.length⟩, indexViewed := true }

/-- The next access of a goroutine that works on `df`; `none` when it has none left.
dataframe.go:53-63, 75-81 and view.go:73-87. -/
def MaskThread.step (df : DF) (h : Heap F) : MaskThread → Option (MaskThread × Heap F)
  | .start zero es =>
    if df.mThreadSafe then
      let (m, h) := h.newMsk (List.replicate df.numRows false)
      some (.fill m es, h)
    else if zero then some (.clear 0 es, h)
    else some (MaskThread.give df es, h)
  | .clear i es =>
    if i < df.numRows then
      match maskWrite h df.mask i false with
      | .ok h => some (.clear (i + 1) es, h)
      | .error _ => some (.dead, h)
    else some (MaskThread.give df es, h)
  | .fill m [] => some (.scan m 0 [], h)
  | .fill m ((i, b) :: es) =>
    match maskWrite h m i b with
    | .ok h => some (.fill m es, h)
    | .error _ => some (.dead, h)
  | .scan m j rows =>
    if j < m.len then
      if (h.msk m.arr).getD (m.off + j) false then
        match df.idx.at j with
        | .ok r => some (.scan m (j + 1) (rows ++ [r]), h)
        | .error _ => some (.dead, h)
      else some (.scan m (j + 1) rows, h)
    else some (.done (maskResult df m.len rows), h)
  | .done _ => none
  | .dead => none

/-- What a goroutine is going to do: on which dataframe, with `ZeroMask` or `EmptyMask`, and with which stores. -/
structure MaskTask where
  df : DF
  zero : Bool
  edits : List (Nat × Bool)

/-- The goroutines (each with its dataframe) and the shared memory. -/
structure MaskPool (F : Type) where
  threads : List (DF × MaskThread)
  heap : Heap F

/-- Before the first step. -/
def MaskPool.init (tasks : List MaskTask) (h : Heap F) : MaskPool F :=
  ⟨tasks.map fun t => (t.df, .start t.zero t.edits), h⟩

/-- One step: one goroutine makes one access. -/
inductive MaskPool.Step : MaskPool F → MaskPool F → Prop where
  | mk {s : MaskPool F} {i df t t' h'} (hi : s.threads[i]? = some (df, t)) (e : t.step df s.heap = some (t', h')) :
      Step s ⟨s.threads.set i (df, t'), h'⟩

/-- An execution of `n` steps. -/
inductive MaskPool.Steps : Nat → MaskPool F → MaskPool F → Prop where
  | refl (s) : Steps 0 s s
  | tail {n s t u} (a : Steps n s t) (b : MaskPool.Step t u) : Steps (n + 1) s u

end Verif
