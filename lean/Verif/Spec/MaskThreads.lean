import Verif.Model.MaskThreads
import Verif.Spec.ADF

/-! What a goroutine that masks a dataframe asks for. -/

namespace Verif
variable {F : Type}

/-- The last value stored at position `p`. -/
def lastStore (edits : List (Nat × Bool)) (p : Nat) : Option Bool := (edits.reverse.find? (·.1 == p)).map (·.2)

/-- The rows a task asks for: those whose last store is `true`. For a position it never stores into, what counts is what is
in the mask it gets: `false`, except that `EmptyMask` gives whatever is in the mask of a dataframe that is not in thread-safe
mode. -/
def MaskTask.rows (h : Heap F) (t : MaskTask) : List Nat :=
  (List.range t.df.numRows).filter fun p =>
    (lastStore t.edits p).getD
      (!(t.zero || t.df.mThreadSafe) && (h.msk t.df.mask.arr).getD (t.df.mask.off + p) false)

/-- Two goroutines never use the same mask memory: one of the dataframes is in thread-safe mode, or has no rows, or their masks
are different arrays. -/
def MaskTask.Apart (t u : MaskTask) : Prop :=
  t.df.mThreadSafe = true ∨ u.df.mThreadSafe = true ∨ t.df.numRows = 0 ∨ u.df.numRows = 0 ∨ t.df.mask.arr ≠ u.df.mask.arr

/-- A task that is fine on its own: a consistent dataframe, stores inside the mask. -/
structure MaskTask.OK (h : Heap F) (t : MaskTask) : Prop where
  wf : t.df.WF h
  mask : t.df.mThreadSafe = true ∨ t.df.MaskWF h
  inside : ∀ e ∈ t.edits, e.1 < t.df.numRows

end Verif
