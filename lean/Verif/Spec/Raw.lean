import Verif.Spec.Builder

/-! What a `RawData` structure holds (C56). -/

namespace Verif
variable {F : Type}

/-- The values of the typed column `(k, c)` of a `RawData`, `none` when there is no such column. -/
def rawCol (h : Heap F) (r : Raw) (k : Kind) (c : GoStr) : Option (List (Val F)) :=
  (AMap.get (h.tab r.tab) (k, c)).map h.read

/-- The memory behind the typed column `(k, c)`. -/
def rawLoc (h : Heap F) (r : Raw) (k : Kind) (c : GoStr) : Option Slice :=
  AMap.get (h.tab r.tab) (k, c)

/-- The columns marked as string. -/
def rawStr (h : Heap F) (r : Raw) (c : GoStr) : Bool := decide (c ∈ hdrList h r.strHdr)

end Verif
