import Verif.Model.Recover
import Verif.Spec.History

/-! Histories of calls in which the caller recovers from panics (C83). -/

namespace Verif
variable {F : Type}

/-- What a panicking in-place call leaves. -/
def Edit.reached [GoFloat F] (e : Edit F) (d : DF) (h : Heap F) : DF × Heap F :=
  match e with
  | .rename _ _ => d.renameReached h
  | .overwrite k c vals b => d.overwriteReached k c vals b h
  | .encode cd new => d.encodeReached cd new h
  | _ => (d, h)

/-- What a panicking call leaves. The other functions write to nothing that existed before the call until they return: they
panic while they fill a view, a builder or a copy of their own. -/
def Call.reached [GoFloat F] (w : World F) : Call F → World F
  | .edit i e =>
    match w.dfs[i]? with
    | none => w
    | some d => ⟨(e.reached d w.h).2, w.dfs.set i (e.reached d w.h).1⟩
  | _ => w

/-- The panic happens in the goroutine of the caller, who can recover from it. (`HashStringsView` works in goroutines of its
own: a panic there ends the program.) -/
def Call.Recoverable : Call F → Prop
  | .hashStringsView _ _ _ => False
  | _ => True

/-- A history of legal calls; the caller recovers from the panics. The booleans say which calls panicked. -/
inductive HistR [GoFloat F] : World F → List (Call F × Bool) → World F → Prop
  | nil (w : World F) : HistR w [] w
  | ran {w w1 w2 : World F} {c : Call F} {cs : List (Call F × Bool)} :
      c.Legal w → c.run w = .ok w1 → HistR w1 cs w2 → HistR w ((c, false) :: cs) w2
  | panicked {w w2 : World F} {c : Call F} {cs : List (Call F × Bool)} :
      c.Legal w → c.run w = .error .panic → c.Recoverable → HistR (c.reached w) cs w2 → HistR w ((c, true) :: cs) w2

end Verif
