import Verif.Spec.ADF

/-! What a sequence of builder calls is expected to produce (C20). -/

namespace Verif
variable {F : Type}

/-- A call on a `DataBuilder` (dataframe/builder.go). In `set`, the slice handed over by the caller has
the elements `vals` and room for `extra` more. -/
inductive BOp (F : Type) where
  | add (k : Kind) (c : GoStr) (vals : List (Val F))
  | addStrings (c : GoStr) (vals : List GoStr)
  | mark (c : GoStr)
  | set (k : Kind) (c : GoStr) (vals extra : List (Val F))
  | enc (e : Option Nat)

/-- Run one builder call in the model. -/
def BOp.run [GoFloat F] : BOp F → Raw × Heap F → Raw × Heap F
  | .add k c vals, (r, h) => (r, r.add k c vals h)
  | .addStrings c vals, (r, h) => r.addStrings c vals h
  | .mark c, (r, h) => r.markAsString c h
  | .set k c vals extra, (r, h) =>
    let (s, h) := h.newArr (vals ++ extra)
    (r, r.setCol k c { s with len := vals.length } h)
  | .enc e, (r, h) => (r.textEncoding e, h)

/-- Run a sequence of builder calls on a new builder. -/
def build [GoFloat F] (ops : List (BOp F)) (h : Heap F) : Raw × Heap F :=
  ops.foldl (fun st op => op.run st) (newRawData h)

/-- Expected content: a column holds the values added since it was last set, in call order. -/
def BOp.stepCol (op : BOp F) (k : Kind) (c : GoStr) (cur : Option (List (Val F))) :
    Option (List (Val F)) :=
  match op with
  | .add k' c' vals => if k' = k ∧ c' = c then some (cur.getD [] ++ vals) else cur
  | .addStrings c' vals =>
    if Kind.obj = k ∧ c' = c then some (cur.getD [] ++ vals.map .str) else cur
  | .set k' c' vals _ => if k' = k ∧ c' = c then some vals else cur
  | _ => cur

/-- Expected content of column `(k, c)` after the calls `ops`. -/
def specCol (ops : List (BOp F)) (k : Kind) (c : GoStr) : Option (List (Val F)) :=
  ops.foldl (fun cur op => op.stepCol k c cur) none

/-- Expected string marks: those of `AddStrings` and `MarkAsString`. -/
def specMark (ops : List (BOp F)) (c : GoStr) : Prop :=
  ∃ op ∈ ops, (∃ vals, op = .addStrings c vals) ∨ op = .mark c

/-- Expected encoding: that of the last `TextEncoding` call. -/
def specEnc (ops : List (BOp F)) : Option Nat :=
  ops.foldl (fun cur op => match op with | .enc e => e | _ => cur) none

end Verif
