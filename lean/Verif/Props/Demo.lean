import Verif.Props.Builder

/-! A concrete dataframe, built through the builder, on which the hypotheses of the theorems are
checked. Floats are integers here: the demo never needs float laws. -/

namespace Verif

/-- The call returns and its result passes the test. -/
def okAnd {α : Type} (x : Except Abort α) (p : α → Bool) : Bool :=
  match x with | .ok a => p a | .error _ => false

theorem okAnd_iff {α : Type} {x : Except Abort α} {p : α → Bool} :
    okAnd x p = true ↔ ∃ a, x = .ok a ∧ p a = true := by
  cases x <;> simp [okAnd]

theorem RowView.cast {F : Type} {h h' : Heap F} {df v : DF} {is js : List Nat}
    (r : RowView h df h' v is) (e : is = js) : RowView h df h' v js := e ▸ r

end Verif

namespace Verif.Demo

/-- A toy float type for the demos. -/
scoped instance demoFloat : GoFloat Int where
  zero := 0
  one := 1
  nan := -999
  posInf := 1000000
  negInf := -1000000
  add := (· + ·)
  sub := (· - ·)
  mul := (· * ·)
  div := Int.tdiv
  neg := (- ·)
  abs x := x.natAbs
  sqrt x := x
  lt a b := decide (a < b)
  le a b := decide (a ≤ b)
  eq a b := decide (a = b)
  isNaN x := decide (x = -999)
  ofInt n := n
  trunc n := n

/-- A machine with 4 cores; a growing `append` doubles. -/
def rt : Runtime := ⟨4, by decide, fun n => n⟩

/-- The empty heap. -/
def heap0 : Heap Int := ⟨rt, 0, fun _ => [], fun _ => [], fun _ => [], fun _ => []⟩

/-- Builder calls: an int, a float, a bool and a string column of 4 rows. -/
def ops : List (BOp Int) :=
  [.add .int b!"a" [.int 10, .int 20], .add .float b!"x" [.float 5, .float 3, .float 9, .float 1],
   .add .int b!"a" [.int 30, .int 40], .addStrings b!"s" [b!"u", b!"v", b!"u"],
   .add .obj b!"s" [.nil], .set .bool b!"b" [.bool true, .bool false, .bool true, .bool false] [.bool true]]

/-- The dataframe and heap that result. -/
def res : Except Abort (DF × Heap Int) := (build ops heap0).1.toDataFrame (build ops heap0).2

/-- The demo dataframe. -/
def df : DF := match res with | .ok p => p.1 | .error _ => ⟨⟨0, none, false, none, 0, none⟩, ⟨[], 0⟩, ⟨0,0,0,0⟩, false, false⟩

/-- The demo heap. -/
def h : Heap Int := match res with | .ok p => p.2 | .error _ => heap0

theorem ops_len : ∀ k c l, specCol ops k c = some l → l.length = 4 := by
  intro k c l
  simp only [specCol, ops, List.foldl_cons, List.foldl_nil, BOp.stepCol]
  grind

theorem df_ok : res = .ok (df, h) ∧ df.WF h ∧ df.MaskWF h ∧ (abs h df).nRows = 4 := by
  obtain ⟨d, h', he, wf, mwf, hn, _⟩ := C20_toDataFrame_ok ops heap0 4 ops_len ⟨.int, b!"a", by decide⟩
  have hr : res = .ok (d, h') := he
  have h1 : df = d := by unfold df; rw [hr]
  have h2 : h = h' := by unfold h; rw [hr]
  subst h1; subst h2
  exact ⟨hr, wf, mwf, hn⟩

theorem df_wf : df.WF h := df_ok.2.1
theorem df_mwf : df.MaskWF h := df_ok.2.2.1
theorem df_rows : df.numRows = 4 := by decide

example : (abs h df).col .int b!"a" = some [some (.int 10), some (.int 20), some (.int 30), some (.int 40)] := by
  decide
example : (abs h df).col .obj b!"s" = some [some (.str b!"u"), some (.str b!"v"), some (.str b!"u"), some .nil] := by
  decide
example : (abs h df).isStr b!"s" = true ∧ (abs h df).isStr b!"a" = false := by decide
-- a ragged builder panics
example : (build [.add .int b!"a" [.int 1, .int 2], .add .bool b!"b" [.bool true]] heap0).1.toDataFrame
    (build [.add .int b!"a" [.int 1, .int 2], .add .bool b!"b" [.bool true]] heap0).2 = .error .panic :=
  C20_toDataFrame_panics _ _ (k := .int) (c := b!"a") (l := [.int 1, .int 2]) (k' := .bool) (c' := b!"b")
    (l' := [.bool true]) (by decide) (by decide) (by decide)

end Verif.Demo
