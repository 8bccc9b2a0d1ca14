import Verif.Props.Experiment
import Verif.Props.Demo

/-! A concrete case of C79. -/

namespace Verif.FixDemo
open Verif

/-- Fixed-point numbers with two decimals, for a demo in which half of the rows can be asked for: 50 stands for 0.5. -/
scoped instance fixFloat : GoFloat Int where
  zero := 0
  one := 100
  nan := -999
  posInf := 1000000
  negInf := -1000000
  add := (· + ·)
  sub := (· - ·)
  mul a b := (a * b).tdiv 100
  div a b := (a * 100).tdiv b
  neg := (- ·)
  abs x := x.natAbs
  sqrt x := x
  lt a b := decide (a < b)
  le a b := decide (a ≤ b)
  eq a b := decide (a = b)
  isNaN x := decide (x = -999)
  ofInt n := n * 100
  trunc n := n.tdiv 100

def ops : List (BOp Int) :=
  [.add .float b!"x" [.float 300, .float (-999), .float 100, .float 500, .float 200, .float 400],
   .add .bool b!"b" [.bool true, .bool false, .bool true, .bool true, .bool false, .bool true],
   .add .float b!"y" [.float 700, .float 200, .float 100, .float 400, .float 300, .float 600],
   .addStrings b!"s" [b!"u", b!"v", b!"u", b!"w", b!"v", b!"u"]]

def res : Except Abort (DF × Heap Int) := (build ops Demo.heap0).1.toDataFrame (build ops Demo.heap0).2

def df : DF := match res with | .ok p => p.1 | .error _ => ⟨⟨0, none, false, none, 0, none⟩, ⟨[], 0⟩, ⟨0,0,0,0⟩, false, false⟩

def h : Heap Int := match res with | .ok p => p.2 | .error _ => Demo.heap0

def dot (xs ws : List Int) : Int := (List.zipWith (fun a b => (a * b).tdiv 100) xs ws).foldl (· + ·) 0

def sched : ExperimentSched Int :=
  ⟨[4, 1, 0, 2, 5, 3], Demo.autoSched, Demo.fsched, Demo.autoSched⟩

/-- Half of the rows for the test, one epoch, batches of three rows, learning rate 0.01. -/
def flags : ExperimentFlags Int := ⟨50, true, true, b!"y", ⟨1, 1, 3, 0, 0, false⟩⟩

def bl : Blas Int := ⟨dot, dot, fun a al b => a + (al * b).tdiv 100⟩

def fvals (c : GoStr) : List Int := if c = b!"x" then [300, -999, 100, 500, 200, 400] else [700, 200, 100, 400, 300, 600]

theorem floatNames : namesOf (h.tab df.tab) .float = [b!"x", b!"y"] := by decide +kernel
theorem intNames : namesOf (h.tab df.tab) .int = [] := by decide +kernel

theorem df_strings (c : GoStr) : (abs h df).isStr c = true ↔ c = b!"s" := by
  have : hdrList h df.strHdr = [b!"s"] := by decide +kernel
  simp [abs, this]

theorem df_categorical (c : GoStr) : Categorical (abs h df) c ↔ c = b!"s" := by
  constructor
  · rintro (h0 | ⟨h0, _⟩)
    · exact (df_strings c).1 h0
    · have := h0 b!"s"
      rw [(df_strings _).2 rfl] at this; cases this
  · rintro rfl; exact Or.inl ((df_strings _).2 rfl)

theorem df_ready : AutoReady (abs h df) := by
  refine ⟨?_, fun _ => ⟨.float, b!"x", ?_, by decide +kernel⟩, ⟨by decide +kernel, ?_⟩, fun _ => by decide +kernel, ?_, ?_⟩
  · intro c hc; rw [(df_strings c).1 hc]; decide +kernel
  · by_contra hx
    have := (df_strings b!"x").1 (by simpa using hx)
    exact absurd this (by decide)
  · intro hx; exact absurd ((df_categorical _).1 hx) (by decide)
  · intro c d hc hd
    rw [(df_categorical c).1 hc, (df_categorical d).1 hd]
    constructor
    · intro i hx
      have := congrArg List.length hx
      simp [onehotName] at this
    · decide
  · intro c hc; rw [(df_categorical c).1 hc]; decide +kernel

/-- The demo meets the hypotheses of C79: six rows, two float columns (one with a missing value), a boolean and a string
column; three rows are for the test. -/
theorem ready : ExperimentReady flags sched.perm df h fvals (fun _ => []) 3 where
  wf := DF.wf_of_check 6 (by decide +kernel)
  mwf := ⟨by decide +kernel, by decide +kernel, Or.inr (by decide +kernel)⟩
  sep := by
    intro i hi
    have : df.shared = none := by decide +kernel
    rw [this] at hi; cases hi
  cpu := by decide +kernel
  perm := by
    have : df.numRows = 6 := by decide +kernel
    rw [this]
    decide
  ratio := by decide
  count := by decide +kernel
  some_test := by decide
  some_train := by decide +kernel
  floats := by
    intro c hc
    have := mem_namesOf_iff.2 hc
    rw [floatNames] at this
    simp only [List.mem_cons, List.not_mem_nil, or_false] at this
    rcases this with rfl | rfl <;> decide +kernel
  ints := by
    intro c hc
    have := mem_namesOf_int.2 hc
    rw [intNames] at this; cases this
  ready := df_ready
  target := by decide +kernel
  other := ⟨b!"x", by decide, by decide +kernel⟩
  reserved := ⟨by decide +kernel, by decide +kernel⟩
  output := by decide
  batch := by decide
  epochs := by decide

def modelB (m : LinearRegressor Int) : Bool :=
  (match m.scaler with
    | some sc => Demo.namedB sc.shift && Demo.namedB sc.scale && (sc.shift.all fun e => finite e.2) && (sc.scale.all fun e => finite e.2)
    | none => false) && (m.features.all fun c => c.all fun b => decide (b < 0x80)) && m.weights.all fun x => finite x

theorem model_of {m : LinearRegressor Int} (h : modelB m = true) : m.Named ∧ m.Finite := by
  unfold modelB at h
  simp only [Bool.and_eq_true, List.all_eq_true, decide_eq_true_eq] at h
  obtain ⟨⟨h1, h2⟩, h3⟩ := h
  refine ⟨⟨?_, fun c hc => isText_ascii (h2 c hc)⟩, ?_, h3⟩
  · intro sc e
    rw [e] at h1
    simp only [Bool.and_eq_true] at h1
    exact ⟨Demo.named_of h1.1.1.1, Demo.named_of h1.1.1.2⟩
  · intro sc e
    rw [e] at h1
    simp only [Bool.and_eq_true, List.all_eq_true] at h1
    exact ⟨h1.1.2, h1.2⟩

/-- What is learnt in the demo can be saved. -/
theorem storable (x : TrainedExperiment Int) (h' : Heap Int) (e : experimentTrain bl sched flags df h = .ok (x, h')) : x.Storable := by
  have : okAnd (experimentTrain bl sched flags df h) (fun x => Demo.goodB x.1.preproc && modelB x.1.model) = true := by decide +kernel
  rw [e] at this
  have h2 : Demo.goodB x.preproc && modelB x.model := this
  rw [Bool.and_eq_true] at h2
  exact ⟨(model_of h2.2).1, (model_of h2.2).2, (Demo.good_of h2.1).1, (Demo.good_of h2.1).2⟩

/-- Its names are texts, and it has no int column. -/
theorem textual : (abs h df).Textual (fun _ => []) := textual_ascii (by decide +kernel) (by rw [intNames]; simp)

/-- The numbers of the demo in JSON. -/
def jf : JsonFloats Int := Demo.intJson fixFloat

/-- C79 on the demo: the test rows are rows 2, 5 and 3 of the dataframe; they are shown in the order 2, 3, 5. -/
example : ∃ (x : TrainedExperiment Int) (res : ExperimentResult Int) (h' : Heap Int),
    experiment jf bl sched flags df h = .ok ((x, res), h') ∧
    (abs h' res.test).floats b!"y" = some (takeRows [700, 200, 100, 400, 300, 600] [2, 3, 5]) ∧ abs h' df = abs h df := by
  have hr : df.rows = [0, 1, 2, 3, 4, 5] := by decide +kernel
  obtain ⟨x, res, h', _, _, _, _, js, _, e, _, _, hjs, hpw, _, _, _, hy, _, _, _, oth⟩ := C79_once_partial (j := jf) (bl := bl) ready (by rw [hr]; decide)
    (Or.inl ⟨rfl, rfl⟩) textual fun x h' e => (storable x h' e).finite
  refine ⟨x, res, h', e, ?_, (oth df ready.wf ready.sep).1⟩
  have : df.numRows = 6 := by decide +kernel
  rw [this] at hjs
  have : js = [2, 3, 5] := by
    refine List.Perm.eq_of_pairwise (le := fun r s => df.rows.getD r 0 < df.rows.getD s 0) (fun a b _ _ h3 h4 => ?_) hpw ?_ (hjs.trans ?_)
    · omega
    · rw [hr]; decide
    · decide
  rw [this] at hy
  exact hy

example : ∃ x h1, experimentTrain bl sched flags df h = .ok (x, h1) ∧ ∃ res h', experiment jf bl sched flags df h = .ok ((x, res), h') := by
  obtain ⟨x, h1, e, hf, _⟩ := C79_ends_iff (j := jf) (bl := bl) ready (Or.inl ⟨rfl, rfl⟩) textual
  exact ⟨x, h1, e, hf (storable x h1 e).finite⟩

/-- The same, computed. -/
theorem computed : okAnd (experiment jf bl sched flags df h) (fun r =>
    decide ((abs r.2 r.1.2.test).col .float b!"y" = some [some (.float 100), some (.float 400), some (.float 600)]) &&
    decide (((abs r.2 r.1.2.test).floats b!"y_pred").map (·.length) = some 3) &&
    decide (r.1.1.model.features = [b!"x", b!"b", b!"s_onehot1", b!"s_onehot0"])) = true := by decide +kernel

/-- Without `-scaling` the experiment panics. -/
example : experiment jf bl sched { flags with scaling := false } df h = .error .panic :=
  C79_options_panic (fl := { flags with scaling := false }) (fvals := fvals) (ivals := fun _ => []) (t := 3) { ready with }
    (by rintro (⟨_, h0⟩ | ⟨h0, _⟩) <;> cases h0)

/-- An experiment whose learnt numbers are not all finite panics. -/
example {x : TrainedExperiment Int} {h' : Heap Int} (e : experimentTrain bl sched flags df h = .ok (x, h')) (hx : ¬ x.preproc.Finite) :
    experiment jf bl sched flags df h = .error .panic := C79_not_finite e fun h0 => hx h0.2

end Verif.FixDemo
