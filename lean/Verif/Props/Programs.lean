import Verif.Proofs.Programs
import Verif.Props.History
import Verif.Props.Predict
import Verif.Props.LinRegFit
import Verif.Props.CSVFiles
import Verif.Props.Auto

/-! C19 and C59 for programs that also preprocess, train, predict, read CSV text and files, and merge builders. -/

namespace Verif
variable {F : Type}

/-- C19, for whole programs. Take a program that starts without dataframes and performs any finite sequence of calls of the
library: those of `C19_reachable_consistent_partial`, imputing, scaling and unscaling in place, hash and one-hot encoding,
training and applying an `AutoPreprocessor`, training a regressor and predicting, reading CSV text and files, merging
builders. The encoders and regressors may hold anything, the choices of the Go runtime (schedules, map orders, shuffles) are
arbitrary, and calls that return an error are part of the program. Then every dataframe the program holds has columns of one
common length, shows only rows inside that length, can be read at every row of every column without a panic, and has a mask
with room for all its rows.
Missing from the full property: calls must be legal (`Step.Legal`), and no call may panic. -/
theorem C19_programs_partial [GoFloat F] {h : Heap F} {cs : List (Step F)} {w : World F}
    (prog : Prog ⟨h, []⟩ cs w) (d : DF) (hd : d ∈ w.dfs) :
    (∃ N, (∀ k s, AMap.get (w.h.tab d.tab) k = some s → s.len = N) ∧ (∀ i ∈ d.rows, i < N) ∧
      (d.indexViewed = false → d.rows = List.range N)) ∧
    (∀ k c (i : Int), ((abs w.h d).col k c).isSome → 0 ≤ i → i < (abs w.h d).nRows → ∃ v, d.get w.h k c i = .ok v) ∧
    d.numRows ≤ d.mask.len := by
  have g := prog.good (World.empty_good h)
  have wf := g.wf d hd
  exact ⟨wf.rect, fun k c i hc h0 hi => (get_total d w.h wf k c i).2 ⟨h0, hi, hc⟩, (g.mwf d hd).len_ge⟩

/-- C59, after whole programs: a call that makes dataframes (a view, a copy, a concatenation, hash encoding, reading CSV
text or files, merging builders) changes nothing that any of the program's dataframes shows. -/
theorem C59_programs_partial [GoFloat F] {h : Heap F} {cs : List (Step F)} {w w' : World F} {c : Step F}
    (prog : Prog ⟨h, []⟩ cs w) (hv : c.IsView w) (e : c.run w = .ok w') :
    (∃ new, w'.dfs = w.dfs ++ new) ∧ ∀ d ∈ w.dfs, abs w'.h d = abs w.h d := by
  have g := prog.good (World.empty_good h)
  obtain ⟨h1, h2⟩ := Step.grew g hv e
  exact ⟨h1, fun d hd => h2.abs_eq g hd⟩

/-! ### a program -/

namespace Demo

/-- A receiver has a column. -/
def hasCol (w : World Int) (i : Nat) : Bool := match w.dfs[i]? with | none => true | some d => !(w.h.tab d.tab).isEmpty

theorem hasCol_sound {w : World Int} {i : Nat} (e : hasCol w i = true) : ∀ d, w.dfs[i]? = some d → (abs w.h d).hasColumn := by
  intro d hd
  unfold hasCol at e
  rw [hd] at e
  rw [hasColumn_iff]
  intro h0
  simp [h0] at e

/-- A check that implies `Step.Legal`, for the steps of the program below. -/
def legalB (w : World Int) : Step Int → Bool
  | .call c => match c with
    | .build _ | .indexView _ _ | .rowConcat _ => true
    | _ => false
  | .hashEncode i _ _ | .autoFitTransform i _ _ | .autoFit i _ _ | .autoTransform i _ _ | .predict i _ _ _ _ => hasCol w i
  | .oneHotEncode .. | .fromCSV .. => false
  | _ => true

theorem legalB_sound {w : World Int} {c : Step Int} (e : legalB w c = true) : c.Legal w := by
  cases c with
  | call c => cases c <;> trivial
  | hashEncode i enc o => exact Or.inr (hasCol_sound e)
  | autoTransform i p sch => exact Or.inr (hasCol_sound e)
  | autoFit i p sch => exact hasCol_sound e
  | autoFitTransform i p sch => exact hasCol_sound e
  | predict i reg dot out o => exact hasCol_sound e
  | oneHotEncode i enc o => cases e
  | fromCSV pf jobs who inp spec => cases e
  | _ => trivial

/-- Run the steps, checking that they are legal. -/
def runSteps (w : World Int) : List (Step Int) → Except Abort (World Int)
  | [] => .ok w
  | c :: cs => if legalB w c then (match c.run w with
      | .error e => .error e
      | .ok w' => runSteps w' cs) else .error .panic

theorem prog_of_run {w w' : World Int} {cs : List (Step Int)} (e : runSteps w cs = .ok w') : Prog w cs w' := by
  induction cs generalizing w with
  | nil => cases e; exact .nil _
  | cons c cs ih =>
    simp only [runSteps] at e
    split at e
    · rename_i hl
      split at e
      · cases e
      · rename_i w1 h1
        exact .cons (legalB_sound hl) h1 (ih e)
    · cases e

/-- Read two files; build a dataframe; look at two of its rows, twice; scale them in place; hash the strings of the first
dataframe; merge builders; build training data; train a regressor; predict; train and apply an auto-preprocessor. -/
def program : List (Step Int) :=
  [.fromFiles pf filesSched (some found) files filesSpec, .call (.build ops), .call (.indexView 1 [3, 1, 1]),
   .scale 2 ⟨[(b!"x", 1)], [(b!"x", 2)], ⟨false, true, true⟩⟩ [b!"x"], .impute 1 ⟨[(b!"x", 4)], .mean⟩,
   .hashEncode 0 ⟨[b!"s"]⟩ [b!"s"], .merge true [ops, ops],
   .merge false [[.add .float b!"z" [.float 2, .float 4, .float 6, .float 8]], ops],
   .call (.build lops), .predict 6 lreg idot b!"y" [b!"_target"],
   .linRegFit 6 ibl fsched b!"x" trpar, .autoFitTransform 1 (newAutoPreprocessor ⟨true, true, []⟩) autoSched]

/-- The world after this program: nine dataframes. -/
theorem program_run : ∃ w, runSteps ⟨heap0, []⟩ program = .ok w ∧ w.dfs.length = 9 := by
  have key : okAnd (runSteps ⟨heap0, []⟩ program) (fun w => decide (w.dfs.length = 9)) = true := by decide +kernel
  obtain ⟨w, h1, h2⟩ := okAnd_iff.1 key
  exact ⟨w, h1, by simpa using h2⟩

-- C19 applies to the program, C59 to a file that is read after it
example : ∃ w w' : World Int, Prog ⟨heap0, []⟩ program w ∧ w.dfs.length = 9 ∧ (∀ d ∈ w.dfs, d.numRows ≤ d.mask.len) ∧
    (Step.fromFiles pf filesSched (some found) files filesSpec).run w = .ok w' ∧ w'.dfs.length = 10 ∧ ∀ d ∈ w.dfs, abs w'.h d = abs w.h d := by
  have key : okAnd (runSteps ⟨heap0, []⟩ program) (fun w => decide (w.dfs.length = 9) &&
      okAnd ((Step.fromFiles pf filesSched (some found) files filesSpec).run w) (fun w' => decide (w'.dfs.length = 10))) = true := by decide +kernel
  obtain ⟨w, h1, h2⟩ := okAnd_iff.1 key
  rw [Bool.and_eq_true] at h2
  obtain ⟨w', h3, h4⟩ := okAnd_iff.1 h2.2
  have prog := prog_of_run h1
  exact ⟨w, w', prog, by simpa using h2.1, fun d hd => (C19_programs_partial prog d hd).2.2, h3, by simpa using h4,
    (C59_programs_partial (c := .fromFiles pf filesSched (some found) files filesSpec) prog trivial h3).2⟩

end Demo

end Verif
