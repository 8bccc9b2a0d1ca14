import Verif.Props.ExampleEnds
import Verif.Props.ExperimentDemo

/-! A concrete case of C82. -/

namespace Verif.FixDemo
open Verif

/-- Numbers have no decimals in the demo files. -/
def pf (s : GoStr) : Option Int := (parseInt s).map (· * 100)

def ff (x : Int) : GoStr := fmtInt x

def sch (perm : List Nat) : ExampleSched Int where
  jobs := List.reverse
  who _ := 0
  experiment := { sched with perm := perm }
  order _ _ := id
  full _ n := n % 2 = 0
  again := Demo.filesSched
  jobs_perm := List.reverse_perm
  order_perm _ _ l := List.Perm.refl l

/-- Six records; the separator is a semicolon. -/
def text : GoStr := b!"x;y;s;z\n3;7;u;q\nNA;2;v;q\n1;1;u;\"q;q\"\n5;4;w;q\n2;3;v;q\n4;6;u;q\n"

def disk (path : GoStr) : Option GoStr := if path = b!"in.csv" then some text else none

/-- `-sep ; -imputing -scaling in.csv y z`, half of the records for the test. -/
def args : ExampleArgs Int := ⟨[b!"in.csv", b!"y", b!"z"], b!";", 2, 50, true, true, ⟨1, 1, 3, 0, 0, false⟩⟩

def hdr : List GoStr := [b!"x", b!"y", b!"s", b!"z"]

def recs : List (List GoStr) := [[b!"3", b!"7", b!"u", b!"q"], [b!"NA", b!"2", b!"v", b!"q"], [b!"1", b!"1", b!"u", b!"q;q"],
  [b!"5", b!"4", b!"w", b!"q"], [b!"2", b!"3", b!"v", b!"q"], [b!"4", b!"6", b!"u", b!"q"]]

def floatCellB (v : GoStr) : Bool := decide (v ∈ exampleMissing) || (pf v).isSome

theorem floatCellB_iff {v : GoStr} : floatCellB v = true ↔ FloatCell pf exampleMissing v := by
  unfold floatCellB FloatCell
  rw [Bool.or_eq_true, decide_eq_true_iff, Option.isSome_iff_exists]

theorem number_iff {hdr : List GoStr} {recs : List (List GoStr)} {c : GoStr} :
    NumberColumn pf hdr recs c ↔ (cellsUnder hdr recs c).all floatCellB = true := by
  unfold NumberColumn
  rw [List.all_eq_true]
  simp only [floatCellB_iff]

theorem readCols {c : GoStr} (h : ReadColumn hdr [b!"z"] c) : c = b!"x" ∨ c = b!"y" ∨ c = b!"s" := by
  obtain ⟨h1, h2⟩ := h
  simp only [hdr, List.mem_cons, List.not_mem_nil, or_false] at h1 h2
  rcases h1 with h1 | h1 | h1 | h1 <;> simp_all

theorem textCol {c : GoStr} (h : ReadColumn hdr [b!"z"] c) (hn : ¬ NumberColumn pf hdr recs c) : c = b!"s" := by
  rcases readCols h with rfl | rfl | rfl
  · exact absurd (number_iff.2 (by decide +kernel)) hn
  · exact absurd (number_iff.2 (by decide +kernel)) hn
  · rfl

/-- The demo meets the hypotheses of C82. -/
theorem example_ready : ExampleReady pf (sch sched.perm).experiment.perm disk args b!"y" [b!"z"] 59 hdr recs 3 where
  file := ⟨b!"in.csv", text, by decide, by decide, by decide +kernel⟩
  fields := by decide
  named := by decide
  number := ⟨⟨by decide, by decide⟩, number_iff.2 (by decide +kernel)⟩
  other := ⟨b!"x", by decide, ⟨by decide, by decide⟩, number_iff.2 (by decide +kernel)⟩
  reserved := by intro h; exact absurd h.1 (by decide)
  output := by decide
  texts := by
    intro c d hc hd hc2 hd2
    rw [textCol hc hc2, textCol hd hd2]
    constructor
    · intro i hx
      have := congrArg List.length hx
      simp [onehotName] at this
    · decide
  perm := by decide
  ratio := by decide
  count := by decide
  some_test := by decide
  some_train := by decide
  batch := by decide
  epochs := by decide
  options := Or.inl ⟨rfl, rfl⟩
  utf8 := by
    intro c hc
    rcases readCols hc with rfl | rfl | rfl <;> exact isText_ascii (by decide)

theorem example_finite (path : GoStr) (df : DF) (h1 : Heap Int) (x : TrainedExperiment Int) (h2 : Heap Int)
    (hp : args.parsed = some (path, b!"y", [b!"z"], 59))
    (e1 : exampleRead pf (sch sched.perm) disk args.maxCPU path [b!"z"] 59 Demo.heap0 = .ok (df, h1))
    (e2 : experimentTrain bl (sch sched.perm).experiment (args.flags b!"y") df h1 = .ok (x, h2)) : x.Finite := by
  have hp : path = b!"in.csv" := by
    have : args.parsed = some (b!"in.csv", b!"y", [b!"z"], 59) := by decide
    rw [this] at hp
    cases hp; rfl
  subst hp
  have : okAnd (exampleRead pf (sch sched.perm) disk args.maxCPU b!"in.csv" [b!"z"] 59 Demo.heap0) (fun r =>
      okAnd (experimentTrain bl (sch sched.perm).experiment (args.flags b!"y") r.1 r.2) (fun x => Demo.goodB x.1.preproc && modelB x.1.model)) = true := by
    decide +kernel
  rw [e1] at this
  have this : okAnd (experimentTrain bl (sch sched.perm).experiment (args.flags b!"y") df h1) (fun x => Demo.goodB x.1.preproc && modelB x.1.model) = true := this
  rw [e2] at this
  have h2 : Demo.goodB x.preproc && modelB x.model := this
  rw [Bool.and_eq_true] at h2
  exact ⟨(model_of h2.2).2, (Demo.good_of h2.1).2⟩

/-- C82 on the demo: the program ends, and the test records are number 2, 3 and 5. -/
example : ∃ run h', exampleMain pf ff jf bl (sch sched.perm) disk true args Demo.heap0 = .ok (run, h') ∧ run.files.length = 1 ∧
    ∃ fvals, (abs h' run.df).floats b!"y" = some fvals ∧ (abs h' run.result.test).floats b!"y" = some (takeRows fvals [2, 3, 5]) := by
  obtain ⟨run, h', A, fvals, T, kind, s, k, js, ys, parts, text, e, d, _⟩ := C82_main_partial (ff := ff) (j := jf) (n := 1) example_ready Demo.heap0
    example_finite (by decide) (Or.inl rfl)
  refine ⟨run, h', e, ?_, fvals b!"y", ?_, ?_⟩
  · have := d.files.1
    have h1 : min (clampCPU (Demo.heap0 : Heap Int).rt.numCPU args.maxCPU) (1 + ((3 : Nat) : Int) / 512) = 1 := by decide
    rw [h1] at this
    exact_mod_cast this
  · rw [d.read.2.1]
    exact (d.read.1.numbers b!"y" example_ready.number.1 example_ready.number.2).1
  · have hjs : js = [2, 3, 5] := by
      refine List.Perm.eq_of_pairwise (le := fun r s => r < s) (fun a b _ _ h3 h4 => ?_) d.tested.2 (by decide) (d.tested.1.trans ?_)
      · omega
      · decide
    rw [d.error.1, hjs]

/-- The same, computed: the file has three equal records, with the target of the first record of the input, which is not a test record. -/
theorem example_computed : okAnd (exampleMain pf ff jf bl (sch sched.perm) disk true args Demo.heap0) (fun r =>
    decide ((abs r.2 r.1.result.test).floats b!"y" = some [100, 400, 600]) &&
    decide (r.1.files.map (·.1) = [b!"outdir/file0.csv"]) &&
    (r.1.files.all fun f =>
      let t := (csvRead (exampleText 59) f.2).records
      decide (t.length = 4) && (t.drop 1).all fun x => decide (x.getD ((t.headD []).idxOf b!"y") [] = b!"700") && decide (some x = t[1]?))) = true := by
  decide +kernel

/-! #### a case that hangs: 518 records, of which 512 are for the test -/

def manyRecs (N : Nat) : List (List GoStr) := List.replicate N [b!"3", b!"7", b!"u"]

def manyDisk (N : Nat) (path : GoStr) : Option GoStr :=
  if path = b!"in.csv" then some (csvText 44 false ([b!"x", b!"y", b!"s"] :: manyRecs N)) else none

/-- `-cpu m -split 0.99 -sep , in.csv y` -/
def manyArgs (m : Int) : ExampleArgs Int := ⟨[b!"in.csv", b!"y"], b!",", m, 99, true, true, ⟨0, 1, 3, 0, 0, false⟩⟩

theorem many_number {N : Nat} {c : GoStr} (h : floatCellB ([b!"3", b!"7", b!"u"].getD ([b!"x", b!"y", b!"s"].idxOf c) []) = true) :
    NumberColumn pf [b!"x", b!"y", b!"s"] (manyRecs N) c := by
  intro v hv
  unfold manyRecs at hv
  rw [cellsUnder_replicate] at hv
  rw [(List.mem_replicate.1 hv).2]
  exact floatCellB_iff.1 h

theorem many_ready (m : Int) {N t : Nat} (hc : (((N : Int) * 100 * 99).tdiv 100).tdiv 100 = t) (h1 : 0 < t) (h2 : t < N) :
    ExampleReady pf (sch (List.range N)).experiment.perm (manyDisk N) (manyArgs m) b!"y" [] 44 [b!"x", b!"y", b!"s"] (manyRecs N) t where
  file := by
    refine ⟨b!"in.csv", csvText 44 false ([b!"x", b!"y", b!"s"] :: manyRecs N), rfl, by unfold manyDisk; rw [if_pos rfl], ?_⟩
    have := C74_same (comma := 44) (t := exampleText 44) ⟨rfl, by decide, fun h => (by cases h), fun h => absurd rfl h⟩ false
      (rs := [b!"x", b!"y", b!"s"] :: manyRecs N) (fun h => absurd rfl h) ?_ ?_
    · exact this
    · intro r hr
      rcases List.mem_cons.1 hr with rfl | hr
      · decide
      · rw [(List.mem_replicate.1 hr).2]; decide
    · intro r hr f hf
      unfold TextSafe
      simp only [Bool.false_eq_true, if_false]
      have : 13 ∉ f := by
        rcases List.mem_cons.1 hr with rfl | hr
        · revert f; decide
        · rw [(List.mem_replicate.1 hr).2] at hf; revert f; decide
      rintro ⟨a, b, hx⟩
      apply this
      rw [← hx]; simp
  fields := by
    intro r hr
    rw [(List.mem_replicate.1 hr).2]; rfl
  named := by decide
  number := by
    exact ⟨⟨by decide, by decide⟩, many_number (by decide +kernel)⟩
  other := by
    exact ⟨b!"x", by decide, ⟨by decide, by decide⟩, many_number (by decide +kernel)⟩
  reserved := by intro h; exact absurd h.1 (by decide)
  output := by decide
  texts := by
    have key : ∀ c, ReadColumn [b!"x", b!"y", b!"s"] [] c → ¬ NumberColumn pf [b!"x", b!"y", b!"s"] (manyRecs N) c → c = b!"s" := by
      intro c hc hx
      have hc := hc.1
      simp only [List.mem_cons, List.not_mem_nil, or_false] at hc
      rcases hc with rfl | rfl | rfl
      · exact absurd (many_number (by decide +kernel)) hx
      · exact absurd (many_number (by decide +kernel)) hx
      · rfl
    intro c d hc hd hx hx'
    rw [key c hc hx, key d hd hx']
    constructor
    · intro i hx
      have := congrArg List.length hx
      simp [onehotName] at this
    · decide
  perm := by
    rw [show (manyRecs N).length = N from List.length_replicate]
    exact List.Perm.refl _
  ratio := ⟨rfl, rfl⟩
  count := by
    rw [show (manyRecs N).length = N from List.length_replicate]
    exact hc
  some_test := h1
  some_train := by
    rw [show (manyRecs N).length = N from List.length_replicate]
    exact h2
  batch := by show (0 : Int) < 3; decide
  epochs := Int.le_refl _
  options := Or.inl ⟨rfl, rfl⟩
  utf8 := by
    intro c hc
    have hc := hc.1
    simp only [List.mem_cons, List.not_mem_nil, or_false] at hc
    rcases hc with rfl | rfl | rfl <;> exact isText_ascii (by decide)

theorem many_check {m : Int} (hm : m = 5 ∨ m = 6) :
    okAnd (exampleRead pf (sch (List.range 518)) (manyDisk 518) (manyArgs m).maxCPU b!"in.csv" [] 44 Demo.heap0) (fun r =>
      okAnd (experimentTrain bl (sch (List.range 518)).experiment ((manyArgs m).flags b!"y") r.1 r.2)
        (fun x => Demo.goodB x.1.preproc && modelB x.1.model)) = true := by
  rcases hm with rfl | rfl <;> decide +kernel

theorem many_finite {N : Nat} (hN : N = 518) {m : Int} (hm : m = 5 ∨ m = 6) (path : GoStr) (df : DF) (h1 : Heap Int) (x : TrainedExperiment Int)
    (h2 : Heap Int) (hp : (manyArgs m).parsed = some (path, b!"y", [], 44))
    (e1 : exampleRead pf (sch (List.range N)) (manyDisk N) (manyArgs m).maxCPU path [] 44 Demo.heap0 = .ok (df, h1))
    (e2 : experimentTrain bl (sch (List.range N)).experiment ((manyArgs m).flags b!"y") df h1 = .ok (x, h2)) : x.Finite := by
  have hp : path = b!"in.csv" := by
    have : (manyArgs m).parsed = some (b!"in.csv", b!"y", [], 44) := rfl
    rw [this] at hp
    cases hp; rfl
  subst hp
  have := many_check hm
  rw [← hN, e1] at this
  have this : okAnd (experimentTrain bl (sch (List.range N)).experiment ((manyArgs m).flags b!"y") df h1)
    (fun x => Demo.goodB x.1.preproc && modelB x.1.model) = true := this
  rw [e2] at this
  have h2 : Demo.goodB x.preproc && modelB x.model := this
  rw [Bool.and_eq_true] at h2
  exact ⟨(model_of h2.2).2, (Demo.good_of h2.1).2⟩

theorem many_files {t : Nat} (ht : t = 512) {m : Int} (hm : m = 5 ∨ m = 6) :
    ((2 : Nat) : Int) = min (clampCPU (Demo.heap0 : Heap Int).rt.numCPU (manyArgs m).maxCPU) (1 + (t : Int) / 512) := by
  have : (t : Int) / 512 = 1 := by omega
  rw [this]
  rcases hm with rfl | rfl <;> decide

/-- C82 is false: an ordinary file of 518 records, and the program hangs when it has written its files. -/
theorem C82_refuted_hangs {N : Nat} (hN : N = 518) :
    exampleMain pf ff jf bl (sch (List.range N)) (manyDisk N) true (manyArgs 6) Demo.heap0 = .error .hang := by
  obtain ⟨t, ht⟩ : ∃ t, t = 512 := ⟨_, rfl⟩
  exact C82_hangs (many_ready 6 (t := t) (by rw [hN, ht]; decide) (by omega) (by omega)) Demo.heap0 (many_finite hN (Or.inr rfl)) (n := 2)
    (many_files ht (Or.inr rfl)) (Nat.le_refl _) (by decide)

/-- With `-cpu 5` it ends, although two files are written. -/
example {N : Nat} (hN : N = 518) : ∃ run h', exampleMain pf ff jf bl (sch (List.range N)) (manyDisk N) true (manyArgs 5) Demo.heap0 = .ok (run, h') := by
  obtain ⟨t, ht⟩ : ∃ t, t = 512 := ⟨_, rfl⟩
  obtain ⟨run, h', _, _, _, _, _, _, _, _, _, _, e, _⟩ := C82_main_partial (ff := ff) (j := jf) (bl := bl)
    (many_ready 5 (N := N) (t := t) (by rw [hN, ht]; decide) (by omega) (by omega)) Demo.heap0
    (many_finite hN (Or.inl rfl)) (n := 2) (many_files ht (Or.inl rfl)) (Or.inr ⟨by decide, by omega, by decide⟩)
  exact ⟨run, h', e⟩

/-- With `-imputing` only it panics. -/
example : exampleMain pf ff jf bl (sch sched.perm) disk true { args with scaling := false } Demo.heap0 = .error .panic :=
  C82_options (a := { args with scaling := false }) { example_ready.toExampleData with } (by rintro (⟨_, h0⟩ | ⟨h0, _⟩) <;> cases h0) true Demo.heap0

/-- When the directory is missing it panics. -/
example : exampleMain pf ff jf bl (sch sched.perm) disk false args Demo.heap0 = .error .panic :=
  C82_unwritable example_ready Demo.heap0 example_finite

/-- So it does without a second argument, with a file that does not exist, and with a quote as separator. -/
example : exampleMain pf ff jf bl (sch sched.perm) disk true { args with rest := [b!"in.csv"] } Demo.heap0 = .error .panic :=
  C82_arguments (Or.inl (by decide)) true Demo.heap0

example : exampleMain pf ff jf bl (sch sched.perm) disk true { args with rest := [b!"no.csv", b!"y"] } Demo.heap0 = .error .panic :=
  C82_bad_file (path := b!"no.csv") (target := b!"y") (exclude := []) (comma := 59) rfl (Or.inl (by decide)) true Demo.heap0

example : exampleMain pf ff jf bl (sch sched.perm) disk true { args with sep := b!"\"" } Demo.heap0 = .error .panic :=
  C82_bad_file (path := b!"in.csv") (target := b!"y") (exclude := [b!"z"]) (comma := 34) rfl (Or.inr (Or.inl rfl)) true Demo.heap0

/-- With a column without a name it hangs. -/
example : exampleMain pf ff jf bl (sch sched.perm) (fun _ => some b!"x;y;\n1;2;3\n") true args Demo.heap0 = .error .hang :=
  C82_empty_name (path := b!"in.csv") (text := b!"x;y;\n1;2;3\n") (target := b!"y") (exclude := [b!"z"]) (comma := 59)
    (hdr := [b!"x", b!"y", []]) (rec := [[b!"1", b!"2", b!"3"]]) rfl rfl (by decide +kernel) (by decide) (by decide) (by decide) true Demo.heap0

end Verif.FixDemo
