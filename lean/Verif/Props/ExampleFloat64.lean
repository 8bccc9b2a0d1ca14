import Verif.Props.ExampleDemo
import Verif.Props.StrconvCSV
import Verif.Props.Float64Demo

/-! C82 with Go's own floats: IEEE float64 arithmetic, `strconv` for the CSV files and `encoding/json` for what is saved. -/

namespace Verif.Float64
open Verif

/-- **C82**, partial, with nothing assumed of numbers: the text of a number is read as the nearest float64, computed with as IEEE-754
prescribes, saved with the shortest text that is read back as the same number. See `C82_main_partial` for what is missing. -/
theorem C82_main64_partial {bl : Blas Float64} {sch : ExampleSched Float64} {disk : GoStr → Option GoStr} {a : ExampleArgs Float64} {target : GoStr}
    {exclude : List GoStr} {comma : Nat} {hdr : List GoStr} {rec : List (List GoStr)} {t : Nat}
    (r : ExampleReady parseFloat64 sch.experiment.perm disk a target exclude comma hdr rec t) (h : Heap Float64)
    (hs : ∀ path df h1 x h2, a.parsed = some (path, target, exclude, comma) →
      exampleRead parseFloat64 sch disk a.maxCPU path exclude comma h = .ok (df, h1) →
      experimentTrain bl sch.experiment (a.flags target) df h1 = .ok (x, h2) → x.Finite)
    {n : Nat} (hn : (n : Int) = min (clampCPU h.rt.numCPU a.maxCPU) (1 + t / 512))
    (hw : n = 1 ∨ (∀ c ∈ hdr, 13 ∉ c) ∧ n ≤ 512 ∧ (if a.maxCPU ≤ 0 then (h.rt.numCPU : Int) else a.maxCPU) < n * (n + 1)) :
    ∃ run h' A fvals T kind s k js ys parts text, exampleMain parseFloat64 fmtFloat64 jsonFloat64 bl sch disk true a h = .ok (run, h') ∧
      ExampleDone parseFloat64 fmtFloat64 bl sch a target exclude comma hdr rec t h.rt.numCPU run h' A fvals T kind s k js ys parts text ∧
      NothingChanges h h' :=
  C82_main_partial r h hs hn hw

/-- A dot product that adds from left to right. -/
def bl64 : Blas Float64 :=
  ⟨fun xs ws => (List.zipWith GoFloat.mul xs ws).foldl GoFloat.add GoFloat.zero,
   fun xs ws => (List.zipWith GoFloat.mul xs ws).foldl GoFloat.add GoFloat.zero, fun a al b => GoFloat.add a (GoFloat.mul al b)⟩

def fsched64 : FitSched Float64 where
  names l := l
  features l := l
  norm i := dec ((i : Int) + 1) 8
  shuffle e n := if e % 2 = 0 then List.range n else (List.range n).reverse
  names_perm l := List.Perm.refl l
  features_perm l := List.Perm.refl l
  shuffle_perm e n := by
    split
    · exact List.Perm.refl _
    · exact List.reverse_perm _

def sch64 : ExampleSched Float64 where
  jobs := List.reverse
  who _ := 0
  experiment := ⟨[4, 1, 0, 2, 5, 3], Demo.autoSched, fsched64, Demo.autoSched⟩
  order _ _ := id
  full _ n := n % 2 = 0
  again := Demo.filesSched
  jobs_perm := List.reverse_perm
  order_perm _ _ l := List.Perm.refl l

/-- Six records. -/
def text64 : GoStr := b!"x,y,s\n0.1,7,u\nNA,2.5e-1,v\n1e3,0.001,u\n-5.75,.4,w\n2,3,v\n4,6.000000001,u\n"

def disk64 (path : GoStr) : Option GoStr := if path = b!"in.csv" then some text64 else none

/-- `-cpu 2 -split 0.5 -imputing -scaling -epochs 2 -lr 0.01 -batch 2 -decay 0.001 -momentum 0.9 in.csv y` -/
def args64 : ExampleArgs Float64 := ⟨[b!"in.csv", b!"y"], b!",", 2, dec 1 2, true, true, ⟨2, dec 1 100, 2, dec 1 1000, dec 9 10, false⟩⟩

def hdr64 : List GoStr := [b!"x", b!"y", b!"s"]

def recs64 : List (List GoStr) := [[b!"0.1", b!"7", b!"u"], [b!"NA", b!"2.5e-1", b!"v"], [b!"1e3", b!"0.001", b!"u"],
  [b!"-5.75", b!".4", b!"w"], [b!"2", b!"3", b!"v"], [b!"4", b!"6.000000001", b!"u"]]

def floatCellB (v : GoStr) : Bool := decide (v ∈ exampleMissing) || (parseFloat64 v).isSome

theorem number_iff {hdr : List GoStr} {recs : List (List GoStr)} {c : GoStr} :
    NumberColumn parseFloat64 hdr recs c ↔ (cellsUnder hdr recs c).all floatCellB = true := by
  unfold NumberColumn
  rw [List.all_eq_true]
  have : ∀ v, floatCellB v = true ↔ FloatCell parseFloat64 exampleMissing v := by
    intro v
    unfold floatCellB FloatCell
    rw [Bool.or_eq_true, decide_eq_true_iff, Option.isSome_iff_exists]
  simp only [this]

theorem textCol {c : GoStr} (h : ReadColumn hdr64 [] c) (hn : ¬ NumberColumn parseFloat64 hdr64 recs64 c) : c = b!"s" := by
  have h1 := h.1
  simp only [hdr64, List.mem_cons, List.not_mem_nil, or_false] at h1
  rcases h1 with rfl | rfl | rfl
  · exact absurd (number_iff.2 (by decide +kernel)) hn
  · exact absurd (number_iff.2 (by decide +kernel)) hn
  · rfl

/-- The demo meets the hypotheses. -/
theorem ready64 : ExampleReady parseFloat64 sch64.experiment.perm disk64 args64 b!"y" [] 44 hdr64 recs64 3 where
  file := ⟨b!"in.csv", text64, by decide, by decide, by decide +kernel⟩
  fields := by decide
  named := by decide
  number := ⟨⟨by decide, by decide⟩, number_iff.2 (by decide +kernel)⟩
  other := ⟨b!"x", by decide, ⟨by decide, by decide⟩, number_iff.2 (by decide +kernel)⟩
  reserved := by intro h; exact absurd h.1 (by decide)
  output := by decide
  texts := by
    intro c d hc hd hc2 hd2
    rw [textCol hc hc2, textCol hd hd2]
    constructor
    · intro i hx
      have := congrArg List.length hx
      simp [onehotName] at this
    · decide
  perm := by decide
  ratio := by decide +kernel
  count := by decide +kernel
  some_test := by decide
  some_train := by decide
  batch := by decide
  epochs := by decide
  options := Or.inl ⟨rfl, rfl⟩
  utf8 := by
    intro c hc
    have : ∀ c ∈ hdr64, c.all (fun b => decide (b < 0x80)) = true := by decide
    have := this c hc.1
    simp only [List.all_eq_true, decide_eq_true_eq] at this
    exact isText_ascii this

/-- The learnt numbers are finite. -/
def okB (x : TrainedExperiment Float64) : Bool :=
  (match x.preproc.imputer with | some im => im.fallback.all fun e => finite e.2 | none => false) &&
  (match x.preproc.scaler with
    | some sc => (sc.shift.all fun e => finite e.2) && (sc.scale.all fun e => finite e.2)
    | none => false) &&
  (match x.model.scaler with
    | some sc => (sc.shift.all fun e => finite e.2) && (sc.scale.all fun e => finite e.2)
    | none => false) && x.model.weights.all fun x => finite x

theorem finite_of {x : TrainedExperiment Float64} (h : okB x = true) : x.Finite := by
  unfold okB at h
  simp only [Bool.and_eq_true] at h
  obtain ⟨⟨⟨h3, h4⟩, h5⟩, h7⟩ := h
  simp only [List.all_eq_true] at h7
  refine ⟨⟨?_, h7⟩, ?_, ?_⟩
  · intro sc he
    rw [he] at h5
    simp only [Bool.and_eq_true, List.all_eq_true] at h5
    exact ⟨h5.1, h5.2⟩
  · intro im he
    rw [he] at h3
    simp only [List.all_eq_true] at h3
    exact h3
  · intro sc he
    rw [he] at h4
    simp only [Bool.and_eq_true, List.all_eq_true] at h4
    exact ⟨h4.1, h4.2⟩

theorem finite64 (path : GoStr) (df : DF) (h1 : Heap Float64) (x : TrainedExperiment Float64) (h2 : Heap Float64)
    (hp : args64.parsed = some (path, b!"y", [], 44))
    (e1 : exampleRead parseFloat64 sch64 disk64 args64.maxCPU path [] 44 heap0 = .ok (df, h1))
    (e2 : experimentTrain bl64 sch64.experiment (args64.flags b!"y") df h1 = .ok (x, h2)) : x.Finite := by
  have hp : path = b!"in.csv" := by
    have : args64.parsed = some (b!"in.csv", b!"y", [], 44) := rfl
    rw [this] at hp
    cases hp; rfl
  subst hp
  have : okAnd (exampleRead parseFloat64 sch64 disk64 args64.maxCPU b!"in.csv" [] 44 heap0) (fun r =>
      okAnd (experimentTrain bl64 sch64.experiment (args64.flags b!"y") r.1 r.2) (fun x => okB x.1)) = true := by
    decide +kernel
  rw [e1] at this
  have this : okAnd (experimentTrain bl64 sch64.experiment (args64.flags b!"y") df h1) (fun x => okB x.1) = true := this
  rw [e2] at this
  exact finite_of this

/-- C82 on the demo. -/
example : ∃ run h', exampleMain parseFloat64 fmtFloat64 jsonFloat64 bl64 sch64 disk64 true args64 heap0 = .ok (run, h') ∧
    ∃ fvals js ys, (abs h' run.df).floats b!"y" = some fvals ∧ (abs h' run.result.test).floats b!"y" = some (takeRows fvals js) ∧
      run.result.mae = GoFloat.div (fsum (List.zipWith (fun y p => GoFloat.abs (GoFloat.sub y p)) (takeRows fvals js) ys)) (GoFloat.ofInt 3) := by
  obtain ⟨run, h', A, fvals, T, kind, s, k, js, ys, parts, text, e, d, _⟩ := C82_main64_partial (n := 1) ready64 heap0 finite64
    (by decide) (Or.inl rfl)
  refine ⟨run, h', e, fvals b!"y", js, ys, ?_, d.error.1, d.error.2⟩
  rw [d.read.2.1]
  exact (d.read.1.numbers b!"y" ready64.number.1 ready64.number.2).1

/-- The whole run of the example program, computed with IEEE floats: what it predicts for the three test records, and the file it
writes, three copies of a record that it was trained on. -/
theorem C82_computed64 : okAnd (exampleMain parseFloat64 fmtFloat64 jsonFloat64 bl64 sch64 disk64 true args64 heap0) (fun r =>
    decide ((abs r.2 r.1.result.test).floats b!"y" = some [dec 1 1000, dec 4 10, dec 6000000001 1000000000]) &&
    decide (((abs r.2 r.1.result.test).floats b!"y_pred").map (fun l => l.map fmtFloat64) =
      some [b!"79.56561357708989", b!"3.4701646783583926", b!"4.3468847724768604"]) &&
    decide (r.1.files = [(b!"outdir/file0.csv",
      b!"s_onehot1,s_onehot0,y,x,y_pred\nfalse,false,7,0.1,0\nfalse,false,7,0.1,0\nfalse,false,7,0.1,0\n")])) = true := by
  decide +kernel

end Verif.Float64
