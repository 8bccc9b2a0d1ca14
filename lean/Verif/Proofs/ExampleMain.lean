import Verif.Spec.ExampleMain
import Verif.Props.Experiment
import Verif.Props.CSVFiles
import Verif.Props.CSVText
import Verif.Proofs.CSVRaw
import Verif.Proofs.Flags

/-! C82: the example program reads its file. -/

namespace Verif
variable {F : Type} [GoFloat F]

/-- The numbers of a column of numbers. -/
def fileFloats (pf : GoStr → Option F) (hdr : List GoStr) (rec : List (List GoStr)) (c : GoStr) : List F :=
  (cellsUnder hdr rec c).map fun v => if v ∈ exampleMissing then GoFloat.nan else (pf v).getD GoFloat.nan

theorem fileFloats_rows {pf : GoStr → Option F} {hdr : List GoStr} {rec : List (List GoStr)} {c : GoStr} (hn : NumberColumn pf hdr rec c) :
    RowByRow (AsFloat pf exampleMissing) (cellsUnder hdr rec c) ((fileFloats pf hdr rec c).map .float) := by
  unfold fileFloats RowByRow
  rw [List.map_map, List.forall₂_map_right_iff]
  refine List.forall₂_same.2 ?_
  intro v hv
  simp only [Function.comp]
  rcases hn v hv with hm | ⟨x, hx⟩
  · rw [if_pos hm]; exact Or.inl ⟨hm, rfl⟩
  · by_cases hm : v ∈ exampleMissing
    · rw [if_pos hm]; exact Or.inl ⟨hm, rfl⟩
    · rw [if_neg hm, hx]; exact Or.inr ⟨hm, x, hx, rfl⟩

open Classical in
theorem csvKind_example {pf : GoStr → Option F} {maxCPU : Int} {exclude hdr : List GoStr} {rec : List (List GoStr)} {c : GoStr} :
    csvKind pf (exampleSpec maxCPU exclude) (cellsUnder hdr rec c) =
      if NumberColumn pf hdr rec c then (.float, (fileFloats pf hdr rec c).map .float)
      else (.obj, toStrings (cellsUnder hdr rec c) (missOf (exampleSpec maxCPU exclude) (cellsUnder hdr rec c))) := by
  unfold csvKind
  have h1 : (exampleSpec maxCPU exclude).binaryAsFloat = true := rfl
  have h2 : (exampleSpec maxCPU exclude).intAsFloat = true := rfl
  rw [h1, h2]
  simp only [Bool.not_true, Bool.false_and, Bool.and_false, Bool.or_self, Bool.false_eq_true, if_false]
  have hi := isFloat_iff (pf := pf) (spec := exampleSpec maxCPU exclude) (cells := cellsUnder hdr rec c)
  by_cases hn : NumberColumn pf hdr rec c
  · rw [if_pos hn, if_pos (hi.2 hn)]
    have := (toFloat_iff (pf := pf) (spec := exampleSpec maxCPU exclude) hn _).1 (fileFloats_rows hn)
    rw [this]
  · rw [if_neg hn, if_neg (fun h => hn (hi.1 h))]

/-- The reading of the file. -/
theorem exampleRead_ok {pf : GoStr → Option F} {sch : ExampleSched F} {disk : GoStr → Option GoStr} {maxCPU : Int} {path text : GoStr}
    {exclude hdr : List GoStr} {rec : List (List GoStr)} {comma : Nat} (hd : disk path = some text)
    (hr : csvRead (exampleText comma) text = ⟨hdr :: rec, false⟩) (hf : ∀ r ∈ rec, r.length = hdr.length)
    (hn : [] ∈ hdr → [] ∈ exclude) (hc : ∃ c, ReadColumn hdr exclude c) (h : Heap F) :
    ∃ df h1, exampleRead pf sch disk maxCPU path exclude comma h = .ok (df, h1) ∧ df.WF h1 ∧ df.MaskWF h1 ∧ df.shared = none ∧
      df.rows = List.range rec.length ∧ df.maxCPU = clampCPU h1.rt.numCPU maxCPU ∧
      ShowsFile pf exclude hdr rec (fileFloats pf hdr rec) (abs h1 df) ∧ Heap.Ext h h1 := by
  have hh : Holds (exampleSpec maxCPU exclude) (csvRead (exampleText comma) text) hdr rec := ⟨Or.inl ⟨rfl, hr⟩, hf⟩
  obtain ⟨r, h0, e0, wf0, ext0, enc0, cpu0, col0, str0⟩ := fromCSV_spec pf sch.jobs_perm sch.who hh hn h
  have hlen : ∀ k s, AMap.get (h0.tab r.tab) k = some s → s.len = rec.length := by
    intro ⟨k, c⟩ s hs
    rw [← (wf0.slices _ _ hs).read_length]
    have hcol : rawCol h0 r k c = some (h0.read s) := by unfold rawCol; rw [hs]; rfl
    rw [col0] at hcol
    split at hcol
    · rw [← Option.some.inj hcol, csvKind_example]
      split
      · simp [fileFloats, cellsUnder]
      · simp [toStrings, missOf, cellsUnder]
    · cases hcol
  have hne : h0.tab r.tab ≠ [] := by
    obtain ⟨c, hc1, hc2⟩ := hc
    intro he
    have := col0 (csvKind pf (exampleSpec maxCPU exclude) (cellsUnder hdr rec c)).1 c
    rw [if_pos ⟨hc1, hc2, rfl⟩] at this
    unfold rawCol at this
    rw [he] at this
    cases this
  obtain ⟨df, h1, e1, wf1, mwf1, ext1, rows1, _, tab1, strh1, enc1, cpu1, t1, t2, t3⟩ := toDataFrame_ok wf0 hlen hne
  have hlenc : ∀ k c vs, rawCol h0 r k c = some vs → vs.length = rec.length := by
    intro k c vs hv
    unfold rawCol at hv
    obtain ⟨s, hs, rfl⟩ := Option.map_eq_some_iff.1 hv
    rw [(wf0.slices _ _ hs).read_length, hlen _ _ hs]
  have hnec : ∃ k c, (rawCol h0 r k c).isSome := by
    obtain ⟨c, hc1, hc2⟩ := hc
    exact ⟨_, c, by rw [col0, if_pos ⟨hc1, hc2, rfl⟩]; rfl⟩
  obtain ⟨df', h1', e1', _, _, sn, senc, sstr, scol⟩ := toDataFrame_shows wf0 hlenc hnec
  rw [e1] at e1'
  cases e1'
  have hsh : df.shared = none := by
    unfold Raw.toDataFrame at e1
    simp only at e1
    split at e1
    · cases e1; rfl
    · cases e1
  have hrt : h1.rt = h0.rt := by
    unfold Raw.toDataFrame at e1
    simp only at e1
    split at e1
    · cases e1; rfl
    · cases e1
  refine ⟨df, h1, ?_, wf1, mwf1, hsh, rows1, ?_, ⟨sn, ?_, ?_, ?_, ?_, ?_⟩, ext0.trans ext1⟩
  · unfold exampleRead fromCSVFile
    simp only [hd, Option.map_some, e0]
    exact e1
  · rw [cpu1, cpu0, hrt]; rfl
  · intro c hc hnum
    refine ⟨?_, fileFloats_rows hnum⟩
    rw [floats_some, scol, col0, if_pos ⟨hc.1, hc.2, by rw [csvKind_example, if_pos hnum]⟩, csvKind_example, if_pos hnum]
    simp
  · intro c hc hnum
    refine ⟨_, ?_, (toStrings_iff (spec := exampleSpec maxCPU exclude) _).2 rfl⟩
    rw [scol, col0, if_pos ⟨hc.1, hc.2, by rw [csvKind_example, if_neg hnum]⟩, csvKind_example, if_neg hnum]
    simp
  · intro k c hs
    rw [scol, Option.isSome_map, col0] at hs
    split at hs
    · rename_i hx
      refine ⟨⟨hx.1, hx.2.1⟩, ?_⟩
      rw [csvKind_example] at hx
      by_cases hnum : NumberColumn pf hdr rec c
      · rw [if_pos hnum] at hx; exact Or.inl ⟨hx.2.2.symm, hnum⟩
      · rw [if_neg hnum] at hx; exact Or.inr ⟨hx.2.2.symm, hnum⟩
    · cases hs
  · intro c
    rw [sstr, str0, decide_eq_true_iff, csvKind_example]
    unfold ReadColumn
    by_cases hnum : NumberColumn pf hdr rec c
    · simp [hnum]
    · simp [hnum, exampleSpec]
  · rw [senc, enc0]; rfl

end Verif
