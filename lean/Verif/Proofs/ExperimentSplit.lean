import Verif.Proofs.Experiment
import Verif.Proofs.ExperimentADF
import Verif.Props.Splits
import Verif.Props.RowViews

/-! Lemmas for C79: the shuffled and split dataframe. -/

namespace Verif
variable {F : Type}

/-- Everything about the two halves that the rest of the experiment needs. -/
structure Half (h : Heap F) (df : DF) (h1 : Heap F) (v : DF) (is : List Nat) : Prop where
  rv : RowView h df h1 v is
  step : StepOK h df h1 v
  raw : v.toRaw = { df.toRaw with sharedMaps := true }
  rows : v.rows = pick df.rows is
  inRange : ∀ i ∈ is, i < df.numRows

theorem Half.nodup {h h1 : Heap F} {df v : DF} {is : List Nat} (a : Half h df h1 v is) (hn : df.rows.Nodup) (hi : is.Nodup) :
    v.rows.Nodup := by
  rw [a.rows]
  unfold pick
  refine hi.map_on ?_
  intro x hx y hy e
  have h1 := a.inRange x hx
  have h2 := a.inRange y hy
  have h1' : x < df.rows.length := h1
  have h2' : y < df.rows.length := h2
  rw [List.getD_eq_getElem?_getD, List.getD_eq_getElem?_getD, List.getElem?_eq_getElem h1', List.getElem?_eq_getElem h2'] at e
  exact (List.Nodup.getElem_inj_iff hn).1 e

theorem shuffleSplit [GoFloat F] {df : DF} {h : Heap F} (wf : df.WF h) (mwf : df.MaskWF h) {perm : List Nat}
    (hp : perm.Perm (List.range df.numRows)) {ratio : F}
    (hr : GoFloat.lt ratio (GoFloat.zero : F) = false ∧ GoFloat.lt (GoFloat.one : F) ratio = false)
    (t : Nat) (ht : GoFloat.trunc (GoFloat.mul (GoFloat.ofInt df.numRows) ratio : F) = t) (hle : t ≤ df.numRows) :
    ∃ v train test h1, df.shuffleView perm h = .ok (v, h1) ∧ v.splitTrainTestViews ratio h1 = .ok ((train, test), h1) ∧
      Half h df h1 train (perm.take (df.numRows - t)) ∧ Half h df h1 test (perm.drop (df.numRows - t)) := by
  have hlen : perm.length = df.numRows := by rw [hp.length_eq, List.length_range]
  have hin : ∀ i ∈ perm, i < df.numRows := fun i hi => by simpa using hp.mem_iff.1 hi
  obtain ⟨v, h1, e1, rv, st, hidx, hraw, hiv, _⟩ := indexView_step wf mwf (is := perm.map Int.ofNat) (by
    intro i hi
    obtain ⟨k, hk, rfl⟩ := List.mem_map.1 hi
    have := hin k hk
    exact ⟨Int.natCast_nonneg _, by simpa using this⟩)
  have hmap : (perm.map Int.ofNat).map Int.toNat = perm := by simp [List.map_map, Function.comp_def]
  rw [hmap] at rv hidx
  have hnv : v.numRows = df.numRows := by rw [rv.numRows, hlen]
  have hl : v.idx.len ≤ v.idx.data.length := by rw [hidx]; exact Nat.le_refl _
  have hrows : v.rows = pick df.rows perm := by rw [DF.rows, hidx, Idx.rows_mk']
  obtain ⟨tr, s1, r1, w1⟩ := sliceView_indexed (h := h1) hiv hl (a := 0) (b := v.numRows - t) (by omega) (by omega)
  obtain ⟨te, s2, r2, w2⟩ := sliceView_indexed (h := h1) hiv hl (a := v.numRows - t) (b := v.numRows) (by omega) (by omega)
  obtain ⟨tr', te', h2, e2, v1, v2⟩ := C11_splitTrainTest rv.wf hr t (by rw [hnv]; exact ht) (by omega)
  have e3 : v.splitTrainTestViews ratio h1 = .ok ((tr, te), h1) := by
    unfold DF.splitTrainTestViews
    rw [hr.1, hr.2]
    simp only [Bool.or_self, Bool.false_eq_true, if_false]
    rw [hnv, ht]
    have c1 : ((df.numRows : Int) - (t : Int)) = ((v.numRows - t : Nat) : Int) := by omega
    rw [c1, ← hnv, show (0 : Int) = ((0 : Nat) : Int) from rfl, s1]
    simp only
    rw [s2]
  rw [e3] at e2
  cases e2
  have hk1 : pick perm (rowRange 0 (v.numRows - t)) = perm.take (df.numRows - t) := by
    unfold rowRange
    rw [pick_range' _ _ _ (by omega)]
    simp [hnv]
  have hk2 : pick perm (rowRange (v.numRows - t) v.numRows) = perm.drop (df.numRows - t) := by
    unfold rowRange
    rw [pick_range' _ _ _ (by omega), hnv]
    apply List.take_of_length_le
    simp; omega
  have j1 : ∀ j ∈ rowRange 0 (v.numRows - t), j < perm.length := by
    intro j hj; simp [rowRange] at hj; omega
  have j2 : ∀ j ∈ rowRange (v.numRows - t) v.numRows, j < perm.length := by
    intro j hj; simp [rowRange] at hj; omega
  have q1 := sliceView_stepOK rv.wf st.mwf (a := ((0 : Nat) : Int)) (b := ((v.numRows - t : Nat) : Int)) (by unfold SliceBound; omega) (by unfold SliceBound; omega) s1
  have q2 := sliceView_stepOK rv.wf st.mwf (a := ((v.numRows - t : Nat) : Int)) (b := (v.numRows : Int)) (by unfold SliceBound; omega) (by unfold SliceBound; omega) s2
  refine ⟨v, tr, te, h1, e1, e3, ⟨?_, st.trans q1, by rw [w1, hraw], ?_, fun i hi => hin i (List.mem_of_mem_take hi)⟩,
    ⟨?_, st.trans q2, by rw [w2, hraw], ?_, fun i hi => hin i (List.mem_of_mem_drop hi)⟩⟩
  · rw [← hk1]; exact rv.trans v1 j1
  · rw [r1, hrows, pick_pick _ _ _ j1, hk1]
  · rw [← hk2]; exact rv.trans v2 j2
  · rw [r2, hrows, pick_pick _ _ _ j2, hk2]

theorem repeats_one {df : DF} (hn : df.rows.Nodup) {i : Nat} (hi : i < df.numRows) : df.repeats i = 1 := by
  unfold DF.repeats
  have : i < df.rows.length := hi
  rw [List.getElem?_eq_getElem this]
  exact List.count_eq_one_of_mem hn (List.getElem_mem this)

theorem repeats_pick {df v : DF} {is : List Nat} (e : v.rows = pick df.rows is) : v.repeats = df.repeatsIn is := by
  funext j
  unfold DF.repeats DF.repeatsIn
  rw [e]
  unfold pick
  rw [List.getElem?_map]
  cases is[j]? with
  | none => rfl
  | some r =>
    simp only [Option.map_some, List.count, List.countP_map]
    rfl

/-- The number of repetitions does not depend on the order. -/
theorem repeatsIn_pick (df : DF) {is js : List Nat} (hp : js.Perm (List.range is.length)) {i : Nat} (hi : i < js.length) :
    df.repeatsIn is (js.getD i 0) = df.repeatsIn (pick is js) i := by
  have hr : js[i] < is.length := by simpa using hp.mem_iff.1 (List.getElem_mem hi)
  unfold DF.repeatsIn
  rw [List.getD_eq_getElem?_getD, List.getElem?_eq_getElem hi, Option.getD_some, List.getElem?_eq_getElem hr]
  have h1 : (pick is js)[i]? = some is[js[i]] := by
    unfold pick
    simp [List.getElem?_eq_getElem hi, List.getD_eq_getElem?_getD, List.getElem?_eq_getElem hr]
  rw [h1]
  simp only
  have h2 : (pick is js).Perm (pick is (List.range is.length)) := hp.map _
  rw [pick_range] at h2
  exact (h2.countP_eq _).symm

/-- Nothing is repeated. -/
theorem repeatsIn_one {df : DF} {is : List Nat} (hn : df.rows.Nodup) (hi : is.Nodup) (hr : ∀ i ∈ is, i < df.numRows) {j : Nat} (hj : j < is.length) :
    df.repeatsIn is j = 1 := by
  unfold DF.repeatsIn
  rw [List.getElem?_eq_getElem hj]
  simp only
  have : is.countP (fun i => df.rows.getD i 0 == df.rows.getD is[j] 0) = is.count is[j] := by
    unfold List.count
    apply List.countP_congr
    intro x hx
    have h1 : x < df.rows.length := hr x hx
    have h2 : is[j] < df.rows.length := hr _ (List.getElem_mem hj)
    simp only [beq_iff_eq, List.getD_eq_getElem?_getD, List.getElem?_eq_getElem h1, List.getElem?_eq_getElem h2, Option.getD_some]
    exact List.Nodup.getElem_inj_iff hn
  rw [this]
  exact List.count_eq_one_of_mem hi (List.getElem_mem hj)

theorem abs_col_length {h : Heap F} {df : DF} {k : Kind} {c : GoStr} {l : List (Option (Val F))} (e : (abs h df).col k c = some l) :
    l.length = df.numRows := by
  simp only [abs] at e
  obtain ⟨s, _, rfl⟩ := Option.map_eq_some_iff.1 e
  simp [DF.numRows, DF.rows]

end Verif
