import Verif.Spec.Access
import Verif.Props.History
import Verif.Props.Writes
import Verif.Props.Misc
import Verif.Proofs.Programs

/-! C80: accessors that are kept. -/

namespace Verif
open scoped Demo
variable {F : Type}

/-! ### an accessor, used at once -/

theorem access_iff {df : DF} {h : Heap F} {k : Kind} {c : GoStr} {a : Access} :
    df.access h k c = .ok a ↔ ∃ s, AMap.get (h.tab df.tab) (k, c) = some s ∧ a = ⟨k, df.idx, decide (k = .float) && !df.indexViewed, s⟩ := by
  unfold DF.access
  cases AMap.get (h.tab df.tab) (k, c) with
  | none => simp
  | some s => simp [eq_comm]

theorem stringAccess_iff {df : DF} {h : Heap F} {c : GoStr} {a : Access} :
    df.stringAccess h c = .ok a ↔ hdrContains h df.strHdr c = true ∧ df.access h .obj c = .ok a := by
  unfold DF.stringAccess DF.access
  cases AMap.get (h.tab df.tab) (.obj, c) with
  | none => simp
  | some s => by_cases hh : hdrContains h df.strHdr c = true <;> simp [hh]

theorem access_cellAt {df : DF} {h : Heap F} {k : Kind} {c : GoStr} {a : Access} (e : df.access h k c = .ok a) (i : Nat) :
    a.cellAt i = cellOf h df k c i := by
  obtain ⟨s, hs, rfl⟩ := access_iff.1 e
  simp only [Access.cellAt, cellOf, locs, hs, Option.map_some, Option.bind_some, List.getElem?_map, DF.rows]
  cases df.idx.rows[i]? <;> simp

theorem access_get {df : DF} {h : Heap F} {k : Kind} {c : GoStr} {a : Access} (e : df.access h k c = .ok a) (row : Int) :
    a.get h row = df.get h k c row := by
  obtain ⟨s, hs, rfl⟩ := access_iff.1 e
  unfold Access.get DF.get
  rw [hs]
  simp only
  cases df.idx.at row with
  | error x => rfl
  | ok i => simp only; cases h.cell s i <;> rfl

theorem access_set {df : DF} {h : Heap F} {k : Kind} {c : GoStr} {a : Access} (e : df.access h k c = .ok a) (row : Int) (v : Val F) :
    a.set h row v = df.set h k c row v := by
  obtain ⟨s, hs, rfl⟩ := access_iff.1 e
  unfold Access.set DF.set
  rw [hs]
  rfl

/-- An accessor made and used at once: what the other properties say of `DF.vecDense` and `DF.vecDenseCopy` (C57). -/
theorem access_vecDense {df : DF} {h : Heap F} {c : GoStr} {a : Access} (e : df.access h .float c = .ok a) :
    a.vecDense h = df.vecDense h c ∧ a.vecDenseCopy h = df.vecDenseCopy h c := by
  obtain ⟨s, hs, rfl⟩ := access_iff.1 e
  have hc : Access.vecDenseCopy ⟨.float, df.idx, decide (Kind.float = .float) && !df.indexViewed, s⟩ h = df.vecDenseCopy h c := by
    unfold Access.vecDenseCopy DF.vecDenseCopy
    rw [hs]
    rfl
  refine ⟨?_, hc⟩
  unfold Access.vecDense DF.vecDense
  rw [hs, hc]
  cases df.indexViewed <;> simp

/-- The accessors that `MSE` and `MAE` take (C45). -/
theorem access_floatAccess [GoFloat F] {df : DF} {h : Heap F} {c : GoStr} {a : Access} (e : df.access h .float c = .ok a) :
    ∃ f, df.floatAccess h c = .ok f ∧ f.size = a.size ∧ ∀ row, f.get h row = (a.get h row).map asFloat := by
  obtain ⟨s, hs, rfl⟩ := access_iff.1 e
  refine ⟨⟨df.idx, s⟩, by simp [DF.floatAccess, hs], rfl, fun row => ?_⟩
  unfold FloatAccess.get Access.get
  simp only
  cases df.idx.at row with
  | error x => rfl
  | ok i => simp only; cases h.cell s i <;> rfl

/-- C80: `df.Xs(c)` panics exactly if the column does not exist. The accessor has as many rows as the dataframe; `Get(row)`
returns the value that the dataframe shows there, and panics outside the rows; `SharedIndex(row)` is the position of the row in
the backing columns. `df.Strings(c)` panics exactly if there is no such column or it is not marked, and is otherwise the same
accessor, whose `Get` panics in addition on values that are not strings. -/
theorem C80_made {df : DF} {h : Heap F} (wf : df.WF h) (k : Kind) (c : GoStr) :
    (((abs h df).col k c = none ∧ df.access h k c = .error .panic) ∨
      ∃ a l, (abs h df).col k c = some l ∧ df.access h k c = .ok a ∧ a.size = (abs h df).nRows ∧
        (∀ i : Nat, i < (abs h df).nRows → ∃ v, (abs h df).cell k c i = some v ∧ a.get h i = .ok v ∧ a.sharedIndex i = .ok (df.rows.getD i 0)) ∧
        (∀ i : Int, ¬ (0 ≤ i ∧ i < (abs h df).nRows) → a.get h i = .error .panic ∧ a.sharedIndex i = .error .panic ∧
          ∀ v, a.set h i v = .error .panic)) ∧
    (df.stringAccess h c = if ((abs h df).col .obj c).isSome ∧ (abs h df).isStr c then df.access h .obj c else .error .panic) ∧
    ∀ a, df.stringAccess h c = .ok a → ∀ (i : Int) (s : GoStr), (a.getString h i = .ok s ↔ a.get h i = .ok (.str s)) ∧
      ((∀ s, a.get h i ≠ .ok (.str s)) → a.getString h i = .error .panic) := by
  refine ⟨?_, ?_, ?_⟩
  · cases hs : AMap.get (h.tab df.tab) (k, c) with
    | none => exact Or.inl ⟨by simp [abs, hs], by simp [DF.access, hs]⟩
    | some s =>
      refine Or.inr ⟨_, _, by simp [abs, hs]; rfl, by simp [DF.access, hs]; rfl, rfl, ?_, ?_⟩
      · intro i hi
        have hi' : i < df.rows.length := hi
        obtain ⟨N, h1, h2, _⟩ := wf.rect
        have hr := List.getElem?_eq_getElem hi'
        have hlt : df.rows[i] < s.len := by rw [h1 _ _ hs]; exact h2 _ (List.getElem_mem hi')
        obtain ⟨v, hv⟩ := (wf.slices _ _ hs).cell_some hlt
        refine ⟨v, ?_, ?_, ?_⟩
        · simp [ADF.cell, abs, hs, List.getElem?_map, hr, hv]
        · unfold Access.get Idx.at
          simp only [Int.natCast_nonneg, if_true, Int.toNat_natCast]
          rw [show df.idx.rows[i]? = some df.rows[i] from hr]
          simp [hv]
        · unfold Access.sharedIndex Idx.at
          simp only [Int.natCast_nonneg, if_true, Int.toNat_natCast]
          rw [show df.idx.rows[i]? = some df.rows[i] from hr]
          simp [List.getD_eq_getElem?_getD, hr]
      · intro i hi
        have := Idx.at_err (x := df.idx) (i := i) hi
        exact ⟨by simp [Access.get, this], by simp [Access.sharedIndex, this], fun v => by simp [Access.set, this]⟩
  · unfold DF.stringAccess DF.access
    cases hs : AMap.get (h.tab df.tab) (.obj, c) with
    | none => simp [abs, hs]
    | some s =>
      simp only [abs, hs, Option.map_some, Option.isSome_some, true_and]
      simp [hdrContains]
  · intro a _ i s
    unfold Access.getString
    cases e : a.get h i with
    | error x =>
      have : x = .panic := by
        unfold Access.get at e
        cases e1 : a.indices.at i with
        | error y =>
          rw [e1] at e; cases e
          unfold Idx.at at e1
          repeat' split at e1
          all_goals first | (cases e1; rfl) | cases e1
        | ok k => rw [e1] at e; dsimp only at e; split at e <;> cases e; rfl
      simp [this]
    | ok v => cases v <;> simp

/-! ### an accessor, used later -/

theorem Access.get_eq (a : Access) (h : Heap F) (i : Nat) :
    a.get h i = match (a.cellAt i).bind h.at with
      | some v => .ok v
      | none => .error .panic := by
  unfold Access.get Idx.at Access.cellAt
  simp only [Int.natCast_nonneg, if_true, Int.toNat_natCast]
  cases a.indices.rows[i]? with
  | none => rfl
  | some r =>
    simp only [Option.bind_some, Heap.cell]
    by_cases hr : r < a.raw.len
    · simp only [if_pos hr, Option.bind_some, Heap.at]
      cases (h.arr a.raw.arr)[a.raw.off + r]? <;> rfl
    · simp only [if_neg hr, Option.bind_none]

/-- The accessor was made by `Xs(c)` or `Strings(c)` of a consistent dataframe. -/
def Access.MadeIn (h : Heap F) (a : Access) : Prop :=
  ∃ (d : DF) (k : Kind) (c : GoStr), d.WF h ∧ (d.access h k c = .ok a ∨ d.stringAccess h c = .ok a)

theorem Access.MadeIn.spec {h : Heap F} {a : Access} (m : a.MadeIn h) :
    a.raw.Valid h ∧ (∀ r ∈ a.indices.rows, r < a.raw.len) ∧ (a.contiguous = true → a.indices.rows = List.range a.raw.len) := by
  obtain ⟨d, k, c, wf, e⟩ := m
  obtain ⟨k, e⟩ : ∃ k, d.access h k c = .ok a := e.elim (fun e => ⟨k, e⟩) fun e => ⟨.obj, (stringAccess_iff.1 e).2⟩
  obtain ⟨s, hs, rfl⟩ := access_iff.1 e
  obtain ⟨N, h1, h2, h3⟩ := wf.rect
  refine ⟨wf.slices _ _ hs, fun r hr => by rw [h1 _ _ hs]; exact h2 r hr, fun hc => ?_⟩
  simp only [Bool.and_eq_true, Bool.not_eq_true'] at hc
  rw [h1 _ _ hs]; exact h3 hc.2

theorem set_all_accessors {a : Access} {h h' : Heap F} (hv : a.raw.Valid h) (hlt : ∀ r ∈ a.indices.rows, r < a.raw.len) {i : Nat} {v : Val F}
    (e : a.set h i v = .ok h') (b : Access) (j : Nat) :
    b.get h' j = if (a.cellAt i).isSome ∧ b.cellAt j = a.cellAt i then .ok v else b.get h j := by
  rw [Access.get_eq, Access.get_eq]
  unfold Access.set Idx.at at e
  simp only [Int.natCast_nonneg, if_true, Int.toNat_natCast] at e
  cases hr : a.indices.rows[i]? with
  | none => rw [hr] at e; cases e
  | some r =>
    rw [hr] at e
    have hl := hlt r (List.mem_of_getElem? hr)
    have hca : a.cellAt i = some (a.raw.arr, a.raw.off + r) := by simp [Access.cellAt, hr, hl]
    simp only [Heap.write, if_pos hl, Except.ok.injEq] at e
    subst e
    have hin : a.raw.off + r < (h.arr a.raw.arr).length := by
      rcases hv.2 with h0 | ⟨_, h0⟩ <;> have := hv.1 <;> omega
    rw [hca]
    simp only [Option.isSome_some, true_and]
    cases hb : b.cellAt j with
    | none => simp
    | some l =>
      obtain ⟨x, p⟩ := l
      simp only [Option.bind_some, Option.some.injEq, Prod.mk.injEq]
      by_cases hx : x = a.raw.arr ∧ p = a.raw.off + r
      · obtain ⟨rfl, rfl⟩ := hx
        simp [Heap.at, Heap.setArr, hin]
      · rw [if_neg hx]
        have : (h.setArr a.raw.arr ((h.arr a.raw.arr).set (a.raw.off + r) v)).at (x, p) = h.at (x, p) := by
          simp only [Heap.at, Heap.setArr]
          by_cases hxa : x = a.raw.arr
          · subst hxa
            simp only [if_true]
            rw [List.getElem?_set_ne]
            intro h0; exact hx ⟨rfl, h0.symm⟩
          · rw [if_neg hxa]
        rw [this]

/-! ### histories -/

/-- Columns keep their lengths. -/
structure KeepsCells (h h' : Heap F) : Prop where
  next_le : h.next ≤ h'.next
  len : ∀ i, i < h.next → (h'.arr i).length = (h.arr i).length

theorem KeepsCells.refl (h : Heap F) : KeepsCells h h := ⟨Nat.le_refl _, fun _ _ => rfl⟩

theorem KeepsCells.trans {h1 h2 h3 : Heap F} (a : KeepsCells h1 h2) (b : KeepsCells h2 h3) : KeepsCells h1 h3 :=
  ⟨Nat.le_trans a.next_le b.next_le, fun i hi => (b.len i (Nat.lt_of_lt_of_le hi a.next_le)).trans (a.len i hi)⟩

theorem build_ext' [GoFloat F] {ops : List (BOp F)} {h h' : Heap F} {v : DF} (e : (build ops h).1.toDataFrame (build ops h).2 = .ok (v, h')) :
    Heap.Ext h h' := (build_new ops h).ext.trans (toDataFrame_ext e)

theorem Call.same [GoFloat F] {w w' : World F} {c : Call F} (g : w.Good) (ro : c.ReadOnly w) (e : c.run w = .ok w') :
    w.h.next ≤ w'.h.next ∧ ∀ i, i < w.h.next → w'.h.arr i = w.h.arr i := by
  have view : c.IsView w → w.h.next ≤ w'.h.next ∧ ∀ i, i < w.h.next → w'.h.arr i = w.h.arr i := by
    intro hv
    obtain ⟨_, s⟩ := Call.grew g hv e
    exact ⟨s.next_le, fun i hi => s.arr i hi id⟩
  cases c with
  | build ops =>
    simp only [Call.run, World.add1] at e
    split at e
    · cases e
    · rename_i d h' hx
      cases e
      have := build_ext' hx
      exact ⟨this.next_le, this.arr⟩
  | maskWrite s i b =>
    simp only [Call.run] at e
    split at e
    · cases e
    · rename_i h' hx
      cases e
      unfold Verif.maskWrite at hx
      split at hx
      · cases hx; exact ⟨Nat.le_refl _, fun _ _ => rfl⟩
      · cases hx
  | edit i ed =>
    simp only [Call.run, World.on] at e
    split at e
    · cases e; exact ⟨Nat.le_refl _, fun _ _ => rfl⟩
    · rename_i d hd
      split at e
      · cases e
      · rename_i d' h' hr
        cases e
        have f := (Edit.foot_structural ro (g.wf d (List.mem_of_getElem? hd)).toWF hr).frame
        exact ⟨f.next_le, fun i hi => f.arr i hi id⟩
  | _ => exact view ro

theorem Call.keeps [GoFloat F] {w w' : World F} {c : Call F} (g : w.Good) (lg : c.Legal w) (e : c.run w = .ok w') : KeepsCells w.h w'.h := by
  by_cases ro : c.ReadOnly w
  · obtain ⟨h1, h2⟩ := Call.same g ro e
    exact ⟨h1, fun i hi => by rw [h2 i hi]⟩
  · cases c with
    | edit i ed =>
      simp only [Call.run, World.on] at e
      split at e
      · cases e; exact KeepsCells.refl _
      · rename_i d hd
        split at e
        · cases e
        · rename_i d' h' hr
          cases e
          have f := Edit.foot (g.wf d (List.mem_of_getElem? hd)).toWF hr
          exact ⟨f.frame.next_le, f.len⟩
    | hashStringsView i cols o =>
      simp only [Call.run, World.on] at e
      split at e
      · cases e; exact KeepsCells.refl _
      · rename_i d hd
        have hm := List.mem_of_getElem? hd
        simp only [World.add1] at e
        split at e
        · cases e
        · rename_i v h' hr
          cases e
          have := (hashStringsView_stepOK (g.wf d hm) (g.mwf d hm) (g.sep d hm d hm) (lg.imp id (fun x => x d hd)) hr).safe
          exact ⟨this.next_le, this.arr⟩
    | _ => exact absurd trivial ro

theorem Hist.keeps [GoFloat F] {w w' : World F} {cs : List (Call F)} (hist : Hist w cs w') (g : w.Good) : KeepsCells w.h w'.h := by
  induction hist with
  | nil w => exact KeepsCells.refl _
  | cons lg e _ ih => exact (Call.keeps g lg e).trans (ih (Call.good g lg e))

theorem ReadOnlyHist.same [GoFloat F] {w w' : World F} {cs : List (Call F)} (hist : ReadOnlyHist w cs w') (g : w.Good) :
    w.h.next ≤ w'.h.next ∧ ∀ i, i < w.h.next → w'.h.arr i = w.h.arr i := by
  induction hist with
  | nil w => exact ⟨Nat.le_refl _, fun _ _ => rfl⟩
  | cons lg ro e _ ih =>
    obtain ⟨h1, h2⟩ := Call.same g ro e
    obtain ⟨h3, h4⟩ := ih (Call.good g lg e)
    exact ⟨Nat.le_trans h1 h3, fun i hi => (h4 i (Nat.lt_of_lt_of_le hi h1)).trans (h2 i hi)⟩

theorem ReadOnlyHist.hist [GoFloat F] {w w' : World F} {cs : List (Call F)} (hist : ReadOnlyHist w cs w') : Hist w cs w' := by
  induction hist with
  | nil w => exact .nil _
  | cons lg _ e _ ih => exact .cons lg e ih

/-- C80: an accessor stays usable. Take any program, an accessor it makes from one of its dataframes, and anything legal it
does afterwards (the dataframe may be edited, renamed, dropped from, forgotten): `Get` and `Set` work exactly at the rows the
accessor had when it was made, and address the same memory cell. -/
theorem C80_lifetime [GoFloat F] {h : Heap F} {cs cs' : List (Call F)} {w w' : World F} {d : DF} {k : Kind} {c : GoStr} {a : Access}
    (hist : Hist ⟨h, []⟩ cs w) (hd : d ∈ w.dfs) (ha : d.access w.h k c = .ok a ∨ d.stringAccess w.h c = .ok a) (later : Hist w cs' w') :
    a.size = (abs w.h d).nRows ∧
    ∀ row : Int,
      (0 ≤ row ∧ row < a.size → (∃ v, a.get w'.h row = .ok v) ∧ ∀ v, ∃ h2, a.set w'.h row v = .ok h2 ∧ a.get h2 row = .ok v) ∧
      (¬ (0 ≤ row ∧ row < a.size) → a.get w'.h row = .error .panic ∧ ∀ v, a.set w'.h row v = .error .panic) := by
  have g := hist.good (World.empty_good h)
  have m : a.MadeIn w.h := ⟨d, k, c, g.wf d hd, ha⟩
  obtain ⟨hv, hlt, _⟩ := m.spec
  have hk := later.keeps g
  have hv' := hv.of_len hk.next_le hk.len
  have hi : a.indices = d.idx := by
    obtain ⟨k', e⟩ : ∃ k, d.access w.h k c = .ok a := ha.elim (fun e => ⟨k, e⟩) fun e => ⟨.obj, (stringAccess_iff.1 e).2⟩
    obtain ⟨s, _, rfl⟩ := access_iff.1 e
    rfl
  refine ⟨by unfold Access.size; rw [hi]; rfl, fun row => ⟨?_, ?_⟩⟩
  · rintro ⟨h0, h1⟩
    obtain ⟨n, rfl⟩ := Int.eq_ofNat_of_zero_le h0
    have hn : n < a.indices.rows.length := by unfold Access.size at h1; omega
    have hr := List.getElem?_eq_getElem hn
    have hl := hlt _ (List.getElem_mem hn)
    have hat : a.indices.at (n : Int) = .ok a.indices.rows[n] := by
      unfold Idx.at
      simp [hr]
    obtain ⟨v, hc⟩ := hv'.cell_some hl
    refine ⟨⟨v, by unfold Access.get; rw [hat]; simp [hc]⟩, fun v => ?_⟩
    have hset : ∃ h2, a.set w'.h (n : Int) v = .ok h2 := by
      unfold Access.set Heap.write
      rw [hat]
      simp [hl]
    obtain ⟨h2, hset⟩ := hset
    refine ⟨h2, hset, ?_⟩
    rw [set_all_accessors hv' hlt hset a n, if_pos]
    simp [Access.cellAt, hr, hl]
  · intro hx
    have := Idx.at_err (x := a.indices) (i := row) hx
    exact ⟨by simp [Access.get, this], fun v => by simp [Access.set, this]⟩

/-- C80: reading only. If what the program does after making the accessor writes no cell (views, copies, structural edits), the
accessor reads what it read before, even if its dataframe has lost the column. -/
theorem C80_unchanged [GoFloat F] {h : Heap F} {cs cs' : List (Call F)} {w w' : World F} {d : DF} {k : Kind} {c : GoStr} {a : Access}
    (hist : Hist ⟨h, []⟩ cs w) (hd : d ∈ w.dfs) (ha : d.access w.h k c = .ok a ∨ d.stringAccess w.h c = .ok a)
    (later : ReadOnlyHist w cs' w') (row : Int) : a.get w'.h row = a.get w.h row := by
  have g := hist.good (World.empty_good h)
  obtain ⟨hv, hlt, _⟩ := (show a.MadeIn w.h from ⟨d, k, c, g.wf d hd, ha⟩).spec
  obtain ⟨_, hs⟩ := later.same g
  unfold Access.get
  cases hr : a.indices.at row with
  | error e => rfl
  | ok i =>
    simp only
    have hc : w'.h.cell a.raw i = w.h.cell a.raw i := by
      unfold Heap.cell
      split
      · rename_i hi
        rw [hs]
        rcases hv.2 with h0 | ⟨h0, _⟩
        · have := hv.1; omega
        · exact h0
      · rfl
    rw [hc]

/-- C80: writing. A `Set` through an accessor, at any later point of the program, is seen by every accessor, whenever it was
made, exactly at the rows that address the same memory cell. -/
theorem C80_set [GoFloat F] {h h2 : Heap F} {cs cs' : List (Call F)} {w w' : World F} {d : DF} {k : Kind} {c : GoStr} {a : Access}
    (hist : Hist ⟨h, []⟩ cs w) (hd : d ∈ w.dfs) (ha : d.access w.h k c = .ok a ∨ d.stringAccess w.h c = .ok a) (later : Hist w cs' w')
    {i : Nat} {v : Val F} (e : a.set w'.h i v = .ok h2) :
    ∃ l, a.cellAt i = some l ∧ ∀ (b : Access) (j : Nat), b.get h2 j = if b.cellAt j = some l then .ok v else b.get w'.h j := by
  have g := hist.good (World.empty_good h)
  obtain ⟨hv, hlt, _⟩ := (show a.MadeIn w.h from ⟨d, k, c, g.wf d hd, ha⟩).spec
  have hk := later.keeps g
  have key := set_all_accessors (hv.of_len hk.next_le hk.len) hlt e
  cases hc : a.cellAt i with
  | none =>
    unfold Access.set Idx.at at e
    simp only [Int.natCast_nonneg, if_true, Int.toNat_natCast] at e
    cases hr : a.indices.rows[i]? with
    | none => rw [hr] at e; cases e
    | some r =>
      have := hlt r (List.mem_of_getElem? hr)
      simp [Access.cellAt, hr, this] at hc
  | some l =>
    refine ⟨l, rfl, fun b j => ?_⟩
    rw [key b j, hc]
    simp

/-- C80: the accessor and the dataframe. As long as a dataframe shows, in column `c`, the cells an accessor addresses, reading
through one or the other is the same, at any time; the accessor addresses the cells its dataframe showed when it was made. -/
theorem C80_same_cells {h : Heap F} {d : DF} {k : Kind} {c : GoStr} {a : Access} (ha : d.access h k c = .ok a) :
    (∀ i : Nat, a.cellAt i = cellOf h d k c i) ∧
    ∀ (h2 : Heap F) (d2 : DF) (k2 : Kind) (c2 : GoStr) (i j : Nat), cellOf h2 d2 k2 c2 j = cellOf h d k c i → d2.get h2 k2 c2 j = a.get h2 i := by
  refine ⟨access_cellAt ha, fun h2 d2 k2 c2 i j e => ?_⟩
  rw [get_eq_cellOf, Access.get_eq, access_cellAt ha, e]
  cases (cellOf h d k c i).bind h2.at <;> rfl

/-- C80: `VecDense` and `VecDenseCopy` of a kept accessor: the entries are what `Get` returns at the time of the call. -/
theorem C80_vecDense [GoFloat F] {h : Heap F} {cs cs' : List (Call F)} {w w' : World F} {d : DF} {c : GoStr} {a : Access}
    (hist : Hist ⟨h, []⟩ cs w) (hd : d ∈ w.dfs) (ha : d.access w.h .float c = .ok a) (later : Hist w cs' w') (hn : 0 < a.size) :
    ∃ vs s h2 s' h3, a.vecDense w'.h = .ok (s, h2) ∧ h2.read s = vs ∧ a.vecDenseCopy w'.h = .ok (s', h3) ∧ h3.read s' = vs ∧
      vs.length = a.size ∧ ∀ (i : Nat) (v : Val F), vs[i]? = some v ↔ a.get w'.h i = .ok v := by
  have g := hist.good (World.empty_good h)
  obtain ⟨hv, hlt, hc⟩ := (show a.MadeIn w.h from ⟨d, .float, c, g.wf d hd, Or.inl ha⟩).spec
  have hk := later.keeps g
  have hv' := hv.of_len hk.next_le hk.len
  obtain ⟨vs, hvs⟩ := gather_ok hv' hlt
  have he := (gather_iff ..).1 hvs
  have hlen : vs.length = a.size := by
    have := congrArg List.length he
    simpa [Access.size] using this.symm
  have hget : ∀ (i : Nat) (v : Val F), vs[i]? = some v ↔ a.get w'.h i = .ok v := by
    intro i v
    have h1 : (vs.map some)[i]? = (a.indices.rows.map (w'.h.cell a.raw))[i]? := by rw [he]
    simp only [List.getElem?_map] at h1
    unfold Access.get Idx.at
    simp only [Int.natCast_nonneg, if_true, Int.toNat_natCast]
    cases hr : a.indices.rows[i]? with
    | none => rw [hr] at h1; simp at h1; simp [h1]
    | some r =>
      rw [hr] at h1
      simp only [Option.map_some] at h1
      cases hx : vs[i]? with
      | none => rw [hx] at h1; simp at h1
      | some x =>
        rw [hx] at h1
        simp only [Option.map_some, Option.some.injEq] at h1
        simp [← h1]
  have hcopy : a.vecDenseCopy w'.h = .ok (w'.h.newArr vs) := by
    unfold Access.vecDenseCopy
    rw [hvs]
    simp only
    rw [if_neg (by omega)]
  by_cases ht : a.contiguous = true
  · have hr := hc ht
    have hrl : a.raw.len = a.size := by
      have := congrArg List.length hr
      simpa [Access.size] using this.symm
    refine ⟨vs, a.raw, w'.h, _, _, ?_, ?_, hcopy, read_newArr .., hlen, hget⟩
    · unfold Access.vecDense
      rw [if_pos ht, if_neg (by omega)]
    · rw [hr, read_range hv'] at he
      exact (List.map_injective_iff.2 (Option.some_injective _)) he
  · refine ⟨vs, (w'.h.newArr vs).1, (w'.h.newArr vs).2, (w'.h.newArr vs).1, (w'.h.newArr vs).2, ?_, read_newArr .., hcopy, read_newArr .., hlen, hget⟩
    unfold Access.vecDense
    rw [if_neg ht]
    exact hcopy

/-! ### examples -/

namespace Demo

theorem readOnly_of_run {w w' : World Int} {cs : List (Call Int)} (e : runAll w cs = .ok w')
    (lg : ∀ c ∈ cs, ∀ w, c.Legal w ∧ c.ReadOnly w) : ReadOnlyHist w cs w' := by
  induction cs generalizing w with
  | nil => cases e; exact .nil _
  | cons c cs ih =>
    simp only [runAll] at e
    split at e
    · cases e
    · rename_i w1 h1
      exact .cons (lg c (by simp) w).1 (lg c (by simp) w).2 h1 (ih e (fun c hc => lg c (by simp [hc])))

/-- After the accessor was made: the column is renamed, a view made, the column dropped, the dataframe copied. -/
def laterCalls : List (Call Int) :=
  [.edit 0 (.rename b!"a" b!"aa"), .indexView 0 [2, 0], .edit 0 (.drop [b!"aa"]), .copy 0]

/-- C80 applies: the accessor of the dropped column reads the same values and can still be written. -/
example : ∃ (w w' : World Int) (d : DF) (a : Access), Hist ⟨heap0, []⟩ [.build ops] w ∧ d ∈ w.dfs ∧ d.access w.h .int b!"a" = .ok a ∧
    ReadOnlyHist w laterCalls w' ∧ 0 < a.size ∧ (∀ row, a.get w'.h row = a.get w.h row) ∧ ∃ h2, a.set w'.h 0 (.int 5) = .ok h2 := by
  have key : okAnd (runAll ⟨heap0, []⟩ [.build ops]) (fun w => okAnd (runAll w laterCalls) (fun _ =>
      match w.dfs[0]? with
      | none => false
      | some d => okAnd (d.access w.h .int b!"a") (fun a => decide (0 < a.size)))) = true := by decide +kernel
  obtain ⟨w, h1, h2⟩ := okAnd_iff.1 key
  obtain ⟨w', h3, h4⟩ := okAnd_iff.1 h2
  split at h4
  · cases h4
  · rename_i d hd
    obtain ⟨a, h5, h6⟩ := okAnd_iff.1 h4
    have hist : Hist ⟨heap0, []⟩ [.build ops] w := hist_of_run h1 (by intro c hc w; simp only [List.mem_singleton] at hc; subst hc; trivial)
    have later : ReadOnlyHist w laterCalls w' := readOnly_of_run h3 (by
      intro c hc w
      simp only [laterCalls, List.mem_cons, List.not_mem_nil, or_false] at hc
      rcases hc with rfl | rfl | rfl | rfl <;> exact ⟨by simp [Call.Legal, Edit.Legal], by first | exact rfl | trivial⟩)
    have hs : 0 < a.size := by simpa using h6
    refine ⟨w, w', d, a, hist, List.mem_of_getElem? hd, h5, later, hs, fun row => C80_unchanged hist (List.mem_of_getElem? hd) (Or.inl h5) later row, ?_⟩
    obtain ⟨_, hx⟩ := C80_lifetime hist (List.mem_of_getElem? hd) (Or.inl h5) later.hist
    obtain ⟨h2, e, _⟩ := ((hx 0).1 ⟨by omega, by omega⟩).2 (.int 5)
    exact ⟨h2, e⟩

/-- A kept accessor is no longer connected to its column once the column has been converted: the dataframe does not show what
is written through it. -/
theorem C80_stale : okAnd (runAll ⟨heap0, []⟩ [.build ops]) (fun w => okAnd (runAll w [.edit 0 (.unshare [b!"a"]), .edit 0 (.intToFloats [b!"a"])]) (fun w' =>
    match w.dfs[0]?, w'.dfs[0]? with
    | some d, some d' => okAnd (d.access w.h .int b!"a") (fun a => okAnd (a.set w'.h 0 (.int 77)) (fun h2 =>
        decide ((abs h2 d').col .float b!"a" = (abs w'.h d').col .float b!"a") && okAnd (a.get h2 0) (fun v => decide (v = .int 77))))
    | _, _ => false)) = true := by decide +kernel

end Demo

end Verif
