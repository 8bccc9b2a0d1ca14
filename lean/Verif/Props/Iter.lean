import Verif.Proofs.Iter
import Verif.Props.Misc

/-! C28: the row iterator. -/

namespace Verif
open scoped Demo
variable {F R : Type}

/-- `NewFloat32Iterator` accepts exactly the lists of numeric columns; it panics on any other column (its
documentation says that such a column is ignored). -/
theorem C28_new_iff [GoFloat32 F R] (df : DF) (cols : List GoStr) (h : Heap F) :
    ((∃ ite : Float32Iterator R, newFloat32Iterator df cols h = .ok ite) ↔
      ∀ c ∈ cols, ((abs h df).numKind c).isSome) ∧
    (¬ (∀ c ∈ cols, ((abs h df).numKind c).isSome) →
      (newFloat32Iterator df cols h : Except Abort (Float32Iterator R)) = .error .panic) := by
  have hbad : ¬ (∀ c ∈ cols, ((abs h df).numKind c).isSome) →
      (newFloat32Iterator df cols h : Except Abort (Float32Iterator R)) = .error .panic := by
    intro hn
    have : ∃ c ∈ cols, tabNumKind (h.tab df.tab) c = none := by
      refine Classical.byContradiction fun hc => hn fun c hm => ?_
      rw [numKind_abs]
      cases hk : tabNumKind (h.tab df.tab) c with
      | none => exact absurd ⟨c, hm, hk⟩ hc
      | some k => rfl
    simp [newFloat32Iterator, initialize_panics this]
  refine ⟨⟨?_, ?_⟩, hbad⟩
  · rintro ⟨ite, e⟩
    refine Classical.byContradiction fun hn => ?_
    rw [hbad hn] at e; cases e
  · intro hall
    obtain ⟨b, e, _⟩ := initialize_spec (t := h.tab df.tab) (cols := cols)
      (kind := fun c => (tabNumKind (h.tab df.tab) c).getD .obj) (b := ⟨[], [], [], [], false⟩)
      (fun c hc => by
        have := hall c hc
        rw [numKind_abs] at this
        obtain ⟨k, hk⟩ := Option.isSome_iff_exists.1 this
        rw [hk]; rfl) rfl
    exact ⟨_, by simp only [newFloat32Iterator, e]; rfl⟩

/-- C28. An iterator over the numeric columns `cols` of `df`, and any sequence of `NextRow`, `Reset` (on
consistent dataframes that have these columns) and modifications by the user of the row he got last: no call
panics, and the `NextRow` calls return exactly what `expectedRows` says: row 0, row 1, ... of the current
dataframe with their numbers and raw positions, then nil with the two sizes as long as `NextRow` is called,
starting over at each `Reset`. -/
theorem C28_iterator [GoFloat32 F R] {h : Heap F} {df : DF} (wf : df.WF h) {cols : List GoStr} {kind : GoStr → Kind}
    (hk : ∀ c ∈ cols, (abs h df).numKind c = some (kind c)) (calls : List (IterEv R))
    (hl : ∀ e ∈ calls, e.Legal h kind cols) :
    ∃ (ite : Float32Iterator R) (outs : List (Option (List R) × Nat × Nat)),
      newFloat32Iterator df cols h = .ok ite ∧ runIter h calls 0 ite = .ok outs ∧
      outs.map (fun o => (o.1.map (·.map some), o.2.1, o.2.2)) = expectedRows h kind cols calls df 0 := by
  obtain ⟨b, e, cl, _⟩ := initialize_spec (t := h.tab df.tab) (b := ⟨[], [], [], [], false⟩)
    (fun c hc => by rw [← numKind_abs]; exact hk c hc) rfl
  have hc : HasCols h df kind cols := by
    refine ⟨wf, fun c hm => ?_⟩
    have := hk c hm
    simp only [ADF.numKind] at this
    split at this
    · rw [← Option.some.inj this]; assumption
    · split at this
      · rw [← Option.some.inj this]; assumption
      · split at this
        · rw [← Option.some.inj this]; assumption
        · cases this
  have inv : IterInv h kind cols
      ({ b with df := df, rowOffset := 0, dfIndex := 0, subInds := [],
                rows := List.replicate iterRows (List.replicate b.columns.length (GoFloat32.zero F)) } :
        Float32Iterator R) df 0 0 := by
    refine ⟨cl, hc, rfl, rfl, Nat.zero_le _, rfl, ⟨by simp [iterRows], ?_⟩, fun h => absurd rfl h, Or.inl rfl⟩
    intro p row hp
    simp only [List.getElem?_replicate] at hp
    split at hp
    · cases hp; simp [cl.columns]
    · cases hp
  obtain ⟨os, e1, e2⟩ := runIter_spec calls hl inv
  exact ⟨_, os, by simp [newFloat32Iterator, e], e1, e2⟩

theorem expectedRow_past [GoFloat32 F R] (h : Heap F) (kind : GoStr → Kind) (cols : List GoStr) (df : DF) {r r' : Nat}
    (h1 : df.numRows ≤ r) (h2 : df.numRows ≤ r') :
    (expectedRow h kind cols df r : Option (List (Option R)) × Nat × Nat) = expectedRow h kind cols df r' := by
  have a : df.rows[r]? = none := List.getElem?_eq_none h1
  have b : df.rows[r']? = none := List.getElem?_eq_none h2
  simp [expectedRow, a, b]

theorem expectedRows_nexts [GoFloat32 F R] (h : Heap F) (kind : GoStr → Kind) (cols : List GoStr) (df : DF) (m r : Nat)
    (hr : r ≤ df.numRows) :
    (expectedRows h kind cols (List.replicate m .next) df r : List (Option (List (Option R)) × Nat × Nat)) =
      (List.range' r m).map (expectedRow h kind cols df) := by
  induction m generalizing r with
  | zero => rfl
  | succ m ih =>
    rw [List.replicate_succ, List.range'_succ, List.map_cons]
    simp only [expectedRows]
    congr 1
    have hn : (abs h df).nRows = df.numRows := rfl
    rw [hn, ih _ (Nat.min_le_right _ _)]
    by_cases hlt : r < df.numRows
    · rw [show min (r + 1) df.numRows = r + 1 by omega]
    · rw [show min (r + 1) df.numRows = r by omega]
      apply List.ext_getElem
      · simp
      · intro i h1 h2
        simp only [List.getElem_map, List.getElem_range']
        exact expectedRow_past _ _ _ _ (by omega) (by omega)

/-- C28, the plain loop: `m` calls of `NextRow` return rows `0, ..., m-1`, where a "row" past the end is nil with
the two sizes. -/
theorem C28_loop [GoFloat32 F R] {h : Heap F} {df : DF} (wf : df.WF h) {cols : List GoStr} {kind : GoStr → Kind}
    (hk : ∀ c ∈ cols, (abs h df).numKind c = some (kind c)) (m : Nat) :
    ∃ (ite : Float32Iterator R) (outs : List (Option (List R) × Nat × Nat)),
      newFloat32Iterator df cols h = .ok ite ∧ runIter h (List.replicate m .next) 0 ite = .ok outs ∧
      outs.map (fun o => (o.1.map (·.map some), o.2.1, o.2.2)) =
        (List.range m).map (expectedRow h kind cols df) := by
  obtain ⟨ite, os, e1, e2, e3⟩ := C28_iterator (R := R) wf hk (List.replicate m .next) (by
    intro e he; rw [List.eq_of_mem_replicate he]; trivial)
  refine ⟨ite, os, e1, e2, ?_⟩
  rw [e3, expectedRows_nexts _ _ _ _ _ _ (Nat.zero_le _), List.range_eq_range']

/-- C28: `Reset(df, true)` panics iff some column of the iterator is missing from the store it is read from.
(`ite` is the iterator `ite0` at any point of its life: the two have the same columns.) -/
theorem C28_reset_check [GoFloat32 F R] {h0 h : Heap F} {kind : GoStr → Kind} {cols : List GoStr}
    {ite0 ite : Float32Iterator R} {d0 df : DF} (hk : ∀ c ∈ cols, (abs h0 d0).numKind c = some (kind c))
    (e0 : newFloat32Iterator d0 cols h0 = .ok ite0) (hcols : ite.toFloatBatching = ite0.toFloatBatching) :
    ((∃ ite', ite.reset df true h = .ok ite') ↔ ∀ c ∈ cols, ((abs h df).col (kind c) c).isSome) ∧
    (¬ (∀ c ∈ cols, ((abs h df).col (kind c) c).isSome) → ite.reset df true h = .error .panic) := by
  have hcl : Classified ite.toFloatBatching kind cols := by
    obtain ⟨b, e, cl, _⟩ := initialize_spec (t := h0.tab d0.tab) (b := ⟨[], [], [], [], false⟩)
      (fun c hc => by rw [← numKind_abs]; exact hk c hc) rfl
    simp only [newFloat32Iterator, e] at e0
    cases e0
    rw [hcols]; exact cl
  have hb := reset_checked (h := h) (df := df) hcl .bool _ (fun p hp => hp)
  have hi := reset_checked (h := h) (df := df) hcl .int _ (fun p hp => hp)
  have hf := reset_checked (h := h) (df := df) hcl .float _ (fun p hp => hp)
  simp only [FloatBatching.cols] at hb hi hf
  have key : (checkCols ite.toFloatBatching (h.tab df.tab) .bool ite.bColumns = .ok () ∧
      checkCols ite.toFloatBatching (h.tab df.tab) .int ite.iColumns = .ok () ∧
      checkCols ite.toFloatBatching (h.tab df.tab) .float ite.fColumns = .ok ()) ↔
      ∀ c ∈ cols, ((abs h df).col (kind c) c).isSome := by
    rw [hb.1, hi.1, hf.1]
    have mem : ∀ k p, p ∈ ite.toFloatBatching.cols k ↔ ∃ c, cols[p]? = some c ∧ kind c = k := hcl.mem
    have mb := mem .bool
    have mi := mem .int
    have mf := mem .float
    simp only [FloatBatching.cols] at mb mi mf
    constructor
    · rintro ⟨a, b, c⟩ x hx
      obtain ⟨p, hp⟩ := List.getElem?_of_mem hx
      cases hkx : kind x with
      | obj => exact absurd hkx (hcl.num x hx)
      | bool => exact a p ((mb p).2 ⟨x, hp, hkx⟩) x hp
      | int => exact b p ((mi p).2 ⟨x, hp, hkx⟩) x hp
      | float => exact c p ((mf p).2 ⟨x, hp, hkx⟩) x hp
    · intro hh
      refine ⟨?_, ?_, ?_⟩
      · intro p hp x hx
        obtain ⟨c, h1, h2⟩ := (mb p).1 hp
        rw [hx] at h1; cases h1
        rw [← h2]; exact hh x (List.mem_of_getElem? hx)
      · intro p hp x hx
        obtain ⟨c, h1, h2⟩ := (mi p).1 hp
        rw [hx] at h1; cases h1
        rw [← h2]; exact hh x (List.mem_of_getElem? hx)
      · intro p hp x hx
        obtain ⟨c, h1, h2⟩ := (mf p).1 hp
        rw [hx] at h1; cases h1
        rw [← h2]; exact hh x (List.mem_of_getElem? hx)
  have bad : ¬ (∀ c ∈ cols, ((abs h df).col (kind c) c).isSome) → ite.reset df true h = .error .panic := by
    intro hn
    rw [← key] at hn
    unfold Float32Iterator.reset
    simp only [if_true]
    cases e1 : checkCols ite.toFloatBatching (h.tab df.tab) .bool ite.bColumns with
    | error x => have := hb.2 (by rw [e1]; simp); rw [e1] at this; cases this; rfl
    | ok _ =>
      cases e2 : checkCols ite.toFloatBatching (h.tab df.tab) .int ite.iColumns with
      | error x => have := hi.2 (by rw [e2]; simp); rw [e2] at this; cases this; rfl
      | ok _ =>
        cases e3 : checkCols ite.toFloatBatching (h.tab df.tab) .float ite.fColumns with
        | error x => have := hf.2 (by rw [e3]; simp); rw [e3] at this; cases this; rfl
        | ok _ => exact absurd ⟨e1, e2, e3⟩ hn
  refine ⟨⟨?_, ?_⟩, bad⟩
  · rintro ⟨i, e⟩
    refine Classical.byContradiction fun hn => ?_
    rw [bad hn] at e; cases e
  · intro hh
    obtain ⟨a, b, c⟩ := key.2 hh
    exact ⟨_, by simp only [Float32Iterator.reset, a, b, c, if_true]; rfl⟩

end Verif

namespace Verif.Demo

/-- A toy `float32`. -/
scoped instance demoFloat32 : GoFloat32 Int Int := ⟨id, id, 0, 1⟩

/-- The stores of the demo columns. -/
def kindOf (c : GoStr) : Kind := if c = b!"a" then .int else if c = b!"x" then .float else .bool

-- the hypotheses of C28 hold for the demo dataframe, two of its views and a mixed sequence of calls
example : (∀ c ∈ [b!"x", b!"b", b!"a"], (abs h df).numKind c = some (kindOf c)) ∧
    okAnd (newFloat32Iterator df [b!"x", b!"b", b!"a"] h : Except Abort (Float32Iterator Int)) (fun ite =>
      okAnd (runIter h [.next, .scribble [7, 7, 7], .next, .reset df.reverseView true, .next, .next, .next, .next, .next, .next] 0 ite)
        (fun os => decide (os = [(some [5, 1, 10], 0, 0), (some [3, 0, 20], 1, 1), (some [1, 0, 40], 0, 3),
          (some [9, 1, 30], 1, 2), (some [3, 0, 20], 2, 1), (some [5, 1, 10], 3, 0), (none, 4, 4), (none, 4, 4)]))) = true := by
  decide +kernel

-- an object column makes the constructor panic
example : (newFloat32Iterator df [b!"x", b!"s"] h : Except Abort (Float32Iterator Int)) = .error .panic :=
  (C28_new_iff df _ h).2 (by decide)

end Verif.Demo
