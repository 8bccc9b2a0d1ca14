import Verif.Spec.Auto
import Verif.Props.Scaler
import Verif.Props.Detach
import Verif.Proofs.LinReg

/-! In-place transformations of columns nobody else sees. -/

namespace Verif
variable {F : Type}

/-- The cells of the float columns `L` are in arrays made after `n`, and belong to one column each. -/
structure Priv (n : Nat) (L : List GoStr) (h : Heap F) (df : DF) : Prop where
  high : ∀ c ∈ L, ∀ (i : Nat) l, cellOf h df .float c i = some l → n ≤ l.1
  own : ∀ c ∈ L, ∀ (i : Nat) l, cellOf h df .float c i = some l → ∀ k' c' (j : Nat), cellOf h df k' c' j = some l →
    k' = .float ∧ c' = c

theorem Priv.quiet {n : Nat} {L : List GoStr} {h h' : Heap F} {df : DF} (p : Priv n L h df) (q : Quiet h h') : Priv n L h' df := by
  refine ⟨?_, ?_⟩
  · intro c hc i l e; rw [q.cellOf] at e; exact p.high c hc i l e
  · intro c hc i l e k' c' j e'; rw [q.cellOf] at e e'; exact p.own c hc i l e k' c' j e'

/-- Detached columns are private. -/
theorem priv_detached {d : DF} {h : Heap F} (wf : d.WF h) {cols L : List GoStr} (hL : ∀ c ∈ L, Detached cols c) :
    Priv h.next L (d.detachedView cols h).2 (d.detachedView cols h).1 := by
  have us := unshare_spec (view_wf wf).toWF cols
  have key : ∀ (c : GoStr), Detached cols c → ∀ (k : Kind) (s : Slice),
      AMap.get ((d.view.toRaw.unshare cols h).2.tab (d.view.toRaw.unshare cols h).1.tab) (k, c) = some s →
      h.next ≤ s.arr ∧ ((k, c) : Key).2 ∈ sharedNames h d.view.toRaw ∧ ((k, c) : Key).2 ∈ unshareSet (h.tab d.view.toRaw.tab) cols := by
    intro c hc k s hs'
    rcases us.get (k, c) with ⟨g1, _⟩ | ⟨t, t', g1, g2, g3⟩
    · rw [hs'] at g1; cases g1
    · rw [hs'] at g2; cases g2
      have hm : ((k, c) : Key).2 ∈ sharedNames h d.view.toRaw ∧ ((k, c) : Key).2 ∈ unshareSet (h.tab d.view.toRaw.tab) cols := by
        refine ⟨?_, mem_unshareSet g1 hc⟩
        have hn : c ∈ tabNames (h.tab d.tab) := mem_tabNames.2 ⟨k, by have : AMap.get (h.tab d.tab) (k, c) = some t := g1; rw [this]; rfl⟩
        simpa [sharedNames, DF.view] using hn
      rw [if_pos hm] at g3
      exact ⟨g3.2.2.1, hm⟩
  refine ⟨?_, ?_⟩
  · intro c hc i l e
    obtain ⟨s, hs, h1, _⟩ := cellOf_arr e
    rw [h1]; exact (key c (hL c hc) .float s hs).1
  · intro c hc i l e k' c' j e'
    obtain ⟨s, hs, h1, _⟩ := cellOf_arr e
    obtain ⟨s', hs', h1', h0'⟩ := cellOf_arr e'
    obtain ⟨k1, k2⟩ := key c (hL c hc) .float s hs
    by_cases hq : ((k', c') : Key) = (.float, c)
    · exact ⟨congrArg Prod.fst hq, congrArg Prod.snd hq⟩
    · exfalso
      by_cases hd : ((k', c') : Key).2 ∈ sharedNames h d.view.toRaw ∧ ((k', c') : Key).2 ∈ unshareSet (h.tab d.view.toRaw.tab) cols
      · exact us.distinct (k', c') (.float, c) s' s hq hs' hs hd k2 (by omega)
      · rcases us.get (k', c') with ⟨g1, _⟩ | ⟨t, t', g1, g2, g3⟩
        · rw [show AMap.get ((d.view.toRaw.unshare cols h).2.tab (d.view.toRaw.unshare cols h).1.tab) (k', c') = some s' from hs'] at g1
          cases g1
        · rw [show AMap.get ((d.view.toRaw.unshare cols h).2.tab (d.view.toRaw.unshare cols h).1.tab) (k', c') = some s' from hs'] at g2
          cases g2
          rw [if_neg hd] at g3
          subst g3
          have v := (view_wf wf).slices _ _ g1
          rcases v.2 with v2 | v2
          · have := v.1; omega
          · have := v2.1; omega

theorem count_offset (a o r : Nat) (rows : List Nat) : (rows.map fun i => (a, o + i)).count (a, o + r) = rows.count r := by
  induction rows with
  | nil => rfl
  | cons x rows ih =>
    simp only [List.map_cons, List.count_cons, ih]
    congr 1
    by_cases hx : x = r <;> simp [hx]

theorem count_cells {df : DF} {h : Heap F} (wf : df.WF h) {c : GoStr} {j : Nat} {l : Nat × Nat}
    (e : cellOf h df .float c j = some l) : (fcolLocs h df c).count l = df.repeats j := by
  unfold fcolLocs
  simp only [cellOf, locs] at e
  cases hs : AMap.get (h.tab df.tab) (.float, c) with
  | none => rw [hs] at e; simp at e
  | some s =>
    rw [hs] at e
    simp only [Option.map_some, Option.bind_some, List.getElem?_map, sliceLocs, DF.repeats] at e ⊢
    cases hr : df.rows[j]? with
    | none => rw [hr] at e; simp at e
    | some r =>
      rw [hr] at e
      simp only [Option.map_some, Option.join_some] at e
      split at e
      · cases e
        exact count_offset s.arr s.off r df.rows
      · cases e

/-- Every cell of a float column holds a number. -/
def FloatTyped (a : ADF (Val F)) : Prop := ∀ c l, a.col .float c = some l → ∀ v ∈ l, ∃ x, v = some (.float x)

theorem FloatCols.typed {a : ADF (Val F)} {vals : GoStr → List F} (h : FloatCols a vals) : FloatTyped a := by
  intro c l hl v hv
  have := h c (by rw [hl]; rfl)
  unfold ADF.floats at this
  rw [hl] at this
  simp only at this
  rw [mapM_some_iff] at this
  obtain ⟨i, hi⟩ := List.getElem?_of_mem hv
  have h2 : i < (vals c).length := by
    have := (List.getElem?_eq_some_iff.1 hi).1; omega
  have := this.2 i v (vals c)[i] hi (List.getElem?_eq_getElem h2)
  split at this
  · rename_i x; exact ⟨x, rfl⟩
  · cases this

theorem FloatTyped.mapFloats {a : ADF (Val F)} (h : FloatTyped a) (cols : List GoStr) (g : GoStr → Nat → F → F) :
    FloatTyped (a.mapFloats cols g) := by
  intro c l hl v hv
  simp only [ADF.mapFloats, true_and] at hl
  split at hl
  · obtain ⟨l0, h0, rfl⟩ := Option.map_eq_some_iff.1 hl
    obtain ⟨i, hi⟩ := List.getElem?_of_mem hv
    rw [List.getElem?_mapIdx, Option.map_eq_some_iff] at hi
    obtain ⟨w, hw, rfl⟩ := hi
    obtain ⟨x, rfl⟩ := h c l0 h0 w (List.mem_of_getElem? hw)
    exact ⟨g c i x, rfl⟩
  · exact h c l hl v hv

theorem mapFloats_mapFloats (a : ADF (Val F)) (cols : List GoStr) (g g' : GoStr → Nat → F → F) :
    (a.mapFloats cols g).mapFloats cols g' = a.mapFloats cols (fun c j x => g' c j (g c j x)) := by
  refine ADF.ext' rfl ?_ (fun _ => rfl) rfl
  intro k c
  simp only [ADF.mapFloats]
  split
  · rw [Option.map_map]
    congr 1
    funext l
    apply List.ext_getElem?
    intro j
    simp only [Function.comp, List.getElem?_mapIdx]
    cases l[j]? with
    | none => rfl
    | some v =>
      cases v with
      | none => rfl
      | some v => cases v <;> rfl
  · rfl

theorem mapFloats_congr {a : ADF (Val F)} {cols cols' : List GoStr} (h : ∀ c, c ∈ cols ↔ c ∈ cols') {g g' : GoStr → Nat → F → F}
    (hg : ∀ c ∈ cols, g c = g' c) : a.mapFloats cols g = a.mapFloats cols' g' := by
  refine ADF.ext' rfl ?_ (fun _ => rfl) rfl
  intro k c
  simp only [ADF.mapFloats, ← h]
  split
  · rename_i hc; rw [hg c hc.2]
  · rfl

section
variable [GoFloat F]

/-- An in-place transformation of private columns: only these columns change, each row's value as often as the
row is shown. -/
theorem priv_upd {n : Nat} {L : List GoStr} {h : Heap F} {df : DF} (wf : df.WF h) (pr : Priv n L h df) (f : GoStr → F → Option F)
    {cs : List GoStr} (nd : cs.Nodup) (hcs : ∀ c ∈ cs, c ∈ L) (hc : ∀ c ∈ cs, ((abs h df).col .float c).isSome)
    (ft : FloatTyped (abs h df)) {g : GoStr → Nat → F → F}
    (hg : ∀ c ∈ cs, ∀ j x, j < df.numRows → (updVal (f c))^[df.repeats j] (.float x) = .float (g c j x)) :
    ∃ h', cs.foldlM (fun h c => df.updFloatCol c (f c) h) h = .ok h' ∧ Quiet h h' ∧
      (∀ l : Nat × Nat, l.1 < n → h'.at l = h.at l) ∧ abs h' df = (abs h df).mapFloats cs g := by
  obtain ⟨h', e, q, a⟩ := updCols_spec f cs wf hc
  have miss : ∀ l, (∀ c ∈ cs, l ∉ fcolLocs h df c) → h'.at l = h.at l := by
    intro l hl
    rw [a]
    cases h.at l with
    | none => rfl
    | some v =>
      rw [Option.map_some, foldl_miss _ (fun c => (fcolLocs h df c).count l) cs (fun c hcc => List.count_eq_zero.2 (hl c hcc))]
  have hit : ∀ c ∈ cs, ∀ (j : Nat) l, cellOf h df .float c j = some l →
      h'.at l = (h.at l).map ((updVal (f c))^[df.repeats j]) := by
    intro c hcc j l hl
    rw [a, ← count_cells wf hl]
    cases h.at l with
    | none => rfl
    | some v =>
      simp only [Option.map_some]
      rw [foldl_hit _ (fun c => (fcolLocs h df c).count l) cs nd hcc]
      intro d hd hne
      refine List.count_eq_zero.2 fun hm => ?_
      obtain ⟨i, hi⟩ := (mem_fcolLocs wf).1 hm
      exact hne ((pr.own c (hcs c hcc) j l hl _ _ i hi).2)
  refine ⟨h', e, q, ?_, ?_⟩
  · intro l hl
    refine miss l fun c hcc hm => ?_
    obtain ⟨i, hi⟩ := (mem_fcolLocs wf).1 hm
    have := pr.high c (hcs c hcc) i l hi
    omega
  · have hloc := q.locs df
    rw [abs_eq_locs h' df, hloc]
    refine ADF.ext' rfl ?_ (fun _ => rfl) rfl
    intro k c
    have ea : (abs h df).col k c = (((locs h df).bindCells h.at).col k c) := by rw [← abs_eq_locs]
    simp only [ADF.mapFloats]
    rw [ea]
    simp only [ADF.bindCells]
    cases hl : (locs h df).col k c with
    | none => simp
    | some ls =>
      simp only [Option.map_some]
      have hcell : ∀ (j : Nat) l, ls[j]? = some (some l) → cellOf h df k c j = some l := by
        intro j l hj
        simp [cellOf, hl, hj]
      split
      · rename_i hkc
        congr 1
        apply List.ext_getElem?
        intro j
        simp only [List.getElem?_map, List.getElem?_mapIdx]
        cases hj : ls[j]? with
        | none => rfl
        | some o =>
          cases o with
          | none => rfl
          | some l =>
            simp only [Option.map_some, Option.bind_some]
            obtain ⟨rfl, hcc⟩ := hkc
            rw [hit c hcc j l (hcell j l hj)]
            obtain ⟨x, hx⟩ := ft c (ls.map (·.bind h.at)) (by rw [ea]; simp [ADF.bindCells, hl]) (h.at l)
              (List.mem_map.2 ⟨some l, List.mem_of_getElem? hj, rfl⟩)
            rw [hx]
            simp only [Option.map_some, onFloat]
            rw [hg c hcc j x]
            have hlen : ls.length = df.numRows := by
              simp only [locs, Option.map_eq_some_iff] at hl
              obtain ⟨s, _, rfl⟩ := hl
              simp [DF.numRows]
            rw [← hlen]
            exact (List.getElem?_eq_some_iff.1 hj).1
      · rename_i hkc
        congr 1
        apply List.ext_getElem?
        intro j
        simp only [List.getElem?_map]
        cases hj : ls[j]? with
        | none => rfl
        | some o =>
          cases o with
          | none => rfl
          | some l =>
            simp only [Option.map_some, Option.bind_some]
            rw [miss]
            intro d hd hm
            obtain ⟨i, hi⟩ := (mem_fcolLocs wf).1 hm
            have := pr.own d (hcs d hd) i l hi _ _ j (hcell j l hj)
            exact hkc ⟨this.1, this.2 ▸ hd⟩

theorem repeats_pos {df : DF} {j : Nat} (hj : j < df.numRows) : 0 < df.repeats j := by
  unfold DF.repeats
  rw [List.getElem?_eq_getElem (by exact hj)]
  exact List.count_pos_iff.2 (List.getElem_mem _)

/-- The imputer on private columns. -/
theorem priv_impute {n : Nat} {L : List GoStr} {h : Heap F} {df : DF} (wf : df.WF h) (pr : Priv n L h df) {im : FloatImputer F}
    (nd : im.transformedColumns.Nodup) (hcs : ∀ c ∈ im.transformedColumns, c ∈ L)
    (hc : ∀ c ∈ im.transformedColumns, ((abs h df).col .float c).isSome) (ft : FloatTyped (abs h df)) :
    ∃ h', im.transformInplace df h = .ok h' ∧ Quiet h h' ∧ (∀ l : Nat × Nat, l.1 < n → h'.at l = h.at l) ∧
      abs h' df = (abs h df).mapFloats im.transformedColumns (fun c _ => imputed im.fallback c) := by
  unfold FloatImputer.transformInplace
  rw [imputeLoop_eq im.fallback nd]
  refine priv_upd wf pr (fun c x => if GoFloat.isNaN x then AMap.get im.fallback c else none) nd hcs hc ft ?_
  intro c _ j x hj
  have h0 := repeats_pos hj
  obtain ⟨m, hm⟩ : ∃ m, df.repeats j = m + 1 := ⟨_, (Nat.succ_pred_eq_of_pos h0).symm⟩
  rw [hm]
  clear hm h0
  have h1 : ∀ y, updVal (fun x => if GoFloat.isNaN x then AMap.get im.fallback c else none) (.float y : Val F) =
      .float (imputed im.fallback c y) := by
    intro y
    simp only [updVal, asFloat, imputed]
    by_cases hn : GoFloat.isNaN y
    · simp only [hn, if_true]; cases AMap.get im.fallback c <;> rfl
    · simp only [hn, Bool.false_eq_true, if_false]
  have h2 : ∀ y, imputed im.fallback c (imputed im.fallback c y) = imputed im.fallback c y := by
    intro y
    unfold imputed
    cases hn : GoFloat.isNaN y with
    | false => simp [hn]
    | true =>
      cases hg : AMap.get im.fallback c with
      | none => simp [hn]
      | some z => simp
  induction m with
  | zero => exact h1 x
  | succ m ih => rw [Function.iterate_succ_apply', ih, h1, h2]

/-- The scaler on private columns. -/
theorem priv_scale {n : Nat} {L : List GoStr} {h : Heap F} {df : DF} (wf : df.WF h) (pr : Priv n L h df) {sc : Scaler F}
    (nd : sc.transformedColumns.Nodup) (hcs : ∀ c ∈ sc.transformedColumns, c ∈ L)
    (hc : ∀ c ∈ sc.transformedColumns, ((abs h df).col .float c).isSome) (ft : FloatTyped (abs h df))
    (hw : sc.transformedColumns = [] ∨ 0 < df.maxCPU) (hemp : [] ∉ sc.transformedColumns) {order : List GoStr}
    (hp : order.Perm sc.transformedColumns) :
    ∃ h', sc.transformInplace df order h = .ok h' ∧ Quiet h h' ∧ (∀ l : Nat × Nat, l.1 < n → h'.at l = h.at l) ∧
      abs h' df = (abs h df).mapFloats sc.transformedColumns (fun c j => times (df.repeats j) (scaleVal sc c)) := by
  rw [scaler_run hw hemp hp]
  obtain ⟨h', e, q, a, b⟩ := priv_upd wf pr (fun c x => some (scaleVal sc c x)) ((hp.nodup_iff).2 nd)
    (fun c hcc => hcs c (hp.mem_iff.1 hcc)) (fun c hcc => hc c (hp.mem_iff.1 hcc)) ft
    (g := fun c j => times (df.repeats j) (scaleVal sc c))
    (fun c _ j x _ => iterate_updVal (scaleVal sc c) (df.repeats j) x)
  refine ⟨h', e, q, a, ?_⟩
  rw [b]
  exact mapFloats_congr (fun c => hp.mem_iff) (fun c _ => rfl)

end

end Verif
