import Verif.Spec.LinRegFit
import Verif.Proofs.LinReg
import Verif.Props.Predict
import Verif.Props.Misc
import Verif.Props.Copies
import Verif.Props.RowViews
import Verif.Props.Utils

/-! Proofs for C69: the training loop. -/

namespace Verif
variable {F : Type}

/-- Every consistent dataframe is as before. -/
def Keeps (h h' : Heap F) : Prop := ∀ d : DF, d.WF h → abs h' d = abs h d ∧ locs h' d = locs h d ∧ d.WF h'

theorem Keeps.refl (h : Heap F) : Keeps h h := fun _ w => ⟨rfl, rfl, w⟩

theorem Keeps.trans {h h1 h2 : Heap F} (a : Keeps h h1) (b : Keeps h1 h2) : Keeps h h2 := by
  intro d w
  obtain ⟨a1, a2, a3⟩ := a d w
  obtain ⟨b1, b2, b3⟩ := b d a3
  exact ⟨b1.trans a1, b2.trans a2, b3⟩

theorem Heap.Ext.keeps {h h' : Heap F} (e : Heap.Ext h h') : Keeps h h' :=
  fun _ w => ⟨abs_ext e w.toWF, locs_ext e w.toWF, w.ext e⟩

/-! ### batches -/

theorem IsBatches.mem_cases {order : List Nat} {b : Nat} {parts : List (List Nat)} (ib : IsBatches order b parts) {p : List Nat}
    (hp : p ∈ parts) : p.length = b ∨ (1 ≤ p.length ∧ p.length ≤ b) := by
  have hne : parts ≠ [] := by intro h; rw [h] at hp; cases hp
  have := List.dropLast_concat_getLast hne
  rw [← this] at hp
  rcases List.mem_append.1 hp with h1 | h1
  · exact Or.inl (ib.full p h1)
  · right
    simp only [List.mem_singleton] at h1
    exact ib.last p (by rw [List.getLast?_eq_some_getLast hne, h1]; rfl)

theorem IsBatches.bounds {order : List Nat} {b : Nat} (hb : 0 < b) {parts : List (List Nat)} (ib : IsBatches order b parts) {p : List Nat}
    (hp : p ∈ parts) : 0 < p.length ∧ p.length ≤ min b order.length := by
  have h1 : 0 < p.length ∧ p.length ≤ b := by rcases ib.mem_cases hp with h | h <;> omega
  have h2 : p.length ≤ order.length := by
    rw [← ib.all]
    exact (List.sublist_flatten_of_mem hp).length_le
  omega

theorem IsBatches.head {order : List Nat} {b : Nat} {parts : List (List Nat)} (ib : IsBatches order b parts) {p : List Nat}
    (hp : p ∈ parts.head?) : p.length = min b order.length := by
  cases parts with
  | nil => cases hp
  | cons q qs =>
    simp only [List.head?_cons, Option.mem_def, Option.some.injEq] at hp
    subst hp
    have hl : order.length = q.length + qs.flatten.length := by rw [← ib.all]; simp
    cases qs with
    | nil =>
      have := ib.last q (by simp)
      simp at hl; omega
    | cons r rs =>
      have := ib.full q (by rw [List.dropLast_cons_of_ne_nil (by simp)]; simp)
      omega

theorem pick_flatten (rs : List Nat) (parts : List (List Nat)) : (parts.map (pick rs)).flatten = pick rs parts.flatten := by
  induction parts with
  | nil => rfl
  | cons p ps ih => simp only [List.map_cons, List.flatten_cons, ih]; simp [pick]

theorem pick_range_self (rs : List Nat) : pick rs (List.range rs.length) = rs := by
  apply List.ext_getElem?
  intro i
  by_cases hi : i < rs.length
  · simp [pick, hi]
  · rw [List.getElem?_eq_none (by simpa using hi), List.getElem?_eq_none (by omega)]

/-! ### one batch -/

section
variable [GoFloat F]

/-- The (features, target) pair of a row. -/
def trainRow (kind : GoStr → Kind) (cols : List GoStr) (a : ADF (Val F)) (r : Nat) : List F × F :=
  (featRow kind cols a r, ((a.cell .float b!"_target" r).map asFloat).getD GoFloat.zero)

theorem column_eq {kind : GoStr → Kind} {cols : List GoStr} {h : Heap F} {a : ADF (Val F)} {v : DF} {m : Matrix F}
    {is : List Nat} (hm : IsMatrixOf kind cols h v m) (hs : abs h v = a.select is) {j : Nat} (hj : j < cols.length) :
    m.column j = is.map fun r => (featRow kind cols a r).getD j GoFloat.zero := by
  have hr : m.rows = is.length := by rw [hm.1, hs]; rfl
  unfold Matrix.column
  rw [hr]
  apply List.ext_getElem?
  intro i
  by_cases hi : i < is.length
  · have e : is[i]? = some is[i] := List.getElem?_eq_getElem hi
    rw [List.getElem?_map, List.getElem?_map, e, List.getElem?_range hi]
    simp only [Option.map_some, Option.some.injEq]
    have hrow := matrix_row_eq hm (i := i) (by omega)
    rw [hs, featRow_select _ _ e] at hrow
    rw [← hrow]
    unfold Matrix.row
    rw [List.getD_eq_getElem?_getD, List.getElem?_map, List.getElem?_range (by rw [hm.2.1]; exact hj)]
    rfl
  · rw [List.getElem?_eq_none (by simpa using hi), List.getElem?_eq_none (by simpa using hi)]

theorem mulVec_eq' {dot : List F → List F → F} {kind : GoStr → Kind} {cols : List GoStr} {h : Heap F} {a : ADF (Val F)} {v : DF} {m : Matrix F}
    {is : List Nat} {w : List F} (hm : IsMatrixOf kind cols h v m) (hs : abs h v = a.select is) (hw : w.length = cols.length) :
    mulVec dot m w = .ok (is.map fun r => dot (featRow kind cols a r) w) := by
  unfold mulVec
  rw [if_pos (by rw [hm.2.1, hw])]
  congr 1
  have hr : m.rows = is.length := by rw [hm.1, hs]; rfl
  rw [hr]
  apply List.ext_getElem?
  intro i
  by_cases hi : i < is.length
  · have e : is[i]? = some is[i] := List.getElem?_eq_getElem hi
    rw [List.getElem?_map, List.getElem?_map, e, List.getElem?_range hi]
    simp only [Option.map_some, Option.some.injEq]
    rw [matrix_row_eq hm (by omega), hs, featRow_select _ _ e]
  · rw [List.getElem?_eq_none (by simpa using hi), List.getElem?_eq_none (by simpa using hi)]

theorem zipWith_map_range {A B C : Type} (f : A → B → C) (xs : List A) (g : Nat → B) (n : Nat) (d : A) (hn : xs.length = n) :
    List.zipWith f xs ((List.range n).map g) = (List.range n).map fun j => f (xs.getD j d) (g j) := by
  apply List.ext_getElem?
  intro j
  by_cases hj : j < n
  · simp [hn, hj]
  · rw [List.getElem?_eq_none (by simp; omega), List.getElem?_eq_none (by simp; omega)]

theorem map_range_zipWith {A B C : Type} (f : B → A → C) (xs : List A) (g : Nat → B) (n : Nat) (d : A) (hn : xs.length = n) :
    List.zipWith f ((List.range n).map g) xs = (List.range n).map fun j => f (g j) (xs.getD j d) := by
  apply List.ext_getElem?
  intro j
  by_cases hj : j < n
  · simp [hn, hj]
  · rw [List.getElem?_eq_none (by simp; omega), List.getElem?_eq_none (by simp; omega)]

/-- The training state agrees with the specification's. -/
structure Agrees (p : LinRegTrainParams F) (n : Nat) (s : FitState F) (t : List F × List F) : Prop where
  w : s.weights = t.1
  v : GoFloat.lt GoFloat.zero p.momentum = true → s.prev = t.2
  lw : s.weights.length = n
  lv : s.prev.length = n

theorem fitBatch_spec {bl : Blas F} {p : LinRegTrainParams F} {kind : GoStr → Kind} {cols : List GoStr} {h : Heap F} {a : ADF (Val F)} {v : DF}
    {is : List Nat} {s : FitState F} {t : List F × List F} {n1 : Nat} (hne : cols ≠ []) (hk : ∀ c ∈ cols, a.numKind c = some (kind c))
    (ht : (a.col .float b!"_target").isSome) (wf : v.WF h) (hs : abs h v = a.select is) (hpos : 0 < is.length)
    (hle : is.length ≤ n1) (hb : (n1 : Int) ≤ p.batchSize) (ready : BatReady kind cols n1 s.bat)
    (hfirst : s.bat = newDense64Batching cols → is.length = n1) (ag : Agrees p cols.length s t) :
    ∃ s' h', fitBatch bl p v s h = .ok (s', h') ∧ Keeps h h' ∧ BatReady kind cols n1 s'.bat ∧ s'.bat ≠ newDense64Batching cols ∧
      Agrees p cols.length s' (sgdStep bl p (is.map (trainRow kind cols a)) t) := by
  have hnr : v.numRows = is.length := congrArg ADF.nRows hs
  obtain ⟨l, hl⟩ := Option.isSome_iff_exists.1 ht
  have hlv : (abs h v).col .float b!"_target" = some (is.map fun r : Nat => (l[r]?).join) := by
    rw [hs]; simp [ADF.select, hl]
  obtain ⟨⟨y, h1, e1, hy, k1⟩, _⟩ := C57_vecDense wf hlv (by
    intro h0; rw [List.map_eq_nil_iff] at h0; rw [h0] at hpos; simp at hpos)
  obtain ⟨kv1, _, wf1⟩ := k1 v wf
  have hs1 : abs h1 v = a.select is := kv1.trans hs
  obtain ⟨m, bat', e2, hm, inv⟩ := denseMatrix_ready (bat := s.bat) (n1 := n1) hne ready wf1
    (fun c hc => by rw [hs1, numKind_select]; exact hk c hc) (by omega) (by omega) (fun h => by rw [hnr]; exact hfirst h)
  have hys : (h1.read y).map asFloat = is.map fun r => (trainRow kind cols a r).2 := by
    have hj : ∀ i : Nat, (h1.read y)[i]?.map some = (is[i]?).map (fun r : Nat => (l[r]?).join) := by
      intro i
      rw [← List.getElem?_map, hy, List.getElem?_map]
    apply List.ext_getElem?
    intro i
    have := hj i
    rw [List.getElem?_map, List.getElem?_map]
    cases h1' : is[i]? with
    | none =>
      rw [h1'] at this
      simp only [Option.map_none] at this ⊢
      rw [Option.map_eq_none_iff] at this
      rw [this]; rfl
    | some r =>
      rw [h1'] at this
      cases h2' : (h1.read y)[i]? with
      | none => rw [h2'] at this; cases this
      | some x =>
        rw [h2'] at this
        simp only [Option.map_some, Option.some.injEq] at this ⊢
        simp only [trainRow, ADF.cell, hl, Option.bind_some, ← this, Option.map_some, Option.getD_some]
  refine ⟨⟨bat', (fitUpdate bl p s.weights (fitMomentum bl p ((List.range m.cols).map fun j => bl.dotT (m.column j)
      (List.zipWith GoFloat.sub (is.map fun r => bl.dot (featRow kind cols a r) s.weights) ((h1.read y).map asFloat))) s.prev).1),
      (fitMomentum bl p ((List.range m.cols).map fun j => bl.dotT (m.column j)
      (List.zipWith GoFloat.sub (is.map fun r => bl.dot (featRow kind cols a r) s.weights) ((h1.read y).map asFloat))) s.prev).2⟩, h1, ?_, k1, Or.inr inv, ?_, ?_⟩
  · unfold fitBatch
    rw [if_neg (by omega), e1]
    simp only
    rw [e2]
    simp only
    rw [mulVec_eq' hm hs1 ag.lw]
    simp only
    rw [if_pos (by rw [hys]; simp [hnr])]
  · intro h0
    have := inv.ini
    simp only at h0
    rw [h0] at this; simp [newDense64Batching] at this
  · have hres : List.zipWith GoFloat.sub (is.map fun r => bl.dot (featRow kind cols a r) s.weights) ((h1.read y).map asFloat) =
        (is.map (trainRow kind cols a)).map fun e => GoFloat.sub (bl.dot e.1 t.1) e.2 := by
      rw [hys, ag.w, List.zipWith_map, List.zipWith_self, List.map_map]
      rfl
    have hgrad : ((List.range m.cols).map fun j => bl.dotT (m.column j)
        (List.zipWith GoFloat.sub (is.map fun r => bl.dot (featRow kind cols a r) s.weights) ((h1.read y).map asFloat))) =
        (List.range cols.length).map (gradAt bl (is.map (trainRow kind cols a)) t.1) := by
      rw [hres, hm.2.1]
      apply List.map_congr_left
      intro j hj
      simp only [List.mem_range] at hj
      rw [column_eq hm hs1 hj, gradAt, List.map_map, List.map_map]
      rfl
    rw [hgrad]
    have lt1 : t.1.length = cols.length := by rw [← ag.w, ag.lw]
    by_cases hmom : GoFloat.lt GoFloat.zero p.momentum = true
    · have hv := ag.v hmom
      have lt2 : t.2.length = cols.length := by rw [← hv, ag.lv]
      have hf : fitMomentum bl p ((List.range cols.length).map (gradAt bl (is.map (trainRow kind cols a)) t.1)) s.prev =
          ((List.range cols.length).map (fun j => bl.axpy (gradAt bl (is.map (trainRow kind cols a)) t.1 j) p.momentum (t.2.getD j GoFloat.zero)),
            (List.range cols.length).map (fun j => bl.axpy (gradAt bl (is.map (trainRow kind cols a)) t.1 j) p.momentum (t.2.getD j GoFloat.zero))) := by
        unfold fitMomentum
        rw [if_pos hmom]
        simp only
        rw [hv, map_range_zipWith _ _ _ _ GoFloat.zero lt2]
      rw [hf]
      simp only
      have hw : fitUpdate bl p s.weights ((List.range cols.length).map (fun j => bl.axpy (gradAt bl (is.map (trainRow kind cols a)) t.1 j) p.momentum (t.2.getD j GoFloat.zero))) =
          (sgdStep bl p (is.map (trainRow kind cols a)) t).1 := by
        unfold fitUpdate sgdStep
        simp only [hmom, if_true]
        rw [zipWith_map_range _ _ _ _ GoFloat.zero ag.lw, ag.w, lt1]
        split
        · rw [List.map_map]; rfl
        · rfl
      refine ⟨hw, fun _ => ?_, ?_, ?_⟩
      · unfold sgdStep
        simp only [hmom, if_true, lt1]
      · simp only
        rw [hw]; simp [sgdStep, lt1]
      · simp
    · have hf : fitMomentum bl p ((List.range cols.length).map (gradAt bl (is.map (trainRow kind cols a)) t.1)) s.prev =
          ((List.range cols.length).map (gradAt bl (is.map (trainRow kind cols a)) t.1), s.prev) := by
        unfold fitMomentum
        rw [if_neg hmom]
      rw [hf]
      simp only
      have hw : fitUpdate bl p s.weights ((List.range cols.length).map (gradAt bl (is.map (trainRow kind cols a)) t.1)) =
          (sgdStep bl p (is.map (trainRow kind cols a)) t).1 := by
        unfold fitUpdate sgdStep
        simp only [hmom]
        rw [zipWith_map_range _ _ _ _ GoFloat.zero ag.lw, ag.w, lt1]
        split
        · rw [List.map_map]; rfl
        · rfl
      refine ⟨hw, fun h0 => absurd h0 hmom, ?_, ag.lv⟩
      simp only
      rw [hw]; simp [sgdStep, lt1]

theorem fitBatches_spec {bl : Blas F} {p : LinRegTrainParams F} {kind : GoStr → Kind} {cols : List GoStr} {a : ADF (Val F)}
    {n1 : Nat} (hne : cols ≠ []) (hk : ∀ c ∈ cols, a.numKind c = some (kind c))
    (ht : (a.col .float b!"_target").isSome) (hb : (n1 : Int) ≤ p.batchSize) :
    ∀ (vs : List DF) (parts : List (List Nat)) (h : Heap F) (s : FitState F) (t : List F × List F),
      List.Forall₂ (fun (v : DF) is => v.WF h ∧ abs h v = a.select is) vs parts → (∀ q ∈ parts, 0 < q.length ∧ q.length ≤ n1) →
      BatReady kind cols n1 s.bat → (s.bat = newDense64Batching cols → ∀ q ∈ parts.head?, q.length = n1) → Agrees p cols.length s t →
      ∃ s' h', fitBatches bl p vs s h = .ok (s', h') ∧ Keeps h h' ∧ BatReady kind cols n1 s'.bat ∧
        Agrees p cols.length s' (sgd bl p (trainRow kind cols a) parts t) := by
  intro vs
  induction vs with
  | nil =>
    intro parts h s t hf _ hr _ ag
    cases hf
    exact ⟨s, h, rfl, Keeps.refl h, hr, ag⟩
  | cons v vs ih =>
    intro parts h s t hf hall hr hfirst ag
    cases hf with
    | @cons _ is _ ps hv hvs =>
      have hp := hall is (by simp)
      obtain ⟨s1, h1, e1, k1, r1, n1', a1⟩ := fitBatch_spec (bl := bl) hne hk ht hv.1 hv.2 hp.1 hp.2 hb hr (fun h => hfirst h is (by simp)) ag
      have hvs' : List.Forall₂ (fun (v : DF) is => v.WF h1 ∧ abs h1 v = a.select is) vs ps := by
        refine hvs.imp ?_
        intro w js hw
        obtain ⟨b1, _, b3⟩ := k1 w hw.1
        exact ⟨b3, b1.trans hw.2⟩
      obtain ⟨s2, h2, e2, k2, r2, a2⟩ := ih ps h1 s1 _ hvs' (fun q hq => hall q (by simp [hq])) r1 (fun h => absurd h n1') a1
      refine ⟨s2, h2, ?_, k1.trans k2, r2, ?_⟩
      · unfold fitBatches; rw [e1]; exact e2
      · exact a2

omit [GoFloat F] in
theorem Parts.forall₂ {h : Heap F} {df : DF} {h' : Heap F} {vs : List DF} {parts : List (List Nat)} (p : Parts h df h' vs parts) :
    List.Forall₂ (fun (v : DF) is => v.WF h' ∧ abs h' v = (abs h df).select is) vs parts := by
  induction p with
  | nil => exact .nil
  | cons r _ ih => exact .cons ⟨r.wf, r.shows⟩ ih

theorem select_enc {C : Type} (a : ADF C) (is : List Nat) : ({ a with enc := none } : ADF C).select is = { a.select is with enc := none } := rfl

/-- One epoch. -/
theorem fitEpoch_spec {bl : Blas F} {p : LinRegTrainParams F} {kind : GoStr → Kind} {cols : List GoStr} {h : Heap F} {df : DF}
    {perm : List Nat} {s : FitState F} {t : List F × List F} (wf : df.WF h) (hne : cols ≠ [])
    (hk : ∀ c ∈ cols, (abs h df).numKind c = some (kind c)) (ht : ((abs h df).col .float b!"_target").isSome) (hn : 0 < df.numRows)
    (hb : 0 < p.batchSize) (hp : perm.Perm (List.range df.numRows)) (ready : BatReady kind cols (min p.batchSize.toNat df.numRows) s.bat)
    (ag : Agrees p cols.length s t) :
    ∃ s' h' parts, fitEpoch bl p perm df s h = .ok (s', h') ∧ Keeps h h' ∧ BatReady kind cols (min p.batchSize.toNat df.numRows) s'.bat ∧
      IsBatches perm p.batchSize.toNat parts ∧ Agrees p cols.length s' (sgd bl p (trainRow kind cols (abs h df)) parts t) := by
  have hpl : perm.length = df.numRows := by rw [hp.length_eq, List.length_range]
  obtain ⟨d1, h1, e1, r1⟩ := C06_shuffleView wf hp
  -- the data of the epoch
  obtain ⟨d2, h2, e2, hw2, hs2, k2, hn2⟩ : ∃ (d2 : DF) (h2 : Heap F), fitShuffled p perm df h = .ok (d2, h2) ∧ d2.WF h2 ∧
      (∃ x, abs h2 d2 = { (abs h df).select perm with enc := x }) ∧ Keeps h h2 ∧ d2.numRows = df.numRows := by
    unfold fitShuffled
    rw [e1]
    simp only
    have hd1 : d1.numRows = df.numRows := by
      have := congrArg ADF.nRows r1.shows
      exact this.trans hpl
    cases p.lowMemory with
    | true => exact ⟨d1, h1, rfl, r1.wf, ⟨_, r1.shows⟩, r1.others, hd1⟩
    | false =>
      obtain ⟨c, h2, e2, hs, hw, _, _, hr, hk2⟩ := C15_copy_equal_compact r1.wf
      refine ⟨c, h2, by simpa using e2, hw, ⟨none, by rw [hs, r1.shows]⟩, Keeps.trans r1.others hk2, ?_⟩
      show c.rows.length = _
      rw [hr, List.length_range, hd1]
  obtain ⟨x, hs2⟩ := hs2
  obtain ⟨vs, h3, parts, e3, ps, hfl, hfull, hlast, _⟩ := C09_splitView hw2 hb
  have k3 : Keeps h2 h3 := (splitView_heapExt hw2 hb e3).keeps
  have hpm : ∀ q ∈ parts, ∀ j ∈ q, j < perm.length := by
    intro q hq j hj
    have : j ∈ parts.flatten := List.mem_flatten.2 ⟨q, hq, hj⟩
    rw [hfl] at this
    simp only [List.mem_range] at this; omega
  have ib : IsBatches perm p.batchSize.toNat (parts.map (pick perm)) := by
    refine ⟨?_, ?_, ?_⟩
    · rw [pick_flatten, hfl, hn2, ← hpl, pick_range_self]
    · intro q hq
      rw [← List.map_dropLast] at hq
      obtain ⟨q', hq', rfl⟩ := List.mem_map.1 hq
      rw [pick_length]; exact hfull q' hq'
    · intro q hq
      rw [List.getLast?_map] at hq
      obtain ⟨q', hq', rfl⟩ := Option.mem_map.1 hq
      rw [pick_length]
      have := hlast q' hq'
      exact ⟨this.2 (by omega), this.1⟩
  -- trained on the same rows, apart from the encoding
  obtain ⟨A, hA⟩ : ∃ A : ADF (Val F), A = { abs h df with enc := x } := ⟨_, rfl⟩
  have hfor : List.Forall₂ (fun (v : DF) is => v.WF h3 ∧ abs h3 v = A.select is) vs (parts.map (pick perm)) := by
    have f := ps.forall₂
    rw [hs2] at f
    rw [List.forall₂_map_right_iff]
    have : ∀ (vs : List DF) (parts : List (List Nat)), (∀ q ∈ parts, ∀ j ∈ q, j < perm.length) →
        List.Forall₂ (fun (v : DF) is => v.WF h3 ∧ abs h3 v = ({ (abs h df).select perm with enc := x } : ADF (Val F)).select is) vs parts →
        List.Forall₂ (fun (v : DF) is => v.WF h3 ∧ abs h3 v = A.select (pick perm is)) vs parts := by
      intro vs parts hb' hf
      induction hf with
      | nil => exact .nil
      | @cons v q vs qs hv _ ih =>
        refine .cons ⟨hv.1, ?_⟩ (ih fun q hq => hb' q (by simp [hq]))
        rw [hv.2, hA]
        exact select_select { abs h df with enc := x } perm q (hb' q (by simp))
    exact this vs parts hpm f
  have hbn : 0 < p.batchSize.toNat := by omega
  obtain ⟨s', h4, e4, k4, r4, a4⟩ := fitBatches_spec (bl := bl) (p := p) (a := A) (n1 := min p.batchSize.toNat df.numRows) hne
    (by intro c hc; rw [hA]; exact hk c hc) (by rw [hA]; exact ht) (by omega) vs (parts.map (pick perm)) h3 s t hfor
    (by intro q hq; have := ib.bounds hbn hq; rw [hpl] at this; exact this) ready (by intro _ q hq; rw [ib.head hq, hpl]) ag
  refine ⟨s', h4, parts.map (pick perm), ?_, (k2.trans k3).trans k4, r4, ib, ?_⟩
  · unfold fitEpoch
    rw [e2]; simp only; rw [e3]; exact e4
  · have : trainRow kind cols A = trainRow kind cols (abs h df) := by rw [hA]; rfl
    rw [← this]; exact a4

/-- All epochs. -/
theorem fitEpochs_spec {bl : Blas F} {p : LinRegTrainParams F} {sch : FitSched F} {kind : GoStr → Kind} {cols : List GoStr} {df : DF}
    (hne : cols ≠ []) (hn : 0 < df.numRows) (hb : 0 < p.batchSize) :
    ∀ (es : List Int) (h : Heap F) (s : FitState F) (t : List F × List F), df.WF h →
      (∀ c ∈ cols, (abs h df).numKind c = some (kind c)) → ((abs h df).col .float b!"_target").isSome →
      BatReady kind cols (min p.batchSize.toNat df.numRows) s.bat → Agrees p cols.length s t →
      ∃ s' h' pss, fitEpochs bl p sch df es s h = .ok (s', h') ∧ Keeps h h' ∧
        List.Forall₂ (fun (e : Int) parts => IsBatches (sch.shuffle e.toNat df.numRows) p.batchSize.toNat parts) es pss ∧
        Agrees p cols.length s' (sgd bl p (trainRow kind cols (abs h df)) pss.flatten t) := by
  intro es
  induction es with
  | nil => intro h s t _ _ _ _ ag; exact ⟨s, h, [], rfl, Keeps.refl h, .nil, ag⟩
  | cons e es ih =>
    intro h s t wf hk ht hr ag
    obtain ⟨s1, h1, parts, e1, k1, r1, ib, a1⟩ := fitEpoch_spec (bl := bl) wf hne hk ht hn hb (sch.shuffle_perm e.toNat df.numRows) hr ag
    obtain ⟨b1, _, b3⟩ := k1 df wf
    obtain ⟨s2, h2, pss, e2, k2, f2, a2⟩ := ih h1 s1 _ b3 (by rw [b1]; exact hk) (by rw [b1]; exact ht) r1 a1
    rw [b1] at a2
    refine ⟨s2, h2, parts :: pss, ?_, k1.trans k2, .cons ib f2, ?_⟩
    · unfold fitEpochs; rw [e1]; exact e2
    · rw [List.flatten_cons]
      unfold sgd at a2 ⊢
      rw [List.foldl_append]; exact a2

end

end Verif
