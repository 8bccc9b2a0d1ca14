import Verif.Spec.LinReg
import Verif.Props.Dense
import Verif.Props.Edits
import Verif.Props.Scaler
import Verif.Props.ViewEdits

/-! Proofs for C46. -/

namespace Verif
variable {F : Type}

theorem splitView_heapExt {df : DF} {h h' : Heap F} {vs : List DF} (wf : df.WF h) {b : Int} (hb : 0 < b)
    (e : df.splitView b h = .ok (vs, h')) : Heap.Ext h h' := by
  unfold DF.splitView at e
  rw [if_neg (by omega)] at e
  simp only at e
  have hbn : 0 < b.toNat := by omega
  generalize b.toNat = B at *
  rw [numBatches_spec df.numRows B hbn] at e
  split at e
  · cases e; exact Heap.Ext.refl _
  · rename_i hgt
    have hmulle : (df.numRows + B - 1) / B * B ≤ df.numRows + B - 1 := Nat.div_mul_le_self _ _
    generalize hq : (df.numRows + B - 1) / B = q at *
    obtain ⟨q', rfl⟩ : ∃ q', q = q' + 1 := ⟨q - 1, by omega⟩
    have e1 : (q' + 1) * B = q' * B + B := Nat.succ_mul ..
    obtain ⟨vs', h2, parts, he, ext, _⟩ := splitLoop_spec wf hbn q' 0 (by omega)
    rw [show q' + 1 - 1 = q' by omega, he] at e
    cases e; exact ext

/-- The features of a row, with 0 where there is nothing. -/
def featRow [GoFloat F] (kind : GoStr → Kind) (cols : List GoStr) (a : ADF (Val F)) (r : Nat) : List F :=
  cols.map fun c => ((a.cell (kind c) c r).map (num64 (kind c))).getD GoFloat.zero

theorem cell_select {C : Type} (a : ADF C) (is : List Nat) (k : Kind) (c : GoStr) {i r : Nat} (hi : is[i]? = some r) :
    (a.select is).cell k c i = a.cell k c r := by
  unfold ADF.cell ADF.select
  simp only
  cases a.col k c with
  | none => rfl
  | some l => simp [hi]

theorem isRowOf_featRow [GoFloat F] {kind : GoStr → Kind} {cols : List GoStr} {h : Heap F} {df : DF} {r : Nat}
    (hc : ∀ c ∈ cols, ((abs h df).cell (kind c) c r).isSome) : IsRowOf kind cols h df r (featRow kind cols (abs h df) r) := by
  refine ⟨by simp [featRow], ?_⟩
  intro j c hj
  have := hc c (List.mem_of_getElem? hj)
  obtain ⟨v, hv⟩ := Option.isSome_iff_exists.1 this
  simp [featRow, hj, hv]

theorem matrix_row_eq [GoFloat F] {kind : GoStr → Kind} {cols : List GoStr} {h : Heap F} {df : DF} {m : Matrix F}
    (hm : IsMatrixOf kind cols h df m) {i : Nat} (hi : i < m.rows) : m.row i = featRow kind cols (abs h df) i := by
  obtain ⟨_, h2, h3⟩ := hm
  apply List.ext_getElem?
  intro j
  unfold Matrix.row featRow
  rw [h2]
  by_cases hj : j < cols.length
  · have hc : cols[j]? = some cols[j] := List.getElem?_eq_getElem hj
    rw [List.getElem?_map, List.getElem?_map, hc, List.getElem?_range hj]
    simp only [Option.map_some, Option.some.injEq]
    rw [(h3 i j _ hi hc).2]
  · rw [List.getElem?_eq_none (by simpa using hj), List.getElem?_eq_none (by simpa using hj)]

theorem featRow_select [GoFloat F] {kind : GoStr → Kind} {cols : List GoStr} (a : ADF (Val F)) (is : List Nat) {i r : Nat}
    (hi : is[i]? = some r) : featRow kind cols (a.select is) i = featRow kind cols a r := by
  unfold featRow
  apply List.map_congr_left
  intro c _
  rw [cell_select a is _ _ hi]

/-- What the product of a batch and the weights is. -/
theorem mulVec_eq [GoFloat F] {dot : List F → List F → F} {kind : GoStr → Kind} {cols : List GoStr} {h0 h : Heap F} {df v : DF} {m : Matrix F}
    {is : List Nat} {w : List F} (hm : IsMatrixOf kind cols h v m) (r : RowView h0 df h v is) (hw : w.length = cols.length) :
    mulVec dot m w = .ok (is.map fun r => dot (featRow kind cols (abs h0 df) r) w) := by
  unfold mulVec
  rw [if_pos (by rw [hm.2.1, hw])]
  congr 1
  have hr : m.rows = is.length := by rw [hm.1, r.shows]; rfl
  rw [hr]
  apply List.ext_getElem?
  intro i
  by_cases hi : i < is.length
  · have e : is[i]? = some is[i] := List.getElem?_eq_getElem hi
    rw [List.getElem?_map, List.getElem?_map, e, List.getElem?_range hi]
    simp only [Option.map_some, Option.some.injEq]
    rw [matrix_row_eq hm (by omega), r.shows, featRow_select _ _ e]
  · rw [List.getElem?_eq_none (by simpa using hi), List.getElem?_eq_none (by simpa using hi)]

/-- The batching object before the first batch or after a batch of `n1` rows. -/
def BatReady (kind : GoStr → Kind) (cols : List GoStr) (n1 : Nat) (bat : Dense64Batching F) : Prop :=
  bat = newDense64Batching cols ∨ DenseInv kind cols bat n1

theorem numKind_isSome {C : Type} {a : ADF C} {c : GoStr} {k : Kind} (h : a.numKind c = some k) : (a.col k c).isSome := by
  simp only [ADF.numKind] at h
  split at h
  · rw [← Option.some.inj h]; assumption
  · split at h
    · rw [← Option.some.inj h]; assumption
    · split at h
      · rw [← Option.some.inj h]; assumption
      · cases h

theorem numKind_select {C : Type} (a : ADF C) (is : List Nat) (c : GoStr) : (a.select is).numKind c = a.numKind c := by
  unfold ADF.numKind ADF.select
  simp

theorem denseMatrix_ready [GoFloat F] {h : Heap F} {kind : GoStr → Kind} {cols : List GoStr} {n1 : Nat} {bat : Dense64Batching F} {df : DF}
    (hne : cols ≠ []) (ready : BatReady kind cols n1 bat) (wf : df.WF h) (hk : ∀ c ∈ cols, (abs h df).numKind c = some (kind c))
    (hn : 0 < df.numRows) (hle : df.numRows ≤ n1) (hfirst : bat = newDense64Batching cols → df.numRows = n1) :
    ∃ m bat', bat.denseMatrix df h = .ok (m, bat') ∧ IsMatrixOf kind cols h df m ∧ DenseInv kind cols bat' n1 := by
  have hd : 0 < cols.length := List.length_pos_iff.2 hne
  have hc : HasCols h df kind cols := ⟨wf, fun c hm => numKind_isSome (hk c hm)⟩
  rcases ready with rfl | inv
  · obtain ⟨b, ei, cl, hb⟩ := initialize_spec (t := h.tab df.tab) (b := (newDense64Batching cols : Dense64Batching F).toFloatBatching)
      (fun c hc => by rw [← numKind_abs]; exact hk c hc) rfl
    obtain ⟨m, bat', e1, e2, e3, e4⟩ := denseMatrix_core (bat := newDense64Batching cols) ei cl hb hc (Nat.le_refl _) hd hn (Or.inl rfl)
    rw [hfirst rfl] at e4
    exact ⟨m, bat', e1, e2, e4⟩
  · have ei : bat.toFloatBatching.initialize (h.tab df.tab) bat.columns = .ok bat.toFloatBatching := by
      simp [FloatBatching.initialize, inv.ini]
    obtain ⟨m, bat', e1, e2, e3, e4⟩ := denseMatrix_core ei inv.cl inv.ini hc inv.le hd hn
      (Or.inr (Or.inr (Nat.le_trans (Nat.mul_le_mul_left _ hle) inv.len)))
    exact ⟨m, bat', e1, e2, e4.cl, e4.ini, e4.le, Nat.le_trans inv.len e3⟩

theorem predictLoop_eq [GoFloat F] {dot : List F → List F → F} {kind : GoStr → Kind} {cols : List GoStr} {h0 h : Heap F} {df : DF}
    {w : List F} (hne : cols ≠ []) (hw : w.length = cols.length) (hk : ∀ c ∈ cols, (abs h0 df).numKind c = some (kind c)) {b n1 : Nat}
    {vs : List DF} {parts : List (List Nat)} (hp : Parts h0 df h vs parts) :
    ∀ {i : Nat} {bat : Dense64Batching F} {pred : List F}, BatReady kind cols n1 bat →
      (bat = newDense64Batching cols → ∀ p ∈ parts.head?, p.length = n1) → (∀ p ∈ parts, 0 < p.length ∧ p.length ≤ n1) →
      (∀ p ∈ parts.dropLast, p.length = b) → i * b + parts.flatten.length = pred.length ∨ parts = [] →
      predictLoop dot w b h vs i bat pred = .ok (if parts = [] then pred else
        pred.take (i * b) ++ parts.flatten.map fun r => dot (featRow kind cols (abs h0 df) r) w) := by
  induction hp with
  | nil => intro i bat pred _ _ _ _ _; simp [predictLoop]
  | @cons v is vs ps r rest ih =>
    intro i bat pred hb hf hall hdrop hlen
    have hlen : i * b + (is ++ ps.flatten).length = pred.length := by
      rcases hlen with h | h
      · simpa using h
      · cases h
    have hnr : v.numRows = is.length := by
      have := congrArg ADF.nRows r.shows; exact this
    have hpos := hall is (by simp)
    obtain ⟨m, bat', e1, e2, e3⟩ := denseMatrix_ready (bat := bat) (n1 := n1) hne hb r.wf
      (fun c hc => by rw [r.shows, numKind_select]; exact hk c hc) (by omega) (by omega)
      (fun h => by rw [hnr]; exact hf h is (by simp))
    rw [predictLoop]
    simp only [e1]
    rw [if_pos (by rw [hnr]; simp at hlen; omega), if_neg (by omega), mulVec_eq e2 r hw]
    simp only [reduceIte, List.flatten_cons, List.map_append, reduceCtorEq]
    have htake : (pred.take (i * b)).length = i * b := by
      rw [List.length_take]; simp at hlen; omega
    rw [ih (Or.inr e3) (fun h => by
        rw [h] at e3; have := e3.ini; simp [newDense64Batching] at this) (fun p hp => hall p (by simp [hp])) (fun p hp => by
          cases ps with
          | nil => simp at hp
          | cons q qs => exact hdrop p (by rw [List.dropLast_cons_of_ne_nil (by simp)]; simp [hp])) (by
          cases ps with
          | nil => right; rfl
          | cons q qs =>
            left
            have hb' := hdrop is (by rw [List.dropLast_cons_of_ne_nil (by simp)]; simp)
            simp only [List.length_append, List.length_map, List.length_drop, htake, hnr] at hlen ⊢
            rw [Nat.add_mul, Nat.one_mul]
            omega)]
    congr 1
    cases ps with
    | nil =>
      simp only [if_true, List.flatten_nil, List.map_nil, List.append_nil]
      rw [List.drop_eq_nil_of_le (by simp at hlen; omega), List.append_nil]
    | cons q qs =>
      have hb' := hdrop is (by rw [List.dropLast_cons_of_ne_nil (by simp)]; simp)
      simp only [reduceCtorEq, if_false]
      rw [← List.append_assoc]
      congr 1
      rw [Nat.add_mul, Nat.one_mul, List.take_append_of_le_length (by simp [htake, hb']), List.take_of_length_le (by simp [htake, hb'])]

/-! ### new objects only -/

theorem Heap.Ext.of_frame {A T H M : Nat → Prop} {h0 h h' : Heap F} (e : Heap.Ext h0 h) (f : Heap.Frame A T H M h h')
    (hA : ∀ i, A i → h0.next ≤ i) (hT : ∀ i, T i → h0.next ≤ i) (hH : ∀ i, H i → h0.next ≤ i) (hM : ∀ i, M i → h0.next ≤ i) :
    Heap.Ext h0 h' := by
  have hn := e.next_le
  refine ⟨Nat.le_trans hn f.next_le, ?_, ?_, ?_, ?_⟩
  · intro i hi; rw [f.arr i (by omega) (fun x => by have := hA i x; omega), e.arr i hi]
  · intro i hi; rw [f.tab i (by omega) (fun x => by have := hT i x; omega), e.tab i hi]
  · intro i hi; rw [f.hdr i (by omega) (fun x => by have := hH i x; omega), e.hdr i hi]
  · intro i hi; rw [f.msk i (by omega) (fun x => by have := hM i x; omega), e.msk i hi]

theorem Heap.Ext.of_quiet {h0 h h' : Heap F} (e : Heap.Ext h0 h) (q : Quiet h h')
    (ha : ∀ x : Nat × Nat, x.1 < h0.next → h'.at x = h.at x) : Heap.Ext h0 h' := by
  refine ⟨by rw [q.next]; exact e.next_le, ?_, fun i hi => by rw [q.tab]; exact e.tab i hi, fun i hi => by rw [q.hdr]; exact e.hdr i hi,
    fun i hi => by rw [q.msk]; exact e.msk i hi⟩
  intro i hi
  rw [← e.arr i hi]
  exact List.ext_getElem? fun j => ha (i, j) hi

/-- What a structure looks like after an edit that made its maps its own: all of them are new. -/
structure Raw.Owned (h0 : Heap F) (r : Raw) : Prop where
  notShared : r.sharedMaps = false
  tab : h0.next ≤ r.tab
  shared : ∀ i, r.shared = some i → h0.next ≤ i

theorem overwriteFloat_owned [GoFloat F] {v v' : DF} {h h' : Heap F} (wf : v.WF h) (hs : v.sharedMaps = true) {c : GoStr} {vals : List (Val F)}
    (hc : (abs h v).col .float c = none) (e : v.overwrite .float c vals false h = .ok (v', h')) :
    Heap.Ext h h' ∧ v'.toRaw.Owned h ∧ (∃ s, AMap.get (h'.tab v'.tab) (.float, c) = some s ∧ h.next ≤ s.arr) ∧ v'.strHdr = v.strHdr ∧
      v'.maxCPU = v.maxCPU ∧ v'.idx = v.idx ∧ v'.enc = v.enc ∧
      (∀ q, q ≠ (.float, c) → AMap.get (h'.tab v'.tab) q = AMap.get (h.tab v.tab) q) := by
  have hg : AMap.get (h.tab v.tab) (.float, c) = none := col_eq_none.1 hc
  have htc : (tabCol (h.tab v.tab) (.float, c)).len = 0 := by simp [tabCol, hg, Slice.nil]
  unfold DF.overwrite at e
  simp only [htc, if_true, reduceCtorEq, false_and, if_false] at e
  have sp := own_spec wf.toWF
  have cs := create_alloc wf.toWF .float c
  have ea : v.toRaw.alloc .float [c] h = ((v.toRaw.own h).1, allocLoop .float (numAllocatedRows ((v.toRaw.own h).2.tab (v.toRaw.own h).1.tab))
    (v.toRaw.own h).1.tab [c] (v.toRaw.own h).2) := rfl
  have fa := Foot.alloc (k := .float) (cols := [c]) wf.toWF
  obtain ⟨s, g1, g2, g3⟩ := cs.new
  have ft : (v.toRaw.alloc .float [c] h).1 = (v.toRaw.own h).1 := rfl
  have ext1 : Heap.Ext h (v.toRaw.alloc .float [c] h).2 := by
    have f2 := Foot.allocLoop (k := .float) (n := numAllocatedRows ((v.toRaw.own h).2.tab (v.toRaw.own h).1.tab)) (cols := [c]) sp.wf
    have al := allocLoop_spec .float (numAllocatedRows ((v.toRaw.own h).2.tab (v.toRaw.own h).1.tab)) (v.toRaw.own h).1.tab [c] (v.toRaw.own h).2
    rw [ea]
    have hh : (allocLoop .float (numAllocatedRows ((v.toRaw.own h).2.tab (v.toRaw.own h).1.tab))
      (v.toRaw.own h).1.tab [c] (v.toRaw.own h).2).hdr = (v.toRaw.own h).2.hdr := rfl
    refine sp.ext.of_frame (H := Nope) (A := Nope) (M := Nope) (T := (· = (v.toRaw.own h).1.tab)) ?_ (fun i => False.elim)
      (fun i hi => by rw [hi]; exact (sp.fresh hs).1) (fun i => False.elim) (fun i => False.elim)
    exact ⟨f2.frame.next_le, f2.frame.arr, f2.frame.tab, fun i hi _ => by rw [hh], f2.frame.msk⟩
  simp only [DF.withRaw] at e
  split at e
  · cases e
  · rename_i h2 hw
    cases e
    have htc1 : tabCol ((v.toRaw.alloc .float [c] h).2.tab (v.toRaw.alloc .float [c] h).1.tab) (.float, c) = s := by simp [tabCol, g1]
    rw [htc1] at hw
    obtain ⟨q, ha⟩ := overwriteLoop_frame hw
    refine ⟨?_, ⟨cs.notShared, (sp.fresh hs).1, (sp.fresh hs).2.1⟩, ⟨s, by rw [q.tab]; exact g1, g2⟩, sp.str, sp.cpu, rfl, sp.enc,
      fun x hx => by rw [q.tab]; exact cs.old x hx⟩
    refine ext1.of_quiet q ?_
    intro x hx
    unfold Heap.at
    rw [ha x.1 (by omega)]

theorem renameFloat_ext {r r' : Raw} {h0 h h' : Heap F} (ow : r.Owned h0) (ext : Heap.Ext h0 h) {old new : GoStr}
    (hf : (AMap.get (h.tab r.tab) (.float, old)).isSome) (e : r.rename old new h = .ok (r', h')) :
    Heap.Ext h0 h' ∧ r'.Owned h0 := by
  obtain ⟨s, hs⟩ := Option.isSome_iff_exists.1 hf
  unfold Raw.rename at e
  have ho : r.own h = (r, h) := by unfold Raw.own; rw [ow.notShared]; rfl
  have hk : renameKind (h.tab r.tab) old = some .float := by unfold renameKind; simp [hs]
  simp only [ho, hk, hs, reduceCtorEq, false_and, if_false] at e
  have e1 : Heap.Ext h0 (h.setTab r.tab (AMap.erase (AMap.set (h.tab r.tab) (Kind.float, new) s) (Kind.float, old))) :=
    ext.of_frame (Heap.setTab_frame (A := Nope) (H := Nope) (M := Nope) h r.tab _) (fun _ => False.elim) (fun i hi => by rw [hi]; exact ow.tab) (fun _ => False.elim)
      (fun _ => False.elim)
  generalize h.setTab r.tab (AMap.erase (AMap.set (h.tab r.tab) (Kind.float, new) s) (Kind.float, old)) = h1 at e e1
  split at e
  · cases e
    have e2 : Heap.Ext h0 (hdrRemove h1 r.shared [old]) := e1.of_frame (hdrRemove_frame (A := Nope) (T := Nope) (M := Nope) h1 r.shared [old])
      (fun _ => False.elim) (fun _ => False.elim) (fun i hi => ow.shared i hi) (fun _ => False.elim)
    have e3 := e2.of_frame (hdrAdd_frame (A := Nope) (T := Nope) (M := Nope) (hdrRemove h1 r.shared [old]) r.shared [new])
      (fun _ => False.elim) (fun _ => False.elim) (fun i hi => ow.shared i hi) (fun _ => False.elim)
    refine ⟨e3, ow.notShared, ow.tab, ?_⟩
    intro i hi
    cases hsh : r.shared with
    | none =>
      simp only [hsh, hdrAdd] at hi
      cases hi
      have := e2.next_le
      simp only [hsh] at this
      exact this
    | some j =>
      simp only [hsh, hdrAdd] at hi
      cases hi
      exact ow.shared _ hsh
  · cases e
    exact ⟨e1, ow⟩

end Verif
