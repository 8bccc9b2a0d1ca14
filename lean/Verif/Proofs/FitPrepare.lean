import Verif.Proofs.LinRegFit
import Verif.Proofs.Auto

/-! Proofs for C69: the preparation of the target. -/

namespace Verif
variable {F : Type}

theorem amap_single {m : AMap GoStr F} {c : GoStr} {x : F} (nd : (AMap.keys m).Nodup)
    (hg : ∀ d, AMap.get m d = if d = c then some x else none) : m = [(c, x)] := by
  have hmem : ∀ d y, (d, y) ∈ m → d = c ∧ y = x := by
    intro d y hm
    have := AMap.get_of_mem nd hm
    rw [hg] at this
    split at this
    · rename_i h; exact ⟨h, (Option.some.inj this).symm⟩
    · cases this
  have hc : c ∈ AMap.keys m := by
    rw [← AMap.get_isSome_iff, hg, if_pos rfl]; rfl
  match m, nd, hmem, hc with
  | [], _, _, hc => simp [AMap.keys] at hc
  | [(d, y)], _, hmem, _ =>
    obtain ⟨rfl, rfl⟩ := hmem d y (by simp)
    rfl
  | (d, y) :: (d', y') :: m, nd, hmem, _ =>
    have h1 := (hmem d y (by simp)).1
    have h2 := (hmem d' y' (by simp)).1
    simp [AMap.keys, h1, h2] at nd

theorem renameFloat_rest {r r' : Raw} {h h' : Heap F} (ns : r.sharedMaps = false) {old new : GoStr}
    (hf : (AMap.get (h.tab r.tab) (.float, old)).isSome) (e : r.rename old new h = .ok (r', h')) :
    r'.strHdr = r.strHdr ∧ r'.maxCPU = r.maxCPU ∧ r'.tab = r.tab := by
  obtain ⟨s, hs⟩ := Option.isSome_iff_exists.1 hf
  unfold Raw.rename at e
  have ho : r.own h = (r, h) := by unfold Raw.own; rw [ns]; rfl
  have hk : renameKind (h.tab r.tab) old = some .float := by unfold renameKind; simp [hs]
  simp only [ho, hk, hs, reduceCtorEq, false_and, if_false] at e
  split at e
  · cases e; exact ⟨rfl, rfl, rfl⟩
  · cases e; exact ⟨rfl, rfl, rfl⟩

section
variable [GoFloat F]

omit [GoFloat F] in
theorem floats_of_col {a : ADF (Val F)} {c : GoStr} {ys : List F} (h : a.col .float c = some (ys.map fun y => some (.float y))) :
    a.floats c = some ys := by
  unfold ADF.floats
  rw [h]
  simp only
  clear h
  induction ys with
  | nil => rfl
  | cons y ys ih => simp [List.mapM_cons, ih]

theorem nodup_repeats {df : DF} (hnd : df.rows.Nodup) {j : Nat} (hj : j < df.numRows) : df.repeats j = 1 := by
  have hj' : j < df.rows.length := hj
  unfold DF.repeats
  rw [List.getElem?_eq_getElem hj']
  exact List.count_eq_one_of_mem hnd (List.getElem_mem hj')

/-- The dataframe that is trained on. -/
structure Prepared (df : DF) (h : Heap F) (names : List GoStr) (target : GoStr) (ys : List F) (s k : F) (D : DF) (h' : Heap F) : Prop where
  rows : D.rows = df.rows
  wf : D.WF h'
  col : ∀ kk c, (kk, c) ≠ (Kind.float, b!"_target") → (kk, c) ≠ (Kind.float, target) →
    (abs h' D).col kk c = if c ∈ names then (abs h df).col kk c else none
  target : (abs h' D).col .float b!"_target" =
    some (ys.mapIdx fun j y => some (.float (times (df.repeats j) (fun x => GoFloat.mul (GoFloat.add x s) k) y)))
  others : ∀ d : DF, d.WF h → (∀ i, df.shared = some i → d.strHdr ≠ some i) → abs h' d = abs h d ∧ locs h' d = locs h d ∧ d.WF h'

theorem fitPrepare_spec {df : DF} {h : Heap F} {names : List GoStr} {target : GoStr} {ys : List F} (wf : df.WF h) (sep : df.toRaw.Sep)
    (hft : FloatTyped (abs h df)) (hy : (abs h df).col .float target = some (ys.map fun y => some (.float y))) (hm : target ∈ names)
    (hnot : b!"_target" ∉ names) (hcpu : 0 < df.maxCPU) {s k : F} (hsk : scalerFitCol ⟨false, true, true⟩ ys = (some s, some k)) :
    ∃ D h', fitPrepare names df target h = .ok (D, ⟨[(b!"_target", s)], [(b!"_target", k)], ⟨false, true, true⟩⟩, h') ∧
      Prepared df h names target ys s k D h' := by
  have htne : target ≠ b!"_target" := fun h0 => hnot (h0 ▸ hm)
  have hne : names ≠ [] := by intro h0; rw [h0] at hm; cases hm
  unfold fitPrepare
  -- columns
  have sp := columnView_spec wf sep hne
  have c18 := C18_columnView wf sep hne (v := (df.columnView names h).1) (h' := (df.columnView names h).2) rfl
  generalize hV : df.columnView names h = V1 at sp c18 ⊢
  obtain ⟨V, h1⟩ := V1
  simp only at sp c18 ⊢
  obtain ⟨aV, lV, wV, oV⟩ := c18
  obtain ⟨i1, _, _, _, _, i6, _⟩ := sp.rest
  -- detached
  have us := unshare_spec (view_wf wV).toWF [target]
  obtain ⟨aD, wD, oD⟩ := C14_detached_shows wV [target]
  obtain ⟨d1, d2, d3, d4⟩ := detached_rest wV [target]
  have pr := priv_detached wV (cols := [target]) (L := [target]) (fun c hc => Or.inr hc)
  have ow : (V.detachedView [target] h1).1.toRaw.Owned h1 := ⟨us.notShared, (us.fresh rfl).1, (us.fresh rfl).2⟩
  have x2 : Heap.Ext h1 (V.detachedView [target] h1).2 := us.ext rfl
  have hstr : (V.detachedView [target] h1).1.strHdr = V.strHdr := us.str
  clear us
  generalize hD : V.detachedView [target] h1 = D1 at aD wD oD d1 d2 d3 d4 pr ow x2 hstr ⊢
  obtain ⟨D, h2⟩ := D1
  simp only at aD wD oD d1 d2 d3 d4 pr ow x2 hstr ⊢
  have hyD : (abs h2 D).col .float target = some (ys.map fun y => some (.float y)) := by
    rw [aD, aV]; simp only [ADF.project, if_pos hm, hy]
  have hgD : (AMap.get (h2.tab D.tab) (.float, target)).isSome := by
    have h0 : ((abs h2 D).col .float target).isSome := by rw [hyD]; rfl
    obtain ⟨x, hx⟩ := col_isSome.1 h0
    rw [hx]; rfl
  have hrk : renameKind (h2.tab D.tab) target = some .float := by unfold renameKind; rw [if_pos hgD]
  obtain ⟨r', h3, e3, a3, l3, w3, _⟩ := rename_abs wD target b!"_target" d3 hrk
  obtain ⟨x3, ow3⟩ := renameFloat_ext ow x2 hgD e3
  obtain ⟨g1, g2, _⟩ := renameFloat_rest ow.notShared hgD e3
  rw [e3]
  simp only
  obtain ⟨E, hE⟩ : ∃ E : DF, E = { D with toRaw := r' } := ⟨_, rfl⟩
  rw [← hE] at a3 l3 w3 ⊢
  have hEs : E.toRaw.Sep := by
    intro i hi hx
    rw [hE] at hi hx
    have h1' := ow3.shared i hi
    have h2' : V.strHdr = some i := by rw [← hstr, ← g1]; exact hx
    have := wV.str_lt i h2'
    omega
  have hrowsE : E.rows = df.rows := by
    rw [hE]
    show D.idx.rows = df.idx.rows
    rw [d1, i1]
  have hrep : E.repeats = df.repeats := by
    funext j; unfold DF.repeats; rw [hrowsE]
  have hcpuE : E.maxCPU = df.maxCPU := by rw [hE]; show r'.maxCPU = _; rw [g2, d2, i6]
  -- the view on the target
  have hne' : [b!"_target"] ≠ [] := by simp
  have sp4 := columnView_spec w3 hEs hne'
  have c18' := C18_columnView w3 hEs hne' (v := (E.columnView [b!"_target"] h3).1) (h' := (E.columnView [b!"_target"] h3).2) rfl
  generalize hT : E.columnView [b!"_target"] h3 = T1 at sp4 c18' ⊢
  obtain ⟨T, h4⟩ := T1
  simp only at sp4 c18' ⊢
  obtain ⟨aT, _, wT, oT⟩ := c18'
  obtain ⟨aE4, lE4, wE4⟩ := oT E w3 hEs
  obtain ⟨_, _, _, _, _, j6, _⟩ := sp4.rest
  have x4 : Heap.Ext h1 h4 := x3.of_frame sp4.frame (fun _ => False.elim) (fun _ => False.elim) (fun i hi => by
    rw [hE] at hi; exact ow3.shared i hi) (fun _ => False.elim)
  have hyE : (abs h3 E).col .float b!"_target" = some (ys.map fun y => some (.float y)) := by
    rw [a3]
    simp only [ADF.renameCol, true_and]
    rw [if_neg (fun h0 => htne h0.symm), if_true, hyD]
  have hyT : ∀ c, (abs h4 T).col .float c = if c = b!"_target" then some (ys.map fun y => some (.float y)) else none := by
    intro c
    rw [aT]
    simp only [ADF.project, List.mem_singleton]
    split
    · rename_i hc; rw [hc, hyE]
    · rfl
  -- the scaler
  obtain ⟨sc, e5, o5, n5, n6, g5, g6⟩ := scaler_fit (sc := (newScaler ⟨false, true, true⟩ : Scaler F)) (df := T) (h := h4) (vals := fun _ => ys)
    (by
      intro c hc
      rw [hyT] at hc
      split at hc
      · rename_i hc'; rw [hc']; exact floats_of_col (by rw [hyT, if_pos rfl])
      · cases hc) (Or.inr (by rw [j6, hcpuE]; exact hcpu)) (by rw [hyT, if_neg (by decide)])
    (List.Perm.refl (namesOf (h4.tab T.tab) .float))
  rw [e5]
  simp only
  have hopt : (newScaler ⟨false, true, true⟩ : Scaler F).options = ⟨false, true, true⟩ := rfl
  rw [hopt, hsk] at g5 g6
  have hsome : ∀ c, ((abs h4 T).col .float c).isSome = decide (c = b!"_target") := by
    intro c; rw [hyT]; by_cases hc : c = b!"_target" <;> simp [hc]
  have hshift := amap_single (c := b!"_target") (x := s) n5 (by intro c; rw [g5, hsome]; simp)
  have hscale := amap_single (c := b!"_target") (x := k) n6 (by intro c; rw [g6, hsome]; simp)
  obtain rfl : sc = ⟨[(b!"_target", s)], [(b!"_target", k)], ⟨false, true, true⟩⟩ := by
    obtain ⟨a, b, c⟩ := sc
    simp only at hshift hscale o5
    rw [hshift, hscale, o5]; rfl
  have htc : (⟨[(b!"_target", s)], [(b!"_target", k)], ⟨false, true, true⟩⟩ : Scaler F).transformedColumns = [b!"_target"] := rfl
  -- scaling
  have prE : Priv h1.next [b!"_target"] h4 E := by
    have hcell : ∀ kk c (i : Nat), cellOf h4 E kk c i = if kk = .float ∧ c = target then none
        else if kk = .float ∧ c = b!"_target" then cellOf h2 D .float target i else cellOf h2 D kk c i := by
      intro kk c i
      unfold cellOf
      rw [lE4, l3]
      simp only [ADF.renameCol]
      split
      · rfl
      · split <;> rfl
    refine ⟨?_, ?_⟩
    · intro c hc i l hl
      simp only [List.mem_singleton] at hc
      subst hc
      rw [hcell, if_neg (fun h0 => htne h0.2.symm), if_pos ⟨rfl, rfl⟩] at hl
      exact pr.high target (by simp) i l hl
    · intro c hc i l hl k' c' j hl'
      simp only [List.mem_singleton] at hc
      subst hc
      rw [hcell, if_neg (fun h0 => htne h0.2.symm), if_pos ⟨rfl, rfl⟩] at hl
      rw [hcell] at hl'
      split at hl'
      · cases hl'
      · rename_i hnt
        split at hl'
        · rename_i ht; exact ht
        · exact absurd (pr.own target (by simp) i l hl k' c' j hl') hnt
  have hftE : FloatTyped (abs h4 E) := by
    intro c l hl v hv
    rw [aE4, a3] at hl
    simp only [ADF.renameCol, true_and] at hl
    split at hl
    · cases hl
    · split at hl
      · rw [hyD] at hl; cases hl
        obtain ⟨y, _, rfl⟩ := List.mem_map.1 hv
        exact ⟨y, rfl⟩
      · rw [aD, aV] at hl
        simp only [ADF.project] at hl
        split at hl
        · exact hft c l hl v hv
        · cases hl
  obtain ⟨h5, e6, q5, low, a5⟩ := priv_scale (sc := ⟨[(b!"_target", s)], [(b!"_target", k)], ⟨false, true, true⟩⟩) wE4 prE (by rw [htc]; simp)
    (by rw [htc]; exact fun c hc => hc) (by rw [htc]; intro c hc; simp only [List.mem_singleton] at hc; rw [hc, aE4, hyE]; rfl) hftE
    (Or.inr (by rw [hcpuE]; exact hcpu)) (by rw [htc]; decide) (order := [b!"_target"]) (by rw [htc])
  rw [show Scaler.transformInplace (⟨[(b!"_target", s)], [(b!"_target", k)], ⟨false, true, true⟩⟩ : Scaler F) E
    (⟨[(b!"_target", s)], [(b!"_target", k)], ⟨false, true, true⟩⟩ : Scaler F).transformedColumns h4 = .ok h5 from e6]
  simp only
  rw [htc] at a5
  have x5 : Heap.Ext h1 h5 := x4.of_quiet q5 low
  refine ⟨E, h5, rfl, hrowsE, q5.wf wE4, ?_, ?_, ?_⟩
  · intro kk c hc1 hc2
    rw [a5]
    simp only [ADF.mapFloats, List.mem_singleton]
    rw [if_neg (fun h0 => hc1 (by rw [h0.1, h0.2])), aE4, a3]
    simp only [ADF.renameCol]
    rw [if_neg (fun h0 => hc2 (by rw [h0.1, h0.2])), if_neg (fun h0 => hc1 (by rw [h0.1, h0.2])), aD, aV]
    rfl
  · rw [a5]
    simp only [ADF.mapFloats, List.mem_singleton, and_self, if_true]
    rw [aE4, hyE, hrep]
    simp only [Option.map_some, Option.some.injEq]
    apply List.ext_getElem?
    intro j
    simp only [List.getElem?_mapIdx, List.getElem?_map, Option.map_map]
    rfl
  · intro d wd hd
    obtain ⟨b1, b2, b3⟩ := oV d wd hd
    obtain ⟨c1, c2, c3⟩ := x5.keeps d b3
    exact ⟨c1.trans b1, c2.trans b2, c3⟩

end

end Verif
