import Verif.Proofs.History2

/-! One-step lemmas for histories: `HashStringsView`, builders, masks. -/

namespace Verif
variable {F : Type}

theorem hashColumn_quiet {src dst : Slice} {rows : List Nat} {h h' : Heap F} (e : hashColumn src dst rows h = .ok h') :
    Quiet h h' := by
  induction rows generalizing h with
  | nil => simp [hashColumn] at e; subst e; exact Quiet.refl _
  | cons i is ih =>
    simp only [hashColumn] at e
    split at e
    · cases e
    · split at e
      · cases e
      · rename_i h1 hw
        exact (write_quiet hw).trans (ih e)

theorem runQueue_quiet {keys order : List GoStr} {n : Int} {job : GoStr → Heap F → Except Abort (Heap F)}
    (hj : ∀ c g g', job c g = .ok g' → Quiet g g') {h h' : Heap F} (e : runQueue keys order n job h = .ok h') : Quiet h h' := by
  unfold runQueue at e
  split at e
  · cases e; exact Quiet.refl _
  · split at e
    · cases e
    · clear * - e hj
      induction order generalizing h with
      | nil => cases e; exact Quiet.refl _
      | cons c cs ih =>
        rw [List.foldlM_cons] at e
        cases hc : job c h with
        | error x => rw [hc] at e; cases e
        | ok g => rw [hc] at e; exact (hj _ _ _ hc).trans (ih e)

theorem header_ext_except (h : Heap F) (t : Nat) (cols : List GoStr) :
    Heap.Ext h (hdrExcept (header h t).2 (header h t).1 cols).2 := by
  obtain ⟨ok, _⟩ := header_spec h t
  generalize header h t = p at ok
  obtain ⟨hd, ha⟩ := p
  simp only at ok ⊢
  show Heap.Ext h (hdrRemove ha hd cols)
  cases hd with
  | none => exact ok.ext
  | some i =>
    have := ok.new i rfl
    have f : Heap.Frame Nope Nope (· = i) Nope ha (ha.setHdr i (sremove (ha.hdr i) cols)) := Heap.setHdr_frame ..
    exact ((ok.ext.toFrame (A := Nope) (T := Nope) (H := Nope) (M := Nope)).trans f (fun _ _ => id) (fun _ _ => id)
      (fun j hj (hx : j = i) => by omega) (fun _ _ => id)).toExt

theorem columnView_stepOK {d : DF} {h : Heap F} (wf : d.WF h) (mwf : d.MaskWF h) (sep : d.toRaw.Sep) (cols : List GoStr) :
    StepOK h d (d.columnView cols h).2 (d.columnView cols h).1 := by
  by_cases hne : cols = []
  · subst hne; exact view_step wf mwf
  · exact columnView_step wf mwf sep hne

theorem StepOK.ext_left {h h1 h2 : Heap F} {d v : DF} (e : Heap.Ext h h1) (s : StepOK h1 d h2 v) : StepOK h d h2 v :=
  ⟨(Safe.ext e).trans s.safe, s.wf, s.mwf,
    fun i hi => (s.sh i hi).imp id (fun x => by have := e.next_le; omega),
    fun i hi => (s.st i hi).imp id (fun x => by have := e.next_le; omega), s.sep⟩

theorem StepOK.safe_right {h h1 h2 : Heap F} {d v : DF} (s : StepOK h d h1 v) (e : Safe h1 h2) : StepOK h d h2 v :=
  ⟨s.safe.trans e, s.wf.safe e, s.mwf.safe e, s.sh, s.st, s.sep⟩

theorem hashStringsView_stepOK [GoFloat F] {d v : DF} {h h' : Heap F} (wf : d.WF h) (mwf : d.MaskWF h) (sep : d.toRaw.Sep)
    {cols order : List GoStr} (lg : cols = [] ∨ (abs h d).hasColumn) (e : d.hashStringsView cols order h = .ok (v, h')) :
    StepOK h d h' v := by
  by_cases hne : cols = []
  · unfold DF.hashStringsView at e
    rw [if_pos hne] at e; cases e
    exact view_step wf mwf
  · have hcol := hasColumn_iff.1 (lg.resolve_left hne)
    rw [hashStringsView_eq d hne] at e
    split at e
    · cases e
    · rename_i g hg
      cases e
      have q := runQueue_quiet (fun c g g' hq => hashColumn_quiet hq) hg
      refine StepOK.safe_right ?_ q.safe
      -- the first half
      obtain ⟨ok, hm⟩ := header_spec h d.tab
      have ext := header_ext_except h d.tab cols
      unfold DF.hashPrep
      generalize header h d.tab = p at ok hm ext
      obtain ⟨hd, ha⟩ := p
      simp only at hm ok ext ⊢
      obtain ⟨hb, hhb⟩ : ∃ hb, hb = hdrRemove ha hd cols := ⟨_, rfl⟩
      have e1 : (hdrExcept ha hd cols) = (hd, hb) := by rw [hhb]; rfl
      rw [e1] at ext ⊢
      simp only at ext ⊢
      have hmem : ∀ x, x ∈ hdrList hb hd → (∃ k, (AMap.get (h.tab d.tab) (k, x)).isSome) := by
        intro x hx
        rw [← hm x]
        rw [hhb] at hx
        cases hd with
        | none => simp [hdrList] at hx
        | some i => simp [hdrList, hdrRemove, sremove] at hx; exact hx.1
      generalize hdrList hb hd = others at hmem
      have tabb : hb.tab d.tab = h.tab d.tab := ext.tab _ wf.tab_lt
      have s := (columnView_stepOK (wf.ext ext) (mwf.safe (Safe.ext ext)) sep others)
      have htab : (d.columnView others hb).2.tab d.tab = h.tab d.tab ∧
          (∃ q, (AMap.get ((d.columnView others hb).2.tab (d.columnView others hb).1.tab) q).isSome) ∧
          ∀ q s, AMap.get ((d.columnView others hb).2.tab (d.columnView others hb).1.tab) q = some s →
            AMap.get (h.tab d.tab) q = some s := by
        by_cases ho : others = []
        · subst ho
          refine ⟨tabb, ?_, ?_⟩
          · show ∃ q, (AMap.get (hb.tab d.tab) q).isSome
            rw [tabb]
            cases ht : h.tab d.tab with
            | nil => exact absurd ht hcol
            | cons x t => exact ⟨x.1, by obtain ⟨k, s⟩ := x; simp [AMap.get_cons]⟩
          · intro q s hq
            have : AMap.get (hb.tab d.tab) q = some s := hq
            rwa [tabb] at this
        · have sp := columnView_spec (wf.ext ext) sep ho
          refine ⟨by rw [sp.frame.tab _ (Nat.lt_of_lt_of_le wf.tab_lt ext.next_le) id, tabb], ?_, ?_⟩
          · obtain ⟨x, hx⟩ := List.exists_mem_of_ne_nil _ ho
            obtain ⟨k, hk⟩ := hmem x hx
            exact ⟨(k, x), by rw [sp.tab, if_pos hx, tabb]; exact hk⟩
          · intro ⟨k, c⟩ s hq
            rw [sp.tab, tabb] at hq
            split at hq
            · exact hq
            · cases hq
      obtain ⟨t1, ⟨q0, t2⟩, t3⟩ := htab
      refine StepOK.ext_left ext ?_
      generalize d.columnView others hb = p at s t1 t2 t3
      obtain ⟨r, hc⟩ := p
      simp only at s t1 t2 t3 ⊢
      rw [t1]
      have hner : hc.tab r.tab ≠ [] := by
        intro h0; rw [h0] at t2; simp at t2
      obtain ⟨N, hN, _⟩ := wf.rect
      have n1 := wf.numAllocated hcol hN
      have n2 := s.wf.numAllocated hner (fun q sl hq => hN q sl (t3 q sl hq))
      rw [n1, ← n2]
      exact s.safe_right (allocLoop_abs s.wf hner .int cols).2.2

/-! ### builders -/

/-- Everything of the builder is new since `h0`. -/
structure BuilderNew (h0 : Heap F) (r : Raw) (h : Heap F) : Prop where
  ext : Heap.Ext h0 h
  tab : h0.next ≤ r.tab
  str : ∀ i, r.strHdr = some i → h0.next ≤ i
  cols : ∀ k s, AMap.get (h.tab r.tab) k = some s → s.cap ≠ 0 → h0.next ≤ s.arr

theorem Heap.Ext.frame {h0 h h' : Heap F} {A T H M : Nat → Prop} (e : Heap.Ext h0 h) (f : Heap.Frame A T H M h h')
    (a : ∀ i, A i → h0.next ≤ i) (t : ∀ i, T i → h0.next ≤ i) (hh : ∀ i, H i → h0.next ≤ i) (m : ∀ i, M i → h0.next ≤ i) :
    Heap.Ext h0 h' :=
  ((e.toFrame (A := Nope) (T := Nope) (H := Nope) (M := Nope)).trans f (fun i hi hx => by have := a i hx; omega)
    (fun i hi hx => by have := t i hx; omega) (fun i hi hx => by have := hh i hx; omega)
    (fun i hi hx => by have := m i hx; omega)).toExt

theorem BuilderNew.add [GoFloat F] {h0 h : Heap F} {r : Raw} (b : BuilderNew h0 r h) (k c vals) : BuilderNew h0 r (r.add k c vals h) := by
  have hle := b.ext.next_le
  have hcap : ∀ i, (i = (tabCol (h.tab r.tab) (k, c)).arr ∧ (tabCol (h.tab r.tab) (k, c)).cap ≠ 0 ∧ vals ≠ []) → h0.next ≤ i := by
    rintro i ⟨rfl, h1, _⟩
    unfold tabCol at h1 ⊢
    cases hg : AMap.get (h.tab r.tab) (k, c) with
    | none => rw [hg] at h1; exact absurd rfl h1
    | some s => rw [hg] at h1; exact b.cols _ _ hg h1
  have ar := Heap.append_arr h (k.zero : Val F) (tabCol (h.tab r.tab) (k, c)) vals
  have tb := Heap.append_tab h (k.zero : Val F) (tabCol (h.tab r.tab) (k, c)) vals
  have fr := Heap.append_frame (T := Nope) (H := Nope) (M := Nope) h (k.zero : Val F) (tabCol (h.tab r.tab) (k, c)) vals
  unfold Raw.add
  generalize h.append (k.zero : Val F) (tabCol (h.tab r.tab) (k, c)) vals = p at ar tb fr
  obtain ⟨s, g⟩ := p
  simp only at ar tb fr ⊢
  have e1 : Heap.Ext h0 g := b.ext.frame fr hcap (fun _ h => h.elim) (fun _ h => h.elim) (fun _ h => h.elim)
  have f2 : Heap.Frame Nope (· = r.tab) Nope Nope g (g.setTab r.tab (AMap.set (g.tab r.tab) (k, c) s)) := Heap.setTab_frame ..
  refine ⟨e1.frame f2 (fun _ h => h.elim) (fun i hi => hi ▸ b.tab) (fun _ h => h.elim) (fun _ h => h.elim), b.tab, b.str, ?_⟩
  intro q s' hq hc
  rw [Heap.setTab_tab, AMap.get_set, tb] at hq
  split at hq
  · cases hq
    rcases ar with ⟨h1, h2⟩ | h1
    · rw [h2] at hc; rw [h1]
      unfold tabCol at hc ⊢
      cases hg : AMap.get (h.tab r.tab) (k, c) with
      | none => rw [hg] at hc; exact absurd rfl hc
      | some s => rw [hg] at hc; exact b.cols _ _ hg hc
    · omega
  · exact b.cols _ _ hq hc

theorem BuilderNew.mark {h0 h : Heap F} {r : Raw} (b : BuilderNew h0 r h) (c) :
    BuilderNew h0 (r.markAsString c h).1 (r.markAsString c h).2 := by
  have ht : (r.markAsString c h).2.tab = h.tab := hdrAdd_tab ..
  have hf : Heap.Frame Nope Nope (fun i => r.strHdr = some i) Nope h (r.markAsString c h).2 := hdrAdd_frame ..
  refine ⟨b.ext.frame hf (fun _ h => h.elim) (fun _ h => h.elim) b.str (fun _ h => h.elim), b.tab, ?_, ?_⟩
  · intro i hi
    have : (hdrAdd h r.strHdr [c]).1 = some i := hi
    rw [hdrAdd_fst] at this
    cases hs : r.strHdr with
    | none => rw [hs] at this; cases this; exact b.ext.next_le
    | some j => rw [hs] at this; cases this; exact b.str j hs
  · intro q s hq; rw [ht] at hq; exact b.cols q s hq

theorem BuilderNew.step [GoFloat F] {h0 h : Heap F} {r : Raw} (b : BuilderNew h0 r h) (op : BOp F) :
    BuilderNew h0 (op.run (r, h)).1 (op.run (r, h)).2 := by
  cases op with
  | add k c vals => exact b.add k c vals
  | addStrings c vals => exact (b.add .obj c (vals.map .str)).mark c
  | mark c => exact b.mark c
  | enc e => exact ⟨b.ext, b.tab, b.str, b.cols⟩
  | set k c vals extra =>
    have e1 : Heap.Ext h0 (h.newArr (vals ++ extra)).2 := b.ext.trans (Heap.newArr_ext ..)
    obtain ⟨s, hs⟩ : ∃ s, s = { (h.newArr (vals ++ extra)).1 with len := vals.length } := ⟨_, rfl⟩
    have f2 : Heap.Frame Nope (· = r.tab) Nope Nope (h.newArr (vals ++ extra)).2
      ((h.newArr (vals ++ extra)).2.setTab r.tab (AMap.set ((h.newArr (vals ++ extra)).2.tab r.tab) (k, c) s)) := Heap.setTab_frame ..
    have hrun : (BOp.set k c vals extra).run (r, h) = (r, (h.newArr (vals ++ extra)).2.setTab r.tab
      (AMap.set ((h.newArr (vals ++ extra)).2.tab r.tab) (k, c) s)) := by rw [hs]; rfl
    rw [hrun]
    refine ⟨e1.frame f2 (fun _ h => h.elim) (fun i hi => hi ▸ b.tab) (fun _ h => h.elim) (fun _ h => h.elim), b.tab, b.str, ?_⟩
    intro q s' hq hc
    simp only [Heap.setTab_tab, AMap.get_set] at hq
    split at hq
    · cases hq; rw [hs]; exact b.ext.next_le
    · exact b.cols _ _ hq hc

theorem build_new [GoFloat F] (ops : List (BOp F)) (h : Heap F) : BuilderNew h (build ops h).1 (build ops h).2 := by
  have gen : ∀ (os : List (BOp F)) (st : Raw × Heap F), BuilderNew h st.1 st.2 →
      BuilderNew h (os.foldl (fun st op => op.run st) st).1 (os.foldl (fun st op => op.run st) st).2 := by
    intro os
    induction os with
    | nil => intro st b; exact b
    | cons o os ih => intro st b; exact ih (o.run st) (b.step o)
  refine gen ops (newRawData h) ⟨Heap.newTab_ext .., Nat.le_refl _, ?_, ?_⟩
  · intro i hi; cases hi
  · intro k s hk
    have : (newRawData h).2.tab (newRawData h).1.tab = [] := Heap.newTab_tab h []
    rw [this] at hk; cases hk

theorem build_joins [GoFloat F] {w : World F} {ops : List (BOp F)} {v : DF} {h' : Heap F}
    (e : (build ops w.h).1.toDataFrame (build ops w.h).2 = .ok (v, h')) : Joins w h' v := by
  have n := build_new ops w.h
  have b := (buildInv_build ops w.h).toWF
  have hsh : v.shared = none := by
    unfold Raw.toDataFrame at e
    simp only at e
    split at e
    · cases e; rfl
    · cases e
  have key : Heap.Ext (build ops w.h).2 h' ∧ v.WF h' ∧ v.MaskWF h' ∧ v.strHdr = (build ops w.h).1.strHdr := by
    by_cases hne : (build ops w.h).2.tab (build ops w.h).1.tab = []
    · obtain ⟨v', h2, e', h3, h4, h5, _, _, h6, _⟩ := toDataFrame_nil b hne
      rw [e] at e'; cases e'; exact ⟨h5, h3, h4, h6⟩
    · obtain ⟨x, hx⟩ := List.exists_mem_of_ne_nil _ hne
      obtain ⟨k0, s0⟩ := x
      have g0 := AMap.get_of_mem b.keys hx
      have hN : ∀ k s, AMap.get ((build ops w.h).2.tab (build ops w.h).1.tab) k = some s → s.len = s0.len := by
        intro k s hk
        refine Classical.byContradiction fun hx => ?_
        rw [toDataFrame_err b hk g0 hx] at e; cases e
      obtain ⟨v', h2, e', h3, h4, h5, _, _, _, h6, _⟩ := toDataFrame_ok b hN hne
      rw [e] at e'; cases e'; exact ⟨h5, h3, h4, h6⟩
  obtain ⟨h5, h3, h4, h6⟩ := key
  refine Joins.fresh (Safe.ext (n.ext.trans h5)) h3 h4 ?_ (fun i hi => by rw [hsh] at hi; cases hi)
  rintro i (hi | hi)
  · rw [hsh] at hi; cases hi
  · rw [h6] at hi; exact n.str i hi

/-! ### masks -/

theorem maskWrite_safe {h h' : Heap F} {s : Slice} {i : Nat} {b : Bool} (e : maskWrite h s i b = .ok h') : Safe h h' := by
  unfold maskWrite at e
  split at e
  · cases e
    refine Safe.of_tab (Nat.le_refl _) (fun _ _ => rfl) ?_ (fun _ _ => rfl)
    intro j hj
    simp only [Heap.setMsk]
    split
    · subst j; simp
    · exact Nat.le_refl _
  · cases e

theorem zeroMask_safe {d : DF} {h h' : Heap F} {s : Slice} (e : d.zeroMask h = .ok (s, h')) : Safe h h' := by
  have loop : ∀ (n : Nat) (m : Slice) (i : Nat) (h h' : Heap F), zeroMaskLoop h m i n = .ok h' → Safe h h' := by
    intro n
    induction n with
    | zero => intro m i h h' e; simp [zeroMaskLoop] at e; subst e; exact Safe.refl _
    | succ n ih =>
      intro m i h h' e
      simp only [zeroMaskLoop] at e
      split at e
      · rename_i hi
        have hw : maskWrite h m i false = .ok (h.setMsk m.arr ((h.msk m.arr).set (m.off + i) false)) := by
          unfold maskWrite; rw [if_pos hi]
        exact (maskWrite_safe hw).trans (ih _ _ _ _ e)
      · cases e
  unfold DF.zeroMask at e
  split at e
  · cases e; exact Safe.ext (Heap.newMsk_ext ..)
  · split at e
    · cases e
    · rename_i h1 hl
      split at e
      · cases e
      · cases e; exact loop _ _ _ _ _ hl

theorem emptyMask_safe {d : DF} {h h' : Heap F} {s : Slice} (e : d.emptyMask h = .ok (s, h')) : Safe h h' := by
  unfold DF.emptyMask at e
  split at e
  · cases e; exact Safe.ext (Heap.newMsk_ext ..)
  · split at e
    · cases e
    · cases e; exact Safe.refl _

theorem columnSmartConcat_joins {w : World F} (g : w.Good) {ds : List DF} (hs : ∀ d ∈ ds, d ∈ w.dfs)
    (ss : SameShape w.h ds ∨ columnConcatView ds w.h = .ok none)
    {r : DF} {h' : Heap F} (e : columnSmartConcat ds w.h = .ok (some (r, h'))) : Joins w h' r := by
  unfold columnSmartConcat at e
  split at e
  · cases e
  · rename_i x hx
    cases e
    rcases ss with ss | ss
    · exact columnConcatView_joins g hs ss hx
    · rw [hx] at ss; cases ss
  · exact columnCopyConcat_joins (fun d hd => g.wf d (hs d hd)) e

/-! ### one call -/

theorem World.pick_mem {w : World F} {is : List Nat} {d : DF} (hd : d ∈ w.pick is) : d ∈ w.dfs := by
  unfold World.pick at hd
  obtain ⟨i, _, hi⟩ := List.mem_filterMap.1 hd
  exact List.mem_of_getElem? hi

theorem on_good {w w' : World F} (g : w.Good) {i : Nat} {f : DF → Except Abort (World F)} (e : w.on i f = .ok w')
    (hf : ∀ d, w.dfs[i]? = some d → d ∈ w.dfs → ∀ w', f d = .ok w' → w'.Good) : w'.Good := by
  unfold World.on at e
  split at e
  · cases e; exact g
  · rename_i d hd
    exact hf d hd (List.mem_of_getElem? hd) w' e

theorem add1_good {w w' : World F} (g : w.Good) {x : Except Abort (DF × Heap F)} (e : w.add1 x = .ok w')
    (hx : ∀ d h', x = .ok (d, h') → Joins w h' d) : w'.Good := by
  unfold World.add1 at e
  split at e
  · cases e
  · cases e; exact g.push (hx _ _ rfl)

theorem addErr_good {w w' : World F} (g : w.Good) {x : Except Abort (Option (DF × Heap F))} (e : w.addErr x = .ok w')
    (hx : ∀ d h', x = .ok (some (d, h')) → Joins w h' d) : w'.Good := by
  unfold World.addErr at e
  split at e
  · cases e
  · cases e; exact g
  · cases e; exact g.push (hx _ _ rfl)

theorem addN_good {w w' : World F} {x : Except Abort (List DF × Heap F)} (e : w.addN x = .ok w')
    (hx : ∀ ds h', x = .ok (ds, h') → World.Good ⟨h', w.dfs ++ ds⟩) : w'.Good := by
  unfold World.addN at e
  split at e
  · cases e
  · cases e; exact hx _ _ rfl

/-- A legal call that returns keeps everything consistent. -/
theorem Call.good [GoFloat F] {w w' : World F} {c : Call F} (g : w.Good) (lg : c.Legal w) (e : c.run w = .ok w') : w'.Good := by
  -- a call that makes one dataframe from a receiver
  have one : ∀ (i : Nat) (f : DF → Except Abort (DF × Heap F)), w.on i (fun d => w.add1 (f d)) = .ok w' →
      (∀ d, w.dfs[i]? = some d → d ∈ w.dfs → ∀ v h', f d = .ok (v, h') → Joins w h' v) → w'.Good := by
    intro i f e hf
    exact on_good g e (fun d hd hm w2 e2 => add1_good g e2 (hf d hd hm))
  cases c with
  | build ops => exact add1_good g e (fun d h' he => build_joins he)
  | emptyDataFrame n cpu =>
    have e : w.add1 (.ok (Verif.emptyDataFrame w.h n cpu)) = .ok w' := e
    exact add1_good g e (fun d h' he => by
      have := emptyDataFrame_joins w n cpu
      generalize Verif.emptyDataFrame w.h n cpu = p at he this
      cases he; exact this)
  | edit i ed =>
    refine on_good g e (fun d hd hm w2 e2 => ?_)
    split at e2
    · cases e2
    · rename_i d' h' hr
      cases e2
      exact g.replace ((Edit.stepOK (g.wf d hm) (g.mwf d hm) (g.sep d hm d hm) (lg d hd) hr).joins g hm) i
  | view i =>
    exact one i _ e (fun d hd hm v h' he => by cases he; exact (view_step (g.wf d hm) (g.mwf d hm)).joins g hm)
  | indexView i is =>
    exact one i _ e (fun d hd hm v h' he => (indexView_stepOK (g.wf d hm) (g.mwf d hm) he).1.joins g hm)
  | sliceView i a b =>
    exact one i _ e (fun d hd hm v h' he => (sliceView_stepOK (g.wf d hm) (g.mwf d hm) (lg d hd).1 (lg d hd).2 he).joins g hm)
  | maskView i m =>
    refine on_good g e (fun d hd hm w2 e2 => ?_)
    split at e2
    · cases e2
    · rename_i v hv
      exact add1_good g e2 (fun d' h' he => by cases he; exact (maskView_stepOK (g.wf d hm) (g.mwf d hm) hv).joins g hm)
  | columnView i cols =>
    exact one i _ e (fun d hd hm v h' he => by
      have := (columnView_stepOK (g.wf d hm) (g.mwf d hm) (g.sep d hm d hm) cols).joins g hm
      generalize d.columnView cols w.h = p at he this
      cases he; exact this)
  | shuffleView i p =>
    exact one i _ e (fun d hd hm v h' he => (indexView_stepOK (g.wf d hm) (g.mwf d hm) he).1.joins g hm)
  | sampleView i n r p =>
    exact one i _ e (fun d hd hm v h' he => (sampleView_stepOK (g.wf d hm) (g.mwf d hm) he).joins g hm)
  | splitView i b =>
    exact on_good g e (fun d hd hm w2 e2 => addN_good e2 (fun ds h' he => (splitView_joins g hm he).good))
  | splitNView i n =>
    refine on_good g e (fun d hd hm w2 e2 => ?_)
    split at e2
    · cases e2
    · rename_i vs h1 hv
      refine addN_good e2 (fun ds h' he => ?_)
      cases he
      refine (splitNView_joins g hm hv).good.sub ?_
      intro x hx
      rcases List.mem_append.1 hx with hx | hx
      · exact List.mem_append_left _ hx
      · exact List.mem_append_right _ (List.mem_of_mem_take hx)
  | splitTrainTestViews i r =>
    refine on_good g e (fun d hd hm w2 e2 => ?_)
    split at e2
    · cases e2
    · rename_i a b h1 hv
      exact addN_good e2 (fun ds h' he => by cases he; exact (splitTrainTest_joins g hm (lg d hd).1 (lg d hd).2 hv).good)
  | sortedView i o c =>
    exact one i _ e (fun d hd hm v h' he => by
      obtain ⟨is, he⟩ := sortedView_indexView he
      exact (indexView_stepOK (g.wf d hm) (g.mwf d hm) he).1.joins g hm)
  | topView i o c n a s =>
    refine on_good g e (fun d hd hm w2 e2 => ?_)
    split at e2
    · cases e2; exact g
    · rename_i hn
      exact add1_good g e2 (fun v h' he => (topView_stepOK (g.wf d hm) (g.mwf d hm) hn he).joins g hm)
  | reverseView i =>
    exact one i _ e (fun d hd hm v h' he => by cases he; exact (reverseView_step (g.wf d hm) (g.mwf d hm)).joins g hm)
  | resetIndexView i =>
    exact one i _ e (fun d hd hm v h' he => by cases he; exact (resetIndexView_stepOK (g.wf d hm) (g.mwf d hm)).joins g hm)
  | detachedView i cols =>
    exact one i _ e (fun d hd hm v h' he => by
      have := (detachedView_stepOK (g.wf d hm) (g.mwf d hm) cols).joins g hm
      generalize d.detachedView cols w.h = p at he this
      cases he; exact this)
  | hashStringsView i cols o =>
    exact one i _ e (fun d hd hm v h' he =>
      (hashStringsView_stepOK (g.wf d hm) (g.mwf d hm) (g.sep d hm d hm) (lg.imp id (fun x => x d hd)) he).joins g hm)
  | shallowCopy i =>
    exact one i _ e (fun d hd hm v h' he => by
      have := shallowCopy_joins g hm
      generalize d.shallowCopy w.h = p at he this
      cases he; exact this)
  | copy i => exact one i _ e (fun d hd hm v h' he => copy_joins g hm he)
  | rowConcat is => exact addErr_good g e (fun d h' he => rowConcat_joins (fun d hd => g.wf d (World.pick_mem hd)) he)
  | columnConcatView is => exact addErr_good g e (fun d h' he => columnConcatView_joins g (fun d hd => World.pick_mem hd) lg he)
  | columnCopyConcat is => exact addErr_good g e (fun d h' he => columnCopyConcat_joins (fun d hd => g.wf d (World.pick_mem hd)) he)
  | columnSmartConcat is => exact addErr_good g e (fun d h' he => columnSmartConcat_joins g (fun d hd => World.pick_mem hd) lg he)
  | zeroMask i =>
    refine on_good g e (fun d hd hm w2 e2 => ?_)
    split at e2
    · cases e2
    · rename_i hz; cases e2; exact g.safe (zeroMask_safe hz)
  | emptyMask i =>
    refine on_good g e (fun d hd hm w2 e2 => ?_)
    split at e2
    · cases e2
    · rename_i hz; cases e2; exact g.safe (emptyMask_safe hz)
  | maskWrite s i b =>
    simp only [Call.run] at e
    split at e
    · cases e
    · rename_i hz; cases e; exact g.safe (maskWrite_safe hz)

end Verif
