import Verif.Spec.History
import Verif.Props.ColConcat
import Verif.Props.Hash
import Verif.Props.Builder
import Verif.Props.Splits
import Verif.Props.Sorting
import Verif.Props.Misc
import Verif.Props.Detach
import Verif.Proofs.Unshare
import Verif.Proofs.Create

/-! One-step lemmas for histories of calls: every call keeps every dataframe consistent. -/

namespace Verif
variable {F : Type}

/-- All the dataframes of the world are consistent and their masks large enough, and no map is at the same
time the list of shared columns of a dataframe and the string marks of a dataframe. -/
structure World.Good (w : World F) : Prop where
  wf : ∀ d ∈ w.dfs, d.WF w.h
  mwf : ∀ d ∈ w.dfs, d.MaskWF w.h
  sep : ∀ d ∈ w.dfs, ∀ d2 ∈ w.dfs, ∀ i, d.shared = some i → d2.strHdr ≠ some i

/-- What a dataframe must satisfy to be added to a world. -/
structure Joins (w : World F) (h' : Heap F) (v : DF) : Prop where
  safe : Safe w.h h'
  wf : v.WF h'
  mwf : v.MaskWF h'
  sh : ∀ i, v.shared = some i → (∃ d ∈ w.dfs, d.shared = some i) ∨ w.h.next ≤ i
  st : ∀ i, v.strHdr = some i → (∃ d ∈ w.dfs, d.strHdr = some i) ∨ w.h.next ≤ i
  sep : v.toRaw.Sep

theorem StepOK.joins {w : World F} (g : w.Good) {h' : Heap F} {d v : DF} (hd : d ∈ w.dfs) (s : StepOK w.h d h' v) :
    Joins w h' v :=
  ⟨s.safe, s.wf, s.mwf, fun i hi => (s.sh i hi).imp (fun x => ⟨d, hd, x⟩) id,
    fun i hi => (s.st i hi).imp (fun x => ⟨d, hd, x⟩) id, s.sep (g.sep d hd d hd)⟩

/-- A new dataframe whose references are all new. -/
theorem Joins.fresh {w : World F} {h' : Heap F} {v : DF} (s : Safe w.h h') (wf : v.WF h') (m : v.MaskWF h')
    (hh : ∀ i, v.toRaw.headers i → w.h.next ≤ i) (sep : v.toRaw.Sep) : Joins w h' v :=
  ⟨s, wf, m, fun i hi => Or.inr (hh i (Or.inl hi)), fun i hi => Or.inr (hh i (Or.inr hi)), sep⟩

theorem World.Good.safe {w : World F} (g : w.Good) {h' : Heap F} (s : Safe w.h h') : World.Good ⟨h', w.dfs⟩ :=
  ⟨fun d hd => (g.wf d hd).safe s, fun d hd => (g.mwf d hd).safe s, g.sep⟩

theorem Joins.sep_all {w : World F} (g : w.Good) {h' : Heap F} {v : DF} (j : Joins w h' v) :
    ∀ d ∈ w.dfs ++ [v], ∀ d2 ∈ w.dfs ++ [v], ∀ i, d.shared = some i → d2.strHdr ≠ some i := by
  intro d hd d2 hd2 i hi h2
  simp only [List.mem_append, List.mem_singleton] at hd hd2
  rcases hd with hd | rfl <;> rcases hd2 with hd2 | rfl
  · exact g.sep d hd d2 hd2 i hi h2
  · rcases j.st i h2 with ⟨d3, hd3, h3⟩ | h3
    · exact g.sep d hd d3 hd3 i hi h3
    · have := (g.wf d hd).shared_lt i hi; omega
  · rcases j.sh i hi with ⟨d3, hd3, h3⟩ | h3
    · exact g.sep d3 hd3 d2 hd2 i h3 h2
    · have := (g.wf d2 hd2).str_lt i h2; omega
  · exact j.sep i hi h2

theorem World.Good.push {w : World F} (g : w.Good) {h' : Heap F} {v : DF} (j : Joins w h' v) :
    World.Good ⟨h', w.dfs ++ [v]⟩ where
  wf d hd := by
    simp only [List.mem_append, List.mem_singleton] at hd
    rcases hd with hd | rfl
    · exact (g.wf d hd).safe j.safe
    · exact j.wf
  mwf d hd := by
    simp only [List.mem_append, List.mem_singleton] at hd
    rcases hd with hd | rfl
    · exact (g.mwf d hd).safe j.safe
    · exact j.mwf
  sep := j.sep_all g

theorem World.Good.sub {w : World F} (g : w.Good) {ds : List DF} (hs : ∀ d ∈ ds, d ∈ w.dfs) :
    World.Good ⟨w.h, ds⟩ :=
  ⟨fun d hd => g.wf d (hs d hd), fun d hd => g.mwf d (hs d hd),
    fun d hd d2 hd2 => g.sep d (hs d hd) d2 (hs d2 hd2)⟩

theorem World.Good.replace {w : World F} (g : w.Good) {h' : Heap F} {v : DF} (j : Joins w h' v) (i : Nat) :
    World.Good ⟨h', w.dfs.set i v⟩ := by
  have := (g.push j).sub (ds := w.dfs.set i v) (fun d hd => by
    rcases List.mem_or_eq_of_mem_set hd with hd | rfl
    · simp [hd]
    · simp)
  exact this

/-! ### in-place operations -/

theorem own_sep {r : Raw} {h : Heap F} (wf : r.WF h) (sep : r.Sep) : (r.own h).1.Sep := by
  have sp := own_spec wf
  intro i hi
  rw [sp.str]
  cases hs : r.sharedMaps
  · rw [(sp.same hs).1] at hi; exact sep i hi
  · intro hx
    have := (sp.fresh hs).2.1 i hi
    have := wf.str_lt i hx
    omega

theorem addStr_sep {r : Raw} {h : Heap F} (wf : r.WF h) (sep : r.Sep) (cs : List GoStr) :
    Raw.Sep { r with strHdr := (hdrAddEach h r.strHdr cs).1 } := by
  intro i hi hx
  rcases hdrAddEach_fst _ _ _ hx with h1 | ⟨_, h1, _⟩
  · exact sep i hi h1
  · have := wf.shared_lt i hi; omega

theorem addShared_sep {r : Raw} {h : Heap F} (wf : r.WF h) (sep : r.Sep) (cs : List GoStr) :
    Raw.Sep { r with shared := (hdrAddEach h r.shared cs).1 } := by
  intro i hi hx
  rcases hdrAddEach_fst _ _ _ hi with h1 | ⟨_, h1, _⟩
  · exact sep i h1 hx
  · have := wf.str_lt i hx; omega

theorem alloc_sep [GoFloat F] {r : Raw} {h : Heap F} (wf : r.WF h) (sep : r.Sep) (k cols) :
    (r.alloc k cols h).1.Sep := by
  have : (r.alloc k cols h).1 = (if cols = [] then (r, h) else r.own h).1 := rfl
  rw [this]
  split
  · exact sep
  · exact own_sep wf sep

theorem allocStrings_sep [GoFloat F] {r : Raw} {h : Heap F} (wf : r.WF h) (sep : r.Sep) (cols) :
    (r.allocStrings cols h).1.Sep := by
  unfold Raw.allocStrings
  have h0 : (if cols = [] then (r, h) else r.own h).1.WF (if cols = [] then (r, h) else r.own h).2 ∧
      (if cols = [] then (r, h) else r.own h).1.Sep := by
    split
    · exact ⟨wf, sep⟩
    · exact ⟨(own_spec wf).wf, own_sep wf sep⟩
  generalize (if cols = [] then (r, h) else r.own h) = p at h0
  obtain ⟨r1, h1⟩ := p
  simp only at h0 ⊢
  have f := Foot.alloc h0.1 .obj cols
  exact addStr_sep f.wf (alloc_sep h0.1 h0.2 .obj cols) cols

theorem rename_sep {r r' : Raw} {h h' : Heap F} (wf : r.WF h) (sep : r.Sep) {old new : GoStr}
    (e : r.rename old new h = .ok (r', h')) : r'.Sep := by
  have h0 := own_sep wf sep
  unfold Raw.rename at e
  simp only at e
  generalize r.own h = p at e h0
  obtain ⟨r1, h1⟩ := p
  simp only at e h0
  split at e
  · cases e
  · split at e
    · cases e
    · rename_i k _ _ s _
      have hdrAdd_id : ∀ (g : Heap F) (o : Option Nat) (cs : List GoStr), (∃ x, x ∈ hdrList g o) → ∀ g' : Heap F, (hdrAdd g' o cs).1 = o := by
        rintro g o cs ⟨x, hx⟩ g'
        cases o with
        | none => simp [hdrList] at hx
        | some i => rfl
      obtain ⟨q, hq⟩ : ∃ q, q = (h1.setTab r1.tab ((AMap.set (h1.tab r1.tab) (k, new) s).erase (k, old))) := ⟨_, rfl⟩
      rw [← hq] at e
      have key : ∀ (r2 : Raw) (h2 : Heap F), (if k = .obj ∧ hdrContains q r1.strHdr old = true then
          ({ r1 with strHdr := (hdrAdd (hdrRemove q r1.strHdr [old]) r1.strHdr [new]).1 }, (hdrAdd (hdrRemove q r1.strHdr [old]) r1.strHdr [new]).2)
          else (r1, q)) = (r2, h2) → r2.Sep := by
        intro r2 h2 he
        split at he
        · rename_i hc
          cases he
          have : (hdrAdd (hdrRemove q r1.strHdr [old]) r1.strHdr [new]).1 = r1.strHdr :=
            hdrAdd_id q _ _ ⟨old, by simpa [hdrContains] using hc.2⟩ _
          intro i hi
          show (hdrAdd (hdrRemove q r1.strHdr [old]) r1.strHdr [new]).1 ≠ some i
          rw [this]; exact h0 i hi
        · cases he; exact h0
      obtain ⟨p, hp⟩ : ∃ p, p = (if k = .obj ∧ hdrContains q r1.strHdr old = true then
          ({ r1 with strHdr := (hdrAdd (hdrRemove q r1.strHdr [old]) r1.strHdr [new]).1 }, (hdrAdd (hdrRemove q r1.strHdr [old]) r1.strHdr [new]).2)
          else (r1, q)) := ⟨_, rfl⟩
      obtain ⟨r2, h2⟩ := p
      have hs2 := key r2 h2 hp.symm
      change (if hdrContains (if k = .obj ∧ hdrContains q r1.strHdr old = true then
          (({ r1 with strHdr := (hdrAdd (hdrRemove q r1.strHdr [old]) r1.strHdr [new]).1 } : Raw), (hdrAdd (hdrRemove q r1.strHdr [old]) r1.strHdr [new]).2)
          else (r1, q)).2 (if k = .obj ∧ hdrContains q r1.strHdr old = true then
          (({ r1 with strHdr := (hdrAdd (hdrRemove q r1.strHdr [old]) r1.strHdr [new]).1 } : Raw), (hdrAdd (hdrRemove q r1.strHdr [old]) r1.strHdr [new]).2)
          else (r1, q)).1.shared old = true then _ else _) = _ at e
      rw [← hp] at e
      simp only at e
      split at e
      · rename_i hc
        cases e
        have : (hdrAdd (hdrRemove h2 r2.shared [old]) r2.shared [new]).1 = r2.shared :=
          hdrAdd_id h2 _ _ ⟨old, by simpa [hdrContains] using hc⟩ _
        intro i hi
        exact hs2 i (by rw [← this]; exact hi)
      · cases e; exact hs2

theorem unshare_sep {r : Raw} {h : Heap F} (wf : r.WF h) (sep : r.Sep) (cols) : (r.unshare cols h).1.Sep := by
  have us := unshare_spec wf cols
  intro i hi
  rw [us.str]
  cases hs : r.sharedMaps with
  | true => intro hx; have := (us.fresh hs).2 i hi; have := wf.str_lt i hx; omega
  | false => rw [(us.same hs).2] at hi; exact sep i hi

theorem encodeLoop_tab {cd : Codec} {old new : Option Nat} {r : Raw} {rows : List Nat} {cs done : List GoStr}
    {h h' : Heap F} {b : Bool} (wf : r.WF h) (e : encodeLoop cd old new r.tab rows cs done h = .ok (b, h')) :
    h'.tab = h.tab := by
  induction cs generalizing h done with
  | nil => simp [Verif.encodeLoop] at e; obtain ⟨_, rfl⟩ := e; rfl
  | cons c cs ih =>
    simp only [Verif.encodeLoop] at e
    split at e
    · cases e
    · rename_i h1 hw
      obtain ⟨f1, t1⟩ := Foot.inplaceEncoding wf rfl hw
      exact (ih f1.wf e).trans t1
    · rename_i w h1 hw
      obtain ⟨f1, t1⟩ := Foot.inplaceEncoding wf rfl hw
      split at e
      · cases e
      · rename_i h2 hw2
        obtain ⟨f2, t2⟩ := Foot.inplaceEncoding f1.wf rfl hw2
        split at e
        · cases e
        · rename_i h3 hw3
          cases e
          exact ((Foot.revertCols f2.wf hw3).2.trans t2).trans t1

theorem hasColumn_iff {h : Heap F} {d : DF} : (abs h d).hasColumn ↔ h.tab d.tab ≠ [] := by
  constructor
  · rintro ⟨k, c, hk⟩ h0
    simp [abs, h0] at hk
  · intro hne
    cases ht : h.tab d.tab with
    | nil => exact absurd ht hne
    | cons e t =>
      obtain ⟨⟨k, c⟩, s⟩ := e
      exact ⟨k, c, by simp [abs, ht, AMap.get_cons]⟩

/-- An in-place operation keeps everything consistent. -/
theorem Edit.stepOK [GoFloat F] {e : Edit F} {d d' : DF} {h h' : Heap F} (wf : d.WF h) (mwf : d.MaskWF h)
    (sep : d.toRaw.Sep) (lg : e.Legal (abs h d)) (he : e.run d h = .ok (d', h')) : StepOK h d h' d' := by
  have ft := Edit.foot wf.toWF he
  -- it suffices to have safety, the rows and the separation
  have fin : Safe h h' → d'.idx = d.idx → d'.mask = d.mask → d'.WF h' → d'.toRaw.Sep → StepOK h d h' d' := by
    intro hs hi hm hw hsep
    refine ⟨hs, hw, ?_, ft.sh, ft.st, fun _ => hsep⟩
    have m := mwf.safe hs
    refine ⟨?_, by rw [hm]; exact m.len_le, by rw [hm]; exact m.valid⟩
    rw [hm]; simp only [DF.numRows, DF.rows, hi]; exact m.len_ge
  have quiet : Quiet h h' → d' = d → StepOK h d h' d' := by
    rintro q rfl
    exact fin q.safe rfl rfl (wf.safe q.safe) sep
  cases e with
  | set k c row v =>
    simp only [Edit.run] at he
    split at he
    · cases he
    · rename_i h1 hw
      cases he
      obtain ⟨n, rfl⟩ := set_nat hw
      exact quiet (set_quiet hw) rfl
  | setString c row v =>
    simp only [Edit.run, DF.setString] at he
    split at he
    · cases he
    · rename_i h1 hw
      cases he
      split at hw
      · cases hw
      · split at hw
        · obtain ⟨n, rfl⟩ := set_nat hw
          exact quiet (set_quiet hw) rfl
        · cases hw
  | rename old new =>
    simp only [Edit.run] at he
    split at he
    · cases he
    · rename_i p hp
      obtain ⟨r', h1⟩ := p
      cases he
      have hk : ∃ k, renameKind (h.tab d.tab) old = some k := by
        cases hk : renameKind (h.tab d.tab) old with
        | some k => exact ⟨k, rfl⟩
        | none =>
          have := rename_err wf old new hk
          rw [this] at hp; cases hp
      obtain ⟨k, hk⟩ := hk
      obtain ⟨r2, h2, e2, _, _, hw, hs⟩ := rename_abs wf old new sep hk
      rw [hp] at e2; cases e2
      exact fin hs rfl rfl hw (rename_sep wf.toWF sep hp)
  | drop cols =>
    simp only [Edit.run] at he; cases he
    obtain ⟨_, hw, hs, _⟩ := drop_abs wf cols sep
    exact fin hs rfl rfl hw sep
  | alloc k cols =>
    simp only [Edit.run] at he; cases he
    obtain ⟨_, hw, hs⟩ := alloc_abs wf (hasColumn_iff.1 lg) k cols
    exact fin hs rfl rfl hw (alloc_sep wf.toWF sep k cols)
  | allocStrings cols =>
    simp only [Edit.run] at he; cases he
    obtain ⟨_, hw, hs⟩ := allocStrings_abs wf (hasColumn_iff.1 lg) cols
    exact fin hs rfl rfl hw (allocStrings_sep wf.toWF sep cols)
  | intToFloats cols =>
    simp only [Edit.run, intToFloats_eq] at he; cases he
    obtain ⟨_, hw, hs⟩ := conv_abs wf .int .int intToFloatVal cols (by decide) lg.1 lg.2
    exact fin hs rfl rfl hw (own_sep wf.toWF sep)
  | boolToFloats cols =>
    simp only [Edit.run, boolToFloats_eq] at he; cases he
    obtain ⟨_, hw, hs⟩ := conv_abs wf .bool .int boolToFloatVal cols (by decide) lg.1 lg.2
    exact fin hs rfl rfl hw (own_sep wf.toWF sep)
  | overwrite k c vals b =>
    simp only [Edit.run, DF.overwrite] at he
    have hne := hasColumn_iff.1 lg
    have key : ∃ d1 h1, (if (tabCol (h.tab d.tab) (k, c)).len = 0 then
        if k = .obj ∧ b = true then d.withRaw (d.toRaw.allocStrings [c] h) else d.withRaw (d.toRaw.alloc k [c] h)
        else (d, h)) = (d1, h1) ∧ Safe h h1 ∧ d1.WF h1 ∧ d1.toRaw.Sep ∧ d1.idx = d.idx ∧ d1.mask = d.mask := by
      split
      · split
        · obtain ⟨_, hw, hs⟩ := allocStrings_abs wf hne [c]
          exact ⟨_, _, rfl, hs, hw, allocStrings_sep wf.toWF sep [c], rfl, rfl⟩
        · obtain ⟨_, hw, hs⟩ := alloc_abs wf hne k [c]
          exact ⟨_, _, rfl, hs, hw, alloc_sep wf.toWF sep k [c], rfl, rfl⟩
      · exact ⟨d, h, rfl, Safe.refl _, wf, sep, rfl, rfl⟩
    obtain ⟨d1, h1, e1, hs, hw, hsep, hi, hm⟩ := key
    rw [e1] at he
    simp only at he
    split at he
    · cases he
    · rename_i h2 ho
      cases he
      have q := (overwriteLoop_frame ho).1
      exact fin (hs.trans q.safe) hi hm (hw.safe q.safe) hsep
  | encode cd new =>
    simp only [Edit.run] at he
    split at he
    · cases he
    · rename_i b d1 h1 hd
      cases he
      have f := Foot.encode wf.toWF hd
      have hstr : d'.toRaw = { d.toRaw with enc := d'.enc } ∧ d'.idx = d.idx ∧ d'.mask = d.mask ∧ d'.indexViewed = d.indexViewed ∧ h'.tab = h.tab := by
        unfold DF.encode at hd
        split at hd
        · cases hd; exact ⟨rfl, rfl, rfl, rfl, rfl⟩
        · split at hd
          · cases hd
          · rename_i h1 hl
            cases hd; exact ⟨rfl, rfl, rfl, rfl, encodeLoop_tab wf.toWF hl⟩
          · rename_i h1 hl
            cases hd; exact ⟨rfl, rfl, rfl, rfl, encodeLoop_tab wf.toWF hl⟩
      obtain ⟨h1, h2, h3, h4, h5⟩ := hstr
      have hs : Safe h h' := Safe.of_tab f.frame.next_le f.len (fun i hi => by rw [f.frame.msk i hi id])
        (fun i hi => by rw [h5])
      have w := wf.safe hs
      refine fin hs h2 h3 ⟨f.wf, by rw [h2]; exact w.idx_len, ?_⟩ ?_
      · have := w.rect
        rw [h1, h4]; simp only [DF.rows, h2]; exact this
      · rw [h1]; exact sep
  | unshare cols =>
    simp only [Edit.run] at he; cases he
    have us := unshare_spec wf.toWF cols
    exact fin us.safe rfl rfl (unshare_abs wf sep cols).2 (unshare_sep wf.toWF sep cols)
  | setMaxCPU n =>
    simp only [Edit.run] at he; cases he
    exact fin (Safe.refl _) rfl rfl ⟨⟨wf.tab_lt, wf.shared_lt, wf.str_lt, wf.keys, wf.slices⟩, wf.idx_len, wf.rect⟩ sep
  | threadSafeMasking b =>
    simp only [Edit.run] at he; cases he
    exact fin (Safe.refl _) rfl rfl ⟨⟨wf.tab_lt, wf.shared_lt, wf.str_lt, wf.keys, wf.slices⟩, wf.idx_len, wf.rect⟩ sep

end Verif
