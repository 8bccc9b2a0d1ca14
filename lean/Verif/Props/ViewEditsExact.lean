import Verif.Props.ViewEdits
import Verif.Proofs.Unshare

/-! C13, exact: what the parent of a view sees of the structural edits of the view. -/

namespace Verif
open scoped Demo
variable {F : Type}

theorem hdrRemove_list (h : Heap F) (o : Option Nat) (cs : List GoStr) (i : Nat) (x : GoStr) :
    x ∈ hdrList (hdrRemove h o cs) (some i) ↔ x ∈ hdrList h (some i) ∧ ¬ (o = some i ∧ x ∈ cs) := by
  cases o with
  | none => simp [hdrRemove]
  | some j =>
    by_cases hj : j = i
    · subst hj
      rw [hdrRemove_mem]; simp
    · have : (hdrRemove h (some j) cs).hdr i = h.hdr i := by
        simp [hdrRemove, Heap.setHdr, Ne.symm hj]
      simp [hdrList, this, hj]

theorem drop_cons (r : Raw) (c : GoStr) (cs : List GoStr) (h : Heap F) :
    r.drop (c :: cs) h = r.drop cs (r.drop [c] h) := by
  simp [Raw.drop]

theorem drop_one (r : Raw) (c : GoStr) (h : Heap F) :
    r.drop [c] h = (hdrRemove (hdrRemove h r.shared [c]) r.strHdr [c]).setTab r.tab (tabEraseName (h.tab r.tab) c) := by
  simp only [Raw.drop, List.foldl_cons, List.foldl_nil, hdrRemove_tab]

/-- Drop in memory: what happens to every set of columns, every set of names and every array. -/
theorem drop_effect (r : Raw) (cols : List GoStr) (h : Heap F) :
    (∀ t q, AMap.get ((r.drop cols h).tab t) q = if t = r.tab ∧ q.2 ∈ cols then none else AMap.get (h.tab t) q) ∧
    (∀ i x, x ∈ hdrList (r.drop cols h) (some i) ↔
      x ∈ hdrList h (some i) ∧ ¬ ((r.shared = some i ∨ r.strHdr = some i) ∧ x ∈ cols)) ∧
    (r.drop cols h).arr = h.arr := by
  induction cols generalizing h with
  | nil => simp [Raw.drop]
  | cons c cs ih =>
    rw [drop_cons]
    obtain ⟨i1, i2, i3⟩ := ih (r.drop [c] h)
    have e := drop_one r c h
    refine ⟨fun t q => ?_, fun i x => ?_, ?_⟩
    · rw [i1, e]
      by_cases ht : t = r.tab
      · subst ht
        simp only [Heap.setTab, if_true, get_tabEraseName, true_and, List.mem_cons]
        grind
      · simp [ht, Heap.setTab, hdrRemove_tab]
    · rw [i2, e]
      have : hdrList ((hdrRemove (hdrRemove h r.shared [c]) r.strHdr [c]).setTab r.tab (tabEraseName (h.tab r.tab) c)) (some i) =
          hdrList (hdrRemove (hdrRemove h r.shared [c]) r.strHdr [c]) (some i) := rfl
      rw [this, hdrRemove_list, hdrRemove_list]
      simp only [List.mem_cons, List.not_mem_nil, or_false]
      grind
    · rw [i3, e]; simp [hdrRemove_arr, Heap.setTab]

/-- C13, exact for `Drop`: after `d.Drop(cols...)`, a dataframe `d2` has lost the columns `cols` exactly when it
has the very set of columns of `d` (a `View` of `d`, or the dataframe `d` is a `View` of), and the string marks of
`cols` exactly when it has the set of marks of `d`. Nothing else changes. -/
theorem C13_drop_exact [GoFloat F] {d d2 : DF} {h : Heap F} (wf : d.WF h) (sep : d.toRaw.Sep) (cols : List GoStr) :
    ∃ h', (Edit.drop cols : Edit F).run d h = .ok (d, h') ∧
    (∀ k c, (abs h' d2).col k c = if d2.tab = d.tab ∧ c ∈ cols then none else (abs h d2).col k c) ∧
    (∀ c, (abs h' d2).isStr c = true ↔ (abs h d2).isStr c = true ∧
      ¬ (c ∈ cols ∧ ∃ i, d2.strHdr = some i ∧ (d.shared = some i ∨ d.strHdr = some i))) ∧
    (abs h' d2).nRows = (abs h d2).nRows ∧ (abs h' d2).enc = (abs h d2).enc ∧ (d2.WF h → d2.WF h') := by
  obtain ⟨e1, e2, e3⟩ := drop_effect d.toRaw cols h
  refine ⟨d.toRaw.drop cols h, rfl, fun k c => ?_, fun c => ?_, rfl, rfl, fun w2 => w2.safe ?_⟩
  · simp only [abs, e1]
    split
    · rfl
    · cases AMap.get (h.tab d2.tab) (k, c) with
      | none => rfl
      | some s => simp [Heap.cell, e3]
  · have key : ∀ o, d2.strHdr = o → ((abs (d.toRaw.drop cols h) d2).isStr c = true ↔ c ∈ hdrList (d.toRaw.drop cols h) o) ∧
        ((abs h d2).isStr c = true ↔ c ∈ hdrList h o) := by
      rintro o rfl; simp [abs]
    cases ho : d2.strHdr with
    | none => rw [(key _ ho).1, (key _ ho).2]; simp [hdrList]
    | some i =>
      rw [(key _ ho).1, (key _ ho).2, e2]
      simp only [Option.some.injEq, exists_eq_left']
      grind
  · exact (drop_abs wf cols sep).2.2.1

theorem own_str (r : Raw) (h : Heap F) : (r.own h).1.strHdr = r.strHdr := by
  unfold Raw.own; split <;> rfl

theorem hdrAdd_some (h : Heap F) (i : Nat) (cs : List GoStr) : (hdrAdd h (some i) cs).1 = some i := rfl

theorem hdrAddEach_some (h : Heap F) (i : Nat) (cs : List GoStr) : (hdrAddEach h (some i) cs).1 = some i := by
  cases cs <;> rfl

theorem alloc_str [GoFloat F] (r : Raw) (k : Kind) (cs : List GoStr) (h : Heap F) : (r.alloc k cs h).1.strHdr = r.strHdr := by
  have : (r.alloc k cs h).1 = (if cs = [] then (r, h) else r.own h).1 := rfl
  rw [this]
  split
  · rfl
  · exact own_str r h

/-- A dataframe that has a set of string marks keeps the same one through the structural edits. -/
theorem Edit.str_kept [GoFloat F] {e : Edit F} (ho : e.structural = true) {v v' : DF} {h h' : Heap F}
    (wf : v.WF h) (he : e.run v h = .ok (v', h')) {i : Nat} (hi : v.strHdr = some i) : v'.strHdr = some i := by
  cases e with
  | set k c row x => cases ho
  | setString c row x => cases ho
  | overwrite k c vals b => cases ho
  | encode cd new => cases ho
  | drop cols => cases he; exact hi
  | rename old new =>
    simp only [Edit.run] at he
    split at he
    · cases he
    · rename_i p e
      cases he
      show p.1.strHdr = some i
      unfold Raw.rename at e
      have ho' := own_str v.toRaw h
      generalize v.toRaw.own h = q at e ho'
      obtain ⟨r1, h1⟩ := q
      simp only at e ho'
      have h2 : r1.strHdr = some i := ho'.trans hi
      split at e
      · cases e
      · split at e
        · cases e
        · split at e <;> split at e <;> cases e <;> simp [h2, hdrAdd_some]
  | alloc k cols => cases he; exact (alloc_str v.toRaw k cols h).trans hi
  | allocStrings cols =>
    cases he
    show (v.toRaw.allocStrings cols h).1.strHdr = some i
    unfold Raw.allocStrings
    simp only
    have : ∀ q : Raw × Heap F, q.1.strHdr = some i → (hdrAddEach (q.1.alloc .obj cols q.2).2 (q.1.alloc .obj cols q.2).1.strHdr cols).1 = some i := by
      intro q hq
      rw [alloc_str, hq, hdrAddEach_some]
    split
    · exact this (v.toRaw, h) hi
    · exact this (v.toRaw.own h) ((own_str _ _).trans hi)
  | intToFloats cols => cases he; exact (own_str _ _).trans hi
  | boolToFloats cols => cases he; exact (own_str _ _).trans hi
  | unshare cols => cases he; exact (unshare_spec wf.toWF cols).str.trans hi
  | setMaxCPU n => cases he; exact hi
  | threadSafeMasking b => cases he; exact hi

/-- C13, exact for the string marks: after a structural edit other than `Drop` of a `View` `v`, a dataframe `d`
that has the set of marks of `v` (the dataframe that `v` is a view of, when it has marks) has the marks of `v`;
every other dataframe has the marks it had. -/
theorem C13_marks_exact [GoFloat F] {v v' : DF} {h h' : Heap F} {e : Edit F} (wf : v.WF h)
    (hv : v.sharedMaps = true) (ho : e.owns = true) (he : e.run v h = .ok (v', h')) (d : DF) (wd : d.WF h) :
    (abs h' d).isStr = if v.strHdr ≠ none ∧ d.strHdr = v.strHdr then (abs h' v').isStr else (abs h d).isStr := by
  have f := Edit.onlyMarks ho wf.toWF hv he
  have hst : e.structural = true := by
    cases e <;> first | exact ho | rfl
  split
  · rename_i hc
    obtain ⟨i, hi⟩ := Option.ne_none_iff_exists'.1 hc.1
    have h1 := Edit.str_kept hst wf he hi
    funext c
    simp only [abs, h1, hc.2.trans hi]
  · rename_i hc
    funext c
    simp only [abs]
    cases hd : d.strHdr with
    | none => rfl
    | some j =>
      have : h'.hdr j = h.hdr j := f.hdr j (wd.str_lt j hd) (fun hx => hc ⟨by rw [hx]; simp, by rw [hd]; exact hx.symm⟩)
      simp only [hdrList, this]
      rfl

-- the hypotheses are met: dropping through a view, and renaming a string column of a view
example : ∃ h', (Edit.drop [b!"a"] : Edit Int).run Demo.df.view Demo.h = .ok (Demo.df.view, h') ∧
    (∀ k, (abs h' Demo.df).col k b!"a" = none) ∧ (abs h' Demo.df).col .float b!"x" = (abs Demo.h Demo.df).col .float b!"x" := by
  obtain ⟨h', e, h1, _⟩ := C13_drop_exact (F := Int) (d2 := Demo.df) (view_wf Demo.df_wf) Demo.df_sep [b!"a"]
  exact ⟨h', e, fun k => by rw [h1, if_pos ⟨rfl, by decide⟩], by rw [h1, if_neg (by decide)]⟩
example : ∃ v' h', (Edit.rename b!"s" b!"t" : Edit Int).run Demo.df.view Demo.h = .ok (v', h') ∧
    (abs h' Demo.df).isStr = (abs h' v').isStr := by
  obtain ⟨v', h', e, _⟩ := C13_marks_refuted
  exact ⟨v', h', e, (C13_marks_exact (view_wf Demo.df_wf) rfl rfl e Demo.df Demo.df_wf).trans (if_pos ⟨by decide +kernel, rfl⟩)⟩

end Verif
