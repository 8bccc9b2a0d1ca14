import Verif.Proofs.Debug
import Verif.Proofs.History3
import Verif.Props.Detach
import Verif.Props.Hash
import Verif.Proofs.OneHot
import Verif.Proofs.Views
import Mathlib.Tactic.IntervalCases

/-! C86: the identifiers shown by `PrintUIDs` and the debugging messages. -/

namespace Verif
variable {F : Type}

/-! ### The texts -/

/-- **C86**. `PrintUIDs` prints the structure number and the set positions of the data identifier between bars, ascending, in
base 36; and the text determines both identifiers. -/
theorem C86_printUIDs (t u : Tags) :
    t.printUIDs = b!"structure UID: " ++ natDec t.structureUID ++ b!"; data UID: " ++ dataUIDText t.dataUID ++ b!"\n" ∧
    (t.dataUID < 2 ^ 64 → u.dataUID < 2 ^ 64 → t.printUIDs = u.printUIDs →
      t.structureUID = u.structureUID ∧ t.dataUID = u.dataUID) := by
  have key : ∀ t : Tags, t.printUIDs =
      b!"structure UID: " ++ natDec t.structureUID ++ b!"; data UID: " ++ dataUIDText t.dataUID ++ b!"\n" := by
    intro t
    have h0 : fmtInt (t.structureUID : Int) = natDec t.structureUID := by
      unfold fmtInt
      rw [if_neg (by omega)]; rfl
    simp only [Tags.printUIDs, printableDataUID_eq, h0]
  refine ⟨key t, fun ht hu e => ?_⟩
  rw [key, key] at e
  simp only [List.append_assoc] at e
  have e := List.append_cancel_left e
  have nb : ∀ n : Nat, (59 : UInt8) ∉ natDec n := fun n hn => by
    have := natDec_digits n 59 hn
    have h2 : (59 : UInt8).toNat = 59 := rfl
    omega
  obtain ⟨e1, e2⟩ := append_bar_inj (z := 59) (nb _) (nb _) e
  refine ⟨natDec_inj e1, dataUIDText_inj ht hu ?_⟩
  have e2 : b!" data UID: " ++ (dataUIDText t.dataUID ++ b!"\n") = b!" data UID: " ++ (dataUIDText u.dataUID ++ b!"\n") := e2
  exact List.append_cancel_right (List.append_cancel_left e2)

/-- A data identifier that has just been generated has exactly one position. -/
theorem C86_generated (r : Nat) : positions (generateDataUID r) = [r % 64] ∧ generateDataUID r < 2 ^ 64 := by
  have hr : r % 64 < 64 := Nat.mod_lt _ (by omega)
  unfold generateDataUID
  generalize r % 64 = q at hr
  interval_cases q <;> exact ⟨by decide, by decide⟩

/-- The debugging messages: nothing is logged unless `Debug(true)` was called, and calling it changes neither identifier. -/
theorem C86_debugPrint (df : DF) (t : Tags) (context : GoStr) (h : Heap F) :
    df.debugPrint (t.setDebug false) context h = none ∧
    df.debugPrint (t.setDebug true) context h = some (context ++ b!" [structure: " ++ natDec t.structureUID ++ b!" data: " ++
      dataUIDText t.dataUID ++ b!" dim: " ++ natDec (abs h df).nRows ++ b!"x" ++ natDec (h.tab df.tab).length ++ b!" allocated: " ++
      natDec (numAllocatedRows (h.tab df.tab)) ++ b!"]") := by
  have h0 : ∀ n : Nat, fmtInt (n : Int) = natDec n := by
    intro n
    unfold fmtInt
    rw [if_neg (by omega)]; rfl
  constructor
  · rfl
  · simp only [DF.debugPrint, Tags.setDebug, h0, printableDataUID_eq, if_true, numColumns]
    rfl

/-! ### Shared data has a common position -/

/-- Dataframes and their identifiers. -/
structure TWorld (F : Type) where
  h : Heap F
  dfs : List (DF × Tags)

/-- The dataframes alone. -/
def TWorld.plain (w : TWorld F) : World F := ⟨w.h, w.dfs.map (·.1)⟩

/-- Some cell of one dataframe is a cell of the other. -/
def SharesCell (h : Heap F) (d e : DF) : Prop := ∃ k c i k' c' j l, cellOf h d k c i = some l ∧ cellOf h e k' c' j = some l

/-- What a library function returns for a dataframe of the world: the new dataframe, its identifiers and the new heap. -/
inductive Derives [GoFloat F] (w : TWorld F) : DF → Tags → Heap F → Prop
  | view {d t} (hm : (d, t) ∈ w.dfs) : Derives w d.view t.view w.h
  | indexView {d t is v h'} (hm : (d, t) ∈ w.dfs) (e : d.indexView is w.h = .ok (v, h')) : Derives w v t.view h'
  | maskView {d t m v} (hm : (d, t) ∈ w.dfs) (e : d.maskView m = .ok v) : Derives w v t.view w.h
  | reverseView {d t} (hm : (d, t) ∈ w.dfs) : Derives w d.reverseView t.view w.h
  | sliceView {d t a b v h'} (hm : (d, t) ∈ w.dfs) (ha : SliceBound (abs w.h d).nRows a) (hb : SliceBound (abs w.h d).nRows b)
      (e : d.sliceView a b w.h = .ok (v, h')) : Derives w v t.view h'
  | resetIndexView {d t} (hm : (d, t) ∈ w.dfs) : Derives w d.resetIndexView t.view w.h
  | columnView {d t} (hm : (d, t) ∈ w.dfs) (cols : List GoStr) (r s : Nat) :
      Derives w (d.columnView cols w.h).1 (t.columnView cols r s) (d.columnView cols w.h).2
  | shallowCopy {d t} (hm : (d, t) ∈ w.dfs) (r s : Nat) : Derives w (d.shallowCopy w.h).1 (t.shallowCopy r s) (d.shallowCopy w.h).2
  | copy {d t v h'} (hm : (d, t) ∈ w.dfs) (r s : Nat) (e : d.copy w.h = .ok (v, h')) : Derives w v (t.copy r s) h'
  | detachedView {d t} (hm : (d, t) ∈ w.dfs) (cols : List GoStr) (r : Nat) :
      Derives w (d.detachedView cols w.h).1 (t.detachedView d cols w.h r) (d.detachedView cols w.h).2
  /-- distinct string columns, and at least one other column -/
  | hashStringsView {d t v h'} (hm : (d, t) ∈ w.dfs) {cols order : List GoStr} (r r' s : Nat) (nd : cols.Nodup)
      (hc : ∀ c ∈ cols, ((abs w.h d).col .obj c).isSome) (ho : ∃ k c, c ∉ cols ∧ ((abs w.h d).col k c).isSome)
      (e : d.hashStringsView cols order w.h = .ok (v, h')) : Derives w v (t.hashStringsView d cols w.h r r' s) h'

  | sampleView {d t n rep perm v h'} (hm : (d, t) ∈ w.dfs) (e : d.sampleView n rep perm w.h = .ok (v, h')) : Derives w v t.view h'
  | sortedView {d t v h'} {argsort : List F → List Nat} {c : GoStr} (hm : (d, t) ∈ w.dfs) (e : d.sortedView argsort c w.h = .ok (v, h')) :
      Derives w v t.view h'
  /-- unless all the rows are asked for unsorted, when the dataframe itself is returned -/
  | topView {d t v h'} {argsort : List F → List Nat} {c : GoStr} {n : Int} {asc srt : Bool} (hm : (d, t) ∈ w.dfs)
      (hn : ¬ (n ≥ d.numRows ∧ srt = false)) (e : d.topView argsort c n asc srt w.h = .ok (v, h')) : Derives w v t.view h'
  | rowConcat {ds v h'} (hm : ∀ d ∈ ds, ∃ t, (d, t) ∈ w.dfs) (r s : Nat) (e : rowConcat ds w.h = .ok (some (v, h'))) :
      Derives w v (Tags.rowConcat r s) h'
  | columnCopyConcat {d t ds v h'} (hd : (d, t) ∈ w.dfs) (hm : ∀ d ∈ ds, ∃ t, (d, t) ∈ w.dfs) (r s r' s' : Nat)
      (e : columnCopyConcat (d :: ds) w.h = .ok (some (v, h'))) : Derives w v (t.columnCopyConcat r s r' s') h'

/-- Histories of such calls. -/
inductive THist [GoFloat F] (w : TWorld F) : TWorld F → Prop
  | refl : THist w w
  | call {w1 v t h'} (h : THist w w1) (c : Derives w1 v t h') : THist w ⟨h', w1.dfs ++ [(v, t)]⟩

/-- Dataframes with an array in common have a position in common. -/
def TWorld.Tight (w : TWorld F) : Prop :=
  ∀ x ∈ w.dfs, ∀ y ∈ w.dfs, ∀ a, x.1.toRaw.arrays w.h a → y.1.toRaw.arrays w.h a →
    ∃ p, p ∈ positions x.2.dataUID ∧ p ∈ positions y.2.dataUID

theorem Tight.push {w : TWorld F} (g : w.plain.Good) (t : w.Tight) {h' : Heap F} {v : DF} {tag : Tags}
    (ht : ∀ x ∈ w.dfs, h'.tab x.1.tab = w.h.tab x.1.tab) (hp : positions tag.dataUID ≠ [])
    (src : ∀ a, v.toRaw.arrays h' a → w.h.next ≤ a ∨
      ∃ x ∈ w.dfs, x.1.toRaw.arrays w.h a ∧ ∀ p, p ∈ positions x.2.dataUID → p ∈ positions tag.dataUID) :
    TWorld.Tight ⟨h', w.dfs ++ [(v, tag)]⟩ := by
  have old : ∀ x ∈ w.dfs, ∀ a, x.1.toRaw.arrays h' a → x.1.toRaw.arrays w.h a := by
    rintro x hx a ⟨k, s, h1, h2, h3⟩
    rw [ht x hx] at h1
    exact ⟨k, s, h1, h2, h3⟩
  have lt : ∀ x ∈ w.dfs, ∀ a, x.1.toRaw.arrays w.h a → a < w.h.next := fun x hx a ha =>
    Raw.arrays_lt (g.wf x.1 (List.mem_map_of_mem hx)).toWF ha
  have one : ∀ y ∈ w.dfs, ∀ a, v.toRaw.arrays h' a → y.1.toRaw.arrays h' a →
      ∃ p, p ∈ positions tag.dataUID ∧ p ∈ positions y.2.dataUID := by
    intro y hy a h1 h2
    have h2 := old y hy a h2
    rcases src a h1 with h3 | ⟨x, hx, h3, h4⟩
    · have := lt y hy a h2; omega
    · obtain ⟨p, p1, p2⟩ := t x hx y hy a h3 h2
      exact ⟨p, h4 p p1, p2⟩
  intro x hx y hy a h1 h2
  simp only [List.mem_append, List.mem_singleton] at hx hy
  rcases hx with hx | rfl <;> rcases hy with hy | rfl
  · exact t x hx y hy a (old x hx a h1) (old y hy a h2)
  · obtain ⟨p, p1, p2⟩ := one x hx a h2 h1
    exact ⟨p, p2, p1⟩
  · exact one y hy a h1 h2
  · obtain ⟨p, hp⟩ := List.exists_mem_of_ne_nil _ hp
    exact ⟨p, hp, hp⟩

theorem mem_positions {p v : Nat} : p ∈ positions v ↔ p < 64 ∧ v.testBit p = true := by simp [positions]

theorem positions_or_left {p a b : Nat} (h : p ∈ positions a) : p ∈ positions (a ||| b) := by
  rw [mem_positions] at h ⊢
  simp [h.1, h.2]

theorem positions_or_gen (a r : Nat) : positions (a ||| generateDataUID r) ≠ [] := by
  have h := mem_positions.1 (show r % 64 ∈ positions (generateDataUID r) by rw [(C86_generated r).1]; simp)
  refine List.ne_nil_of_mem (a := r % 64) (mem_positions.2 ⟨h.1, ?_⟩)
  rw [Nat.testBit_or, h.2, Bool.or_true]

/-- **C86**. A new dataframe logs nothing until `Debug(true)` is called, and has one data position. -/
theorem C86_new_silent (df : DF) (r s : Nat) (context : GoStr) (h : Heap F) :
    df.debugPrint (newTags r s) context h = none ∧ (df.debugPrint ((newTags r s).setDebug true) context h).isSome = true ∧
      positions (newTags r s).dataUID = [r % 64] :=
  ⟨rfl, rfl, (C86_generated r).1⟩

/-- **C86**. `TransferRawDataFrom` adds the positions of the source to those of the receiver, unless the receiver has no
column, when they replace them; it keeps the structure number and the debugging mode. -/
theorem C86_transfer (t src : Tags) (n : Nat) :
    (n = 0 → (t.transfer src n).dataUID = src.dataUID) ∧
    (n ≠ 0 → ∀ p, p ∈ positions (t.transfer src n).dataUID ↔ p ∈ positions t.dataUID ∨ p ∈ positions src.dataUID) ∧
    (t.transfer src n).structureUID = t.structureUID ∧ (t.transfer src n).debug = t.debug := by
  refine ⟨fun h => by simp [Tags.transfer, h], fun h p => ?_, by unfold Tags.transfer; split <;> rfl, by unfold Tags.transfer; split <;> rfl⟩
  simp only [Tags.transfer, if_neg h, positions, List.mem_filter, Nat.testBit_or, Bool.or_eq_true]
  grind

theorem positions_gen (r : Nat) : positions (generateDataUID r) ≠ [] := by rw [(C86_generated r).1]; simp

/-- Every dataframe of the world has a position. -/
def TWorld.Marked (w : TWorld F) : Prop := ∀ x ∈ w.dfs, positions x.2.dataUID ≠ []

/-- A dataframe that uses the maps of another one, or copies of them, has no other arrays. -/
theorem arrays_of_tab {d v : DF} {h h' : Heap F} (e : h'.tab v.tab = h.tab d.tab) {a : Nat} (ha : v.toRaw.arrays h' a) :
    d.toRaw.arrays h a := by
  obtain ⟨k, s, h1, h2, h3⟩ := ha
  rw [e] at h1
  exact ⟨k, s, h1, h2, h3⟩

theorem mapCols_reslice_arr {a b : Int} {t t' : Table} {h h' : Heap F} (e : mapCols (resliceCol a b) t h = .ok (t', h'))
    {q : Key} {s' : Slice} (hg : AMap.get t' q = some s') :
    ∃ s, AMap.get t q = some s ∧ s'.arr = s.arr ∧ s'.len = (b - a).toNat := by
  induction t generalizing t' h h' with
  | nil => cases e; cases hg
  | cons x t ih =>
    obtain ⟨k, s⟩ := x
    simp only [mapCols, resliceCol] at e
    split at e
    · cases e
    · rename_i y s1 h1 hx
      split at hx
      · cases hx
      · rename_i s2 hs
        cases hx
        split at e
        · cases e
        · rename_i t2 h2 hm
          cases e
          rw [AMap.get_cons] at hg ⊢
          split at hg
          · rename_i hk
            cases hg
            rw [if_pos hk]
            unfold Slice.reslice at hs
            split at hs
            · cases hs; exact ⟨s, rfl, rfl, rfl⟩
            · cases hs
          · rename_i hk
            rw [if_neg hk]
            exact ih hm hg

theorem cut_arrays {d v : DF} {a b : Int} {h h' : Heap F} (wf : d.WF h) (ha : 0 ≤ a) (hb : b ≤ d.numRows)
    (e : d.cut a b h = .ok (v, h')) {x : Nat} (hx : v.toRaw.arrays h' x) : d.toRaw.arrays h x := by
  unfold DF.cut at e
  simp only at e
  split at e
  · split at e
    · cases e
    · cases e; exact hx
  · rename_i hiv
    have sp := own_spec wf.toWF
    generalize d.toRaw.own h = p at sp e
    obtain ⟨r, h1⟩ := p
    simp only at sp e
    split at e
    · cases e
    · split at e
      · cases e
      · rename_i t h2 hm
        cases e
        obtain rfl := mapCols_resliceCol_heap hm
        obtain ⟨k, s', g1, g2, g3⟩ := hx
        have g1' : AMap.get ((hdrAddEach (h2.setTab r.tab t) r.shared (tabNames t)).2.tab r.tab) k = some s' := g1
        rw [hdrAddEach_tab] at g1'
        simp only [Heap.setTab, if_true] at g1'
        obtain ⟨s, q1, q2, q3⟩ := mapCols_reslice_arr hm g1'
        rw [sp.tab] at q1
        refine ⟨k, s, q1, ?_, by rw [← q2]; exact g3⟩
        obtain ⟨N, n1, n2, n3⟩ := wf.rect
        have hv : d.indexViewed = false := by
          cases hh : d.indexViewed with
          | false => rfl
          | true => simp [hh] at hiv
        have hN : d.numRows = N := by unfold DF.numRows; rw [n3 hv]; simp
        rw [n1 k s q1]
        omega

theorem tab_indexView {d v : DF} {is : List Int} {h h' : Heap F} (wf : d.WF h) (e : d.indexView is h = .ok (v, h')) :
    h'.tab = h.tab ∧ v.tab = d.tab := by
  have hin : ∀ i ∈ is, 0 ≤ i ∧ i < d.numRows := by
    refine Classical.byContradiction fun hn => ?_
    push Not at hn
    obtain ⟨i, h1, h2⟩ := hn
    rw [(C01_indexView_panics_iff wf is).2 ⟨i, h1, fun hh => by have := h2 hh.1; omega⟩] at e
    cases e
  obtain ⟨v', h2, e2, _, ht, _, _, hraw, _⟩ := indexView_spec d h is hin
  rw [e] at e2; cases e2
  exact ⟨ht, by show v.toRaw.tab = _; rw [hraw]⟩

theorem tab_sampleView {d v : DF} {n : Int} {rep : Bool} {p : List Nat} {h h' : Heap F} (wf : d.WF h) (_ : d.MaskWF h)
    (e : d.sampleView n rep p h = .ok (v, h')) : h'.tab = h.tab ∧ v.tab = d.tab := by
  unfold DF.sampleView at e
  split at e
  · cases e
  · split at e
    · cases e
    · split at e
      · cases e
      · rename_i r h1 hr
        split at e
        · cases e
        · cases e
          have key : h'.tab = h.tab ∧ r.tab = d.tab := tab_indexView wf (is := p.map Int.ofNat) hr
          exact key

theorem tab_topView [GoFloat F] {o : List F → List Nat} {d v : DF} {c : GoStr} {n : Int} {asc srt : Bool} {h h' : Heap F}
    (wf : d.WF h) (_ : d.MaskWF h) (hn : ¬ (n ≥ d.numRows ∧ srt = false))
    (e : d.topView o c n asc srt h = .ok (v, h')) : h'.tab = h.tab ∧ v.tab = d.tab := by
  unfold DF.topView at e
  simp only at e
  rw [if_neg hn] at e
  split at e
  · cases e
  · split at e
    · cases e
    · rename_i r h1 hr
      obtain ⟨is, hr⟩ := sortedView_indexView hr
      have key := tab_indexView wf hr
      split at e
      · split at e
        · cases e
        · cases e; exact key
      · split at e
        · cases e
        · cases e
          split
          · exact key
          · exact key

/-- What each call does. -/
theorem Derives.ok [GoFloat F] {w : TWorld F} (g : w.plain.Good) (m : w.Marked) {v : DF} {tag : Tags} {h' : Heap F}
    (c : Derives w v tag h') : Joins w.plain h' v ∧ (∀ x ∈ w.dfs, h'.tab x.1.tab = w.h.tab x.1.tab) ∧ positions tag.dataUID ≠ [] ∧
      ∀ a, v.toRaw.arrays h' a → w.h.next ≤ a ∨
        ∃ x ∈ w.dfs, x.1.toRaw.arrays w.h a ∧ ∀ p, p ∈ positions x.2.dataUID → p ∈ positions tag.dataUID := by
  have mem : ∀ {d t}, (d, t) ∈ w.dfs → d ∈ w.plain.dfs := fun hm => List.mem_map_of_mem (f := Prod.fst) hm
  have wf : ∀ {d t}, (d, t) ∈ w.dfs → d.WF w.h := fun hm => g.wf _ (mem hm)
  have mwf : ∀ {d t}, (d, t) ∈ w.dfs → d.MaskWF w.h := fun hm => g.mwf _ (mem hm)
  have sep : ∀ {d t}, (d, t) ∈ w.dfs → d.toRaw.Sep := fun hm => g.sep _ (mem hm) _ (mem hm)
  have keep : ∀ {d : DF} {t : Tags} {v : DF} {h' : Heap F}, (d, t) ∈ w.dfs → (∀ a, v.toRaw.arrays h' a → d.toRaw.arrays w.h a) →
      ∀ a, v.toRaw.arrays h' a → w.h.next ≤ a ∨
        ∃ x ∈ w.dfs, x.1.toRaw.arrays w.h a ∧ ∀ p, p ∈ positions x.2.dataUID → p ∈ positions t.view.dataUID :=
    fun hm hs a ha => Or.inr ⟨_, hm, hs a ha, fun _ hp => hp⟩
  have extTab : ∀ {h' : Heap F}, Heap.Ext w.h h' → ∀ x ∈ w.dfs, h'.tab x.1.tab = w.h.tab x.1.tab :=
    fun ex x hx => ex.tab _ (wf (t := x.2) hx).tab_lt
  cases c with
  | view hm =>
    exact ⟨(view_step (wf hm) (mwf hm)).joins g (mem hm), fun _ _ => rfl, m _ hm, keep hm fun a ha => ha⟩
  | @indexView d t is v h' hm e =>
    have hin : ∀ i ∈ is, 0 ≤ i ∧ i < d.numRows := by
      refine Classical.byContradiction fun hn => ?_
      push Not at hn
      obtain ⟨i, h1, h2⟩ := hn
      rw [(C01_indexView_panics_iff (wf hm) is).2 ⟨i, h1, fun hh => by have := h2 hh.1; omega⟩] at e
      cases e
    obtain ⟨v', h2, e2, _, ht, _, _, hraw, _⟩ := indexView_spec d w.h is hin
    rw [e] at e2; cases e2
    obtain ⟨v', h2, e2, _, st, _⟩ := indexView_step (wf hm) (mwf hm) hin
    rw [e] at e2; cases e2
    refine ⟨st.joins g (mem hm), fun x _ => by rw [ht], m _ hm, keep hm fun a ha => arrays_of_tab ?_ ha⟩
    have : v.toRaw.tab = d.tab := by rw [hraw]
    rw [ht, this]
  | @maskView d t msk v hm e =>
    refine ⟨(maskView_step (wf hm) (mwf hm) e).joins g (mem hm), fun _ _ => rfl, m _ hm, keep hm fun a ha => arrays_of_tab ?_ ha⟩
    unfold DF.maskView at e
    split at e
    · cases e
    · cases e; rfl
  | reverseView hm =>
    exact ⟨(reverseView_step (wf hm) (mwf hm)).joins g (mem hm), fun _ _ => rfl, m _ hm, keep hm fun a ha => ha⟩
  | @sliceView d t a b v h' hm ha hb e =>
    refine ⟨(sliceView_stepOK (wf hm) (mwf hm) ha hb e).joins g (mem hm), extTab (sliceView_ext (wf hm) (mwf hm) e), m _ hm,
      keep hm fun x hx => ?_⟩
    unfold DF.sliceView at e
    simp only at e
    obtain ⟨y, hy⟩ : ∃ y, y = (if a < 0 then a + ((d.numRows : Int) + 1) else a) := ⟨_, rfl⟩
    obtain ⟨z, hz⟩ : ∃ z, z = (if b < 0 then b + ((d.numRows : Int) + 1) else b) := ⟨_, rfl⟩
    rw [← hy, ← hz] at e
    have ha' : SliceBound d.numRows a := ha
    have hb' : SliceBound d.numRows b := hb
    unfold SliceBound at ha' hb'
    have hy1 : 0 ≤ y ∧ y ≤ d.numRows := by rw [hy]; split <;> omega
    have hz1 : 0 ≤ z ∧ z ≤ d.numRows := by rw [hz]; split <;> omega
    have s1 := reverseView_step (wf hm) (mwf hm)
    split at e
    · have hn : d.reverseView.view.numRows = d.numRows := by
        simp [DF.numRows, DF.rows, DF.view, DF.reverseView, Idx.mk', Idx.rows]
      exact cut_arrays (view_step s1.wf s1.mwf).wf hz1.1 (by rw [hn]; exact hy1.2) e hx
    · exact cut_arrays (view_step (wf hm) (mwf hm)).wf hy1.1 hz1.2 e hx
  | resetIndexView hm =>
    exact ⟨(resetIndexView_stepOK (wf hm) (mwf hm)).joins g (mem hm), fun _ _ => rfl, m _ hm, keep hm fun a ha => ha⟩
  | @columnView d t hm cols r s =>
    by_cases hne : cols = []
    · subst hne
      exact ⟨(view_step (wf hm) (mwf hm)).joins g (mem hm), fun _ _ => rfl, m _ hm, keep hm fun a ha => ha⟩
    · have hu : (t.columnView cols r s).dataUID = t.dataUID := by unfold Tags.columnView; rw [if_neg hne]
      have sp := columnView_spec (wf hm) (sep hm) hne
      refine ⟨(columnView_stepOK (wf hm) (mwf hm) (sep hm) cols).joins g (mem hm),
        fun x hx => sp.frame.tab _ (wf (t := x.2) hx).tab_lt id, by rw [hu]; exact m _ hm, fun a ha => Or.inr ⟨_, hm, ?_, fun p hp => by rw [hu]; exact hp⟩⟩
      obtain ⟨k, s, h1, h2, h3⟩ := ha
      rw [sp.tab] at h1
      split at h1
      · exact ⟨k, s, h1, h2, h3⟩
      · cases h1
  | @shallowCopy d t hm r s =>
    have sp := shallowCopy_spec (wf hm)
    exact ⟨shallowCopy_joins g (mem hm), extTab sp.ext, m _ hm, fun a ha => Or.inr ⟨_, hm, arrays_of_tab sp.tabE ha, fun p hp => hp⟩⟩
  | @copy d t v h' hm r s e =>
    obtain ⟨v', h2, e2, sp⟩ := copy_spec (wf hm)
    have j := copy_joins g (mem hm) e
    rw [e] at e2; cases e2
    exact ⟨j, extTab sp.ext, positions_gen r, fun a ha => Or.inl (sp.new.arr a ha)⟩
  | @detachedView d t hm cols r =>
    have us := unshare_spec (view_wf (wf hm)).toWF cols
    have htag : (t.detachedView d cols w.h r).dataUID =
        if cols.length = 0 ∨ cols.length = numColumns (w.h.tab d.tab) then generateDataUID r else t.dataUID ||| generateDataUID r := by
      simp only [Tags.detachedView, Tags.unshare, DF.view, Tags.view, Bool.true_eq_false, false_and, if_false]
      split <;> rename_i hh
      · exact congrArg Tags.dataUID (if_pos hh)
      · exact congrArg Tags.dataUID (if_neg hh)
    refine ⟨(detachedView_stepOK (wf hm) (mwf hm) cols).joins g (mem hm), extTab (us.ext rfl), ?_, ?_⟩
    · rw [htag]
      split
      · exact positions_gen r
      · exact positions_or_gen _ r
    · rintro a ⟨k, s', h1, h2, h3⟩
      rcases us.get k with ⟨g1, _⟩ | ⟨s, s2, g1, g2, g3⟩
      · have h1' : AMap.get ((d.view.toRaw.unshare cols w.h).2.tab (d.view.toRaw.unshare cols w.h).1.tab) k = some s' := h1
        rw [g1] at h1'; cases h1'
      · have h1' : AMap.get ((d.view.toRaw.unshare cols w.h).2.tab (d.view.toRaw.unshare cols w.h).1.tab) k = some s' := h1
        rw [g2] at h1'; cases h1'
        split at g3
        · left; rw [← h3]; exact g3.2.2.1
        · rename_i hns
          subst g3
          right
          refine ⟨_, hm, ⟨k, _, g1, h2, h3⟩, fun p hp => ?_⟩
          rw [htag]
          split
          · rename_i hall
            refine absurd ⟨?_, ?_⟩ hns
            · have hn : k.2 ∈ tabNames (w.h.tab d.tab) := mem_tabNames.2 ⟨k.1, by
                have : AMap.get (w.h.tab d.tab) k = some _ := g1
                rw [this]; rfl⟩
              simpa [sharedNames, DF.view] using hn
            · have hn : k.2 ∈ tabNames (w.h.tab d.tab) := mem_tabNames.2 ⟨k.1, by
                have : AMap.get (w.h.tab d.tab) k = some _ := g1
                rw [this]; rfl⟩
              have hu : unshareSet (w.h.tab d.view.tab) cols = tabNames (w.h.tab d.tab) := if_pos hall
              rw [hu]
              exact hn
          · exact positions_or_left hp
  | @hashStringsView d t v h' hm cols order r r' s nd hc ho e =>
    have lg : cols = [] ∨ (abs w.h d).hasColumn := by
      right
      obtain ⟨k, c, _, hx⟩ := ho
      exact hasColumn_iff.2 fun he => by simp [abs, he] at hx
    have st := hashStringsView_stepOK (wf hm) (mwf hm) (sep hm) lg e
    by_cases hne : cols = []
    · unfold DF.hashStringsView at e
      rw [if_pos hne] at e; cases e
      have hu : t.hashStringsView d cols w.h r r' s = t.view := by unfold Tags.hashStringsView; rw [if_pos hne]
      rw [hu]
      exact ⟨st.joins g (mem hm), fun _ _ => rfl, m _ hm, keep hm fun a ha => ha⟩
    · have ho' : ∃ k c, c ∉ cols ∧ (AMap.get (w.h.tab d.tab) (k, c)).isSome := by
        obtain ⟨k, c, h1, h2⟩ := ho
        exact ⟨k, c, h1, by simpa [abs] using h2⟩
      have sp := hashPrep_spec (wf hm) (sep hm) ho'
      have hlen : cols.length ≠ numColumns (w.h.tab d.tab) := by
        obtain ⟨k, c, h1, h2⟩ := ho'
        have hk : ∀ {q : Key}, (AMap.get (w.h.tab d.tab) q).isSome → q ∈ AMap.keys (w.h.tab d.tab) := by
          intro q hq
          obtain ⟨s, hs⟩ := Option.isSome_iff_exists.1 hq
          exact List.mem_map_of_mem (f := Prod.fst) (AMap.mem_of_get hs)
        have nd2 : ((k, c) :: cols.map fun c => (Kind.obj, c)).Nodup := by
          refine List.nodup_cons.2 ⟨fun hx => ?_, List.Nodup.map (fun a b e => by cases e; rfl) nd⟩
          obtain ⟨c', h3, h4⟩ := List.mem_map.1 hx
          cases h4; exact h1 h3
        have hsub : ((k, c) :: cols.map fun c => (Kind.obj, c)) ⊆ AMap.keys (w.h.tab d.tab) := by
          intro q hq
          rcases List.mem_cons.1 hq with rfl | hq
          · exact hk h2
          · obtain ⟨c', h3, rfl⟩ := List.mem_map.1 hq
            exact hk (by have := hc c' h3; simpa [abs] using this)
        have := (List.Nodup.subperm nd2 hsub).length_le
        simp only [List.length_cons, List.length_map, AMap.keys] at this
        unfold numColumns
        omega
      have hu : (t.hashStringsView d cols w.h r r' s).dataUID = t.dataUID ||| generateDataUID r := by
        unfold Tags.hashStringsView
        rw [if_neg hne]
        simp only [hlen, if_false]
        unfold Tags.columnView
        split <;> rfl
      rw [hashStringsView_eq d hne] at e
      split at e
      · cases e
      · rename_i g' hg
        cases e
        have q := runQueue_quiet (fun c g g' hq => hashColumn_quiet hq) hg
        refine ⟨st.joins g (mem hm), fun x hx => ?_, by rw [hu]; exact positions_or_gen _ r, ?_⟩
        · rw [q.tab]
          exact sp.frame.tab _ (wf (t := x.2) hx).tab_lt id
        · rintro a ⟨⟨k, c⟩, s, h1, h2, h3⟩
          rw [q.tab] at h1
          by_cases hcc : c ∈ cols
          · by_cases hk : k = .int
            · subst hk
              obtain ⟨s2, g1, _, _, g4⟩ := sp.new c hcc
              rw [h1] at g1; cases g1
              left; rw [← h3]; exact g4
            · rw [sp.gone c hcc k hk] at h1; cases h1
          · rw [sp.old k c hcc] at h1
            exact Or.inr ⟨_, hm, ⟨_, s, h1, h2, h3⟩, fun p hp => by rw [hu]; exact positions_or_left hp⟩

  | @sampleView d t n rep perm v h' hm e =>
    have ⟨t1, t2⟩ := tab_sampleView (wf hm) (mwf hm) e
    exact ⟨(sampleView_stepOK (wf hm) (mwf hm) e).joins g (mem hm), fun x _ => by rw [t1], m _ hm,
      keep hm fun a ha => arrays_of_tab (by rw [t1, t2]) ha⟩
  | @sortedView d t v h' argsort c hm e =>
    obtain ⟨is, e⟩ := sortedView_indexView e
    have ⟨t1, t2⟩ := tab_indexView (wf hm) e
    exact ⟨(indexView_stepOK (wf hm) (mwf hm) e).1.joins g (mem hm), fun x _ => by rw [t1], m _ hm,
      keep hm fun a ha => arrays_of_tab (by rw [t1, t2]) ha⟩
  | @topView d t v h' argsort c n asc srt hm hn e =>
    have ⟨t1, t2⟩ := tab_topView (wf hm) (mwf hm) hn e
    exact ⟨(topView_stepOK (wf hm) (mwf hm) hn e).joins g (mem hm), fun x _ => by rw [t1], m _ hm,
      keep hm fun a ha => arrays_of_tab (by rw [t1, t2]) ha⟩
  | @rowConcat ds v h' hm r s e =>
    have wfs : ∀ d ∈ ds, d.WF w.h := fun d hd => by obtain ⟨t, ht⟩ := hm d hd; exact wf ht
    cases ds with
    | nil => simp [Verif.rowConcat] at e
    | cons d0 rest =>
      rcases rowConcat_spec wfs with ⟨r', h2, e', sp, _⟩ | ⟨e', _⟩
      · have j := rowConcat_joins (w := w.plain) wfs e
        rw [e] at e'; cases e'
        exact ⟨j, extTab sp.ext, positions_gen r, fun a ha => Or.inl (sp.new.arr a ha)⟩
      · rw [e] at e'; cases e'
  | @columnCopyConcat d t ds v h' hd hm r s r' s' e =>
    classical
    have wfs : ∀ x ∈ d :: ds, x.WF w.h := fun x hx => by
      rcases List.mem_cons.1 hx with rfl | hx
      · exact wf hd
      · obtain ⟨t, ht⟩ := hm x hx; exact wf ht
    have j := columnCopyConcat_joins (w := w.plain) wfs e
    have sp := columnCopyConcat_spec wfs
    split at sp
    · obtain ⟨r', h2, e', sp⟩ := sp
      rw [e] at e'; cases e'
      exact ⟨j, extTab sp.ext, positions_gen r, fun a ha => Or.inl (sp.new.arr a ha)⟩
    · rw [e] at sp; cases sp

/-- The induction behind C86. -/
theorem THist.ok [GoFloat F] {w0 w : TWorld F} (hist : THist w0 w) (g : w0.plain.Good) (m : w0.Marked) (t : w0.Tight) :
    w.plain.Good ∧ w.Marked ∧ w.Tight := by
  induction hist with
  | refl => exact ⟨g, m, t⟩
  | @call w1 v tag h' hi c ih =>
    obtain ⟨g1, m1, t1⟩ := ih
    obtain ⟨c1, c2, c3, c4⟩ := c.ok g1 m1
    refine ⟨?_, ?_, Tight.push g1 t1 c2 c3 c4⟩
    · have := g1.push c1
      simpa [TWorld.plain] using this
    · intro x hx
      simp only [List.mem_append, List.mem_singleton] at hx
      rcases hx with hx | rfl
      · exact m1 x hx
      · exact c3

/-- **C86**. Dataframes that were derived from one dataframe, by any history of views, column views, slices, shallow copies,
samples, sorted and top views, copies, detached views, hashing views and copying concatenations, and that share a cell, have a position of their data identifiers in common. (Not so in
general: see `C86_columnConcatView`, `C86_hash_duplicate`, `C86_unshare_in_place`, `C86_transfer_under_view`.) -/
theorem C86_shared_partial [GoFloat F] {d : DF} {t : Tags} {h : Heap F} (wf : d.WF h) (mwf : d.MaskWF h) (sep : d.toRaw.Sep)
    (ht : positions t.dataUID ≠ []) {w : TWorld F} (hist : THist ⟨h, [(d, t)]⟩ w) :
    (∀ x ∈ w.dfs, ∀ y ∈ w.dfs, SharesCell w.h x.1 y.1 → ∃ p, p ∈ positions x.2.dataUID ∧ p ∈ positions y.2.dataUID) ∧
    (∀ x ∈ w.dfs, ∀ y ∈ w.dfs, (∀ p, p ∈ positions x.2.dataUID → p ∉ positions y.2.dataUID) →
      ∀ k c (i : Nat) v h', x.1.set w.h k c i v = .ok h' → ∀ k' c' (j : Nat), y.1.get h' k' c' j = y.1.get w.h k' c' j) := by
  have g : (⟨h, [(d, t)]⟩ : TWorld F).plain.Good := by
    refine ⟨?_, ?_, ?_⟩
    · intro x hx; simp [TWorld.plain] at hx; subst hx; exact wf
    · intro x hx; simp [TWorld.plain] at hx; subst hx; exact mwf
    · intro x hx y hy; simp [TWorld.plain] at hx hy; subst hx; subst hy; exact sep
  obtain ⟨g', m', t'⟩ := hist.ok g (fun x hx => by simp at hx; subst hx; exact ht) (fun x hx y hy a _ _ => by
    simp at hx hy; subst hx; subst hy
    obtain ⟨p, hp⟩ := List.exists_mem_of_ne_nil _ ht
    exact ⟨p, hp, hp⟩)
  have main : ∀ x ∈ w.dfs, ∀ y ∈ w.dfs, SharesCell w.h x.1 y.1 → ∃ p, p ∈ positions x.2.dataUID ∧ p ∈ positions y.2.dataUID := by
    rintro x hx y hy ⟨k, c, i, k', c', j, l, e1, e2⟩
    obtain ⟨s1, a1, a2, a3⟩ := cellOf_arr e1
    obtain ⟨s2, b1, b2, b3⟩ := cellOf_arr e2
    exact t' x hx y hy l.1 ⟨_, s1, a1, a3, a2.symm⟩ ⟨_, s2, b1, b3, b2.symm⟩
  refine ⟨main, fun x hx y hy hno k c i v h' e k' c' j => ?_⟩
  obtain ⟨l, hl, ho⟩ := C12_set_all_observers (g'.wf x.1 (List.mem_map_of_mem hx)) e
  refine ((ho y.1).2 k' c' j).trans (if_neg fun hl2 => ?_)
  obtain ⟨p, p1, p2⟩ := main x hx y hy ⟨k, c, i, k', c', j, l, hl, hl2⟩
  exact hno p p1 p2

/-! ### Examples and refutations -/

open Demo in
example : (⟨1234, 2 ^ 35 + 2 ^ 36 + 5, false⟩ : Tags).printUIDs = b!"structure UID: 1234; data UID: |0|2|z|10|\n" := by decide
example : positions (generateDataUID 4294967295) = [63] := (C86_generated _).1
open Demo in
example := (C86_debugPrint df ⟨7, 8, false⟩ b!"Sort" h).2
open Demo in
example : df.debugPrint ⟨7, 8, true⟩ b!"Sort" h = some b!"Sort [structure: 7 data: |3| dim: 4x4 allocated: 4]" := by decide
example := (C86_printUIDs ⟨7, 8, false⟩ ⟨7, 9, true⟩).2 (by decide) (by decide)

namespace Demo

/-- The identifiers of the demo dataframe: data position 5. -/
def tags : Tags := newTags 5 70000
/-- A view, and a detached view of column "a", with new position 9. -/
def dbgWorld1 : TWorld Int := ⟨h, [(df, tags)] ++ [(df.reverseView, tags.view)]⟩
/-- The same world after detaching. -/
def dbgWorld : TWorld Int :=
  ⟨(df.reverseView.detachedView [] h).2, dbgWorld1.dfs ++ [((df.reverseView.detachedView [] h).1, tags.detachedView df.reverseView [] h 73)]⟩

theorem dbgHist : THist ⟨h, [(df, tags)]⟩ dbgWorld :=
  .call (.call .refl (.reverseView (List.mem_singleton.2 rfl))) (.detachedView (d := df.reverseView) (t := tags.view)
    (List.mem_append_right _ (List.mem_singleton.2 rfl)) [] 73)

example : tags.dataUID = 32 ∧ tags.structureUID = 4464 ∧ (tags.detachedView df.reverseView [] h 73).dataUID = 512 := by decide

-- the dataframe and its reversed view share cells; the detached view shares none and has another position
example : SharesCell dbgWorld.h df df.reverseView := by
  have key : cellOf dbgWorld.h df .int b!"a" 0 = cellOf dbgWorld.h df.reverseView .int b!"a" 3 ∧ (cellOf dbgWorld.h df .int b!"a" 0).isSome := by
    decide +kernel
  obtain ⟨l, hl⟩ := Option.isSome_iff_exists.1 key.2
  exact ⟨_, _, _, _, _, _, l, hl, key.1.symm.trans hl⟩
example (k : Kind) (c : GoStr) (i : Nat) (v : Val Int) (h' : Heap Int)
    (e : df.set dbgWorld.h k c i v = .ok h') (k' : Kind) (c' : GoStr) (j : Nat) :
    (df.reverseView.detachedView [] h).1.get h' k' c' j = (df.reverseView.detachedView [] h).1.get dbgWorld.h k' c' j :=
  (C86_shared_partial df_wf df_mwf df_sep (by decide) dbgHist).2 (df, tags) (by simp [dbgWorld, dbgWorld1])
    ((df.reverseView.detachedView [] h).1, tags.detachedView df.reverseView [] h 73) (by simp [dbgWorld]) (by decide) k c i v h' e k' c' j

end Demo

open Demo in
/-- `HashStringsView` called with as many names as there are columns, some of them repeated: the result has a fresh data
identifier, with no position of the parent's, although the other columns are shared. -/
theorem C86_hash_duplicate : ∃ v h', df.hashStringsView [b!"s", b!"s", b!"s", b!"s"] [b!"s", b!"s", b!"s", b!"s"] h = .ok (v, h') ∧
    SharesCell h' df v ∧
    ∀ p, p ∈ positions tags.dataUID → p ∉ positions (tags.hashStringsView df [b!"s", b!"s", b!"s", b!"s"] h 9 0 0).dataUID := by
  have key : okAnd (df.hashStringsView [b!"s", b!"s", b!"s", b!"s"] [b!"s", b!"s", b!"s", b!"s"] h)
      (fun p => decide (cellOf p.2 df .int b!"a" 0 = cellOf p.2 p.1 .int b!"a" 0 ∧ (cellOf p.2 df .int b!"a" 0).isSome)) = true := by
    decide +kernel
  obtain ⟨⟨v, h'⟩, e, hp⟩ := okAnd_iff.1 key
  obtain ⟨h1, h2⟩ := of_decide_eq_true hp
  obtain ⟨l, hl⟩ := Option.isSome_iff_exists.1 h2
  exact ⟨v, h', e, ⟨_, _, _, _, _, _, l, hl, h1.symm.trans hl⟩, by decide⟩

open Demo in
/-- `Unshare()` on a dataframe that has shared columns and a live view: the view goes on sharing the maps of the dataframe, so
all of its data, but only the dataframe gets the fresh data identifier. -/
theorem C86_unshare_in_place (r : Nat) (hr : r % 64 ≠ 5) :
    let c := df.columnView [b!"a", b!"x"] h
    let tc := tags.columnView [b!"a", b!"x"] 0 0
    let v := c.1.view
    let u := c.1.toRaw.unshare [] c.2
    SharesCell u.2 { c.1 with toRaw := u.1 } v ∧
    ∀ p, p ∈ positions (tc.unshare c.1.toRaw [] c.2 r).dataUID → p ∉ positions tc.view.dataUID := by
  refine ⟨?_, ?_⟩
  · have key : cellOf ((df.columnView [b!"a", b!"x"] h).1.toRaw.unshare [] (df.columnView [b!"a", b!"x"] h).2).2
        { (df.columnView [b!"a", b!"x"] h).1 with toRaw := ((df.columnView [b!"a", b!"x"] h).1.toRaw.unshare [] (df.columnView [b!"a", b!"x"] h).2).1 }
          .int b!"a" 0 =
        cellOf ((df.columnView [b!"a", b!"x"] h).1.toRaw.unshare [] (df.columnView [b!"a", b!"x"] h).2).2
          (df.columnView [b!"a", b!"x"] h).1.view .int b!"a" 0 ∧
        (cellOf ((df.columnView [b!"a", b!"x"] h).1.toRaw.unshare [] (df.columnView [b!"a", b!"x"] h).2).2
          (df.columnView [b!"a", b!"x"] h).1.view .int b!"a" 0).isSome := by decide +kernel
    obtain ⟨l, hl⟩ := Option.isSome_iff_exists.1 key.2
    exact ⟨_, _, _, _, _, _, l, key.1.trans hl, hl⟩
  · have hu : ((tags.columnView [b!"a", b!"x"] 0 0).unshare (df.columnView [b!"a", b!"x"] h).1.toRaw [] (df.columnView [b!"a", b!"x"] h).2 r).dataUID =
        generateDataUID r := by
      have hn : ¬ ((df.columnView [b!"a", b!"x"] h).1.toRaw.sharedMaps = false ∧
          hdrNum (df.columnView [b!"a", b!"x"] h).2 (df.columnView [b!"a", b!"x"] h).1.toRaw.shared = 0) := by decide +kernel
      unfold Tags.unshare
      rw [if_neg hn]
      exact congrArg Tags.dataUID (if_pos (Or.inl rfl))
    intro p hp
    have hp : p ∈ positions (generateDataUID r) := by rw [← hu]; exact hp
    rw [(C86_generated r).1, List.mem_singleton] at hp
    subst hp
    have h5 : positions ((tags.columnView [b!"a", b!"x"] 0 0).view).dataUID = [5] := by decide
    intro hc
    have hc : r % 64 ∈ positions ((tags.columnView [b!"a", b!"x"] 0 0).view).dataUID := hc
    rw [h5, List.mem_singleton] at hc
    exact hr hc

open Demo in
/-- `ColumnConcatView` merges the columns of two dataframes, but the result only has the data identifier of the first: here the
columns "a" and "x", detached with position 9, and the column "b" of the demo dataframe. -/
theorem C86_columnConcatView :
    let c := df.detachedView [] h
    let l := c.1.columnView [b!"a", b!"x"] c.2
    let r := df.columnView [b!"b"] l.2
    ∃ v h', columnConcatView [l.1, r.1] r.2 = .ok (some (v, h')) ∧ SharesCell h' v r.1 ∧
    ∀ p, p ∈ positions (((tags.detachedView df [] h 9).columnView [b!"a", b!"x"] 0 0).columnConcatView 0 0).dataUID →
      p ∉ positions (tags.columnView [b!"b"] 0 0).dataUID := by
  intro c l r
  have key : okAnd (columnConcatView [l.1, r.1] r.2) (fun o => match o with
    | none => false
    | some p => decide (cellOf p.2 p.1 .bool b!"b" 0 = cellOf p.2 r.1 .bool b!"b" 0 ∧ (cellOf p.2 r.1 .bool b!"b" 0).isSome)) = true := by
    decide +kernel
  obtain ⟨o, e, hp⟩ := okAnd_iff.1 key
  cases o with
  | none => cases hp
  | some p =>
    obtain ⟨v, h'⟩ := p
    obtain ⟨h1, h2⟩ := of_decide_eq_true hp
    obtain ⟨l, hl⟩ := Option.isSome_iff_exists.1 h2
    exact ⟨v, h', e, ⟨_, _, _, _, _, _, l, h1.trans hl, hl⟩, by decide⟩

open Demo in
/-- `TransferRawDataFrom` into a dataframe that has a live view: the view shows the new columns, which it shares with the source,
without a position of the source. Here the receiver is a copy of the demo dataframe, with data position 9. -/
theorem C86_transfer_under_view : ∃ c h1, df.copy h = .ok (c, h1) ∧
    SharesCell (c.toRaw.transferFrom df.toRaw h1).2 df c.view ∧
    ∀ p, p ∈ positions tags.dataUID → p ∉ positions (tags.copy 9 0).view.dataUID := by
  have key : okAnd (df.copy h) (fun p => decide (
      cellOf (p.1.toRaw.transferFrom df.toRaw p.2).2 df .int b!"a" 0 = cellOf (p.1.toRaw.transferFrom df.toRaw p.2).2 p.1.view .int b!"a" 0 ∧
      (cellOf (p.1.toRaw.transferFrom df.toRaw p.2).2 df .int b!"a" 0).isSome)) = true := by decide +kernel
  obtain ⟨⟨v, h'⟩, e, hp⟩ := okAnd_iff.1 key
  obtain ⟨h1, h2⟩ := of_decide_eq_true hp
  obtain ⟨l, hl⟩ := Option.isSome_iff_exists.1 h2
  exact ⟨v, h', e, ⟨_, _, _, _, _, _, l, hl, h1.symm.trans hl⟩, by decide⟩

end Verif
