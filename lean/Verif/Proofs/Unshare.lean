import Verif.Proofs.Create
import Mathlib.Data.List.Perm.Subperm

/-! `Unshare` and `DetachedView`. -/

namespace Verif
variable {F : Type}

/-- The columns `Unshare(cols...)` looks at (raw_data.go:187-192): all when none or as many as there are
columns is given. -/
def unshareSet (t : Table) (cols : List GoStr) : List GoStr :=
  if cols.length = 0 ∨ cols.length = numColumns t then tabNames t else cols

/-- The columns known to be shared: all of them when the maps are shared. -/
def sharedNames (h : Heap F) (r : Raw) : List GoStr :=
  if r.sharedMaps = true then tabNames (h.tab r.tab) else hdrList h r.shared

structure UnsharedRaw (h : Heap F) (r : Raw) (cols : List GoStr) (h' : Heap F) (r' : Raw) : Prop where
  wf : r'.WF h'
  safe : Safe h h'
  arr : ∀ i, i < h.next → h'.arr i = h.arr i
  ext : r.sharedMaps = true → Heap.Ext h h'
  fresh : r.sharedMaps = true → h.next ≤ r'.tab ∧ ∀ i, r'.shared = some i → h.next ≤ i
  same : r.sharedMaps = false → r'.tab = r.tab ∧ r'.shared = r.shared
  notShared : r'.sharedMaps = false
  str : r'.strHdr = r.strHdr
  enc : r'.enc = r.enc
  cpu : r'.maxCPU = r.maxCPU
  marks : r.Sep → hdrList h' r'.strHdr = hdrList h r.strHdr
  get : ∀ q : Key, AMap.get (h'.tab r'.tab) q = none ∧ AMap.get (h.tab r.tab) q = none ∨
    ∃ s s', AMap.get (h.tab r.tab) q = some s ∧ AMap.get (h'.tab r'.tab) q = some s' ∧
      (if q.2 ∈ sharedNames h r ∧ q.2 ∈ unshareSet (h.tab r.tab) cols then
          s'.len = s.len ∧ s'.Valid h' ∧ h.next ≤ s'.arr ∧ h'.read s' = h.read s
        else s' = s)
  distinct : ∀ q q' s s', q ≠ q' → AMap.get (h'.tab r'.tab) q = some s → AMap.get (h'.tab r'.tab) q' = some s' →
    (q.2 ∈ sharedNames h r ∧ q.2 ∈ unshareSet (h.tab r.tab) cols) →
    (q'.2 ∈ sharedNames h r ∧ q'.2 ∈ unshareSet (h.tab r.tab) cols) → s.arr ≠ s'.arr

theorem unshare_spec {r : Raw} {h : Heap F} (wf : r.WF h) (cols : List GoStr) :
    UnsharedRaw h r cols (r.unshare cols h).2 (r.unshare cols h).1 := by
  have hw := (Foot.unshare wf cols).wf
  unfold Raw.unshare at hw ⊢
  split
  · rename_i h0
    rw [if_pos h0] at hw
    refine ⟨hw, Safe.refl _, fun _ _ => rfl, fun _ => Heap.Ext.refl _, fun hs => ?_, fun _ => ⟨rfl, rfl⟩, h0.1, rfl, rfl, rfl, fun _ => rfl, ?_, ?_⟩
    · rw [h0.1] at hs; cases hs
    · intro q
      cases hg : AMap.get (h.tab r.tab) q with
      | none => exact Or.inl ⟨rfl, rfl⟩
      | some s =>
        refine Or.inr ⟨s, s, rfl, rfl, ?_⟩
        rw [if_neg]
        rintro ⟨h1, _⟩
        have : hdrList h r.shared = [] := List.eq_nil_of_length_eq_zero h0.2
        simp [sharedNames, h0.1, this] at h1
    · rintro q q' s s' _ _ _ ⟨h1, _⟩ _
      have : hdrList h r.shared = [] := List.eq_nil_of_length_eq_zero h0.2
      simp [sharedNames, h0.1, this] at h1
  · rename_i h0
    rw [if_neg h0] at hw
    have sp := own_spec wf
    have hl1 : hdrList (r.own h).2 r.strHdr = hdrList h r.strHdr := hdrList_ext sp.ext wf.str_lt
    have hsn : ∀ c, c ∈ hdrList (r.own h).2 (r.own h).1.shared ↔ c ∈ sharedNames h r := by
      intro c
      unfold sharedNames
      cases hs : r.sharedMaps
      · rw [(sp.same hs).1, (sp.same hs).2]; simp
      · rw [(sp.fresh hs).2.2]; simp
    have hsep1 : r.Sep → ∀ i, (r.own h).1.shared = some i → r.strHdr ≠ some i := by
      intro sep i hi
      cases hs : r.sharedMaps
      · rw [(sp.same hs).1] at hi; exact sep i hi
      · have := (sp.fresh hs).2.1 i hi
        intro h2; have := wf.str_lt i h2; omega
    simp only at hw ⊢
    generalize r.own h = p at sp hl1 hsn hsep1 hw
    obtain ⟨r1, h1⟩ := p
    simp only at sp hl1 hsn hsep1 hw ⊢
    have hcs : (if cols.length = 0 ∨ cols.length = numColumns (h1.tab r1.tab) then tabNames (h1.tab r1.tab) else cols) =
        unshareSet (h.tab r.tab) cols := by rw [sp.tab]; rfl
    rw [hcs] at hw ⊢
    generalize hcs' : unshareSet (h.tab r.tab) cols = cs at hw ⊢
    have us := unshareLoop_spec (hdrList h1 r1.shared) cs (h1.tab r1.tab) h1 sp.wf.keys
      (fun k s hm => sp.wf.slices k s (AMap.get_of_mem sp.wf.keys hm))
    generalize hp : mapColsT (unshareCol (hdrList h1 r1.shared) cs) (h1.tab r1.tab) h1 = p at us hw ⊢
    obtain ⟨t2, h2⟩ := p
    simp only at us hw ⊢
    have hnext : h.next ≤ h2.next := Nat.le_trans sp.ext.next_le us.ext.next_le
    have htab : (hdrRemove (h2.setTab r1.tab t2) r1.shared cs).tab r1.tab = t2 := by rw [hdrRemove_tab]; simp
    have harr : (hdrRemove (h2.setTab r1.tab t2) r1.shared cs).arr = h2.arr := by rw [hdrRemove_arr]; rfl
    have hnx : (hdrRemove (h2.setTab r1.tab t2) r1.shared cs).next = h2.next := by rw [hdrRemove_next]; rfl
    have hmsk : (hdrRemove (h2.setTab r1.tab t2) r1.shared cs).msk = h2.msk := by rw [hdrRemove_msk]; rfl
    have hval : ∀ s : Slice, s.Valid h2 → s.Valid (hdrRemove (h2.setTab r1.tab t2) r1.shared cs) := by
      intro s v; exact ⟨v.1, by rw [hnx, harr]; exact v.2⟩
    have hread : ∀ s : Slice, (hdrRemove (h2.setTab r1.tab t2) r1.shared cs).read s = h2.read s := by
      intro s; unfold Heap.read; rw [harr]
    have hget : ∀ q : Key, AMap.get t2 q = none ∧ AMap.get (h.tab r.tab) q = none ∨
      ∃ s s', AMap.get (h.tab r.tab) q = some s ∧ AMap.get t2 q = some s' ∧
      (if q.2 ∈ sharedNames h r ∧ q.2 ∈ cs then
          s'.len = s.len ∧ s'.Valid h2 ∧ h.next ≤ s'.arr ∧ h2.read s' = h.read s
        else s' = s) := by
      intro q
      rcases us.get q with ⟨g1, g2⟩ | ⟨s, s', g1, g2, g3⟩
      · left; rw [sp.tab] at g2; exact ⟨g1, g2⟩
      · right
        rw [sp.tab] at g1
        refine ⟨s, s', g1, g2, ?_⟩
        by_cases hc : q.2 ∈ sharedNames h r ∧ q.2 ∈ cs
        · rw [if_pos hc]
          rw [if_pos (by rw [hsn]; exact hc)] at g3
          obtain ⟨a1, a2, a3, a4⟩ := g3
          have hn1 := sp.ext.next_le
          have hr1 : h1.read s = h.read s := Heap.read_congr (by rw [sp.arr]; exact Or.inr rfl)
          exact ⟨a1, a2, by omega, by rw [a4, hr1]⟩
        · rw [if_neg hc]
          rw [if_neg (by rw [hsn]; exact hc)] at g3
          exact g3
    refine ⟨hw, ?_, ?_, ?_, ?_, ?_, sp.notShared, sp.str, sp.enc, sp.cpu, ?_, ?_, ?_⟩
    · -- Safe
      have s1 : Safe h h1 := Safe.ext sp.ext
      have s2 : Safe h1 h2 := Safe.ext us.ext
      have s3 : Safe h2 (h2.setTab r1.tab t2) := by
        refine Safe.of_table (H := Nope) (Heap.setTab_frame h2 r1.tab t2) ?_
        intro _ N tok
        have hk : AMap.keys t2 = AMap.keys (h1.tab r1.tab) := us.keys
        refine ⟨by simp only [Heap.setTab_tab]; rw [hk]; exact sp.wf.keys, ?_⟩
        intro q s' hq
        simp only [Heap.setTab_tab] at hq
        have htk : h2.tab r1.tab = h1.tab r1.tab := by rw [us.tab]
        rcases us.get q with ⟨g1, g2⟩ | ⟨s, s2, g1, g2, g3⟩
        · rw [g1] at hq; cases hq
        · rw [g2] at hq; cases hq
          obtain ⟨v, hN⟩ := tok.slices q s (by rw [htk]; exact g1)
          split at g3
          · exact ⟨⟨g3.2.1.1, g3.2.1.2⟩, by rw [g3.1]; exact hN⟩
          · subst g3; exact ⟨⟨v.1, v.2⟩, hN⟩
      have s4 : Safe (h2.setTab r1.tab t2) (hdrRemove (h2.setTab r1.tab t2) r1.shared cs) := Safe.hdrs (hdrRemove_frame ..)
      exact ((s1.trans s2).trans s3).trans s4
    · intro i hi
      rw [harr, us.ext.arr i (Nat.lt_of_lt_of_le hi sp.ext.next_le), sp.ext.arr i hi]
    · intro hs
      obtain ⟨f1, f2, _⟩ := sp.fresh hs
      have hn1 := sp.ext.next_le
      refine ⟨by rw [hnx]; exact hnext, fun i hi => ?_, fun i hi => ?_, fun i hi => ?_, fun i hi => ?_⟩
      · rw [harr, us.ext.arr i (by omega), sp.ext.arr i hi]
      · rw [hdrRemove_tab]
        rw [Heap.setTab_tab_ne _ _ (by omega : i ≠ r1.tab), us.tab, sp.ext.tab i hi]
      · rw [(hdrRemove_frame (A := Nope) (T := Nope) (M := Nope) (h2.setTab r1.tab t2) r1.shared cs).hdr i
          (by simp only [Heap.setTab_next]; omega) (fun hx => by have := f2 i hx; omega)]
        simp only [Heap.setTab_hdr, us.hdr, sp.ext.hdr i hi]
      · rw [hmsk, us.msk, sp.msk]
    · intro hs
      obtain ⟨f1, f2, _⟩ := sp.fresh hs
      exact ⟨f1, f2⟩
    · intro hs
      rw [(sp.same hs).1]; exact ⟨rfl, rfl⟩
    · intro sep
      rw [sp.str, ← hl1]
      rw [hdrList_frame (hdrRemove_frame (A := Nope) (T := Nope) (M := Nope) _ r1.shared cs) (o := r.strHdr)]
      · unfold hdrList; simp only [Heap.setTab_hdr, us.hdr]
      · intro i hi
        refine ⟨?_, fun hx => hsep1 sep i hx hi⟩
        have := wf.str_lt i hi
        simp only [Heap.setTab_next]; omega
    · intro q
      rw [htab]
      rcases hget q with h1 | ⟨s, s', g1, g2, g3⟩
      · exact Or.inl h1
      · refine Or.inr ⟨s, s', g1, g2, ?_⟩
        rw [hcs']
        split
        · rename_i hc; rw [if_pos hc] at g3
          exact ⟨g3.1, hval _ g3.2.1, g3.2.2.1, by rw [hread]; exact g3.2.2.2⟩
        · rename_i hc; rw [if_neg hc] at g3; exact g3
    · intro q q' s s' hne h1 h2 c1 c2
      rw [htab] at h1 h2
      rw [hcs'] at c1 c2
      exact us.distinct q q' s s' hne h1 h2 (by rw [hsn]; exact c1) (by rw [hsn]; exact c2)

/-- Unsharing shows nothing; the cells of the columns concerned are new. -/
theorem unshare_abs {d : DF} {h : Heap F} (wf : d.WF h) (sep : d.toRaw.Sep) (cols : List GoStr) :
    abs (d.toRaw.unshare cols h).2 { d with toRaw := (d.toRaw.unshare cols h).1 } = abs h d ∧
    DF.WF (d.toRaw.unshare cols h).2 { d with toRaw := (d.toRaw.unshare cols h).1 } := by
  have us := unshare_spec wf.toWF cols
  generalize d.toRaw.unshare cols h = p at us
  obtain ⟨r', h'⟩ := p
  simp only at us ⊢
  have hcell : ∀ q s s', AMap.get (h.tab d.tab) q = some s → AMap.get (h'.tab r'.tab) q = some s' →
      s'.len = s.len ∧ h'.cell s' = h.cell s := by
    intro q s s' h1 h2
    rcases us.get q with ⟨g1, g2⟩ | ⟨t, t', g1, g2, g3⟩
    · rw [h1] at g2; cases g2
    · rw [h1] at g1; cases g1
      rw [h2] at g2; cases g2
      split at g3
      · refine ⟨g3.1, ?_⟩
        funext i; rw [Heap.cell_eq_read, Heap.cell_eq_read, g3.2.2.2]
      · subst g3
        refine ⟨rfl, Heap.cell_congr ?_⟩
        rcases (wf.slices q s' h1).2 with h0 | ⟨h0, _⟩
        · left; have := (wf.slices q s' h1).1; omega
        · right; exact us.arr _ h0
  refine ⟨?_, ⟨us.wf, wf.idx_len, ?_⟩⟩
  · refine ADF.ext' rfl ?_ ?_ us.enc
    · intro k c
      simp only [abs]
      rcases us.get (k, c) with ⟨g1, g2⟩ | ⟨s, s', g1, g2, _⟩
      · rw [g1, g2]; rfl
      · rw [g1, g2]; simp only [Option.map_some, (hcell _ _ _ g1 g2).2]; rfl
    · intro c
      simp only [abs, us.marks sep]
  · obtain ⟨N, h1, h2, h3⟩ := wf.rect
    refine ⟨N, ?_, h2, h3⟩
    intro q s' hq
    rcases us.get q with ⟨g1, g2⟩ | ⟨s, s2, g1, g2, _⟩
    · have : AMap.get (h'.tab r'.tab) q = some s' := hq
      rw [g1] at this; cases this
    · rw [(hcell q s s' g1 hq).1, h1 q s g1]

end Verif
