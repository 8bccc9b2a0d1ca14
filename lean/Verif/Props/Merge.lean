import Verif.Props.Copies
import Verif.Proofs.Merge

/-! C56: `MergeRawDataRows` and `MergeRawDataColumns`. -/

namespace Verif
open scoped Demo
variable {F : Type}

/-- **C56** (rows). The merged structure has a column exactly when one of the inputs has it, and the
column holds the values of the inputs that have it, one input after the other. No existing object is
altered, and the result refers to new memory only. -/
theorem C56_rows_partial [GoFloat F] {h : Heap F} {l : List Raw} (wf : ∀ d ∈ l, d.WF h) :
    (∀ k c, rawCol (mergeRawDataRows l h).2 (mergeRawDataRows l h).1 k c =
      if ∃ d ∈ l, (rawCol h d k c).isSome then some ((l.filterMap (rawCol h · k c)).flatten) else none) ∧
    Heap.Ext h (mergeRawDataRows l h).2 ∧
    (mergeRawDataRows l h).1.WF (mergeRawDataRows l h).2 ∧
    (∀ d : Raw, d.WF h → d.Apart (mergeRawDataRows l h).2 (mergeRawDataRows l h).1) := by
  obtain ⟨m, hr, hc⟩ := mergeRawDataRows_spec wf
  refine ⟨?_, m.ext, m.toWF, ?_⟩
  · intro k c
    rw [hc k c]
    by_cases hx : ∃ d ∈ l, (rawCol h d k c).isSome
    · rw [if_pos hx, if_pos (by simpa using hx)]
    · rw [if_neg hx, if_neg (by simpa using hx)]
  · intro d wd
    refine ⟨⟨?_, ?_⟩, ?_⟩
    · have := wd.tab_lt; have := m.newTab; omega
    · rintro i hd (hi | hi) <;> rw [hr] at hi <;> cases hi
    · rintro i hd ⟨k, s, hk, hl, rfl⟩
      have h1 := m.fresh k s hk
      have h2 := (m.slices k s hk).1
      have h3 : s.arr < h.next := by
        obtain ⟨k', s', hk', hl', e⟩ := hd
        rw [m.ext.tab _ wd.tab_lt] at hk'
        exact Raw.arrays_lt wd ⟨k', s', hk', hl', e⟩
      omega

/-! #### later edits -/

/-- The arrays in which a structure's slices have room (an `Add*` call writes there). -/
def Raw.room (h : Heap F) (r : Raw) (i : Nat) : Prop :=
  ∃ k s, AMap.get (h.tab r.tab) k = some s ∧ s.cap ≠ 0 ∧ s.arr = i

/-- What a builder call may touch, and what the builder refers to afterwards. -/
structure BFoot (h : Heap F) (r : Raw) (h' : Heap F) (r' : Raw) : Prop where
  frame : Heap.Frame (r.room h) (· = r.tab) r.headers Nope h h'
  len : ∀ i, i < h.next → (h'.arr i).length = (h.arr i).length
  wf : r'.WF h'
  tab : r'.tab = r.tab
  hdr : ∀ i, r'.headers i → r.headers i ∨ h.next ≤ i
  rooms : ∀ i, r'.room h' i → r.room h i ∨ h.next ≤ i

theorem Raw.room_lt {h : Heap F} {r : Raw} (wf : r.WF h) {i : Nat} (hi : r.room h i) : i < h.next := by
  obtain ⟨k, s, hk, h1, rfl⟩ := hi
  rcases (wf.slices k s hk).2 with h2 | h2
  · exact absurd h2 h1
  · exact h2.1

theorem BFoot.add [GoFloat F] {h : Heap F} {r : Raw} (wf : r.WF h) (k : Kind) (c : GoStr) (vals : List (Val F)) :
    BFoot h r (r.add k c vals h) r := by
  have v := tabCol_valid wf (k, c)
  have fr := Heap.append_frame (T := Nope) (H := Nope) (M := Nope) h k.zero (tabCol (h.tab r.tab) (k, c)) vals
  have ht := Heap.append_tab h k.zero (tabCol (h.tab r.tab) (k, c)) vals
  have ha := Heap.append_arr h k.zero (tabCol (h.tab r.tab) (k, c)) vals
  have hv := Heap.append_valid (z := k.zero) (xs := vals) v
  have hlen : ∀ i, i < h.next → (((h.append k.zero (tabCol (h.tab r.tab) (k, c)) vals).2.arr i)).length
      = (h.arr i).length := by
    intro i hi
    generalize tabCol (h.tab r.tab) (k, c) = s at *
    unfold Heap.append
    split
    · rename_i hc
      by_cases e : i = s.arr
      · subst e
        simp only [Heap.setArr_arr, List.length_append, List.length_take, List.length_drop]
        rcases v.2 with h0 | ⟨_, h2⟩
        · have : vals.length = 0 := by omega
          omega
        · omega
      · simp [Heap.setArr, e]
    · rw [Heap.Ext.arr (Heap.newArr_ext ..) i hi]
  have hroom : ∀ i, i = (tabCol (h.tab r.tab) (k, c)).arr → (tabCol (h.tab r.tab) (k, c)).cap ≠ 0 → r.room h i := by
    intro i e h0
    unfold tabCol at e h0
    cases hg : AMap.get (h.tab r.tab) (k, c) with
    | none => rw [hg] at h0; exact absurd rfl h0
    | some s => rw [hg] at e h0; exact ⟨_, s, hg, h0, e.symm⟩
  generalize hh : h.append k.zero (tabCol (h.tab r.tab) (k, c)) vals = p at fr ht ha hv hlen
  obtain ⟨s, h1⟩ := p
  have hadd : r.add k c vals h = h1.setTab r.tab (AMap.set (h1.tab r.tab) (k, c) s) := by
    simp [Raw.add, hh]
  dsimp only at fr ht ha hv hlen
  rw [hadd]
  have getnew : ∀ q, AMap.get ((h1.setTab r.tab (AMap.set (h1.tab r.tab) (k, c) s)).tab r.tab) q =
      if (k, c) = q then some s else AMap.get (h.tab r.tab) q := by
    intro q
    rw [Heap.setTab_tab, AMap.get_set, ht]
  refine ⟨?_, hlen, ⟨?_, ?_, ?_, ?_, ?_⟩, rfl, fun i hi => Or.inl hi, ?_⟩
  · refine (fr.mono (A' := r.room h) (T' := (· = r.tab)) (H' := r.headers) (M' := Nope) ?_
      (fun _ _ => False.elim) (fun _ _ => False.elim) (fun _ _ => id)).trans
      (Heap.setTab_frame (A := Nope) (H := Nope) (M := Nope) h1 r.tab _)
      (fun _ _ => False.elim) (fun _ _ => id) (fun _ _ => False.elim) (fun _ _ => False.elim)
    rintro i _ ⟨e, h0, _⟩
    exact hroom i e h0
  · exact Nat.lt_of_lt_of_le wf.tab_lt fr.next_le
  · intro i hi; exact Nat.lt_of_lt_of_le (wf.shared_lt i hi) fr.next_le
  · intro i hi; exact Nat.lt_of_lt_of_le (wf.str_lt i hi) fr.next_le
  · rw [Heap.setTab_tab, ht]; exact AMap.nodup_set wf.keys _ _
  · intro q s' hq
    rw [getnew] at hq
    split at hq
    · cases hq; exact hv
    · exact (wf.slices _ _ hq).of_len fr.next_le hlen
  · rintro i ⟨q, s', hq, h0, rfl⟩
    rw [getnew] at hq
    split at hq
    · cases hq
      rcases ha with ⟨e1, e2⟩ | ha
      · left; rw [e1]; rw [e2] at h0; exact hroom _ rfl h0
      · exact Or.inr ha
    · exact Or.inl ⟨q, s', hq, h0, rfl⟩

theorem BFoot.trans {h h1 h2 : Heap F} {r r1 r2 : Raw} (a : BFoot h r h1 r1) (b : BFoot h1 r1 h2 r2) :
    BFoot h r h2 r2 := by
  have hn := a.frame.next_le
  refine ⟨?_, ?_, b.wf, b.tab.trans a.tab, ?_, ?_⟩
  · refine a.frame.trans b.frame ?_ ?_ ?_ (fun _ _ => id)
    · intro i hi hr
      rcases a.rooms i hr with h | h
      · exact h
      · omega
    · intro i hi e; exact e.trans a.tab
    · intro i hi e
      rcases a.hdr i e with h | h
      · exact h
      · omega
  · intro i hi; rw [b.len i (Nat.lt_of_lt_of_le hi hn), a.len i hi]
  · intro i hi
    rcases b.hdr i hi with h | h
    · exact a.hdr i h
    · right; omega
  · intro i hi
    rcases b.rooms i hi with h | h
    · exact a.rooms i h
    · right; omega

theorem BFoot.mark {h : Heap F} {r : Raw} (wf : r.WF h) (c : GoStr) :
    BFoot h r (r.markAsString c h).2 (r.markAsString c h).1 := by
  have e : r.markAsString c h = ({ r with strHdr := (hdrAdd h r.strHdr [c]).1 }, (hdrAdd h r.strHdr [c]).2) := rfl
  have fr := hdrAdd_frame (A := Nope) (T := Nope) (M := Nope) h r.strHdr [c]
  have hlt := hdrAdd_lt wf.str_lt [c]
  have ht := hdrAdd_tab h r.strHdr [c]
  have har := hdrAdd_arr h r.strHdr [c]
  have hn := hdrAdd_next_le h r.strHdr [c]
  have hfst := hdrAdd_fst h r.strHdr [c]
  rw [e]
  generalize hdrAdd h r.strHdr [c] = p at *
  obtain ⟨st, h1⟩ := p
  dsimp only at *
  refine ⟨fr.mono (fun _ _ => False.elim) (fun _ _ => False.elim) ?_ (fun _ _ => id), ?_, ⟨?_, ?_, ?_, ?_, ?_⟩, rfl,
    ?_, ?_⟩
  · intro i _ hi; exact Or.inr hi
  · intro i _; rw [har]
  · exact Nat.lt_of_lt_of_le wf.tab_lt hn
  · intro i hi; exact Nat.lt_of_lt_of_le (wf.shared_lt i hi) hn
  · exact hlt
  · rw [ht]; exact wf.keys
  · intro k s hk
    rw [ht] at hk
    exact (wf.slices k s hk).of_len hn (fun i _ => by rw [har])
  · rintro i (hi | hi)
    · exact Or.inl (Or.inl hi)
    · dsimp only at hi
      cases hs : r.strHdr with
      | none => right; rw [hs] at hfst; rw [hfst] at hi; simp at hi; omega
      | some j => left; right; rw [hs] at hfst; rw [hfst] at hi; rw [hs]; simpa using hi
  · intro i hi
    left
    obtain ⟨k, s, hk, h0, rfl⟩ := hi
    rw [ht] at hk
    exact ⟨k, s, hk, h0, rfl⟩

theorem BFoot.bop [GoFloat F] {h : Heap F} {r : Raw} (wf : r.WF h) (op : BOp F) :
    BFoot h r (op.run (r, h)).2 (op.run (r, h)).1 := by
  cases op with
  | add k c vals => exact BFoot.add wf k c vals
  | addStrings c vals => 
    have a := BFoot.add wf .obj c (vals.map .str)
    exact a.trans (BFoot.mark a.wf c)
  | mark c => exact BFoot.mark wf c
  | set k c vals extra =>
    obtain ⟨xs, hxs⟩ : ∃ xs, xs = vals ++ extra := ⟨_, rfl⟩
    have e : (BOp.set k c vals extra).run (r, h) = (r, (h.newArr xs).2.setTab r.tab
        (AMap.set (h.tab r.tab) (k, c) ⟨h.next, 0, vals.length, xs.length⟩)) := by rw [hxs]; rfl
    have eA : Heap.Ext h (h.newArr xs).2 := Heap.newArr_ext ..
    have hlen : ∀ i, i < h.next → (((h.newArr xs).2.arr i)).length = (h.arr i).length := by
      intro i hi; rw [eA.arr i hi]
    rw [e]
    have getnew : ∀ q, AMap.get (((h.newArr xs).2.setTab r.tab
        (AMap.set (h.tab r.tab) (k, c) ⟨h.next, 0, vals.length, xs.length⟩)).tab r.tab) q =
        if (k, c) = q then some ⟨h.next, 0, vals.length, xs.length⟩ else AMap.get (h.tab r.tab) q := by
      intro q
      rw [Heap.setTab_tab, AMap.get_set]
    refine ⟨?_, hlen, ⟨?_, ?_, ?_, ?_, ?_⟩, rfl, fun i hi => Or.inl hi, ?_⟩
    · exact (eA.toFrame (A := r.room h) (T := (· = r.tab)) (H := r.headers) (M := Nope)).trans
        (Heap.setTab_frame (A := Nope) (H := Nope) (M := Nope) _ r.tab _)
        (fun _ _ => False.elim) (fun _ _ => id) (fun _ _ => False.elim) (fun _ _ => False.elim)
    · exact Nat.lt_succ_of_lt wf.tab_lt
    · intro i hi; exact Nat.lt_succ_of_lt (wf.shared_lt i hi)
    · intro i hi; exact Nat.lt_succ_of_lt (wf.str_lt i hi)
    · rw [Heap.setTab_tab]; exact AMap.nodup_set wf.keys _ _
    · intro q s' hq
      rw [getnew] at hq
      split at hq
      · cases hq
        refine ⟨by simp [hxs], Or.inr ⟨Nat.lt_succ_self _, ?_⟩⟩
        show 0 + xs.length ≤ ((h.newArr xs).2.arr h.next).length
        rw [Heap.newArr_arr]; omega
      · exact (wf.slices _ _ hq).of_len eA.next_le hlen
    · rintro i ⟨q, s', hq, h0, rfl⟩
      rw [getnew] at hq
      split at hq
      · cases hq; exact Or.inr (Nat.le_refl _)
      · exact Or.inl ⟨q, s', hq, h0, rfl⟩
  | enc e =>
    exact ⟨Heap.Frame.refl .., fun _ _ => rfl, ⟨wf.tab_lt, wf.shared_lt, wf.str_lt, wf.keys, wf.slices⟩, rfl,
      fun _ => Or.inl, fun _ => Or.inl⟩

/-- Builder calls on one of two structures (`true` = the first one), one after the other. -/
def runBuilders [GoFloat F] : List (Bool × BOp F) → Raw × Raw → Heap F → (Raw × Raw) × Heap F
  | [], p, h => (p, h)
  | (true, o) :: os, (a, b), h => let (a', h') := o.run (a, h); runBuilders os (a', b) h'
  | (false, o) :: os, (a, b), h => let (b', h') := o.run (b, h); runBuilders os (a, b') h'

/-- Two builders that have no map and no array in common. -/
structure BApart (h : Heap F) (a b : Raw) : Prop extends Raw.StructApart a b where
  room : ∀ i, a.room h i → ¬ b.room h i

theorem BApart.symm {h : Heap F} {a b : Raw} (s : BApart h a b) : BApart h b a :=
  ⟨s.toStructApart.symm, fun i hb ha => s.room i ha hb⟩

theorem BFoot.other {h h' : Heap F} {a a' b : Raw} (f : BFoot h a h' a') (wb : b.WF h) (s : BApart h a b) :
    b.WF h' ∧ BApart h' a' b ∧ (∀ k c, rawCol h' b k c = rawCol h b k c) ∧
      (∀ c, rawStr h' b c = rawStr h b c) := by
  have ht : h'.tab b.tab = h.tab b.tab := f.frame.tab _ wb.tab_lt (fun e => s.tab e.symm)
  have hn := f.frame.next_le
  have wb' : b.WF h' :=
    ⟨Nat.lt_of_lt_of_le wb.tab_lt hn, fun i hi => Nat.lt_of_lt_of_le (wb.shared_lt i hi) hn,
    fun i hi => Nat.lt_of_lt_of_le (wb.str_lt i hi) hn, by rw [ht]; exact wb.keys,
    fun k s hk => by rw [ht] at hk; exact (wb.slices k s hk).of_len hn f.len⟩
  refine ⟨wb', ⟨⟨?_, ?_⟩, ?_⟩, ?_, ?_⟩
  · rw [f.tab]; exact s.tab
  · intro i ha hb
    rcases f.hdr i ha with h1 | h1
    · exact s.hdr i h1 hb
    · have := Raw.headers_lt wb hb; omega
  · intro i ha hb
    have hb' : b.room h i := by
      obtain ⟨k, s', hk, x⟩ := hb
      rw [ht] at hk
      exact ⟨k, s', hk, x⟩
    rcases f.rooms i ha with h1 | h1
    · exact s.room i h1 hb'
    · have := Raw.room_lt wb hb'; omega
  · intro k c
    unfold rawCol
    rw [ht]
    cases hg : AMap.get (h.tab b.tab) (k, c) with
    | none => rfl
    | some s' =>
      simp only [Option.map_some, Option.some.injEq]
      apply Heap.read_congr
      have v := wb.slices _ _ hg
      refine v.arr_eq_frame f.frame ?_
      by_cases h0 : s'.len = 0
      · exact Or.inl h0
      · right; intro hr; exact s.room _ hr ⟨_, s', hg, by have := v.1; omega, rfl⟩
  · intro c
    unfold rawStr
    rw [hdrList_frame f.frame (o := b.strHdr)]
    exact fun i hi => ⟨wb.str_lt i hi, fun ha => s.hdr i ha (Or.inr hi)⟩

theorem runBuilders_apart [GoFloat F] {os : List (Bool × BOp F)} {a b a' b' : Raw} {h h' : Heap F}
    (wa : a.WF h) (wb : b.WF h) (s : BApart h a b) (he : runBuilders os (a, b) h = ((a', b'), h')) :
    a'.WF h' ∧ b'.WF h' ∧ BApart h' a' b' := by
  induction os generalizing a b h with
  | nil => simp only [runBuilders] at he; cases he; exact ⟨wa, wb, s⟩
  | cons x os ih =>
    obtain ⟨t, o⟩ := x
    cases t
    · have f := BFoot.bop wb o
      obtain ⟨w1, s1, _⟩ := f.other wa s.symm
      exact ih w1 f.wf s1.symm he
    · have f := BFoot.bop wa o
      obtain ⟨w1, s1, _⟩ := f.other wb s
      exact ih f.wf w1 s1 he

/-- **C56** (isolation, builder calls). Whatever sequence of `Add*`, `Set*`, `MarkAsString`... calls is
made, in any order, on the merged structure and on a structure that existed before the merge, the next
call on one of the two is invisible in the other. -/
theorem C56_rows_isolated_builder [GoFloat F] {h h2 : Heap F} {l : List Raw} (wf : ∀ d ∈ l, d.WF h)
    {d a b : Raw} (wd : d.WF h) {os : List (Bool × BOp F)}
    (hr : runBuilders os (d, (mergeRawDataRows l h).1) (mergeRawDataRows l h).2 = ((a, b), h2)) :
    (∀ op : BOp F, (∀ k c, rawCol (op.run (a, h2)).2 b k c = rawCol h2 b k c) ∧
      ∀ c, rawStr (op.run (a, h2)).2 b c = rawStr h2 b c) ∧
    (∀ op : BOp F, (∀ k c, rawCol (op.run (b, h2)).2 a k c = rawCol h2 a k c) ∧
      ∀ c, rawStr (op.run (b, h2)).2 a c = rawStr h2 a c) := by
  obtain ⟨m, hnew, _⟩ := mergeRawDataRows_spec wf
  have ap : BApart (mergeRawDataRows l h).2 d (mergeRawDataRows l h).1 := by
    refine ⟨⟨?_, ?_⟩, ?_⟩
    · have := wd.tab_lt; have := m.newTab; omega
    · rintro i hd (hi | hi) <;> rw [hnew] at hi <;> cases hi
    · rintro i hd ⟨k, s, hk, h0, rfl⟩
      have h1 := m.fresh k s hk
      have h3 : s.arr < h.next := by
        obtain ⟨k', s', hk', hl', e⟩ := hd
        rw [m.ext.tab _ wd.tab_lt] at hk'
        exact Raw.room_lt wd ⟨k', s', hk', hl', e⟩
      omega
  obtain ⟨wa, wb, s⟩ := runBuilders_apart (wd.ext m.ext) m.toWF ap hr
  constructor
  · intro op
    obtain ⟨_, _, h1, h2⟩ := (BFoot.bop wa op).other wb s
    exact ⟨h1, h2⟩
  · intro op
    obtain ⟨_, _, h1, h2⟩ := (BFoot.bop wb op).other wa s.symm
    exact ⟨h1, h2⟩

/-- **C56** (isolation, edits). The same for cell writes, renames, drops, allocations, conversions...
applied to two dataframes, one over the merged structure and one over a structure that existed
before. -/
theorem C56_rows_isolated_edits [GoFloat F] {h h2 : Heap F} {l : List Raw} (wf : ∀ d ∈ l, d.WF h)
    {d res a b : DF} (wd : d.toRaw.WF h) (hres : res.toRaw = (mergeRawDataRows l h).1) {es : List (Bool × Edit F)}
    (hr : runPair es (d, res) (mergeRawDataRows l h).2 = .ok ((a, b), h2)) :
    (∀ (e : Edit F) a' h3, e.run a h2 = .ok (a', h3) → abs h3 b = abs h2 b) ∧
    (∀ (e : Edit F) b' h3, e.run b h2 = .ok (b', h3) → abs h3 a = abs h2 a) := by
  obtain ⟨_, ext, wr, ap⟩ := C56_rows_partial wf
  have ap := ap d.toRaw wd
  rw [← hres] at wr ap
  obtain ⟨wa, wb, ap⟩ := runPair_apart (wd.ext ext) wr ap hr
  constructor
  · intro e a' h3 hx
    exact ((Edit.foot wa hx).other_abs wb ap.toStructApart ap.arr).1
  · intro e b' h3 hx
    exact ((Edit.foot wb hx).other_abs wa ap.symm.toStructApart ap.symm.arr).1

/-- C56 is false of the code as far as string marks are concerned: `MergeRawDataRows` never marks a
column as string, and it forgets the text encoding. -/
theorem C56_rows_forget_marks [GoFloat F] {h : Heap F} {l : List Raw} (wf : ∀ d ∈ l, d.WF h) :
    (∀ c, rawStr (mergeRawDataRows l h).2 (mergeRawDataRows l h).1 c = false) ∧
    (mergeRawDataRows l h).1.enc = none := by
  obtain ⟨_, hnew, _⟩ := mergeRawDataRows_spec wf
  rw [hnew]
  exact ⟨fun c => rfl, rfl⟩

/-- C56 refuted: the string column of the demo dataframe is no longer a string column after
`MergeRawDataRows`. -/
theorem C56_marks_refuted : ∃ (h : Heap Int) (d : Raw) (c : GoStr), d.WF h ∧ rawStr h d c = true ∧
    (rawCol (mergeRawDataRows [d] h).2 (mergeRawDataRows [d] h).1 .obj c).isSome ∧
    rawStr (mergeRawDataRows [d] h).2 (mergeRawDataRows [d] h).1 c = false :=
  ⟨Demo.h, Demo.df.toRaw, b!"s", Demo.df_wf.toWF, by decide, by decide, by decide⟩

/-! #### MergeRawDataColumns -/

/-- One `TransferRawDataFrom` of `MergeRawDataColumns`. -/
structure ColsInv (h0 : Heap F) (l : List Raw) (h : Heap F) (r : Raw) : Prop where
  ext : Heap.Ext h0 h
  notShared : r.sharedMaps = false
  newTab : h0.next ≤ r.tab ∧ r.tab < h.next
  newSh : ∀ i, r.shared = some i → h0.next ≤ i ∧ i < h.next
  newSt : ∀ i, r.strHdr = some i → h0.next ≤ i ∧ i < h.next
  sep : ∀ i, r.shared = some i → r.strHdr ≠ some i
  keys : (AMap.keys (h.tab r.tab)).Nodup
  col : ∀ q, AMap.get (h.tab r.tab) q = l.reverse.findSome? fun d => AMap.get (h0.tab d.tab) q
  marks : ∀ c, c ∈ hdrList h r.strHdr ↔ ∃ d ∈ l, c ∈ hdrList h0 d.strHdr
  sh : ∀ c, c ∈ hdrList h r.shared ↔ ∃ d ∈ l, c ∈ tabNames (h0.tab d.tab)

theorem ColsInv.step {h0 h : Heap F} {l : List Raw} {r d : Raw} (m : ColsInv h0 l h r) (wd : d.WF h0) :
    ColsInv h0 (l ++ [d]) (r.transferFrom d h).2
      { (r.transferFrom d h).1 with enc := d.enc, maxCPU := d.maxCPU } := by
  have ht : h.tab d.tab = h0.tab d.tab := m.ext.tab _ wd.tab_lt
  have hst : hdrList h d.strHdr = hdrList h0 d.strHdr := by
    cases hs : d.strHdr with
    | none => rfl
    | some i => exact m.ext.hdr i (wd.str_lt i hs)
  let es := h.tab d.tab
  let h1 := h.setTab r.tab (tabSetAll (h.tab r.tab) es)
  obtain ⟨p2, hp2⟩ : ∃ p, p = hdrAddEach h1 r.shared (tabNames es) := ⟨_, rfl⟩
  obtain ⟨p3, hp3⟩ : ∃ p, p = hdrAddEach p2.2 r.strHdr (hdrList p2.2 d.strHdr) := ⟨_, rfl⟩
  have hown : r.own h = (r, h) := by unfold Raw.own; rw [if_neg (by rw [m.notShared]; decide)]
  have hr : r.transferFrom d h = ({ r with shared := p2.1, strHdr := p3.1 }, p3.2) := by
    unfold Raw.transferFrom
    rw [hown]
    rw [hp3, hp2]
    rfl
  have f2 := hdrAddEach_frame (A := Nope) (T := Nope) (M := Nope) h1 r.shared (tabNames es)
  have t2 := hdrAddEach_tab h1 r.shared (tabNames es)
  have m2 := hdrAddEach_mem h1 r.shared (tabNames es)
  have n2 := hdrAddEach_next_le h1 r.shared (tabNames es)
  have l2 := hdrAddEach_lt (h := h1) (o := r.shared) (fun i hi => (m.newSh i hi).2) (tabNames es)
  have x2 := fun i => hdrAddEach_fst h1 r.shared (tabNames es) (i := i)
  rw [← hp2] at f2 t2 m2 n2 l2 x2
  have f3 := hdrAddEach_frame (A := Nope) (T := Nope) (M := Nope) p2.2 r.strHdr (hdrList p2.2 d.strHdr)
  have t3 := hdrAddEach_tab p2.2 r.strHdr (hdrList p2.2 d.strHdr)
  have m3 := hdrAddEach_mem p2.2 r.strHdr (hdrList p2.2 d.strHdr)
  have n3 := hdrAddEach_next_le p2.2 r.strHdr (hdrList p2.2 d.strHdr)
  have l3 := hdrAddEach_lt (h := p2.2) (o := r.strHdr)
    (fun i hi => Nat.lt_of_lt_of_le (m.newSt i hi).2 n2) (hdrList p2.2 d.strHdr)
  have x3 := fun i => hdrAddEach_fst p2.2 r.strHdr (hdrList p2.2 d.strHdr) (i := i)
  rw [← hp3] at f3 t3 m3 n3 l3 x3
  have e1 : Heap.Ext h0 h1 := by
    apply Heap.Frame.toExt
    refine (m.ext.toFrame (A := Nope) (T := Nope) (H := Nope) (M := Nope)).trans
      (Heap.setTab_frame (A := Nope) (H := Nope) (M := Nope) h r.tab _) (fun _ _ => id) ?_
      (fun _ _ => id) (fun _ _ => id)
    intro i hi e; have := m.newTab.1; exact absurd hi (by omega)
  have e2 : Heap.Ext h0 p2.2 := by
    apply Heap.Frame.toExt
    refine (e1.toFrame (A := Nope) (T := Nope) (H := Nope) (M := Nope)).trans f2 (fun _ _ => id) (fun _ _ => id)
      ?_ (fun _ _ => id)
    intro i hi e; have := (m.newSh i e).1; exact absurd hi (by omega)
  have e3 : Heap.Ext h0 p3.2 := by
    apply Heap.Frame.toExt
    refine (e2.toFrame (A := Nope) (T := Nope) (H := Nope) (M := Nope)).trans f3 (fun _ _ => id) (fun _ _ => id)
      ?_ (fun _ _ => id)
    intro i hi e; have := (m.newSt i e).1; exact absurd hi (by omega)
  have hn0 : h1.next = h.next := rfl
  have hsh : ∀ i, p2.1 = some i → (h0.next ≤ i ∧ i < p2.2.next) ∧ (r.strHdr ≠ some i) := by
    intro i hi
    refine ⟨⟨?_, l2 i hi⟩, ?_⟩
    · rcases x2 i hi with hx | hx
      · exact (m.newSh i hx).1
      · rw [hx.2.1]; exact e1.next_le
    · rcases x2 i hi with hx | hx
      · exact m.sep i hx
      · intro hs; have := (m.newSt i hs).2; have := hx.2.1; omega
  have tabeq : p3.2.tab r.tab = tabSetAll (h.tab r.tab) es := by
    rw [t3, t2]; exact Heap.setTab_tab ..
  rw [hr]
  refine ⟨e3, m.notShared, ⟨m.newTab.1, ?_⟩, ?_, ?_, ?_, ?_, ?_, ?_, ?_⟩
  · have := m.newTab.2; dsimp only; omega
  · intro i hi
    have := hsh i hi; dsimp only; omega
  · intro i hi
    refine ⟨?_, l3 i hi⟩
    rcases x3 i hi with hx | hx
    · exact (m.newSt i hx).1
    · rw [hx.2.1]; exact e2.next_le
  · intro i hi hi'
    obtain ⟨⟨_, h2⟩, h3⟩ := hsh i hi
    rcases x3 i hi' with hx | hx
    · exact h3 hx
    · have := hx.2.1; omega
  · show (AMap.keys (p3.2.tab r.tab)).Nodup
    rw [tabeq]; exact nodup_tabSetAll m.keys
  · intro q
    show AMap.get (p3.2.tab r.tab) q = _
    rw [tabeq, get_tabSetAll _ _ (by show (AMap.keys (h.tab d.tab)).Nodup; rw [ht]; exact wd.keys), m.col]
    show (AMap.get (h.tab d.tab) q).or _ = _
    rw [ht]
    simp only [List.reverse_append, List.reverse_cons, List.reverse_nil, List.nil_append, List.singleton_append,
      List.findSome?_cons]
    cases AMap.get (h0.tab d.tab) q <;> rfl
  · intro c
    show c ∈ hdrList p3.2 p3.1 ↔ _
    rw [m3]
    have hA : hdrList p2.2 r.strHdr = hdrList h r.strHdr := by
      rw [hdrList_frame f2 (o := r.strHdr)]
      · cases r.strHdr <;> rfl
      · exact fun i hi => ⟨(m.newSt i hi).2, fun hs => m.sep i hs hi⟩
    have hB : hdrList p2.2 d.strHdr = hdrList h0 d.strHdr := by
      cases hs : d.strHdr with
      | none => rfl
      | some i => exact e2.hdr i (wd.str_lt i hs)
    rw [hA, hB, m.marks]
    constructor
    · rintro (⟨d', hd', hc⟩ | hc)
      · exact ⟨d', by simp [hd'], hc⟩
      · exact ⟨d, by simp, hc⟩
    · rintro ⟨d', hd', hc⟩
      rcases List.mem_append.1 hd' with hx | hx
      · exact Or.inl ⟨d', hx, hc⟩
      · rw [List.mem_singleton] at hx; subst hx; exact Or.inr hc
  · intro c
    show c ∈ hdrList p3.2 p2.1 ↔ _
    have hA : hdrList p3.2 p2.1 = hdrList p2.2 p2.1 := by
      rw [hdrList_frame f3 (o := p2.1)]
      exact fun i hi => ⟨(hsh i hi).1.2, (hsh i hi).2⟩
    have hB : hdrList h1 r.shared = hdrList h r.shared := by cases r.shared <;> rfl
    rw [hA, m2, hB, m.sh]
    show _ ∨ c ∈ tabNames (h.tab d.tab) ↔ _
    rw [ht]
    constructor
    · rintro (⟨d', hd', hc⟩ | hc)
      · exact ⟨d', by simp [hd'], hc⟩
      · exact ⟨d, by simp, hc⟩
    · rintro ⟨d', hd', hc⟩
      rcases List.mem_append.1 hd' with hx | hx
      · exact Or.inl ⟨d', hx, hc⟩
      · rw [List.mem_singleton] at hx; subst hx; exact Or.inr hc

/-- One step of `MergeRawDataColumns`. -/
def mergeColsStep (p : Raw × Heap F) (e : Raw) : Raw × Heap F :=
  ({ (p.1.transferFrom e p.2).1 with enc := e.enc, maxCPU := e.maxCPU }, (p.1.transferFrom e p.2).2)

theorem mergeRawDataColumns_inv {h : Heap F} {l : List Raw} (wf : ∀ d ∈ l, d.WF h) :
    ColsInv h l (mergeRawDataColumns l h).2 (mergeRawDataColumns l h).1 ∧
    ∀ d, l.getLast? = some d → (mergeRawDataColumns l h).1.enc = d.enc ∧
      (mergeRawDataColumns l h).1.maxCPU = d.maxCPU := by
  have hm : mergeRawDataColumns l h = l.foldl mergeColsStep (newRawData h) := rfl
  rw [hm]
  have base : ColsInv h [] (newRawData h).2 (newRawData h).1 := by
    obtain ⟨m, hc⟩ := newRawData_inv h
    have ht : (newRawData h).2.tab (newRawData h).1.tab = [] := Heap.newTab_tab h []
    refine ⟨m.ext, rfl, ⟨m.newTab, m.tab_lt⟩, ?_, ?_, ?_, m.keys, ?_, ?_, ?_⟩
    · intro i hi; cases hi
    · intro i hi; cases hi
    · intro i hi; cases hi
    · intro q; rw [ht]; rfl
    · intro c; simp [newRawData, hdrList]
    · intro c; simp [newRawData, hdrList]
  have key : ∀ (done todo : List Raw) (p : Raw × Heap F), (∀ d ∈ todo, d.WF h) → ColsInv h done p.2 p.1 →
      ColsInv h (done ++ todo) (todo.foldl mergeColsStep p).2 (todo.foldl mergeColsStep p).1 ∧
      ∀ d, todo.getLast? = some d → (todo.foldl mergeColsStep p).1.enc = d.enc ∧
        (todo.foldl mergeColsStep p).1.maxCPU = d.maxCPU := by
    intro done todo
    induction todo generalizing done with
    | nil => intro p _ m; rw [List.append_nil]; exact ⟨m, fun d hd => by cases hd⟩
    | cons d todo ih =>
      intro p hw m
      have m1 := m.step (hw d (List.mem_cons_self ..))
      obtain ⟨r1, r2⟩ := ih (done ++ [d]) (mergeColsStep p d) (fun d hd => hw d (List.mem_cons_of_mem _ hd)) m1
      rw [List.append_assoc] at r1
      refine ⟨r1, ?_⟩
      intro d' hd'
      cases todo with
      | nil => simp at hd'; subst hd'; exact ⟨rfl, rfl⟩
      | cons e todo => exact r2 d' (by simpa using hd')
  exact key [] l _ wf base

/-- **C56** (columns). `MergeRawDataColumns` holds the typed columns of all the structures, over their
memory; when several structures have the same typed column the last one wins. A column is marked as
string when it is in one of the structures; the encoding and the CPU limit are those of the last one.
No existing object is altered. -/
theorem C56_columns {h : Heap F} {l : List Raw} (wf : ∀ d ∈ l, d.WF h) :
    (∀ k c, rawCol (mergeRawDataColumns l h).2 (mergeRawDataColumns l h).1 k c =
      l.reverse.findSome? (rawCol h · k c)) ∧
    (∀ k c, rawLoc (mergeRawDataColumns l h).2 (mergeRawDataColumns l h).1 k c =
      l.reverse.findSome? (rawLoc h · k c)) ∧
    (∀ c, rawStr (mergeRawDataColumns l h).2 (mergeRawDataColumns l h).1 c = l.any (rawStr h · c)) ∧
    (∀ d, l.getLast? = some d → (mergeRawDataColumns l h).1.enc = d.enc ∧
      (mergeRawDataColumns l h).1.maxCPU = d.maxCPU) ∧
    Heap.Ext h (mergeRawDataColumns l h).2 ∧
    (mergeRawDataColumns l h).1.WF (mergeRawDataColumns l h).2 := by
  obtain ⟨m, hlast⟩ := mergeRawDataColumns_inv wf
  have hval : ∀ q s, (l.reverse.findSome? fun d => AMap.get (h.tab d.tab) q) = some s → s.Valid h := by
    intro q s hs
    obtain ⟨d, hd, hg⟩ := List.exists_of_findSome?_eq_some hs
    exact (wf d (by simpa using hd)).slices _ _ hg
  refine ⟨?_, fun k c => m.col (k, c), ?_, hlast, m.ext, ⟨m.newTab.2, fun i hi => (m.newSh i hi).2,
    fun i hi => (m.newSt i hi).2, m.keys, ?_⟩⟩
  · intro k c
    unfold rawCol
    rw [m.col, List.map_findSome?]
    have : ∀ (L : List Raw), (∀ d ∈ L, d.WF h) →
        L.findSome? (Option.map (mergeRawDataColumns l h).2.read ∘ fun d => AMap.get (h.tab d.tab) (k, c)) =
        L.findSome? (fun d => (AMap.get (h.tab d.tab) (k, c)).map h.read) := by
      intro L hL
      induction L with
      | nil => rfl
      | cons d L ih =>
        rw [List.findSome?_cons, List.findSome?_cons, ih (fun d hd => hL d (List.mem_cons_of_mem _ hd))]
        simp only [Function.comp]
        cases hg : AMap.get (h.tab d.tab) (k, c) with
        | none => rfl
        | some s =>
          have v := (hL d (List.mem_cons_self ..)).slices _ _ hg
          simp only [Option.map_some]
          rw [Heap.read_congr (v.arr_eq m.ext)]
    exact this l.reverse (fun d hd => wf d (by simpa using hd))
  · intro c
    unfold rawStr
    rw [Bool.eq_iff_iff]
    simp [m.marks]
  · intro q s hs
    rw [m.col] at hs
    exact (hval q s hs).ext m.ext

/-- C56, "later structures winning on name clashes" is false of the code when the two columns don't
have the same type: both survive under the same name. -/
theorem C56_columns_clash_refuted : ∃ (h : Heap Int) (a b : Raw) (c : GoStr), a.WF h ∧ b.WF h ∧
    (rawCol h a .int c).isSome ∧ (rawCol h b .float c).isSome ∧
    (rawCol (mergeRawDataColumns [a, b] h).2 (mergeRawDataColumns [a, b] h).1 .int c).isSome ∧
    (rawCol (mergeRawDataColumns [a, b] h).2 (mergeRawDataColumns [a, b] h).1 .float c).isSome := by
  have b1 := buildInv_build ([.add .int b!"x" [.int 1]] : List (BOp Int)) Demo.heap0
  let p := build ([.add .int b!"x" [.int 1]] : List (BOp Int)) Demo.heap0
  let q := build ([.add .float b!"x" [.float 1]] : List (BOp Int)) p.2
  have b2 := buildInv_build ([.add .float b!"x" [.float 1]] : List (BOp Int)) p.2
  refine ⟨q.2, p.1, q.1, b!"x", ?_, b2.toWF, by decide, by decide, by decide, by decide⟩
  refine b1.toWF.ext ?_
  obtain ⟨m, _⟩ := newRawData_inv p.2
  exact (m.add .float b!"x" [.float 1]).ext

-- three structures with common and distinct columns, merged by rows and by columns
example : let d := Demo.df.toRaw
    rawCol (mergeRawDataRows [d, d] Demo.h).2 (mergeRawDataRows [d, d] Demo.h).1 .int b!"a" =
      some [.int 10, .int 20, .int 30, .int 40, .int 10, .int 20, .int 30, .int 40] := by decide
example : ∃ a b h2, runPair [(true, .set .int b!"a" 0 (.int 7)), (false, .drop [b!"x"]), (true, .rename b!"s" b!"t")]
    (Demo.df, { Demo.df with toRaw := (mergeRawDataRows [Demo.df.toRaw, Demo.df.toRaw] Demo.h).1 })
    (mergeRawDataRows [Demo.df.toRaw, Demo.df.toRaw] Demo.h).2 = .ok ((a, b), h2) := by
  have hd : okAnd (runPair [(true, .set .int b!"a" 0 (.int 7)), (false, .drop [b!"x"]), (true, .rename b!"s" b!"t")]
    (Demo.df, { Demo.df with toRaw := (mergeRawDataRows [Demo.df.toRaw, Demo.df.toRaw] Demo.h).1 })
    (mergeRawDataRows [Demo.df.toRaw, Demo.df.toRaw] Demo.h).2) (fun _ => true) = true := by decide
  obtain ⟨q, e2, _⟩ := okAnd_iff.1 hd
  exact ⟨q.1.1, q.1.2, q.2, e2⟩

end Verif
