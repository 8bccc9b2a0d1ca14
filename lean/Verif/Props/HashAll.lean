import Verif.Props.Hash
import Verif.Proofs.Check

/-! C37 when no column is left out: what `HashStringsView` does then. -/

namespace Verif
variable {F : Type} [GoFloat F]

/-- The jobs, one after the other. -/
theorem hash_fold {tab : Nat} {src dst : GoStr → Slice} {rows : List Nat} : ∀ {todo : List GoStr} {g : Heap F},
    (∀ c ∈ todo, tabCol (g.tab tab) (.obj, c) = src c ∧ tabCol (g.tab tab) (.int, c) = dst c) →
    (∀ c ∈ todo, (src c).Valid g ∧ (dst c).Valid g) →
    (∀ c ∈ todo, ∀ c' ∈ todo, (src c).len = 0 ∨ (src c).arr ≠ (dst c').arr) →
    (∀ c ∈ todo, ∀ c' ∈ todo, c ≠ c' → (dst c).arr ≠ (dst c').arr) →
    (∀ c ∈ todo, ∀ i ∈ rows, i < (src c).len ∧ i < (dst c).len) →
    ∃ g', todo.foldlM (fun s c => hashColumn (tabCol (s.tab tab) (.obj, c)) (tabCol (s.tab tab) (.int, c)) rows s) g = .ok g' ∧
      Quiet g g' ∧ (∀ j, (∀ c ∈ todo, j ≠ (dst c).arr) → g'.arr j = g.arr j) ∧
      ∀ c ∈ todo, ∀ i, g'.cell (dst c) i =
        if i ∈ rows then (g.cell (src c) i).map (fun v => .int (hashVal v)) else g.cell (dst c) i
  | [], g, _, _, _, _, _ => ⟨g, rfl, Quiet.refl g, fun _ _ => rfl, by simp⟩
  | c :: cs, g, ht, hv, hs, hd, hl => by
    obtain ⟨e1, e2⟩ := ht c (by simp)
    obtain ⟨v1, v2⟩ := hv c (by simp)
    obtain ⟨g1, r1, q1, o1, c1⟩ := hashColumn_spec v1 v2 (hs c (by simp) c (by simp)) (fun i hi => (hl c (by simp) i hi).1)
      (fun i hi => (hl c (by simp) i hi).2)
    obtain ⟨g2, r2, q2, o2, c2⟩ := hash_fold (tab := tab) (src := src) (dst := dst) (rows := rows) (todo := cs) (g := g1)
      (fun x hx => by rw [q1.tab]; exact ht x (by simp [hx]))
      (fun x hx => ⟨q1.valid (hv x (by simp [hx])).1, q1.valid (hv x (by simp [hx])).2⟩)
      (fun x hx y hy => hs x (by simp [hx]) y (by simp [hy]))
      (fun x hx y hy => hd x (by simp [hx]) y (by simp [hy]))
      (fun x hx => hl x (by simp [hx]))
    refine ⟨g2, ?_, q1.trans q2, ?_, ?_⟩
    · rw [List.foldlM_cons, e1, e2, r1]; exact r2
    · intro j hj
      rw [o2 j (fun x hx => hj x (by simp [hx])), o1 j (hj c (by simp))]
    · have hsrc : ∀ x ∈ c :: cs, g1.cell (src x) = g.cell (src x) := by
        intro x hx
        apply Heap.cell_congr
        exact (hs x hx c (by simp)).imp id (fun h => o1 _ h)
      intro x hx i
      by_cases hxc : x ∈ cs
      · rw [c2 x hxc i, hsrc x hx]
        by_cases hi : i ∈ rows
        · rw [if_pos hi, if_pos hi]
        · rw [if_neg hi, if_neg hi]
          by_cases hxx : x = c
          · subst hxx; rw [c1 i, if_neg hi]
          · rw [Heap.cell_congr (Or.inr (o1 _ (hd x hx c (by simp) hxx)))]
      · have hxx : x = c := by simpa [hxc] using hx
        subst hxx
        rw [Heap.cell_congr (Or.inr (o2 _ (fun y hy => hd x (by simp) y (by simp [hy]) (fun e => hxc (e ▸ hy)))))]
        exact c1 i

/-- A dataframe with int columns added beside the columns `cols`. `hash c i`: what the new column of `c` holds at the `i`-th shown row. -/
def ADF.hashedBeside (a : ADF (Val F)) (cols : List GoStr) (hash : GoStr → List (Option (Val F))) : ADF (Val F) where
  nRows := a.nRows
  col k c := if k = .int ∧ c ∈ cols then some (hash c) else a.col k c
  isStr := a.isStr
  enc := a.enc

/-- **C37** when every column is listed. `HashStringsView(cols...)` then works on the maps of its receiver: the receiver itself gains an
int column for each of its string columns, which stay. The result shows the same as the receiver from then on. So does any dataframe `d2`
that shares its maps with the receiver (a view): it gains the int columns too, with the hash in the rows that the receiver shows
and 0 in the others. A dataframe with its own maps is unchanged. -/
theorem C37_all_columns {df : DF} {h : Heap F} {cols order : List GoStr} (wf : df.WF h) (hne : cols ≠ []) (hemp : [] ∉ cols)
    (hcpu : 0 < df.maxCPU) (hc : ∀ c ∈ cols, ((abs h df).col .obj c).isSome)
    (hall : ∀ k c, ((abs h df).col k c).isSome → c ∈ cols) (hp : order.Perm cols) :
    ∃ r h', df.hashStringsView cols order h = .ok (r, h') ∧
      abs h' df = (abs h df).hashedBeside cols
        (fun c => (((abs h df).col .obj c).getD []).map (fun v => v.map (fun v => .int (hashVal v)))) ∧
      abs h' r = abs h' df ∧ r.WF h' ∧ df.WF h' ∧
      ∀ d2 : DF, d2.WF h →
        (d2.tab ≠ df.tab → abs h' d2 = abs h d2) ∧ d2.WF h' ∧
        (d2.tab = df.tab → ∃ cell : GoStr → Nat → Option (Val F),
          (∀ c ∈ cols, (abs h df).col .obj c = some (df.rows.map (cell c)) ∧ (abs h d2).col .obj c = some (d2.rows.map (cell c))) ∧
          abs h' d2 = (abs h d2).hashedBeside cols
            (fun c => d2.rows.map fun i => if i ∈ df.rows then (cell c i).map (fun v => .int (hashVal v)) else some (.int 0))) := by
  have hsl : ∀ c ∈ cols, ∃ s, AMap.get (h.tab df.tab) (.obj, c) = some s := by
    intro c hcc
    have := hc c hcc
    simp only [abs, Option.isSome_map] at this
    exact Option.isSome_iff_exists.1 this
  obtain ⟨ok, hm⟩ := header_spec h df.tab
  -- the first half
  obtain ⟨h1, hh1⟩ : ∃ h1, h1 = (df.hashPrep cols h).2 := ⟨_, rfl⟩
  have hprep : (df.hashPrep cols h).1 = df.view ∧ ∃ hb : Heap F, Heap.Ext h hb ∧
      h1 = allocLoop .int (numAllocatedRows (h.tab df.tab)) df.tab cols hb := by
    rw [hh1]
    unfold DF.hashPrep
    generalize header h df.tab = p at ok hm
    obtain ⟨hd, ha⟩ := p
    simp only at hm ok ⊢
    obtain ⟨hb, hhb⟩ : ∃ hb, hb = hdrRemove ha hd cols := ⟨_, rfl⟩
    have e1 : (hdrExcept ha hd cols) = (hd, hb) := by rw [hhb]; rfl
    rw [e1]
    simp only
    have hext : Heap.Ext h hb := by
      rw [hhb]
      cases hd with
      | none => exact ok.ext
      | some i =>
        have := ok.new i rfl
        have f : Heap.Frame Nope Nope (· = i) Nope ha (ha.setHdr i (sremove (ha.hdr i) cols)) := Heap.setHdr_frame ..
        exact ((ok.ext.toFrame (A := Nope) (T := Nope) (H := Nope) (M := Nope)).trans f (fun _ _ => id) (fun _ _ => id)
          (fun j hj (hx : j = i) => by omega) (fun _ _ => id)).toExt
    have hoth : hdrList hb hd = [] := by
      rw [List.eq_nil_iff_forall_not_mem]
      intro x hx
      have hx' : x ∈ hdrList ha hd ∧ x ∉ cols := by
        rw [hhb] at hx
        cases hd with
        | none => simp [hdrList] at hx
        | some i => simpa [hdrList, hdrRemove, sremove] using hx
      obtain ⟨k, hk⟩ := (hm x).1 hx'.1
      exact hx'.2 (hall k x (by simpa [abs] using hk))
    rw [hoth]
    have hcv : df.columnView [] hb = (df.view, hb) := rfl
    rw [hcv]
    refine ⟨rfl, hb, hext, ?_⟩
    rw [hext.tab _ wf.tab_lt]; rfl
  obtain ⟨hr, hb, hext, hal⟩ := hprep
  have al := allocLoop_spec .int (numAllocatedRows (h.tab df.tab)) df.tab cols hb
  have dist := allocLoop_distinct .int (numAllocatedRows (h.tab df.tab)) df.tab cols hb
  rw [← hal] at al dist
  have tabb : hb.tab df.tab = h.tab df.tab := hext.tab _ wf.tab_lt
  have n1 := hext.next_le
  have n2 := al.frame.next_le
  obtain ⟨N, r1, r2, r3⟩ := wf.rect
  have hN : numAllocatedRows (h.tab df.tab) = N := by
    cases cols with
    | nil => exact absurd rfl hne
    | cons c cs =>
      obtain ⟨s, hs⟩ := hsl c (by simp)
      exact wf.numAllocated (fun e => by rw [e] at hs; cases hs) r1
  have fr1 : Heap.Frame Nope (· = df.tab) Nope Nope h h1 :=
    (hext.toFrame (A := Nope) (T := (· = df.tab)) (H := Nope) (M := Nope)).trans al.frame (fun _ _ => id) (fun _ _ => id) (fun _ _ => id) (fun _ _ => id)
  have hobj : ∀ q : Key, ¬ (q.1 = .int ∧ q.2 ∈ cols) → AMap.get (h1.tab df.tab) q = AMap.get (h.tab df.tab) q := by
    intro q hq; rw [al.old q hq, tabb]
  -- the jobs
  obtain ⟨src, hsrc⟩ : ∃ src : GoStr → Slice, src = fun c => tabCol (h1.tab df.tab) (.obj, c) := ⟨_, rfl⟩
  obtain ⟨dst, hdst⟩ : ∃ dst : GoStr → Slice, dst = fun c => tabCol (h1.tab df.tab) (.int, c) := ⟨_, rfl⟩
  have hsrc' : ∀ c ∈ cols, AMap.get (h.tab df.tab) (.obj, c) = some (src c) := by
    intro c hcc
    obtain ⟨s, hs⟩ := hsl c hcc
    rw [hsrc]; simp only [tabCol, hobj (.obj, c) (by simp), hs]; rfl
  have hdst' : ∀ c ∈ cols, AMap.get (h1.tab df.tab) (.int, c) = some (dst c) ∧ (dst c).Valid h1 ∧ (dst c).len = N ∧ h.next ≤ (dst c).arr ∧
      h1.read (dst c) = List.replicate N Kind.int.zero := by
    intro c hcc
    obtain ⟨s, g1, g2, g3, g4, g5⟩ := al.new c hcc
    have : dst c = s := by rw [hdst]; simp [tabCol, g1]
    rw [this]
    rw [hN] at g3 g5
    exact ⟨g1, g2, g3, by omega, g5⟩
  have hsv : ∀ c ∈ cols, (src c).Valid h ∧ ((src c).len = 0 ∨ (src c).arr < h.next) ∧ (src c).len = N := by
    intro c hcc
    have v := wf.slices _ _ (hsrc' c hcc)
    refine ⟨v, ?_, r1 _ _ (hsrc' c hcc)⟩
    rcases v.2 with h | h
    · left; have := v.1; omega
    · exact Or.inr h.1
  obtain ⟨g, e, q, o, cl⟩ := hash_fold (tab := df.tab) (src := src) (dst := dst) (rows := df.rows) (todo := order) (g := h1)
    (fun c _ => by rw [hsrc, hdst]; exact ⟨rfl, rfl⟩)
    (fun c hcc => ⟨(hsv c (hp.mem_iff.1 hcc)).1.frame fr1 (Or.inr id), (hdst' c (hp.mem_iff.1 hcc)).2.1⟩)
    (fun c hcc c' hcc' => (hsv c (hp.mem_iff.1 hcc)).2.1.imp id (fun x => by have := (hdst' c' (hp.mem_iff.1 hcc')).2.2.2.1; omega))
    (fun c hcc c' hcc' hn => dist c (hp.mem_iff.1 hcc) c' (hp.mem_iff.1 hcc') hn _ _ (hdst' c (hp.mem_iff.1 hcc)).1 (hdst' c' (hp.mem_iff.1 hcc')).1)
    (fun c hcc i hi => ⟨by rw [(hsv c (hp.mem_iff.1 hcc)).2.2]; exact r2 i hi, by rw [(hdst' c (hp.mem_iff.1 hcc)).2.2.1]; exact r2 i hi⟩)
  have hrun : df.hashStringsView cols order h = .ok (df.view, g) := by
    rw [hashStringsView_eq df hne, hr, ← hh1]
    unfold runQueue
    rw [if_neg hne, if_neg (by rintro (h | h); · omega
                               · exact hemp h)]
    have hv : df.view.tab = df.tab := rfl
    rw [hv, e]
  have fr : Heap.Frame Nope (· = df.tab) Nope Nope h g := by
    refine ⟨by rw [q.next]; exact fr1.next_le, ?_, ?_, ?_, ?_⟩
    · intro i hi _
      rw [o i, fr1.arr i hi id]
      intro c hcc
      have := (hdst' c (hp.mem_iff.1 hcc)).2.2.2.1; omega
    · intro i hi hx; rw [q.tab]; exact fr1.tab i hi hx
    · intro i hi hx; rw [q.hdr]; exact fr1.hdr i hi hx
    · intro i hi _; rw [q.msk]; exact fr1.msk i hi id
  -- what a dataframe with the same maps shows
  have hshow : ∀ d2 : DF, d2.WF h → d2.tab = df.tab → abs g d2 = (abs h d2).hashedBeside cols
      (fun c => d2.rows.map fun i => if i ∈ df.rows then (h.cell (src c) i).map (fun v => .int (hashVal v)) else some (.int 0)) := by
    intro d2 w2 et
    apply ADF.ext'
    · rfl
    · intro k c
      simp only [ADF.hashedBeside]
      by_cases hkc : k = .int ∧ c ∈ cols
      · rw [if_pos hkc]
        obtain ⟨rfl, hcc⟩ := hkc
        obtain ⟨a1, a2, a3, a4, a5⟩ := hdst' c hcc
        simp only [abs, et, q.tab, a1, Option.map_some]
        congr 1
        apply List.map_congr_left
        intro i hi
        rw [cl c (hp.mem_iff.2 hcc) i]
        by_cases hi' : i ∈ df.rows
        · rw [if_pos hi', if_pos hi']
          rw [Heap.cell_congr ((hsv c hcc).2.1.imp id (fun hlt => fr1.arr _ hlt id))]
        · rw [if_neg hi', if_neg hi']
          obtain ⟨N2, t1, t2, -⟩ := w2.rect
          have hN2 : i < N := by
            have := t2 i hi
            rw [et] at t1
            rw [← t1 _ _ (hsrc' c hcc), (hsv c hcc).2.2] at this
            exact this
          have hrd : (h1.read (dst c))[i]? = h1.cell (dst c) i := by
            simp only [Heap.read, Heap.cell, List.getElem?_take, List.getElem?_drop]
          rw [← hrd, a5]
          simp [hN2, Kind.zero]
      · rw [if_neg hkc]
        simp only [abs, et, q.tab, hobj (k, c) hkc]
        cases hg : AMap.get (h.tab df.tab) (k, c) with
        | none => rfl
        | some s =>
          simp only [Option.map_some]
          rw [Heap.cell_congr ((wf.slices _ _ hg).arr_eq_frame fr (Or.inr id))]
    · intro c
      simp only [abs, ADF.hashedBeside]
      have : hdrList g d2.strHdr = hdrList h d2.strHdr := by
        unfold hdrList
        cases hst : d2.strHdr with
        | none => rfl
        | some i => exact fr.hdr i (w2.str_lt i hst) id
      rw [this]
    · rfl
  have hwf : ∀ d2 : DF, d2.WF h → d2.WF g := by
    intro d2 w2
    by_cases et : d2.tab = df.tab
    · refine { tab_lt := ?_, shared_lt := ?_, str_lt := ?_, keys := ?_, slices := ?_, idx_len := w2.idx_len, rect := ?_ }
      · have := w2.tab_lt; have := fr.next_le; omega
      · intro i hi; have := w2.shared_lt i hi; have := fr.next_le; omega
      · intro i hi; have := w2.str_lt i hi; have := fr.next_le; omega
      · rw [et, q.tab]; exact al.keys (by rw [tabb]; exact wf.keys)
      · intro p s hps
        rw [et, q.tab] at hps
        by_cases hkc : p.1 = .int ∧ p.2 ∈ cols
        · obtain ⟨k, c⟩ := p
          obtain ⟨rfl, hcc⟩ := hkc
          rw [(hdst' c hcc).1] at hps; cases hps
          exact q.valid (hdst' c hcc).2.1
        · rw [hobj p hkc] at hps
          exact (wf.slices _ _ hps).frame fr (Or.inr id)
      · obtain ⟨N2, t1, t2, t3⟩ := w2.rect
        refine ⟨N2, ?_, t2, t3⟩
        have hNN : N2 = N := by
          cases cols with
          | nil => exact absurd rfl hne
          | cons c cs =>
            rw [et] at t1
            rw [← t1 _ _ (hsrc' c (by simp)), (hsv c (by simp)).2.2]
        intro p s hps
        rw [et, q.tab] at hps
        by_cases hkc : p.1 = .int ∧ p.2 ∈ cols
        · obtain ⟨k, c⟩ := p
          obtain ⟨rfl, hcc⟩ := hkc
          rw [(hdst' c hcc).1] at hps; cases hps
          rw [(hdst' c hcc).2.2.1, hNN]
        · rw [hobj p hkc, ← et] at hps
          exact t1 _ _ hps
    · exact w2.frame fr et (fun _ _ _ => Or.inr id)
  have hself := hshow df wf rfl
  refine ⟨df.view, g, hrun, ?_, rfl, ?_, hwf df wf, ?_⟩
  · rw [hself]
    apply ADF.ext'
    · rfl
    · intro k c
      simp only [ADF.hashedBeside]
      split
      · next hkc =>
        simp only [abs, hsrc' c hkc.2, Option.map_some, Option.getD_some, List.map_map]
        congr 1
        apply List.map_congr_left
        intro i hi
        simp [hi]
      · rfl
    · intro c; rfl
    · rfl
  · have w := hwf df wf
    exact { tab_lt := w.tab_lt, shared_lt := w.shared_lt, str_lt := w.str_lt, keys := w.keys, slices := w.slices, idx_len := w.idx_len, rect := w.rect }
  · intro d2 w2
    refine ⟨fun et => abs_frame fr w2.toWF et (fun _ _ => id) (fun _ _ _ => Or.inr id), hwf d2 w2, fun et => ?_⟩
    refine ⟨fun c => h.cell (src c), ?_, hshow d2 w2 et⟩
    intro c hcc
    simp only [abs, et, hsrc' c hcc, Option.map_some, and_self]

/-! ### example: a dataframe of strings, and a view of its second row -/

namespace Demo

/-- The parent. -/
def sdf : DF := match strOnly with | .ok p => p.1 | .error _ => df
/-- The heap. -/
def sh : Heap Int := match strOnly with | .ok p => p.2 | .error _ => heap0
/-- `df.SliceView(1, 2)`, made by hand: the second row. -/
def sview : DF := { sdf.view with idx := Idx.mk' [1], indexViewed := true }

theorem sdf_wf : sdf.WF sh := DF.wf_of_check 2 (by decide +kernel)
theorem sview_wf : sview.WF sh := DF.wf_of_check 2 (by decide +kernel)
theorem sview_is : sdf.indexView [1] sh = .ok (sview, sh) := by rfl

/-- Hashing the view gives its parent a column with the hash of the second row, and 0 in the first row. -/
example : ∃ r h', sview.hashStringsView [b!"s"] [b!"s"] sh = .ok (r, h') ∧
    (abs sh sdf).col .int b!"s" = none ∧
    (abs h' sdf).col .int b!"s" = some [some (.int 0), some (.int (hashVal (F := Int) (.str b!"v")))] ∧
    (abs h' r).col .obj b!"s" = some [some (.str b!"v")] := by
  obtain ⟨r, h', e, h1, h2, _, _, h3⟩ := C37_all_columns (df := sview) (h := sh) (cols := [b!"s"]) (order := [b!"s"]) sview_wf (by decide)
    (by decide) (by decide +kernel) (by decide +kernel)
    (by
      have hn : (sh.tab sview.tab).map (·.1) = [(.obj, b!"s")] := by decide +kernel
      intro k c hk
      simp only [abs, Option.isSome_map] at hk
      obtain ⟨s, hs⟩ := Option.isSome_iff_exists.1 hk
      have := List.mem_map_of_mem (f := (·.1)) (AMap.mem_of_get hs)
      rw [hn] at this
      simp at this
      simp [this.2]) (List.Perm.refl _)
  obtain ⟨-, -, h4⟩ := h3 sdf sdf_wf
  obtain ⟨cell, hc, h5⟩ := h4 rfl
  refine ⟨r, h', e, by decide +kernel, ?_, ?_⟩
  · rw [h5]
    have hr : sdf.rows = [0, 1] := by decide +kernel
    have hr' : sview.rows = [1] := by decide +kernel
    have hv : (abs sh sview).col .obj b!"s" = some [some (.str b!"v")] := by decide +kernel
    have h1 := (hc b!"s" (by simp)).1
    rw [hr', hv] at h1
    have h1 : cell b!"s" 1 = some (.str b!"v") := by simpa using h1.symm
    simp [ADF.hashedBeside, hr, hr', h1]
  · rw [h2, h1]
    have hv : (abs sh sview).col .obj b!"s" = some [some (.str b!"v")] := by decide +kernel
    simp [ADF.hashedBeside, hv]

end Demo
end Verif
