import Verif.Proofs.Hash
import Verif.Props.Pool

/-! C37, and C35 for `HashStringsView`. -/

set_option linter.unusedSectionVars false

namespace Verif
variable {F : Type}

/-- What `HashStringsView(cols...)` should return: the columns in `cols` become int columns holding the
hashes of their strings (-1 for a missing string), the other columns stay. -/
def ADF.hashed (a : ADF (Val F)) (cols : List GoStr) : ADF (Val F) where
  nRows := a.nRows
  col k c :=
    if c ∈ cols then
      if k = .int then (a.col .obj c).map (fun l => l.map (fun v => v.map (fun v => .int (hashVal v)))) else none
    else a.col k c
  isStr c := decide (c ∉ cols) && ((a.col .obj c).isSome && a.isStr c)
  enc := a.enc

/-- C37, the hash: a function of the string only, in `[0, maxInt)`; -1 exactly for the missing (or not
string) cells. -/
theorem C37_hash_range (v : Val F) :
    (∀ s, v = .str s → 0 ≤ hashVal v ∧ hashVal v < 2 ^ 63 - 1) ∧ (hashVal v = -1 ↔ ∀ s, v ≠ .str s) := by
  have key : ∀ s : GoStr, 0 ≤ hashVal (Val.str s : Val F) ∧ hashVal (Val.str s : Val F) < 2 ^ 63 - 1 := by
    intro s
    have h : (fnv1a64 s).toNat % maxInt < maxInt := Nat.mod_lt _ (by decide)
    have hm : (maxInt : Int) = 2 ^ 63 - 1 := by decide
    simp only [hashVal]; omega
  constructor
  · rintro s rfl; exact key s
  · constructor
    · rintro h s rfl
      have := (key s).1; omega
    · intro h
      cases v with
      | str s => exact absurd rfl (h s)
      | _ => rfl

section main
variable [GoFloat F] {df : DF} {h : Heap F} {cols order : List GoStr}

/-- The slices of one job. -/
theorem prep_slices (wf : df.WF h) (hc : ∀ c ∈ cols, ((abs h df).col .obj c).isSome)
    {r : DF} {h1 : Heap F} (sp : PrepSpec df cols h r h1) :
    ∀ c ∈ cols, ∃ s t, AMap.get (h.tab df.tab) (.obj, c) = some s ∧ tabCol (h1.tab df.tab) (.obj, c) = s ∧
      AMap.get (h1.tab r.tab) (.int, c) = some t ∧ tabCol (h1.tab r.tab) (.int, c) = t ∧
      s.Valid h1 ∧ t.Valid h1 ∧ (s.len = 0 ∨ s.arr < h.next) ∧ h.next ≤ t.arr ∧
      (∀ i ∈ df.rows, i < s.len) ∧ (∀ i ∈ df.rows, i < t.len) := by
  intro c hcc
  have := hc c hcc
  simp only [abs, Option.isSome_map] at this
  obtain ⟨s, hs⟩ := Option.isSome_iff_exists.1 this
  obtain ⟨t, g1, g2, g3, g4⟩ := sp.new c hcc
  obtain ⟨N, r1, r2, r3⟩ := wf.rect
  have hN : numAllocatedRows (h.tab df.tab) = N :=
    wf.numAllocated (fun e => by rw [e] at hs; cases hs) r1
  have ht : h1.tab df.tab = h.tab df.tab := sp.frame.tab _ wf.tab_lt id
  have v := wf.slices _ _ hs
  refine ⟨s, t, hs, by rw [ht]; simp [tabCol, hs], g1, by simp [tabCol, g1], v.frame sp.frame (Or.inr id), g2, ?_, g4, ?_, ?_⟩
  · rcases v.2 with h | h
    · left; have := v.1; omega
    · exact Or.inr h.1
  · intro i hi; rw [r1 _ _ hs]; exact r2 i hi
  · intro i hi; rw [g3, hN]; exact r2 i hi

/-- The heap once the columns `done` are hashed. -/
structure HashDone (df r : DF) (cols : List GoStr) (h1 : Heap F) (done : List GoStr) (g : Heap F) : Prop where
  quiet : Quiet h1 g
  other : ∀ j, (∀ c ∈ cols, j ≠ (tabCol (h1.tab r.tab) (.int, c)).arr) → g.arr j = h1.arr j
  cells : ∀ c ∈ cols, c ∈ done → ∀ i ∈ df.rows, g.cell (tabCol (h1.tab r.tab) (.int, c)) i =
    (h1.cell (tabCol (h1.tab df.tab) (.obj, c)) i).map (fun v => .int (hashVal v))

theorem hash_loop (wf : df.WF h) (hc : ∀ c ∈ cols, ((abs h df).col .obj c).isSome)
    {r : DF} {h1 : Heap F} (sp : PrepSpec df cols h r h1) (todo done : List GoStr) (g : Heap F)
    (hsub : ∀ c ∈ todo, c ∈ cols) (hd : HashDone df r cols h1 done g) :
    ∃ g', todo.foldlM (fun s c => hashColumn (tabCol (s.tab df.tab) (.obj, c)) (tabCol (s.tab r.tab) (.int, c)) df.rows s) g
        = .ok g' ∧ HashDone df r cols h1 (done ++ todo) g' := by
  induction todo generalizing done g with
  | nil => exact ⟨g, rfl, by simpa using hd⟩
  | cons c cs ih =>
    obtain ⟨s, t, a1, a2, a3, a4, a5, a6, a7, a8, a9, a10⟩ := prep_slices wf hc sp c (hsub c (by simp))
    have hst : s.len = 0 ∨ s.arr ≠ t.arr := a7.imp id (fun x => by omega)
    obtain ⟨g1, e1, q1, o1, c1⟩ := hashColumn_spec (hd.quiet.valid a5) (hd.quiet.valid a6) hst a9 a10
    have hsrc : ∀ c' ∈ cols, ∀ g' : Heap F, (∀ j, (∀ c ∈ cols, j ≠ (tabCol (h1.tab r.tab) (.int, c)).arr) → g'.arr j = h1.arr j) →
        g'.cell (tabCol (h1.tab df.tab) (.obj, c')) = h1.cell (tabCol (h1.tab df.tab) (.obj, c')) := by
      intro c' hc' g' ho
      obtain ⟨s', t', b1, b2, b3, b4, b5, b6, b7, b8, b9, b10⟩ := prep_slices wf hc sp c' hc'
      rw [b2]
      apply Heap.cell_congr
      refine b7.imp id (fun hlt => ho _ ?_)
      intro c'' hc''
      obtain ⟨_, t'', _, _, _, d4, _, _, _, d8, _⟩ := prep_slices wf hc sp c'' hc''
      rw [d4]; omega
    have other1 : ∀ j, (∀ c ∈ cols, j ≠ (tabCol (h1.tab r.tab) (.int, c)).arr) → g1.arr j = h1.arr j := by
      intro j hj
      rw [o1 j (by rw [← a4]; exact hj c (hsub c (by simp))), hd.other j hj]
    have hd1 : HashDone df r cols h1 (done ++ [c]) g1 := by
      refine ⟨hd.quiet.trans q1, other1, ?_⟩
      intro c' hc' hm i hi
      by_cases hcc : c' = c
      · subst hcc
        rw [a4, a2, c1 i, if_pos hi]
        have := hsrc c' hc' g hd.other
        rw [a2] at this; rw [this]
      · have hdn : c' ∈ done := by
          simp at hm; rcases hm with hm | hm
          · exact hm
          · exact absurd hm hcc
        rw [← hd.cells c' hc' hdn i hi]
        obtain ⟨_, t', _, _, b3, b4, _⟩ := prep_slices wf hc sp c' hc'
        rw [b4]
        have := sp.distinct c' hc' c (hsub c (by simp)) hcc t' t b3 a3
        rw [Heap.cell_congr (Or.inr (o1 _ this))]
    obtain ⟨g2, e2, hd2⟩ := ih (done ++ [c]) g1 (fun x hx => hsub x (by simp [hx])) hd1
    refine ⟨g2, ?_, by simpa using hd2⟩
    have hstep : hashColumn (tabCol (g.tab df.tab) (.obj, c)) (tabCol (g.tab r.tab) (.int, c)) df.rows g = .ok g1 := by
      rw [hd.quiet.tab, a2, a4]; exact e1
    rw [List.foldlM_cons, hstep]
    exact e2

/-- `HashStringsView`: what it shows, and what it does to the memory. -/
theorem hash_run (wf : df.WF h) (sep : df.toRaw.Sep) (hne : cols ≠ []) (hemp : [] ∉ cols)
    (hcpu : 0 < df.maxCPU) (hc : ∀ c ∈ cols, ((abs h df).col .obj c).isSome)
    (ho : ∃ k c, c ∉ cols ∧ ((abs h df).col k c).isSome) (hp : order.Perm cols) :
    ∃ r h', df.hashStringsView cols order h = .ok (r, h') ∧ abs h' r = (abs h df).hashed cols ∧ r.WF h' ∧
      Heap.Frame Nope Nope (fun i => df.shared = some i) Nope h h' ∧ r.toRaw.Sep ∧
      (∀ i, r.shared = some i → df.shared = some i ∨ h.next ≤ i) ∧ r.idx = df.idx ∧ r.maxCPU = df.maxCPU := by
  have ho' : ∃ k c, c ∉ cols ∧ (AMap.get (h.tab df.tab) (k, c)).isSome := by
    obtain ⟨k, c, h1, h2⟩ := ho
    exact ⟨k, c, h1, by simpa [abs] using h2⟩
  have sp := hashPrep_spec wf sep ho'
  rw [hashStringsView_eq df hne]
  generalize df.hashPrep cols h = p at sp
  obtain ⟨r, h1⟩ := p
  simp only at sp ⊢
  obtain ⟨g, e, hd⟩ := hash_loop wf hc sp order [] h1 (fun c hcc => hp.mem_iff.1 hcc)
    ⟨Quiet.refl h1, fun _ _ => rfl, by simp⟩
  have hrun : runQueue cols order df.maxCPU (fun c g =>
      hashColumn (tabCol (g.tab df.tab) (.obj, c)) (tabCol (g.tab r.tab) (.int, c)) df.rows g) h1 = .ok g := by
    unfold runQueue
    rw [if_neg hne, if_neg (by rintro (h | h); · omega
                               · exact hemp h)]
    exact e
  rw [hrun]
  simp only [List.nil_append] at hd
  have fr : Heap.Frame Nope Nope (fun i => df.shared = some i) Nope h g := by
    refine ⟨by rw [hd.quiet.next]; exact sp.frame.next_le, ?_, ?_, ?_, ?_⟩
    · intro i hi _
      rw [hd.other i, sp.frame.arr i hi id]
      intro c hcc
      obtain ⟨_, t', _, _, b3, b4, _, _, _, b8, _⟩ := prep_slices wf hc sp c hcc
      rw [b4]; omega
    · intro i hi _; rw [hd.quiet.tab]; exact sp.frame.tab i hi id
    · intro i hi hx; rw [hd.quiet.hdr]; exact sp.frame.hdr i hi hx
    · intro i hi _; rw [hd.quiet.msk]; exact sp.frame.msk i hi id
  obtain ⟨e1, e2, e3, e4, e5, e6, e7⟩ := sp.rest
  have hrows : r.rows = df.rows := by simp only [DF.rows, e1]
  refine ⟨r, g, rfl, ?_, ?_, ?_⟩
  · apply ADF.ext'
    · simp [abs, ADF.hashed, DF.numRows, hrows]
    · intro k c
      simp only [ADF.hashed]
      by_cases hcc : c ∈ cols
      · rw [if_pos hcc]
        by_cases hk : k = .int
        · subst hk
          obtain ⟨s, t, a1, a2, a3, a4, a5, a6, a7, a8, a9, a10⟩ := prep_slices wf hc sp c hcc
          simp only [abs, hd.quiet.tab, a3, a1, Option.map_some, if_true, hrows, List.map_map]
          congr 1
          apply List.map_congr_left
          intro i hi
          have := hd.cells c hcc (hp.mem_iff.2 hcc) i hi
          rw [a2, a4] at this
          rw [this]
          have hcell : h1.cell s = h.cell s := Heap.cell_congr (a7.imp id (fun hlt => sp.frame.arr _ hlt id))
          simp [hcell]
        · simp only [abs, hd.quiet.tab, sp.gone c hcc k hk, Option.map_none, if_neg hk]
      · rw [if_neg hcc]
        simp only [abs, hd.quiet.tab, sp.old k c hcc, hrows]
        cases hg : AMap.get (h.tab df.tab) (k, c) with
        | none => rfl
        | some s =>
          simp only [Option.map_some]
          rw [Heap.cell_congr ((wf.slices _ _ hg).arr_eq_frame fr (Or.inr id))]
    · intro c
      simp only [abs, ADF.hashed]
      have : hdrList g r.strHdr = hdrList h1 r.strHdr := by unfold hdrList; rw [hd.quiet.hdr]
      rw [this]
      have hiff := sp.str c
      by_cases hcc : c ∈ cols <;> simp [hcc, hiff]
    · exact e5
  · refine { tab_lt := ?_, shared_lt := ?_, str_lt := ?_, keys := ?_, slices := ?_, idx_len := ?_, rect := ?_ }
    · rw [hd.quiet.next]; exact sp.tab_new.2
    · intro i hi; rw [hd.quiet.next]; exact (sp.sh i hi).2
    · intro i hi; rw [hd.quiet.next]; exact (sp.st i hi).2.1
    · rw [hd.quiet.tab]; exact sp.keys
    · intro q s hq
      rw [hd.quiet.tab] at hq
      obtain ⟨k, c⟩ := q
      by_cases hcc : c ∈ cols
      · by_cases hk : k = .int
        · subst hk
          obtain ⟨t, g1, g2, _⟩ := sp.new c hcc
          rw [g1] at hq; cases hq
          exact hd.quiet.valid g2
        · rw [sp.gone c hcc k hk] at hq; cases hq
      · rw [sp.old k c hcc] at hq
        exact (wf.slices _ _ hq).frame fr (Or.inr id)
    · rw [e1]; exact wf.idx_len
    · obtain ⟨N, r1, r2, r3⟩ := wf.rect
      refine ⟨N, ?_, by rw [hrows]; exact r2, by rw [hrows, e3]; exact r3⟩
      intro q s hq
      rw [hd.quiet.tab] at hq
      obtain ⟨k, c⟩ := q
      by_cases hcc : c ∈ cols
      · by_cases hk : k = .int
        · subst hk
          obtain ⟨t, g1, g2, g3, _⟩ := sp.new c hcc
          rw [g1] at hq; cases hq
          rw [g3]
          have := hc c hcc
          simp only [abs, Option.isSome_map] at this
          exact wf.numAllocated (fun e => by rw [e] at this; cases this) r1
        · rw [sp.gone c hcc k hk] at hq; cases hq
      · rw [sp.old k c hcc] at hq
        exact r1 _ _ hq
  · exact ⟨fr, fun i hi hx => (sp.st i hx).2.2 hi, fun i hi => (sp.sh i hi).1, e1, e6⟩

/-- C37. For string (object) columns, with at least one column left out: `HashStringsView(cols...)`
returns, its result shows the hashed columns as int columns and the other columns as they were, is
consistent, and no other dataframe changes (`d` included); the order in which the workers take the
columns does not matter. The hypotheses of the last part say, as in C18, that no dataframe uses `d`'s
list of shared columns as its list of string columns. -/
theorem C37_hashStringsView_partial (wf : df.WF h) (sep : df.toRaw.Sep) (hne : cols ≠ []) (hemp : [] ∉ cols)
    (hcpu : 0 < df.maxCPU) (hc : ∀ c ∈ cols, ((abs h df).col .obj c).isSome)
    (ho : ∃ k c, c ∉ cols ∧ ((abs h df).col k c).isSome) (hp : order.Perm cols) :
    ∃ r h', df.hashStringsView cols order h = .ok (r, h') ∧ abs h' r = (abs h df).hashed cols ∧ r.WF h' ∧
      ∀ d2 : DF, d2.WF h → (∀ i, df.shared = some i → d2.strHdr ≠ some i) →
        abs h' d2 = abs h d2 ∧ locs h' d2 = locs h d2 ∧ d2.WF h' := by
  obtain ⟨r, h', e, ha, hw, fr, _⟩ := hash_run wf sep hne hemp hcpu hc ho hp
  refine ⟨r, h', e, ha, hw, ?_⟩
  intro d2 w2 hs
  exact ⟨abs_frame fr w2.toWF id (fun i hi hx => hs i hx hi) (fun _ _ _ => Or.inr id),
    locs_frame fr w2.toWF id (fun i hi hx => hs i hx hi),
    w2.frame fr id (fun _ _ _ => Or.inr id)⟩

/-! ### C35 for `HashStringsView` -/

/-- The atomic accesses of the job of column `c` (view.go:337-350): for each row, read the object cell
into a local variable (`.2 c`), then write the hash to the new column. Memory is the heap together with
the local variables of the running jobs. -/
def hashJob (src dst : Slice) (c : GoStr) (i : Nat) : List (Heap F × (GoStr → Val F) → Heap F × (GoStr → Val F)) :=
  [fun m => (m.1, fun c' => if c' = c then (m.1.cell src i).getD .nil else m.2 c'),
   fun m => (if i < dst.len then m.1.setArr dst.arr ((m.1.arr dst.arr).set (dst.off + i) (.int (hashVal (m.2 c)))) else m.1,
     m.2)]

/-- The pool that `HashStringsView(cols...)` starts once the new columns are there. -/
def hashPool (df : DF) (cols : List GoStr) (h : Heap F) : PoolCfg (Heap F × (GoStr → Val F)) where
  deferred := true
  prog c := df.rows.flatMap (hashJob (tabCol ((df.hashPrep cols h).2.tab df.tab) (.obj, c))
    (tabCol ((df.hashPrep cols h).2.tab (df.hashPrep cols h).1.tab) (.int, c)) c)

theorem hashJob_exec {src dst : Slice} {c : GoStr} {rows : List Nat} {g g' : Heap F} (e : hashColumn src dst rows g = .ok g')
    (reg : GoStr → Val F) : ∃ reg', execOps (rows.flatMap (hashJob src dst c)) (g, reg) = (g', reg') := by
  induction rows generalizing g reg with
  | nil => cases e; exact ⟨reg, rfl⟩
  | cons i is ih =>
    simp only [hashColumn] at e
    cases hv : g.cell src i with
    | none => rw [hv] at e; cases e
    | some v =>
      rw [hv] at e
      simp only at e
      unfold Heap.write at e
      by_cases hi : i < dst.len
      · rw [if_pos hi] at e
        obtain ⟨reg', hr⟩ := ih e (fun c' => if c' = c then v else reg c')
        refine ⟨reg', ?_⟩
        rw [← hr, List.flatMap_cons, execOps_append]
        congr 1
        simp [hashJob, hv, hi]
      · rw [if_neg hi] at e; cases e

theorem hash_commute (wf : df.WF h) (sep : df.toRaw.Sep) (hc : ∀ c ∈ cols, ((abs h df).col .obj c).isSome)
    (ho : ∃ k c, c ∉ cols ∧ ((abs h df).col k c).isSome) : Commute (hashPool df cols h) cols := by
  have ho' : ∃ k c, c ∉ cols ∧ (AMap.get (h.tab df.tab) (k, c)).isSome := by
    obtain ⟨k, c, h1, h2⟩ := ho
    exact ⟨k, c, h1, by simpa [abs] using h2⟩
  have sp := hashPrep_spec wf sep ho'
  intro c hcc c' hcc' hne o hop o' hop' m
  obtain ⟨s, t, a1, a2, a3, a4, a5, a6, a7, a8, a9, a10⟩ := prep_slices wf hc sp c hcc
  obtain ⟨s', t', b1, b2, b3, b4, b5, b6, b7, b8, b9, b10⟩ := prep_slices wf hc sp c' hcc'
  have hd := sp.distinct c hcc c' hcc' hne t t' a3 b3
  simp only [hashPool, List.mem_flatMap, a2, a4, b2, b4] at hop hop'
  obtain ⟨i, hi, hop⟩ := hop
  obtain ⟨j, hj, hop'⟩ := hop'
  obtain ⟨g, reg⟩ := m
  have cw : ∀ (S : Slice) (a : Nat) (xs : List (Val F)) (g : Heap F), (S.len = 0 ∨ S.arr ≠ a) →
      (g.setArr a xs).cell S = g.cell S := by
    intro S a xs g hS
    apply Heap.cell_congr
    exact hS.imp id (fun hx => by simp [Heap.setArr, hx])
  have d1 : s.len = 0 ∨ s.arr ≠ t'.arr := a7.imp id (fun x => by omega)
  have d2 : s'.len = 0 ∨ s'.arr ≠ t.arr := b7.imp id (fun x => by omega)
  simp only [hashJob, List.mem_cons, List.not_mem_nil, or_false] at hop hop'
  rcases hop with rfl | rfl <;> rcases hop' with rfl | rfl
  · simp only [Prod.mk.injEq, true_and]
    funext x
    by_cases hx : x = c
    · subst hx; simp [hne]
    · simp [hx]
  · simp only [Prod.mk.injEq, if_neg (Ne.symm hne)]
    refine ⟨trivial, ?_⟩
    funext x
    split
    · split
      · rw [cw _ _ _ _ d1]
      · rfl
    · rfl
  · simp only [Prod.mk.injEq, if_neg hne]
    refine ⟨trivial, ?_⟩
    funext x
    split
    · split
      · rw [cw _ _ _ _ d2]
      · rfl
    · rfl
  · simp only [Prod.mk.injEq, and_true]
    by_cases h1 : i < t.len <;> by_cases h2 : j < t'.len <;> simp only [h1, h2, if_true, if_false]
    simp only [Heap.setArr, if_neg hd, if_neg (Ne.symm hd)]
    congr 1
    funext x
    by_cases hx : x = t.arr
    · subst hx; simp [hd]
    · simp [hx]

/-- C35 for `HashStringsView`: whatever the interleaving of the workers' individual cell accesses, the
number of workers and the order in which they take the columns, the memory the caller finds when it is
back is the one that `hashStringsView` describes. -/
theorem C35_hashStringsView (wf : df.WF h) (sep : df.toRaw.Sep) (hne : cols ≠ []) (nd : cols.Nodup) (hemp : [] ∉ cols)
    (hcpu : 0 < df.maxCPU) (hc : ∀ c ∈ cols, ((abs h df).col .obj c).isSome)
    (ho : ∃ k c, c ∉ cols ∧ ((abs h df).col k c).isSome) {order order' : List GoStr} (hp : order.Perm cols)
    (hp' : order'.Perm cols) {mw : Int} {reg : GoStr → Val F} {n : Nat} {t : Pool (Heap F × (GoStr → Val F))}
    (st : Pool.Steps (hashPool df cols h) n (Pool.init cols order' mw ((df.hashPrep cols h).2, reg)) t)
    (hr : t.caller = .returned) :
    df.hashStringsView cols order h = .ok ((df.hashPrep cols h).1, t.mem.1) := by
  have hcm := hash_commute wf sep hc ho
  rw [C35_schedule_independent hp' nd hcm st hr]
  have ho' : ∃ k c, c ∉ cols ∧ (AMap.get (h.tab df.tab) (k, c)).isSome := by
    obtain ⟨k, c, h1, h2⟩ := ho
    exact ⟨k, c, h1, by simpa [abs] using h2⟩
  have sp := hashPrep_spec wf sep ho'
  rw [← runJobs_perm hp ((hp.nodup_iff).2 nd) (fun k hk k' hk' => hcm k (hp.mem_iff.1 hk) k' (hp.mem_iff.1 hk'))]
  rw [hashStringsView_eq df hne]
  have key : ∀ (todo done : List GoStr) (g : Heap F) (reg : GoStr → Val F), (∀ c ∈ todo, c ∈ cols) →
      HashDone df (df.hashPrep cols h).1 cols (df.hashPrep cols h).2 done g →
      todo.foldlM (fun s c => hashColumn (tabCol (s.tab df.tab) (.obj, c))
        (tabCol (s.tab (df.hashPrep cols h).1.tab) (.int, c)) df.rows s) g
        = .ok (runJobs (hashPool df cols h) todo (g, reg)).1 := by
    intro todo
    induction todo with
    | nil => intro _ _ _ _ _; rfl
    | cons c cs ih =>
      intro done g reg hsub hd
      obtain ⟨g1, e1, hd1⟩ := hash_loop wf hc sp [c] done g (fun x hx => hsub x (by simp at hx; simp [hx])) hd
      have e2 : hashColumn (tabCol (g.tab df.tab) (.obj, c))
        (tabCol (g.tab (df.hashPrep cols h).1.tab) (.int, c)) df.rows g = .ok g1 := by
        simpa using e1
      rw [List.foldlM_cons, e2]
      rw [hd.quiet.tab] at e2
      obtain ⟨reg', hr'⟩ := hashJob_exec (c := c) e2 reg
      have hj : runJobs (hashPool df cols h) (c :: cs) (g, reg) = runJobs (hashPool df cols h) cs (g1, reg') := by
        show runJobs (hashPool df cols h) cs (execOps ((hashPool df cols h).prog c) (g, reg)) = _
        congr 1
      rw [hj]
      exact ih _ g1 reg' (fun x hx => hsub x (by simp [hx])) hd1
  have := key order [] (df.hashPrep cols h).2 reg (fun c hcc => hp.mem_iff.1 hcc)
    ⟨Quiet.refl _, fun _ _ => rfl, by simp⟩
  unfold runQueue
  rw [if_neg hne, if_neg (by rintro (h | h); · omega
                             · exact hemp h)]
  rw [this]

/-- C36 for `HashStringsView`: it hangs when an empty column name is given, or when the dataframe was
made by `EmptyDataFrame` with a `maxCPU` that is not positive. -/
theorem C36_hash_hangs (hne : cols ≠ []) (hx : [] ∈ cols ∨ df.maxCPU ≤ 0) :
    df.hashStringsView cols order h = .error .hang := by
  rw [hashStringsView_eq df hne]
  unfold runQueue
  rw [if_neg hne, if_pos hx.symm]

end main

/-! ### Examples -/

open Demo in
example : ∃ r h', df.hashStringsView [b!"s"] [b!"s"] h = .ok (r, h') ∧
    (abs h' r).col .int b!"s" = some [some (.int (hashVal (F := Int) (.str b!"u"))), some (.int (hashVal (F := Int) (.str b!"v"))),
      some (.int (hashVal (F := Int) (.str b!"u"))), some (.int (-1))] ∧ (abs h' r).col .obj b!"s" = none ∧
    (abs h' r).col .int b!"a" = (abs h df).col .int b!"a" := by
  obtain ⟨r, h', e, ha, _⟩ := C37_hashStringsView_partial (order := [b!"s"]) df_wf df_sep (cols := [b!"s"]) (by decide) (by decide)
    (by decide) (by decide) ⟨.int, b!"a", by decide, by decide⟩ (List.Perm.refl _)
  refine ⟨r, h', e, ?_, ?_, ?_⟩
  · rw [ha]; rfl
  · rw [ha]; rfl
  · rw [ha]; rfl

namespace Demo

/-- A dataframe whose only column is a string column. -/
def strOnly : Except Abort (DF × Heap Int) :=
  (build [.addStrings b!"s" [b!"u", b!"v"]] heap0).1.toDataFrame (build [.addStrings b!"s" [b!"u", b!"v"]] heap0).2

/-- C37, part of the claim that is false: hashing all the columns writes the new int columns into the
maps of the input dataframe, and the result keeps the string columns. -/
theorem C37_all_columns_refuted : ∃ (df : DF) (h : Heap Int) (r : DF) (h' : Heap Int),
    strOnly = .ok (df, h) ∧ df.hashStringsView [b!"s"] [b!"s"] h = .ok (r, h') ∧
    (abs h df).col .int b!"s" = none ∧ (abs h' df).col .int b!"s" ≠ none ∧ (abs h' r).col .obj b!"s" ≠ none := by
  have key : okAnd strOnly (fun p => okAnd (p.1.hashStringsView [b!"s"] [b!"s"] p.2) (fun q =>
      decide ((abs p.2 p.1).col .int b!"s" = none ∧ (abs q.2 p.1).col .int b!"s" ≠ none ∧
        (abs q.2 q.1).col .obj b!"s" ≠ none))) = true := by decide
  obtain ⟨⟨df, h⟩, e1, e2⟩ := okAnd_iff.1 key
  obtain ⟨⟨r, h'⟩, e3, e4⟩ := okAnd_iff.1 e2
  exact ⟨df, h, r, h', e1, e3, by simpa using e4⟩

end Demo

end Verif
