import Verif.Proofs.PoolJobs
import Verif.Props.OneHot
import Verif.Props.Imputer
import Verif.Props.Scaler

/-! C35 for the scaler, the imputer and the one-hot encoder: every interleaving of the individual cell accesses. -/

namespace Verif
variable {F : Type}

/-! ### Training -/

/-- A float column, cell by cell. -/
theorem cells_of_floats {df : DF} {h : Heap F} {c : GoStr} {vals : List F} (hv : (abs h df).floats c = some vals) :
    df.rows.map (h.cell (tabCol (h.tab df.tab) (.float, c))) = vals.map (fun v => some (.float v)) := by
  simp only [ADF.floats, abs] at hv
  cases hs : AMap.get (h.tab df.tab) (.float, c) with
  | none => rw [hs] at hv; cases hv
  | some s =>
    rw [hs] at hv
    simp only [Option.map_some] at hv
    simp only [tabCol, hs, Option.getD_some]
    generalize df.rows.map (h.cell s) = cells at hv
    induction cells generalizing vals with
    | nil => simp at hv; subst hv; rfl
    | cons v cells ih =>
      simp only [List.mapM_cons] at hv
      cases v with
      | none => cases hv
      | some v =>
        cases v with
        | float x =>
          simp only [Option.pure_def, Option.bind_eq_bind, Option.bind_some, Option.bind_eq_some_iff] at hv
          obtain ⟨ys, h1, h2⟩ := hv
          cases h2
          rw [List.map_cons, ih h1]
        | _ => cases hv

section
variable [GoFloat F] {df : DF} {h : Heap F} {vals : GoStr → List F}

theorem foldl_acc (vals : List F) (l : FitReg F) (get : Option (Val F) → F) (hget : ∀ x, get (some (.float x)) = x) :
    vals.foldl (fun (l : FitReg F) v => { l with
      acc := if GoFloat.isNaN (get (some (.float v))) then l.acc else (GoFloat.add l.acc.1 (get (some (.float v))), l.acc.2 + 1) }) l =
    { l with acc := vals.foldl (fun a v => if GoFloat.isNaN v then a else (GoFloat.add a.1 v, a.2 + 1)) l.acc } := by
  induction vals generalizing l with
  | nil => rfl
  | cons v vs ih => simp only [List.foldl_cons]; rw [ih]; simp only [hget]

theorem foldl_mm (vals : List F) (l : FitReg F) (get : Option (Val F) → F) (hget : ∀ x, get (some (.float x)) = x) :
    vals.foldl (fun (l : FitReg F) v => { l with
      mm := (if GoFloat.lt (get (some (.float v))) l.mm.1 then get (some (.float v)) else l.mm.1,
        if GoFloat.lt l.mm.2 (get (some (.float v))) then get (some (.float v)) else l.mm.2) }) l =
    { l with mm := vals.foldl (fun a v => (if GoFloat.lt v a.1 then v else a.1, if GoFloat.lt a.2 v then v else a.2)) l.mm } := by
  induction vals generalizing l with
  | nil => rfl
  | cons v vs ih => simp only [List.foldl_cons]; rw [ih]; simp only [hget]

theorem foldl_sq (vals : List F) (l : FitReg F) (get : Option (Val F) → F) (hget : ∀ x, get (some (.float x)) = x) :
    vals.foldl (fun (l : FitReg F) v => { l with
      squaresum := if GoFloat.isNaN (get (some (.float v))) then l.squaresum else
          GoFloat.add l.squaresum (GoFloat.mul (GoFloat.sub (get (some (.float v))) l.mean) (GoFloat.sub (get (some (.float v))) l.mean)) }) l =
    { l with squaresum := vals.foldl (fun a v => if GoFloat.isNaN v then a else
      GoFloat.add a (GoFloat.mul (GoFloat.sub v l.mean) (GoFloat.sub v l.mean))) l.squaresum } := by
  induction vals generalizing l with
  | nil => rfl
  | cons v vs ih => simp only [List.foldl_cons]; rw [ih]; simp only [hget]

theorem scalerFit_atoms (opt : ScalerOptions) {c : GoStr} {vals : List F} (hv : (abs h df).floats c = some vals) (l : FitReg F) :
    (runAtoms (scalerFitAtoms opt df h c) (h, l)).2.out = scalerFitCol opt vals := by
  have hc := cells_of_floats hv
  have hget : ∀ x : F, asFloat ((some (Val.float x)).getD .nil) = x := fun _ => rfl
  unfold scalerFitAtoms scalerFitCol
  split
  · simp only [List.cons_append, runAtoms_cons, runAtoms_append, Atom.run]
    rw [run_reads hc, foldl_mm vals _ (fun o => asFloat (o.getD .nil)) hget]
    rfl
  · split
    · simp only [List.cons_append, runAtoms_cons, runAtoms_append, Atom.run]
      rw [run_reads hc, foldl_acc vals _ (fun o => asFloat (o.getD .nil)) hget]
      split
      · simp only [runAtoms_append]
        rw [run_reads hc, foldl_sq vals _ (fun o => asFloat (o.getD .nil)) hget]
        simp only [runAtoms_cons, runAtoms_nil, Atom.run, scalerMean, imputerSum, scalerSquares]
        split <;> rfl
      · rfl
    · rfl

theorem imputerFit_atoms {c : GoStr} {vals : List F} (hv : (abs h df).floats c = some vals) (l : FitReg F) :
    (runAtoms (imputerFitAtoms df h c) (h, l)).2.mean = imputerMean vals := by
  have hc := cells_of_floats hv
  have hget : ∀ x : F, asFloat ((some (Val.float x)).getD .nil) = x := fun _ => rfl
  unfold imputerFitAtoms
  simp only [List.cons_append, runAtoms_cons, runAtoms_append, Atom.run]
  rw [run_reads hc, foldl_acc vals _ (fun o => asFloat (o.getD .nil)) hget]
  rfl

theorem reads_scalerFit (opt : ScalerOptions) (c : GoStr) : ∀ a ∈ scalerFitAtoms opt df h c, a.reads = true := by
  intro a ha
  unfold scalerFitAtoms at ha
  split at ha
  · simp only [List.cons_append, List.mem_cons, List.mem_append, List.mem_map, List.not_mem_nil, or_false] at ha
    rcases ha with rfl | ⟨i, _, rfl⟩ | rfl <;> rfl
  · split at ha
    · simp only [List.cons_append, List.mem_cons, List.mem_append, List.mem_map] at ha
      rcases ha with rfl | ⟨i, _, rfl⟩ | rfl | rfl | ha
      · rfl
      · rfl
      · rfl
      · rfl
      · split at ha
        · simp only [List.mem_append, List.mem_map, List.mem_singleton] at ha
          rcases ha with ⟨i, _, rfl⟩ | rfl <;> rfl
        · cases ha
    · simp only [List.mem_singleton] at ha; subst ha; rfl

theorem reads_imputerFit (c : GoStr) : ∀ a ∈ imputerFitAtoms df h c, a.reads = true := by
  intro a ha
  unfold imputerFitAtoms at ha
  simp only [List.cons_append, List.mem_cons, List.mem_append, List.mem_map, List.not_mem_nil, or_false] at ha
  rcases ha with rfl | ⟨i, _, rfl⟩ | rfl <;> rfl

/-- C35 for `Scaler.Fit`: for every worker count and interleaving, the memory is unchanged, and the maps that the
caller fills from the results, in the order in which they come in (`t.got`), are those of `Scaler.fit`. -/
theorem C35_scaler_fit (sc : Scaler F) (wf : df.WF h) (hv : FloatCols (abs h df) vals) (hcpu : 0 < df.maxCPU)
    (hemp : (abs h df).col .float [] = none) {order : List GoStr} (hp : order.Perm (namesOf (h.tab df.tab) .float)) {mw : Int}
    {reg : GoStr → FitReg F} {n : Nat} {t : Pool (Heap F × (GoStr → FitReg F))}
    (st : Pool.Steps (atomPool true (scalerFitAtoms sc.options df h)) n (Pool.init (namesOf (h.tab df.tab) .float) order mw (h, reg)) t)
    (hr : t.caller = .returned) :
    t.mem.1 = h ∧ sc.fit df t.got h = .ok { sc with
      shift := t.got.foldl (fun m c => setOpt m c (t.mem.2 c).out.1) []
      scale := t.got.foldl (fun m c => setOpt m c (t.mem.2 c).out.2) [] } := by
  obtain ⟨r1, r2, _⟩ := readers_result (fun c _ => reads_scalerFit (df := df) (h := h) sc.options c) hp
    (nodup_namesOf_kind wf.keys _) st hr
  refine ⟨r1, ?_⟩
  have hg := (C34_result hp st hr).2.1
  have hrun := runQueue_ok (σ := AMap GoStr F × AMap GoStr F) (keys := namesOf (h.tab df.tab) .float) (order := t.got)
    (mw := df.maxCPU) (job := scalerJob sc.options df h)
    (g := fun m c => (setOpt m.1 c (t.mem.2 c).out.1, setOpt m.2 c (t.mem.2 c).out.2))
    (Or.inr hcpu) (by rw [mem_namesOf_iff, hemp]; simp) hg
    (by intro c hc s
        have hf := hv c (mem_namesOf_iff.1 hc)
        simp only [scalerJob, floatVals_of_floats hf]
        rw [r2 c hc, scalerFit_atoms sc.options hf]) ([], [])
  have hfold : ∀ (l : List GoStr) (m : AMap GoStr F × AMap GoStr F),
      l.foldl (fun m c => (setOpt m.1 c (t.mem.2 c).out.1, setOpt m.2 c (t.mem.2 c).out.2)) m
      = (l.foldl (fun m c => setOpt m c (t.mem.2 c).out.1) m.1, l.foldl (fun m c => setOpt m c (t.mem.2 c).out.2) m.2) := by
    intro l
    induction l with
    | nil => intro m; rfl
    | cons c l ih => intro m; simp only [List.foldl_cons]; rw [ih]
  rw [hfold] at hrun
  simp only [Scaler.fit, hrun]

/-- C35 for `FloatImputer.Fit` with the mean policy (the other policies use no worker). -/
theorem C35_imputer_fit (im : FloatImputer F) (hm : im.policy = .mean) (wf : df.WF h) (hv : FloatCols (abs h df) vals)
    (hcpu : 0 < df.maxCPU) (hemp : (abs h df).col .float [] = none) {order : List GoStr}
    (hp : order.Perm (namesOf (h.tab df.tab) .float)) {mw : Int}
    {reg : GoStr → FitReg F} {n : Nat} {t : Pool (Heap F × (GoStr → FitReg F))}
    (st : Pool.Steps (atomPool true (imputerFitAtoms df h)) n (Pool.init (namesOf (h.tab df.tab) .float) order mw (h, reg)) t)
    (hr : t.caller = .returned) :
    t.mem.1 = h ∧ im.fit df t.got h = .ok { im with fallback := t.got.foldl (fun m c => AMap.set m c (t.mem.2 c).mean) [] } := by
  obtain ⟨r1, r2, _⟩ := readers_result (fun c _ => reads_imputerFit (df := df) (h := h) c) hp (nodup_namesOf_kind wf.keys _) st hr
  refine ⟨r1, ?_⟩
  have hg := (C34_result hp st hr).2.1
  have hrun := runQueue_ok (σ := AMap GoStr F) (keys := namesOf (h.tab df.tab) .float) (order := t.got)
    (mw := df.maxCPU) (job := imputerJob df h) (g := fun m c => AMap.set m c (t.mem.2 c).mean)
    (Or.inr hcpu) (by rw [mem_namesOf_iff, hemp]; simp) hg
    (by intro c hc s
        have hf := hv c (mem_namesOf_iff.1 hc)
        simp only [imputerJob, floatVals_of_floats hf]
        rw [r2 c hc, imputerFit_atoms hf]) []
  simp only [FloatImputer.fit, hm, hrun]

end

/-- C35 for `OneHotEncoder.Fit`: for every worker count and interleaving, the categories and fallbacks found in memory
when the workers are done are those of `oneHotFitCol` for the values shown, so the encoder is the one of
`OneHotEncoder.fit`. -/
theorem C35_oneHot_fit {df : DF} {h : Heap F} {vals : GoStr → List Int} (o : OneHotOptions) (sch : OneHotSched) (wf : df.WF h)
    (hv : IntCols (abs h df) vals) {order : List GoStr} (hp : order.Perm (namesOf (h.tab df.tab) .int)) {mw : Int}
    {reg : GoStr → List Int × (AMap Int GoStr × (GoStr × GoStr))} {n : Nat}
    {t : Pool (Heap F × (GoStr → List Int × (AMap Int GoStr × (GoStr × GoStr))))}
    (st : Pool.Steps (atomPool true (oneHotFitAtoms o sch df h)) n (Pool.init (namesOf (h.tab df.tab) .int) order mw (h, reg)) t)
    (hr : t.caller = .returned) :
    t.mem.1 = h ∧ ∀ c ∈ namesOf (h.tab df.tab) .int, ∀ m : OneHotMaps, oneHotFitJob o sch df h c m =
      .ok (AMap.set m.1 c (t.mem.2 c).2.1, AMap.set m.2 c (t.mem.2 c).2.2) := by
  obtain ⟨r1, r2, _⟩ := readers_result (fun c _ => (by
    intro a ha
    unfold oneHotFitAtoms at ha
    simp only [List.cons_append, List.mem_cons, List.mem_append, List.mem_map, List.not_mem_nil, or_false] at ha
    rcases ha with rfl | ⟨i, _, rfl⟩ | rfl <;> rfl : ∀ a ∈ oneHotFitAtoms o sch df h c, a.reads = true)) hp
    (nodup_namesOf_kind wf.keys _) st hr
  refine ⟨r1, fun c hc m => ?_⟩
  have hcol := hv c (mem_namesOf_int.1 hc)
  have hcells : df.rows.map (h.cell (tabCol (h.tab df.tab) (.int, c))) = (vals c).map (fun v => some (.int v)) := by
    simp only [abs] at hcol
    cases hs : AMap.get (h.tab df.tab) (.int, c) with
    | none => rw [hs] at hcol; cases hcol
    | some s =>
      rw [hs] at hcol
      simpa [tabCol, hs] using hcol
  have hfold : ∀ (vs : List Int) (l : List Int × (AMap Int GoStr × (GoStr × GoStr))),
      vs.foldl (fun l v => (l.1 ++ [asInt ((some (Val.int v : Val F)).getD .nil)], l.2)) l = (l.1 ++ vs, l.2) := by
    intro vs
    induction vs with
    | nil => intro l; simp
    | cons v vs ih => intro l; rw [List.foldl_cons, ih]; simp [asInt]
  have : (t.mem.2 c).2 = oneHotFitCol o sch c (vals c) := by
    rw [r2 c hc]
    unfold oneHotFitAtoms
    simp only [List.cons_append, runAtoms_cons, runAtoms_append, Atom.run]
    rw [run_reads hcells, hfold]
    rfl
  simp only [oneHotFitJob, intVals_of_ints hcol, this]

/-! ### Transformation -/

section
variable [GoFloat F] {df : DF} {h : Heap F}

omit [GoFloat F] in
theorem loc_float {c : GoStr} {i : Nat} (hi : i ∈ df.rows) (hl : i < (tabCol (h.tab df.tab) (.float, c)).len)
    (hc : ((abs h df).col .float c).isSome) :
    ∃ j : Nat, cellOf h df .float c j = some ((tabCol (h.tab df.tab) (.float, c)).arr, (tabCol (h.tab df.tab) (.float, c)).off + i) := by
  simp only [abs, Option.isSome_map] at hc
  obtain ⟨s, hs⟩ := Option.isSome_iff_exists.1 hc
  obtain ⟨j, hj⟩ := List.getElem?_of_mem hi
  refine ⟨j, ?_⟩
  simp only [tabCol, hs, Option.getD_some] at hl ⊢
  simp [cellOf, locs, hs, hj, hl]

theorem scaler_commute (sc : Scaler F) (hc : ∀ c ∈ sc.transformedColumns, ((abs h df).col .float c).isSome)
    (hu : Unaliased h df sc.transformedColumns) : Commute (atomPool true (scalerAtoms sc df h)) sc.transformedColumns := by
  apply atomPool_commute
  intro c hcc c' hcc' hne a ha b hb
  simp only [scalerAtoms, List.mem_flatMap, List.mem_cons, List.not_mem_nil, or_false] at ha hb
  obtain ⟨i, hi, ha⟩ := ha
  obtain ⟨j, hj, hb⟩ := hb
  have key : i < (tabCol (h.tab df.tab) (.float, c)).len → j < (tabCol (h.tab df.tab) (.float, c')).len →
      ((tabCol (h.tab df.tab) (.float, c)).arr, (tabCol (h.tab df.tab) (.float, c)).off + i) ≠
      ((tabCol (h.tab df.tab) (.float, c')).arr, (tabCol (h.tab df.tab) (.float, c')).off + j) := by
    intro h1 h2 e
    obtain ⟨p, hp⟩ := loc_float hi h1 (hc c hcc)
    obtain ⟨q, hq⟩ := loc_float hj h2 (hc c' hcc')
    rw [e] at hp
    exact hu c hcc c' hcc' hne p q _ hp hq
  rcases ha with rfl | rfl <;> rcases hb with rfl | rfl
  · trivial
  · intro l x v hk h1
    simp only at hk
    split at hk
    · rename_i h2; cases hk; exact (key h1 h2).symm
    · cases hk
  · intro l x v hk h1
    simp only at hk
    split at hk
    · rename_i h2; cases hk; exact key h2 h1
    · cases hk
  · intro l l' x v x' v' hk hk'
    simp only at hk hk'
    split at hk
    · split at hk'
      · rename_i h1 h2; cases hk; cases hk'; exact Or.inl (key h1 h2)
      · cases hk'
    · cases hk

theorem scaler_atoms_run (f : F → F) {s : Slice} (is : List Nat) {g g' : Heap F} (e : updFloats (fun x => some (f x)) s is g = .ok g') (l : Val F) :
    (runAtoms (is.flatMap fun i => [Atom.rd s i (fun v _ => v.getD .nil),
      .wr (fun v => if i < s.len then some ((s.arr, s.off + i), .float (f (asFloat v))) else none)]) (g, l)).1 = g' := by
  induction is generalizing g l with
  | nil => cases e; rfl
  | cons i is ih =>
    simp only [updFloats] at e
    cases hv : g.cell s i with
    | none => rw [hv] at e; cases e
    | some v =>
      rw [hv] at e
      simp only at e
      by_cases hi : i < s.len
      · rw [putAt_write hi] at e
        rw [List.flatMap_cons, runAtoms_append]
        have : runAtoms [Atom.rd s i (fun v _ => v.getD .nil),
            .wr (fun v => if i < s.len then some ((s.arr, s.off + i), .float (f (asFloat v))) else none)] (g, l) =
            (g.putAt (s.arr, s.off + i) (.float (f (asFloat v))), v) := by
          simp [Atom.run, hv, hi]
        rw [this]
        exact ih e v
      · unfold Heap.write at e; rw [if_neg hi] at e; cases e

/-- C35 for `Scaler.TransformInplace` (hence for `InverseTransformInplace`): whatever the interleaving of the cell
accesses and the number of workers, the memory the caller finds is the one `Scaler.transformInplace` describes. -/
theorem C35_scaler_transform (sc : Scaler F) (wf : df.WF h) (nd : sc.transformedColumns.Nodup)
    (hc : ∀ c ∈ sc.transformedColumns, ((abs h df).col .float c).isSome) (hu : Unaliased h df sc.transformedColumns)
    (hcpu : 0 < df.maxCPU) (hemp : [] ∉ sc.transformedColumns) {order order' : List GoStr} (hp : order.Perm sc.transformedColumns)
    (hp' : order'.Perm sc.transformedColumns) {mw : Int} {reg : GoStr → Val F} {n : Nat} {t : Pool (Heap F × (GoStr → Val F))}
    (st : Pool.Steps (atomPool true (scalerAtoms sc df h)) n (Pool.init sc.transformedColumns order' mw (h, reg)) t)
    (hr : t.caller = .returned) : sc.transformInplace df order h = .ok t.mem.1 := by
  have hcm := scaler_commute sc hc hu
  rw [C35_schedule_independent hp' nd hcm st hr,
    ← runJobs_perm hp ((hp.nodup_iff).2 nd) (fun k hk k' hk' => hcm k (hp.mem_iff.1 hk) k' (hp.mem_iff.1 hk'))]
  rw [scaler_run (Or.inr hcpu) hemp hp]
  have key : ∀ (todo : List GoStr) (g : Heap F) (reg : GoStr → Val F), (∀ c ∈ todo, c ∈ sc.transformedColumns) → Quiet h g →
      todo.foldlM (fun h c => df.updFloatCol c (fun x => some (scaleVal sc c x)) h) g =
        .ok (runJobs (atomPool true (scalerAtoms sc df h)) todo (g, reg)).1 := by
    intro todo
    induction todo with
    | nil => intro _ _ _ _; rfl
    | cons c cs ih =>
      intro g reg hsub q
      obtain ⟨g1, e1, q1, _⟩ := updFloatCol_spec (q.wf wf) (by rw [q.has]; exact hc c (hsub c (by simp))) (fun x => some (scaleVal sc c x))
      rw [List.foldlM_cons, e1]
      have hcc := hc c (hsub c (by simp))
      simp only [abs, Option.isSome_map] at hcc
      obtain ⟨s, hs⟩ := Option.isSome_iff_exists.1 hcc
      have e2 := e1
      simp only [DF.updFloatCol, q.tab, hs] at e2
      have hj : (execOps ((scalerAtoms sc df h c).map (Atom.op c)) (g, reg)).1 = g1 := by
        rw [exec_atoms]
        have := scaler_atoms_run (scaleVal sc c) df.rows e2 (reg c)
        simpa only [scalerAtoms, tabCol, hs, Option.getD_some] using this
      have hj2 : runJobs (atomPool true (scalerAtoms sc df h)) (c :: cs) (g, reg) =
          runJobs (atomPool true (scalerAtoms sc df h)) cs (g1, (execOps ((scalerAtoms sc df h c).map (Atom.op c)) (g, reg)).2) := by
        show runJobs _ cs (execOps ((scalerAtoms sc df h c).map (Atom.op c)) (g, reg)) = _
        rw [← hj]
      rw [hj2]
      exact ih g1 _ (fun x hx => hsub x (by simp [hx])) (q.trans q1)
  exact key order h reg (fun c hcc => hp.mem_iff.1 hcc) (Quiet.refl h)

/-! ### One-hot transformation -/

section
variable {enc : OneHotEncoder} {r : DF} {h1 : Heap F} {c : GoStr}

omit [GoFloat F] in
theorem oneHotRow_stopped (i : Nat) (g : Heap F) (v : Int) : runAtoms (oneHotRow enc r h1 c i) (g, (v, true)) = (g, (v, true)) := by
  simp [oneHotRow, Atom.run]

omit [GoFloat F] in
theorem oneHotRows_stopped (is : List Nat) (g : Heap F) (v : Int) :
    runAtoms (is.flatMap (oneHotRow enc r h1 c)) (g, (v, true)) = (g, (v, true)) := by
  induction is with
  | nil => rfl
  | cons i is ih => rw [List.flatMap_cons, runAtoms_append, oneHotRow_stopped, ih]

omit [GoFloat F] in
theorem oneHotRows_run {src : Slice} (hs : AMap.get (h1.tab r.tab) (.int, c) = some src) (is : List Nat) {g g' : Heap F} {f f' : Bool}
    (hq : g.tab = h1.tab) (e : oneHotLoop enc r c src is (g, f) = .ok (g', f')) (v : Int) :
    (runAtoms (is.flatMap (oneHotRow enc r h1 c)) (g, (v, false))).1 = g' ∧
    f' = (f || (runAtoms (is.flatMap (oneHotRow enc r h1 c)) (g, (v, false))).2.2) := by
  induction is generalizing g v with
  | nil => cases e; simp
  | cons i is ih =>
    simp only [oneHotLoop] at e
    rw [List.flatMap_cons, runAtoms_append]
    cases hv : g.cell src i with
    | none => rw [hv] at e; cases e
    | some x =>
      rw [hv] at e
      simp only at e
      cases ht : enc.target c (asInt x) with
      | none =>
        rw [ht] at e
        have : runAtoms (oneHotRow enc r h1 c i) (g, (v, false)) = (g, (asInt x, true)) := by
          simp [oneHotRow, Atom.run, tabCol, hs, hv, ht]
        cases e
        rw [this, oneHotRows_stopped]
        simp
      | some m =>
        rw [ht] at e
        simp only [DF.setTrue, hq] at e
        cases hn : AMap.get (h1.tab r.tab) (.bool, m) with
        | none => rw [hn] at e; cases e
        | some s =>
          rw [hn] at e
          simp only at e
          by_cases hi : i < s.len
          · rw [putAt_write hi] at e
            have : runAtoms (oneHotRow enc r h1 c i) (g, (v, false)) = (g.putAt (s.arr, s.off + i) (.bool true), (asInt x, false)) := by
              simp [oneHotRow, Atom.run, tabCol, hs, hv, ht, hn, hi]
            rw [this]
            exact ih (by simpa [Heap.putAt, Heap.setArr] using hq) e _
          · unfold Heap.write at e; rw [if_neg hi] at e; cases e

theorem oneHot_commute {df : DF} {h : Heap F} (wf : df.WF h) (sp : OHPrep df enc.newCols h r h1) (ok : Runnable enc) :
    Commute (atomPool false (oneHotAtoms enc r h1)) enc.catCols := by
  apply atomPool_commute
  intro c hc c' hc' _ a ha b hb
  have rdl : ∀ d : GoStr, (tabCol (h1.tab r.tab) (.int, d)).len = 0 ∨ (tabCol (h1.tab r.tab) (.int, d)).arr < h.next := by
    intro d
    unfold tabCol
    rw [sp.old (.int, d) (by simp)]
    cases hs : AMap.get (h.tab df.tab) (.int, d) with
    | none => exact Or.inl rfl
    | some s =>
      have hv := wf.slices _ _ hs
      rcases hv.2 with h0 | ⟨h0, _⟩
      · exact Or.inl (by have := hv.1; simp only [Option.getD_some]; omega)
      · exact Or.inr h0
  have wrl : ∀ d ∈ enc.catCols, ∀ (i : Nat) (l : Int × Bool) x w, (if l.2 then none else
     match enc.target d l.1 with
     | none => none
     | some n => if i < (tabCol (h1.tab r.tab) (.bool, n)).len then
         some (((tabCol (h1.tab r.tab) (.bool, n)).arr, (tabCol (h1.tab r.tab) (.bool, n)).off + i), (.bool true : Val F))
       else none) = some (x, w) → h.next ≤ x.1 ∧ w = .bool true := by
    intro d hd i l x w e
    split at e
    · cases e
    · split at e
      · cases e
      · rename_i n hn
        split at e
        · cases e
          obtain ⟨s, g1, g2, _⟩ := sp.new n (ok.target d hd _ _ hn)
          simp [tabCol, g1, g2]
        · cases e
  have mem : ∀ {d : GoStr} {a : Atom F (Int × Bool)}, a ∈ oneHotAtoms enc r h1 d →
      (∃ k, a = .comp k) ∨ ∃ i, a ∈ oneHotRow enc r h1 d i := by
    intro d a ha
    simp only [oneHotAtoms, List.mem_cons, List.mem_flatMap] at ha
    rcases ha with rfl | ⟨i, _, ha⟩
    · exact Or.inl ⟨_, rfl⟩
    · exact Or.inr ⟨i, ha⟩
  rcases mem ha with ⟨k, rfl⟩ | ⟨i, ha⟩
  · cases b <;> trivial
  rcases mem hb with ⟨k, rfl⟩ | ⟨j, hb⟩
  · cases a <;> trivial
  simp only [oneHotRow, List.mem_cons, List.not_mem_nil, or_false] at ha hb
  rcases ha with rfl | rfl | rfl <;> rcases hb with rfl | rfl | rfl <;> try trivial
  · intro l x w hk hi e
    have h2 := (wrl c' hc' j l x w hk).1
    rcases rdl c with h0 | h0
    · omega
    · rw [e] at h2; simp only at h2; omega
  · intro l x w hk hi e
    have h2 := (wrl c hc i l x w hk).1
    rcases rdl c' with h0 | h0
    · omega
    · rw [e] at h2; simp only at h2; omega
  · intro l l' x w x' w' hk hk'
    exact Or.inr ((wrl c hc i l x w hk).2.trans (wrl c' hc' j l' x' w' hk').2.symm)

end

/-- A fitted encoder meets the condition of `C35_oneHot_transform`. -/
theorem oneHot_fit_runnable {train : DF} {h : Heap F} {enc enc' : OneHotEncoder} {sch : OneHotSched} {vals : GoStr → List Int}
    (hv : IntCols (abs h train) vals) (hcpu : 0 < train.maxCPU) (hemp : (abs h train).col .int [] = none)
    (hf : ∀ c, ((abs h train).col .int c).isSome → CanFit enc.options (vals c)) (e : enc.fit sch train h = .ok enc') :
    Runnable enc' := by
  obtain ⟨e2, he, ft⟩ := oneHot_fit (enc := enc) (sch := sch) hv (Or.inr hcpu) hemp hf
  rw [e] at he; cases he
  exact ft.runnable (fun c hc => hf c (mem_namesOf_int.1 hc))

/-- C35 for `OneHotEncoder.TransformView`: once the new columns are allocated (in `r`, with heap `h1`), whatever the
interleaving of the cell accesses and the number of workers, the caller finds the same error or the same memory. -/
theorem C35_oneHot_transform {df : DF} {h : Heap F} {enc : OneHotEncoder} {vals : GoStr → List Int} (wf : df.WF h)
    (hv : IntCols (abs h df) vals) (ok : Runnable enc) (hne : enc.catCols ≠ []) (nd : enc.catCols.Nodup)
    (hint : ∀ c ∈ enc.catCols, ((abs h df).col .int c).isSome) (hemp : [] ∉ enc.catCols) (hcpu : 0 < df.maxCPU)
    {r : DF} {h1 : Heap F} (hprep : df.view.withRaw (df.view.toRaw.alloc .bool enc.newCols h) = (r, h1))
    {order order' : List GoStr} (hp : order.Perm enc.catCols) (hp' : order'.Perm enc.catCols) {mw : Int}
    {reg : GoStr → Int × Bool} {n : Nat} {t : Pool (Heap F × (GoStr → Int × Bool))}
    (st : Pool.Steps (atomPool false (oneHotAtoms enc r h1)) n (Pool.init enc.catCols order' mw (h1, reg)) t)
    (hr : t.caller = .returned) :
    enc.transformView order df h =
      if enc.catCols.any (fun c => (t.mem.2 c).2) then .ok (none, t.mem.1)
      else .ok (some r, if enc.options.keep then t.mem.1 else r.toRaw.drop enc.catCols t.mem.1) := by
  have hnt : h.tab df.tab ≠ [] := by
    obtain ⟨c, hc⟩ := List.exists_mem_of_ne_nil _ hne
    have := hint c hc
    intro e
    simp [abs, e] at this
  have sp : OHPrep df enc.newCols h r h1 := by
    have := oneHot_prep wf hnt enc.newCols
    have e1 : ({ df.view with toRaw := (df.view.toRaw.alloc .bool enc.newCols h).1 } : DF) = r := congrArg Prod.fst hprep
    have e2 : (df.view.toRaw.alloc .bool enc.newCols h).2 = h1 := congrArg Prod.snd hprep
    rw [e1, e2] at this
    exact this
  have hcm := oneHot_commute (enc := enc) wf sp ok
  have hmem := C35_schedule_independent hp' nd hcm st hr
  have hcm' : Commute (atomPool false (oneHotAtoms enc r h1)) order :=
    fun k hk k' hk' => hcm k (hp.mem_iff.1 hk) k' (hp.mem_iff.1 hk')
  rw [← runJobs_perm hp ((hp.nodup_iff).2 nd) hcm'] at hmem
  -- the jobs one after the other
  have key : ∀ (todo : List GoStr) (D : List (Nat × Nat)) (g : Heap F) (f : Bool) (reg : GoStr → Int × Bool), todo.Nodup →
      (∀ c ∈ todo, c ∈ enc.catCols) → (∀ l ∈ D, h.next ≤ l.1) → Marked h1 D g →
      todo.foldlM (fun s c => oneHotJob enc r c s) (g, f) =
        .ok ((runJobs (atomPool false (oneHotAtoms enc r h1)) todo (g, reg)).1,
          f || todo.any (fun c => ((runJobs (atomPool false (oneHotAtoms enc r h1)) todo (g, reg)).2 c).2)) ∧
      ∀ c, c ∉ todo → (runJobs (atomPool false (oneHotAtoms enc r h1)) todo (g, reg)).2 c = reg c := by
    intro todo
    induction todo with
    | nil => intro _ _ _ _ _ _ _ _; exact ⟨by simp [runJobs, pure, Except.pure], fun _ _ => rfl⟩
    | cons c cs ih =>
      intro D g f reg nd hsub hD m
      obtain ⟨n1, n2⟩ := List.nodup_cons.1 nd
      obtain ⟨src, hs, hvs, hval⟩ := rawInt_spec wf hv (hint c (hsub c (by simp)))
      obtain ⟨g', D', e1, m1, d1, _⟩ := oneHotLoop_spec (enc := enc) wf sp hvs (ok.target c (hsub c (by simp))) df.rows
        (fun _ h => h) hval D hD g m f
      obtain ⟨gj, Dj, ej, _, _, _⟩ := oneHot_jobs (enc := enc) wf sp ok hv [c] (fun x hx => by
        rw [List.mem_singleton.1 hx]; exact hsub c (by simp)) (fun x hx => by
        rw [List.mem_singleton.1 hx]; exact hint c (hsub c (by simp))) D hD g m f
      have hjob : oneHotJob enc r c (g, f) = oneHotLoop enc r c src df.rows (g, f) := by
        obtain ⟨fb, hfb, a1, a2⟩ := ok.fb c (hsub c (by simp))
        have hsrc : AMap.get (g.tab r.tab) (.int, c) = some src := by
          rw [m.quiet.tab, sp.old _ (by simp)]; exact hs
        have hth : fallbackThere (g.tab r.tab) enc.options fb = true := by
          unfold fallbackThere
          rw [m.quiet.tab]
          simp only [Bool.and_eq_true, Bool.or_eq_true, decide_eq_true_eq]
          constructor
          · by_cases hx : enc.options.missing = .returnError
            · exact Or.inl hx
            · obtain ⟨s, q, _⟩ := sp.new _ (a1 hx); simp [q]
          · by_cases hx : enc.options.unknown = .returnError
            · exact Or.inl hx
            · obtain ⟨s, q, _⟩ := sp.new _ (a2 hx); simp [q]
        simp only [oneHotJob, hsrc, hfb, hth, if_true, sp.rows]
      have hsr : AMap.get (h1.tab r.tab) (.int, c) = some src := by rw [sp.old _ (by simp)]; exact hs
      obtain ⟨x1, x2⟩ := oneHotRows_run hsr df.rows (by funext a; rw [m.quiet.tab]) e1 0
      have hatoms : runAtoms (oneHotAtoms enc r h1 c) (g, reg c) = runAtoms (df.rows.flatMap (oneHotRow enc r h1 c)) (g, (0, false)) := by
        have : oneHotAtoms enc r h1 c = .comp (fun _ => (0, false)) :: df.rows.flatMap (oneHotRow enc r h1 c) := by
          unfold oneHotAtoms; rw [sp.rows]
        rw [this]; rfl
      obtain ⟨reg', hreg⟩ : ∃ reg' : GoStr → Int × Bool, reg' = fun x => if x = c then (runAtoms (oneHotAtoms enc r h1 c) (g, reg c)).2 else reg x :=
        ⟨_, rfl⟩
      have hj : runJobs (atomPool false (oneHotAtoms enc r h1)) (c :: cs) (g, reg) =
          runJobs (atomPool false (oneHotAtoms enc r h1)) cs (g', reg') := by
        show runJobs _ cs (execOps ((oneHotAtoms enc r h1 c).map (Atom.op c)) (g, reg)) = _
        rw [exec_atoms, hreg, ← x1, hatoms]
      obtain ⟨i1, i2⟩ := ih D' g' (f || df.rows.any (fun i => (enc.target c (rawInt h df c i)).isNone)) reg' n2
        (fun x hx => hsub x (by simp [hx])) d1 m1
      rw [hj]
      constructor
      · rw [List.foldlM_cons, hjob, e1]
        show List.foldlM _ _ cs = _
        have hc : reg' c = (runAtoms (df.rows.flatMap (oneHotRow enc r h1 c)) (g, (0, false))).2 := by
          rw [hreg, ← hatoms]; simp
        rw [i1, List.any_cons, i2 c n1, hc, ← Bool.or_assoc, ← x2]
      · intro x hx
        simp only [List.mem_cons, not_or] at hx
        rw [i2 x hx.2, hreg]; simp [hx.1]
  obtain ⟨k1, _⟩ := key order [] h1 false reg ((hp.nodup_iff).2 nd) (fun c hc => hp.mem_iff.1 hc) (by simp) (Marked.refl h1)
  rw [← hmem] at k1
  have hany : order.any (fun c => (t.mem.2 c).2) = enc.catCols.any (fun c => (t.mem.2 c).2) := by
    rw [Bool.eq_iff_iff, List.any_eq_true, List.any_eq_true]
    simp only [hp.mem_iff]
  rw [hany, Bool.false_or] at k1
  have hrun : runQueue enc.catCols order df.maxCPU (oneHotJob enc r) (h1, false) =
      .ok (t.mem.1, enc.catCols.any (fun c => (t.mem.2 c).2)) := by
    unfold runQueue
    rw [if_neg hne, if_neg (by rintro (h | h); · omega
                               · exact hemp h)]
    exact k1
  unfold OneHotEncoder.transformView
  rw [if_neg hne]
  simp only [hprep, hrun]
  cases enc.catCols.any (fun c => (t.mem.2 c).2) with
  | true => rfl
  | false => simp only; split <;> rfl

end

/-! ### Demo -/

namespace Demo

/-- Some schedule lets the caller of `Scaler.TransformInplace` return, and every such schedule gives the same dataframe. -/
example (sc : Scaler Int) (hs : sc.transformedColumns = [b!"x", b!"y"]) (reg : GoStr → Val Int) :
    (∃ n t, Pool.Steps (atomPool true (scalerAtoms sc fdf fh)) n (Pool.init sc.transformedColumns [b!"y", b!"x"] 2 (fh, reg)) t ∧
      t.caller = .returned) ∧
    ∀ n t, Pool.Steps (atomPool true (scalerAtoms sc fdf fh)) n (Pool.init sc.transformedColumns [b!"y", b!"x"] 2 (fh, reg)) t →
      t.caller = .returned → sc.transformInplace fdf [b!"x", b!"y"] fh = .ok t.mem.1 := by
  have hp : [b!"y", b!"x"].Perm sc.transformedColumns := by rw [hs]; exact List.Perm.swap _ _ _
  refine ⟨(C36_returns_iff _ hp 2 _).2 ⟨Or.inr (by decide), by rw [hs]; decide⟩, fun n t st hr => ?_⟩
  refine C35_scaler_transform sc fdf_wf (by rw [hs]; decide) ?_ (by rw [hs]; exact fdf_unaliased) (by decide +kernel)
    (by rw [hs]; decide) (by rw [hs]) hp st hr
  rw [hs]
  intro c hc
  apply mem_namesOf_iff.1
  rw [fdf_names]
  exact hc

end Demo

end Verif
