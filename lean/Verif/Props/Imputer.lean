import Verif.Proofs.Fit
import Verif.Props.Demo
import Verif.Proofs.Check

/-! C40, and C60 for the imputer. -/

namespace Verif
variable {F : Type}

/-- The value an imputer with fallback `fb` puts in place of `x`. -/
def imputed [GoFloat F] (fb : AMap GoStr F) (c : GoStr) (x : F) : F :=
  if GoFloat.isNaN x then (AMap.get fb c).getD x else x

/-- What the imputer learns from a column, policy by policy. -/
def imputerFallback [GoFloat F] (p : ImputingPolicy) (vals : List F) : F :=
  match p with
  | .mean => fmean vals
  | .zero => GoFloat.zero
  | .one => GoFloat.one

section
variable [GoFloat F] {df : DF} {h : Heap F} {im : FloatImputer F}

/-- C40, C60: `Fit` learns one fallback for every float column, from the values shown by the dataframe: their
mean (missing values aside), 0 or 1. -/
theorem C40_fit {vals : GoStr → List F} (wf : df.WF h) (hv : FloatCols (abs h df) vals)
    (hcpu : 0 < df.maxCPU) (hemp : (abs h df).col .float [] = none) {order : List GoStr}
    (hp : order.Perm (namesOf (h.tab df.tab) .float)) :
    ∃ im', im.fit df order h = .ok im' ∧ im'.policy = im.policy ∧ im'.transformedColumns.Nodup ∧
      (∀ c, c ∈ im'.transformedColumns ↔ ((abs h df).col .float c).isSome) ∧
      ∀ c, AMap.get im'.fallback c =
        if ((abs h df).col .float c).isSome then some (imputerFallback im.policy (vals c)) else none := by
  have fin : ∀ (l : List GoStr) (v : GoStr → F), (∀ c, c ∈ l ↔ ((abs h df).col .float c).isSome) →
      (∀ c, v c = imputerFallback im.policy (vals c)) →
      (AMap.keys (l.foldl (fun m c => AMap.set m c (v c)) [])).Nodup ∧
      (∀ c, c ∈ AMap.keys (l.foldl (fun m c => AMap.set m c (v c)) []) ↔ ((abs h df).col .float c).isSome) ∧
      ∀ c, AMap.get (l.foldl (fun m c => AMap.set m c (v c)) []) c =
        if ((abs h df).col .float c).isSome then some (imputerFallback im.policy (vals c)) else none := by
    intro l v hl hvl
    have hg : ∀ c, AMap.get (l.foldl (fun m c => AMap.set m c (v c)) []) c =
        if ((abs h df).col .float c).isSome then some (imputerFallback im.policy (vals c)) else none := by
      intro c
      rw [get_foldl_set]
      simp only [hl, hvl, AMap.get_nil]
    refine ⟨nodup_foldl_set v l [] List.nodup_nil, ?_, hg⟩
    intro c
    rw [← AMap.get_isSome_iff, hg]
    split <;> simp_all
  cases hpol : im.policy with
  | zero =>
    have := fin (namesOf (h.tab df.tab) .float) (fun _ => GoFloat.zero) (fun c => mem_namesOf_iff) (fun c => by rw [hpol]; rfl)
    rw [hpol] at this
    exact ⟨⟨_, _⟩, by simp only [FloatImputer.fit, hpol], rfl, this⟩
  | one =>
    have := fin (namesOf (h.tab df.tab) .float) (fun _ => GoFloat.one) (fun c => mem_namesOf_iff) (fun c => by rw [hpol]; rfl)
    rw [hpol] at this
    exact ⟨⟨_, _⟩, by simp only [FloatImputer.fit, hpol], rfl, this⟩
  | mean =>
    have := fin order (fun c => fmean (vals c)) (fun c => by rw [hp.mem_iff]; exact mem_namesOf_iff) (fun c => by rw [hpol]; rfl)
    rw [hpol] at this
    have hrun := runQueue_ok (σ := AMap GoStr F) (keys := namesOf (h.tab df.tab) .float) (order := order) (mw := df.maxCPU)
      (job := imputerJob df h)
      (g := fun m c => AMap.set m c (fmean (vals c))) (Or.inr hcpu)
      (by rw [mem_namesOf_iff, hemp]; simp) hp
      (by intro c hc s
          simp only [imputerJob, floatVals_of_floats (hv c (mem_namesOf_iff.1 hc)), imputerMean_eq]) []
    exact ⟨⟨_, _⟩, by simp only [FloatImputer.fit, hpol, hrun], rfl, this⟩

/-- C40: with the `Mean` policy, `Fit` never returns when a float column is named "" or the dataframe has no
worker (`EmptyDataFrame` with `maxCPU ≤ 0`). -/
theorem C40_fit_hangs (hpol : im.policy = .mean) (hc : ∃ c, ((abs h df).col .float c).isSome)
    (hx : ((abs h df).col .float []).isSome ∨ df.maxCPU ≤ 0) {order : List GoStr} :
    im.fit df order h = .error .hang := by
  simp only [FloatImputer.fit, hpol, runQueue]
  rw [if_neg (by obtain ⟨c, hc⟩ := hc
                 have := mem_namesOf_iff.2 hc
                 exact List.ne_nil_of_mem this),
    if_pos (by rcases hx with hx | hx
               · exact Or.inr (mem_namesOf_iff.2 hx)
               · exact Or.inl hx)]

theorem imputeLoop_eq (m : AMap GoStr F) (nd : (AMap.keys m).Nodup) (h : Heap F) :
    imputeLoop df m h =
      (AMap.keys m).foldlM (fun h c => df.updFloatCol c
        (fun x => if GoFloat.isNaN x then AMap.get m c else none) h) h := by
  have key : ∀ (l : AMap GoStr F), (∀ e ∈ l, AMap.get m e.1 = some e.2) → ∀ h,
      imputeLoop df l h = (AMap.keys l).foldlM (fun h c => df.updFloatCol c
        (fun x => if GoFloat.isNaN x then AMap.get m c else none) h) h := by
    intro l
    induction l with
    | nil => intro _ h; rfl
    | cons e l ih =>
      intro hl h
      obtain ⟨c, fb⟩ := e
      have h1 : AMap.get m c = some fb := hl (c, fb) (by simp)
      simp only [AMap.keys, List.map_cons, List.foldlM_cons, imputeLoop]
      have h2 : imputeVal fb = fun x => if GoFloat.isNaN x then AMap.get m c else none := by
        funext x; simp [imputeVal, h1]
      rw [h2]
      cases df.updFloatCol c (fun x => if GoFloat.isNaN x then AMap.get m c else none) h with
      | error e => rfl
      | ok h1 => exact ih (fun e he => hl e (by simp [he])) h1
  exact key m (fun e he => AMap.get_of_mem nd he) h

/-- C40: `TransformInplace` replaces the missing visible values of the fitted columns by the fallbacks, and does
nothing else: rows outside the view, other columns and all other dataframes read as before, except where they
show the very cells that were filled. (Rows may be repeated in the view.) -/
theorem C40_transform (wf : df.WF h) (nd : im.transformedColumns.Nodup)
    (hc : ∀ c ∈ im.transformedColumns, ((abs h df).col .float c).isSome) (hu : Unaliased h df im.transformedColumns) :
    ∃ h', im.transformInplace df h = .ok h' ∧ Transformed h h' df im.transformedColumns (imputed im.fallback) := by
  unfold FloatImputer.transformInplace
  rw [imputeLoop_eq im.fallback nd]
  obtain ⟨h', e, _, tr⟩ := updCols_idem (fun c x => if GoFloat.isNaN x then AMap.get im.fallback c else none)
    (imputed im.fallback) (AMap.keys im.fallback) nd
    (by intro c x
        simp only [updVal, asFloat, imputed]
        by_cases hn : GoFloat.isNaN x
        · simp only [hn, if_true]; cases AMap.get im.fallback c <;> rfl
        · simp only [hn, Bool.false_eq_true, if_false])
    (by intro c x
        unfold imputed
        cases hn : GoFloat.isNaN x with
        | false => simp [hn]
        | true =>
          cases hg : AMap.get im.fallback c with
          | none => simp [hn]
          | some y => simp) wf hc hu
  exact ⟨h', e, tr⟩

/-- C40: `TransformInplace` panics when a fitted column is missing. -/
theorem C40_transform_panics (wf : df.WF h) (nd : im.transformedColumns.Nodup)
    (hc : ∃ c ∈ im.transformedColumns, (abs h df).col .float c = none) :
    im.transformInplace df h = .error .panic := by
  unfold FloatImputer.transformInplace
  rw [imputeLoop_eq im.fallback nd]
  have key : ∀ (l : List GoStr) (h' : Heap F), Quiet h h' → (∃ c ∈ l, (abs h df).col .float c = none) →
      l.foldlM (fun h c => df.updFloatCol c (fun x => if GoFloat.isNaN x then AMap.get im.fallback c else none) h) h'
        = .error .panic := by
    intro l
    induction l with
    | nil => rintro h' q ⟨c, hc, _⟩; cases hc
    | cons c l ih =>
      rintro h' q ⟨d, hd, hnone⟩
      rw [List.foldlM_cons]
      cases hcc : (abs h' df).col .float c with
      | none =>
        have : AMap.get (h'.tab df.tab) (.float, c) = none := by simpa [abs] using hcc
        simp only [DF.updFloatCol, this]; rfl
      | some l' =>
        obtain ⟨h1, e1, q1, _⟩ := updFloatCol_spec (q.wf wf) (by rw [hcc]; rfl)
          (fun x => if GoFloat.isNaN x then AMap.get im.fallback c else none)
        rw [e1]
        refine ih h1 (q.trans q1) ⟨d, ?_, hnone⟩
        rcases List.mem_cons.1 hd with rfl | hd
        · have := q.has (d := df) (k := .float) (c := d)
          rw [hcc, hnone] at this; simp at this
        · exact hd
  exact key _ h (Quiet.refl h) hc

/-- The imputer's treatment of one value by the columns that show it (several when columns are aliases). -/
theorem impute_fold (m : AMap GoStr F) (n : GoStr → Nat) (cs : List GoStr) (hm : ∀ c ∈ cs, (AMap.get m c).isSome) :
    let P := fun v => cs.foldl (fun v c => (updVal (fun x => if GoFloat.isNaN x then AMap.get m c else none))^[n c] v) v
    ∀ v, P (P v) = P v := by
  intro P v
  have iter1 : ∀ (c : GoStr) (k : Nat) (v : Val F), GoFloat.isNaN (asFloat v) = false →
      (updVal (fun x => if GoFloat.isNaN x then AMap.get m c else none))^[k] v = v := by
    intro c k v hv
    induction k with
    | zero => rfl
    | succ k ih => rw [Function.iterate_succ_apply]; simp [updVal, hv, ih]
  have iter2 : ∀ (c : GoStr) (k : Nat) (v : Val F) (y : F), AMap.get m c = some y → GoFloat.isNaN (asFloat v) = true →
      (updVal (fun x => if GoFloat.isNaN x then AMap.get m c else none))^[k + 1] v = .float y := by
    intro c k v y hy hv
    rw [Function.iterate_succ_apply]
    have h1 : updVal (fun x => if GoFloat.isNaN x then AMap.get m c else none) v = .float y := by simp [updVal, hv, hy]
    rw [h1]
    induction k with
    | zero => rfl
    | succ k ih =>
      rw [Function.iterate_succ_apply', ih]
      simp only [updVal, asFloat, hy]
      split
      · rename_i h; split at h
        · cases h; rfl
        · cases h
      · rfl
  have A : ∀ (cs : List GoStr) (v : Val F), GoFloat.isNaN (asFloat v) = false →
      cs.foldl (fun v c => (updVal (fun x => if GoFloat.isNaN x then AMap.get m c else none))^[n c] v) v = v := by
    intro cs
    induction cs with
    | nil => intro v _; rfl
    | cons c cs ih => intro v hv; simp only [List.foldl_cons]; rw [iter1 c _ v hv]; exact ih v hv
  have B : ∀ (cs : List GoStr), (∀ c ∈ cs, (AMap.get m c).isSome) → ∀ (v v' : Val F), GoFloat.isNaN (asFloat v) = true →
      GoFloat.isNaN (asFloat v') = true →
      let Q := fun v => cs.foldl (fun v c => (updVal (fun x => if GoFloat.isNaN x then AMap.get m c else none))^[n c] v) v
      Q v = Q v' ∨ (Q v = v ∧ Q v' = v') := by
    intro cs
    induction cs with
    | nil => intro _ v v' _ _; exact Or.inr ⟨rfl, rfl⟩
    | cons c cs ih =>
      intro hm v v' hv hv'
      simp only [List.foldl_cons]
      obtain ⟨y, hy⟩ := Option.isSome_iff_exists.1 (hm c (by simp))
      cases hn : n c with
      | zero => exact ih (fun d hd => hm d (by simp [hd])) v v' hv hv'
      | succ k => rw [iter2 c k v y hy hv, iter2 c k v' y hy hv']; exact Or.inl rfl
  by_cases hv : GoFloat.isNaN (asFloat v)
  · by_cases hp : GoFloat.isNaN (asFloat (P v))
    · rcases B cs hm v (P v) hv hp with h1 | h1
      · exact h1.symm
      · exact h1.2
    · exact A cs (P v) (by simpa using hp)
  · have : P v = v := A cs v (by simpa using hv)
    rw [this, this]

/-- C40: imputing a second time changes nothing at all, even with repeated rows, aliased columns, or a fallback
that is itself missing. -/
theorem C40_twice (wf : df.WF h) (nd : im.transformedColumns.Nodup) {h1 h2 : Heap F}
    (e1 : im.transformInplace df h = .ok h1) (e2 : im.transformInplace df h1 = .ok h2) (d : DF) :
    abs h2 d = abs h1 d := by
  have hc : ∀ c ∈ im.transformedColumns, ((abs h df).col .float c).isSome := by
    intro c hc
    by_contra hno
    rw [C40_transform_panics wf nd ⟨c, hc, by simpa using hno⟩] at e1
    cases e1
  unfold FloatImputer.transformInplace at e1 e2
  rw [imputeLoop_eq im.fallback nd] at e1 e2
  obtain ⟨g1, e1', q1, a1⟩ := updCols_spec (fun c x => if GoFloat.isNaN x then AMap.get im.fallback c else none)
    (AMap.keys im.fallback) wf hc
  rw [e1] at e1'; cases e1'
  obtain ⟨g2, e2', q2, a2⟩ := updCols_spec (fun c x => if GoFloat.isNaN x then AMap.get im.fallback c else none)
    (AMap.keys im.fallback) (q1.wf wf) (fun c hcc => by rw [q1.has]; exact hc c hcc)
  rw [e2] at e2'; cases e2'
  have hat : ∀ x, h2.at x = h1.at x := by
    intro x
    rw [a2, a1]
    simp only [q1.fcolLocs]
    cases h.at x with
    | none => rfl
    | some v =>
      simp only [Option.map_some, Option.some.injEq]
      exact impute_fold im.fallback (fun c => (fcolLocs h df c).count x) _
        (fun c hcc => (AMap.get_isSome_iff _ _).2 hcc) v
  rw [abs_eq_locs, abs_eq_locs (h := h1), q2.locs]
  have : h2.at = h1.at := funext hat
  rw [this]

/-- C60 for the imputer: two dataframes, in whatever memory, that show the same float columns teach the imputer the
same fallbacks, whatever their hidden rows and other columns. -/
theorem C60_imputer {df₂ : DF} {h₂ : Heap F} {vals : GoStr → List F} (wf : df.WF h) (wf₂ : df₂.WF h₂)
    (hsame : ∀ c, (abs h df).col .float c = (abs h₂ df₂).col .float c) (hv : FloatCols (abs h df) vals)
    (hcpu : 0 < df.maxCPU) (hcpu₂ : 0 < df₂.maxCPU) (hemp : (abs h df).col .float [] = none) {order order₂ : List GoStr}
    (hp : order.Perm (namesOf (h.tab df.tab) .float)) (hp₂ : order₂.Perm (namesOf (h₂.tab df₂.tab) .float)) :
    ∃ a b, im.fit df order h = .ok a ∧ im.fit df₂ order₂ h₂ = .ok b ∧ ∀ c, AMap.get a.fallback c = AMap.get b.fallback c := by
  obtain ⟨a, ea, _, _, _, ga⟩ := C40_fit (im := im) wf hv hcpu hemp hp
  obtain ⟨b, eb, _, _, _, gb⟩ := C40_fit (im := im) (vals := vals) wf₂
    (fun c hc => by rw [← hsame] at hc; have := hv c hc; unfold ADF.floats at this ⊢; rwa [← hsame]) hcpu₂ (by rw [← hsame]; exact hemp) hp₂
  exact ⟨a, b, ea, eb, fun c => by rw [ga, gb, hsame]⟩

/-- C40, from training to use: after `Fit(train)`, `TransformInplace(df)` leaves the values of `df` that are not
missing, fills those that are with what was learnt from the column of the same name in `train`, and touches
nothing that is not shown by these columns of `df`. -/
theorem C40_fit_transform {train : DF} {vals : GoStr → List F} (wft : train.WF h) (wf : df.WF h) (hv : FloatCols (abs h train) vals)
    (hcpu : 0 < train.maxCPU) (hemp : (abs h train).col .float [] = none) {order : List GoStr}
    (hp : order.Perm (namesOf (h.tab train.tab) .float))
    (hc : ∀ c, ((abs h train).col .float c).isSome → ((abs h df).col .float c).isSome)
    (hu : Unaliased h df (namesOf (h.tab train.tab) .float)) :
    ∃ im' h', im.fit train order h = .ok im' ∧ im'.transformInplace df h = .ok h' ∧
      (∀ c, ((abs h train).col .float c).isSome → ∀ (i : Nat) x, df.get h .float c i = .ok (.float x) →
        df.get h' .float c i = .ok (.float (if GoFloat.isNaN x then imputerFallback im.policy (vals c) else x))) ∧
      (∀ (d : DF) k c' (j : Nat), (∀ c, ((abs h train).col .float c).isSome → ∀ i : Nat, ∀ l, cellOf h df .float c i = some l →
          cellOf h d k c' j ≠ some l) → d.get h' k c' j = d.get h k c' j) := by
  obtain ⟨im', e1, hpol, nd, hcols, hg⟩ := C40_fit (im := im) wft hv hcpu hemp hp
  obtain ⟨h', e2, tr⟩ := C40_transform (im := im') wf nd (fun c hcc => hc c ((hcols c).1 hcc))
    (fun c h1 c' h2 => hu c (mem_namesOf_iff.2 ((hcols c).1 h1)) c' (mem_namesOf_iff.2 ((hcols c').1 h2)))
  refine ⟨im', h', e1, e2, ?_, ?_⟩
  · intro c hcc i x hx
    obtain ⟨l, hl, _⟩ := (get_of_cellOf .float c i _).1 hx
    have := tr.hit c ((hcols c).2 hcc) i l hl df .float c i x hl hx
    rw [this]
    simp [imputed, hg, hcc]
  · intro d k c' j hno
    exact tr.miss d k c' j (fun c hcc => hno c ((hcols c).1 hcc))


/-- C40, from the constructor: `NewFloatImputer(p)` transforms nothing before it is trained; once trained on `train`, it fills the
missing values of `df` as `p` says — with the mean of the column in `train`, with 0 or with 1 — and leaves the others. Only the mean
is computed by workers: with the other policies no condition is put on the number of CPUs or on the names. -/
theorem C40_new {train : DF} {vals : GoStr → List F} (p : ImputingPolicy) (wft : train.WF h) (wf : df.WF h)
    (hv : FloatCols (abs h train) vals) {order : List GoStr}
    (hm : p = .mean → 0 < train.maxCPU ∧ (abs h train).col .float [] = none ∧ order.Perm (namesOf (h.tab train.tab) .float))
    (hc : ∀ c, ((abs h train).col .float c).isSome → ((abs h df).col .float c).isSome)
    (hu : Unaliased h df (namesOf (h.tab train.tab) .float)) :
    (newFloatImputer (F := F) p).transformedColumns = [] ∧ (newFloatImputer p).transformInplace df h = .ok h ∧
    ∃ im' h', (newFloatImputer p).fit train order h = .ok im' ∧ im'.transformInplace df h = .ok h' ∧
      (∀ c, c ∈ im'.transformedColumns ↔ ((abs h train).col .float c).isSome) ∧
      (∀ c, ((abs h train).col .float c).isSome → ∀ (i : Nat) x, df.get h .float c i = .ok (.float x) →
        df.get h' .float c i = .ok (.float (if GoFloat.isNaN x then imputerFallback p (vals c) else x))) := by
  refine ⟨rfl, rfl, ?_⟩
  have key : ∃ im', (newFloatImputer p).fit train order h = .ok im' ∧ im'.transformedColumns.Nodup ∧
      (∀ c, c ∈ im'.transformedColumns ↔ ((abs h train).col .float c).isSome) ∧
      ∀ c, AMap.get im'.fallback c =
        if ((abs h train).col .float c).isSome then some (imputerFallback p (vals c)) else none := by
    have fin : ∀ q : ImputingPolicy, q ≠ .mean → ∃ im', (newFloatImputer q).fit train order h = .ok im' ∧ im'.transformedColumns.Nodup ∧
      (∀ c, c ∈ im'.transformedColumns ↔ ((abs h train).col .float c).isSome) ∧
      ∀ c, AMap.get im'.fallback c =
        if ((abs h train).col .float c).isSome then some (imputerFallback q (vals c)) else none := by
      intro q hq
      have hg : ∀ v : F, ∀ c, AMap.get ((namesOf (h.tab train.tab) .float).foldl (fun m c => AMap.set m c v) []) c =
          if ((abs h train).col .float c).isSome then some v else none := by
        intro v c
        rw [get_foldl_set (fun _ => v)]
        simp only [mem_namesOf_iff, AMap.get_nil]
      have hk : ∀ v : F, ∀ c, c ∈ AMap.keys ((namesOf (h.tab train.tab) .float).foldl (fun m c => AMap.set m c v) []) ↔
          ((abs h train).col .float c).isSome := by
        intro v c
        rw [← AMap.get_isSome_iff, hg]
        split <;> simp_all
      cases q with
      | mean => exact absurd rfl hq
      | zero => exact ⟨_, rfl, nodup_foldl_set (fun _ => _) _ [] List.nodup_nil, hk _, hg _⟩
      | one => exact ⟨_, rfl, nodup_foldl_set (fun _ => _) _ [] List.nodup_nil, hk _, hg _⟩
    by_cases hp : p = .mean
    · obtain ⟨h1, h2, h3⟩ := hm hp
      obtain ⟨im', e1, _, nd, hcols, hg⟩ := C40_fit (im := newFloatImputer p) wft hv h1 h2 h3
      exact ⟨im', e1, nd, hcols, hg⟩
    · exact fin p hp
  obtain ⟨im', e1, nd, hcols, hg⟩ := key
  obtain ⟨h', e2, tr⟩ := C40_transform (im := im') wf nd (fun c hcc => hc c ((hcols c).1 hcc))
    (fun c h1 c' h2 => hu c (mem_namesOf_iff.2 ((hcols c).1 h1)) c' (mem_namesOf_iff.2 ((hcols c').1 h2)))
  refine ⟨im', h', e1, e2, hcols, ?_⟩
  intro c hcc i x hx
  obtain ⟨l, hl, _⟩ := (get_of_cellOf .float c i _).1 hx
  have := tr.hit c ((hcols c).2 hcc) i l hl df .float c i x hl hx
  rw [this]
  simp [imputed, hg, hcc]

end

/-- Columns kept in different arrays are not aliased. -/
theorem unaliased_of_arrs {h : Heap F} {df : DF} {cols : List GoStr}
    (ha : ∀ c ∈ cols, ∀ c' ∈ cols, c ≠ c' → (tabCol (h.tab df.tab) (.float, c)).arr ≠ (tabCol (h.tab df.tab) (.float, c')).arr) :
    Unaliased h df cols := by
  have key : ∀ c (i : Nat) l, cellOf h df .float c i = some l → l.1 = (tabCol (h.tab df.tab) (.float, c)).arr := by
    intro c i l hl
    simp only [cellOf, locs] at hl
    cases hs : AMap.get (h.tab df.tab) (.float, c) with
    | none => rw [hs] at hl; simp at hl
    | some s =>
      rw [hs] at hl
      simp only [Option.map_some, Option.bind_some, List.getElem?_map] at hl
      cases hr : df.rows[i]? with
      | none => rw [hr] at hl; simp at hl
      | some r =>
        rw [hr] at hl
        simp only [Option.map_some, Option.join_some] at hl
        split at hl
        · cases hl; simp [tabCol, hs]
        · cases hl
  intro c hc c' hc' hne i j l h1 h2
  exact ha c hc c' hc' hne (by rw [← key c i l h1, key c' j l h2])

/-- A row view of unaliased columns shows unaliased columns. -/
theorem Unaliased.view {h h' : Heap F} {df v : DF} {cols : List GoStr} {is : List Nat} (hu : Unaliased h df cols)
    (rv : RowView h df h' v is) : Unaliased h' v cols := by
  have key : ∀ c (i : Nat) l, cellOf h' v .float c i = some l → ∃ j : Nat, cellOf h df .float c j = some l := by
    intro c i l hl
    rw [cellOf, rv.shares] at hl
    simp only [ADF.select] at hl
    cases hs : (locs h df).col .float c with
    | none => rw [hs] at hl; simp at hl
    | some s =>
      rw [hs] at hl
      simp only [Option.map_some, Option.bind_some, List.getElem?_map] at hl
      cases hr : is[i]? with
      | none => rw [hr] at hl; simp at hl
      | some r =>
        rw [hr] at hl
        simp only [Option.map_some, Option.join_some] at hl
        exact ⟨r, by simp only [cellOf, hs]; simpa using hl⟩
  intro c hc c' hc' hne i j l h1 h2
  obtain ⟨i', h1⟩ := key c i l h1
  obtain ⟨j', h2⟩ := key c' j l h2
  exact hu c hc c' hc' hne i' j' l h1 h2

/-! ### Examples -/

namespace Demo

/-- Two float columns with missing values (`-999` is the toy NaN) and an int column. -/
def fops : List (BOp Int) :=
  [.add .float b!"x" [.float 5, .float (-999), .float 9, .float 1], .add .float b!"y" [.float (-999), .float 2, .float 4, .float (-999)],
   .add .int b!"a" [.int 10, .int 20, .int 30, .int 40]]

def fres : Except Abort (DF × Heap Int) := (build fops heap0).1.toDataFrame (build fops heap0).2

/-- A dataframe with missing floats. -/
def fdf : DF := match fres with | .ok p => p.1 | .error _ => ⟨⟨0, none, false, none, 0, none⟩, ⟨[], 0⟩, ⟨0,0,0,0⟩, false, false⟩

def fh : Heap Int := match fres with | .ok p => p.2 | .error _ => heap0

theorem fdf_wf : fdf.WF fh := DF.wf_of_check 4 (by decide +kernel)

/-- The numbers of `fdf`. -/
def fvals (c : GoStr) : List Int := if c = b!"x" then [5, -999, 9, 1] else if c = b!"y" then [-999, 2, 4, -999] else []

theorem fdf_names : namesOf (fh.tab fdf.tab) .float = [b!"x", b!"y"] := by decide +kernel

theorem fdf_cols : FloatCols (abs fh fdf) fvals := by
  intro c hc
  have := mem_namesOf_iff.2 hc
  rw [fdf_names] at this
  simp at this
  rcases this with rfl | rfl <;> decide +kernel

theorem fdf_unaliased : Unaliased fh fdf [b!"x", b!"y"] := unaliased_of_arrs (by decide +kernel)

/-- Training on `fdf` and imputing it: x gets (5+9+1)/3 = 5, y gets (2+4)/2 = 3. -/
example : ∃ im' h', (newFloatImputer .mean).fit fdf [b!"y", b!"x"] fh = .ok im' ∧ im'.transformInplace fdf fh = .ok h' ∧
    fdf.get h' .float b!"x" (1 : Nat) = .ok (.float 5) ∧ fdf.get h' .float b!"y" (0 : Nat) = .ok (.float 3) ∧
    fdf.get h' .float b!"y" (1 : Nat) = .ok (.float 2) ∧ fdf.get h' .int b!"a" (1 : Nat) = .ok (.int 20) := by
  obtain ⟨im', h', e1, e2, h3, h4⟩ := C40_fit_transform (im := newFloatImputer .mean) (order := [b!"y", b!"x"]) fdf_wf fdf_wf
    fdf_cols (by decide +kernel) (by decide +kernel) (by rw [fdf_names]; exact List.Perm.swap _ _ _) (fun c hc => hc)
    (by rw [fdf_names]; exact fdf_unaliased)
  refine ⟨im', h', e1, e2, ?_, ?_, ?_, ?_⟩
  · rw [h3 b!"x" (by decide +kernel) 1 (-999) (by decide +kernel)]; rfl
  · rw [h3 b!"y" (by decide +kernel) 0 (-999) (by decide +kernel)]; rfl
  · rw [h3 b!"y" (by decide +kernel) 1 2 (by decide +kernel)]; rfl
  · rw [h4 fdf .int b!"a" 1]
    · decide +kernel
    · intro c hc i l hl
      have := mem_namesOf_iff.2 hc
      rw [fdf_names] at this
      have hk : ∀ c ∈ [b!"x", b!"y"], ∀ o ∈ [(0 : Nat), 1, 2, 3].map (cellOf fh fdf .float c), o ≠ cellOf fh fdf .int b!"a" 1 := by
        decide +kernel
      by_cases hi : i < 4
      · rw [← hl]
        refine (hk c this _ ?_).symm
        refine List.mem_map.2 ⟨i, ?_, rfl⟩
        have : i = 0 ∨ i = 1 ∨ i = 2 ∨ i = 3 := by omega
        simpa using this
      · exfalso
        have hr : fdf.rows = [0, 1, 2, 3] := by decide +kernel
        simp only [cellOf, locs, hr] at hl
        cases hs : AMap.get (fh.tab fdf.tab) (.float, c) with
        | none => rw [hs] at hl; simp at hl
        | some s =>
          rw [hs] at hl
          obtain ⟨j, rfl⟩ : ∃ j, i = j + 4 := ⟨i - 4, by omega⟩
          simp at hl

/-- With the policy `one`, the missing values of `fdf` become 1; no order of the workers is asked for. -/
example : ∃ im' h', (newFloatImputer .one).fit fdf [] fh = .ok im' ∧ im'.transformInplace fdf fh = .ok h' ∧
    fdf.get h' .float b!"x" (1 : Nat) = .ok (.float 1) ∧ fdf.get h' .float b!"y" (1 : Nat) = .ok (.float 2) := by
  obtain ⟨_, _, im', h', e1, e2, _, h3⟩ := C40_new (order := []) .one fdf_wf fdf_wf fdf_cols (fun hp => by simp at hp) (fun c hc => hc)
    (by rw [fdf_names]; exact fdf_unaliased)
  refine ⟨im', h', e1, e2, ?_, ?_⟩
  · rw [h3 b!"x" (by decide +kernel) 1 (-999) (by decide +kernel)]; rfl
  · rw [h3 b!"y" (by decide +kernel) 1 2 (by decide +kernel)]; rfl

end Demo

end Verif
