import Verif.Props.Scaler
import Verif.Proofs.Ideal

/-! C41 (inverse), C42 and C43: the scaler in idealised arithmetic (no rounding). -/

namespace Verif
open Ideal

/-! ### What is learnt -/

/-- The scale of standard scaling. -/
noncomputable def stdScale (xs : List ℝ) : ℝ :=
  if (xs.map fun x => (x - mean xs) ^ 2).sum = 0 then Real.sqrt (xs.length + 1)
  else Real.sqrt (xs.length / (xs.map fun x => (x - mean xs) ^ 2).sum)

theorem sum_nonneg_sq (xs : List ℝ) (m : ℝ) : 0 ≤ (xs.map fun x => (x - m) ^ 2).sum := by
  apply List.sum_nonneg
  intro y hy
  simp only [List.mem_map] at hy
  obtain ⟨x, _, rfl⟩ := hy
  positivity

theorem stdScale_pos (xs : List ℝ) (hne : xs ≠ []) : 0 < stdScale xs := by
  unfold stdScale
  have hl : (0 : ℝ) < xs.length := by
    have := List.length_pos_of_ne_nil hne
    exact_mod_cast this
  split
  · exact Real.sqrt_pos.2 (by linarith)
  · rename_i h
    exact Real.sqrt_pos.2 (div_pos hl (lt_of_le_of_ne (sum_nonneg_sq xs _) (Ne.symm h)))

theorem std_fit {o : ScalerOptions} {l : List Ideal} (hm : o.minMax = false) (hp : ∀ v ∈ l, Plain v) (hne : reals l ≠ []) :
    scalerFitCol o l = (if o.centering then some (real (-mean (reals l))) else none,
      if o.scaling then some (real (stdScale (reals l))) else none) := by
  have hlen : (imputerSum l).2 = (reals l).length := by rw [imputerSum_eq, present_eq hp, List.length_map]
  have hmean : (scalerMean l).1 = real (mean (reals l)) := by
    rw [← fmean_eq hp hne, ← imputerMean_eq]; rfl
  have hn : (scalerMean l).2 = (reals l).length := hlen
  unfold scalerFitCol
  rw [hm]
  simp only [Bool.false_eq_true, if_false, hmean, hn, squares_eq hp, ideal_neg, ideal_zero, ideal_eq, ideal_one, ideal_ofInt, ideal_add,
    decide_eq_true_eq]
  have hss := sum_nonneg_sq (reals l) (mean (reals l))
  cases hc : o.centering <;> cases hs : o.scaling <;> simp only [Bool.or_self, Bool.or_true, Bool.or_false, Bool.true_or, Bool.false_or,
    if_true, Bool.false_eq_true, if_false]
  all_goals
    unfold stdScale
    simp only [Prod.mk.injEq, true_and]
    split
    · rename_i h0
      rw [h0, ideal_div _ _ (by norm_num), ideal_sqrt _ (by positivity)]
      simp
    · rename_i h0
      rw [ideal_div _ _ h0, ideal_sqrt _ (by positivity)]
      simp

theorem minmax_fit {o : ScalerOptions} {l : List Ideal} (hm : o.minMax = true) (hp : ∀ v ∈ l, Plain v) (hne : reals l ≠ []) :
    ∃ a b, a ∈ reals l ∧ b ∈ reals l ∧ (∀ x ∈ reals l, a ≤ x ∧ x ≤ b) ∧
      scalerFitCol o l = (some (real (-a)), some (real (b - a))) := by
  rcases minmax_eq hp with ⟨h1, _⟩ | ⟨a, b, h1, h2, h3, h4⟩
  · exact absurd h1 hne
  · refine ⟨a, b, h1, h2, h3, ?_⟩
    unfold scalerFitCol
    rw [hm, h4]
    simp only [if_true, ideal_neg, ideal_sub]

/-! ### C42 -/

theorem mean_map (xs : List ℝ) (m k : ℝ) : (xs.map fun x => (x - m) * k).sum = (xs.sum - xs.length * m) * k := by
  induction xs with
  | nil => simp
  | cons x xs ih => simp only [List.map_cons, List.sum_cons, ih, List.length_cons]; push_cast; ring

theorem sq_map (xs : List ℝ) (m k : ℝ) :
    (xs.map fun x => ((x - m) * k) ^ 2).sum = (xs.map fun x => (x - m) ^ 2).sum * k ^ 2 := by
  induction xs with
  | nil => simp
  | cons x xs ih => simp only [List.map_cons, List.sum_cons, ih]; ring

theorem sq_zero (xs : List ℝ) (m : ℝ) (h : (xs.map fun x => (x - m) ^ 2).sum = 0) : ∀ x ∈ xs, x = m := by
  induction xs with
  | nil => simp
  | cons x xs ih =>
    simp only [List.map_cons, List.sum_cons] at h
    have h1 := sum_nonneg_sq xs m
    have h2 : 0 ≤ (x - m) ^ 2 := by positivity
    intro y hy
    rcases List.mem_cons.1 hy with rfl | hy
    · have : (y - m) ^ 2 = 0 := by linarith
      have := pow_eq_zero_iff (n := 2) (by norm_num) |>.1 this
      linarith
    · exact ih (by linarith) y hy

theorem mean_const {xs : List ℝ} {m : ℝ} (hne : xs ≠ []) (h : ∀ x ∈ xs, x = m) : mean xs = m := by
  have : xs.sum = xs.length * m := by
    clear hne
    induction xs with
    | nil => simp
    | cons x xs ih =>
      rw [List.sum_cons, ih (fun y hy => h y (by simp [hy])), h x (by simp), List.length_cons]; push_cast; ring
  have hl : (xs.length : ℝ) ≠ 0 := by simpa using hne
  rw [mean, this]; field_simp

/-- What standard scaling makes of a list of numbers. -/
theorem std_result (xs : List ℝ) (hne : xs ≠ []) :
    let ys := xs.map fun x => (x - mean xs) * stdScale xs
    mean ys = 0 ∧ ((∃ x ∈ xs, ∃ y ∈ xs, x ≠ y) → variance ys = 1) ∧ ((∀ x ∈ xs, ∀ y ∈ xs, x = y) → ∀ y ∈ ys, y = 0) := by
  intro ys
  have hl : (xs.length : ℝ) ≠ 0 := by simpa using hne
  have hmean : mean ys = 0 := by
    show (xs.map _).sum / _ = 0
    rw [mean_map]
    have : xs.sum - xs.length * mean xs = 0 := by unfold mean; field_simp; ring
    rw [this]; simp
  refine ⟨hmean, ?_, ?_⟩
  · rintro ⟨x, hx, y, hy, hxy⟩
    have hss : (xs.map fun x => (x - mean xs) ^ 2).sum ≠ 0 := by
      intro h0
      have := sq_zero xs _ h0
      exact hxy (by rw [this x hx, this y hy])
    have hpos := lt_of_le_of_ne (sum_nonneg_sq xs (mean xs)) (Ne.symm hss)
    unfold variance
    rw [hmean]
    have : (ys.map fun x => (x - 0) ^ 2) = xs.map fun x => ((x - mean xs) * stdScale xs) ^ 2 := by
      show List.map _ (List.map _ _) = _
      rw [List.map_map]; congr 1; funext x; simp
    rw [this, sq_map]
    have hk : stdScale xs ^ 2 = xs.length / (xs.map fun x => (x - mean xs) ^ 2).sum := by
      unfold stdScale
      rw [if_neg hss, Real.sq_sqrt (by positivity)]
    rw [hk]
    have hyl : (ys.length : ℝ) = xs.length := by simp [ys]
    rw [hyl]
    field_simp
  · intro h y hy
    simp only [ys, List.mem_map] at hy
    obtain ⟨x, hx, rfl⟩ := hy
    rw [mean_const hne (fun z hz => h z hz x hx)]
    ring

theorem reals_map {l : List Ideal} (hp : ∀ v ∈ l, Plain v) {g : Ideal → Ideal} {f : ℝ → ℝ} (hg : ∀ x, g (real x) = real (f x))
    (hn : g Ideal.nan = Ideal.nan) : reals (l.map g) = (reals l).map f := by
  induction l with
  | nil => rfl
  | cons v l ih =>
    have ih := ih (fun w hw => hp w (by simp [hw]))
    cases v with
    | nan => rw [List.map_cons, hn, reals_nan, reals_nan, ih]
    | real x => rw [List.map_cons, hg, reals_real, reals_real, ih, List.map_cons]
    | posInf => exact (hp .posInf (by simp)).elim
    | negInf => exact (hp .negInf (by simp)).elim

section
variable {df : DF} {h : Heap Ideal}

/-- C42: fitting with centering and scaling, then transforming the same dataframe: the numbers of every float column
get mean 0, and variance 1 unless they are all equal, in which case they become 0; missing values, and only
they, are missing in the result. -/
theorem C42_standard_scaling {sc : Scaler Ideal} (hopt : sc.options = ⟨false, true, true⟩) {vals : GoStr → List Ideal}
    (wf : df.WF h) (hv : FloatCols (abs h df) vals)
    (hpl : ∀ c, ((abs h df).col .float c).isSome → ∀ v ∈ vals c, Plain v) (hr : df.rows.Nodup)
    (hu : Unaliased h df (namesOf (h.tab df.tab) .float)) (hcpu : 0 < df.maxCPU) (hemp : (abs h df).col .float [] = none)
    {order : List GoStr} (hp : order.Perm (namesOf (h.tab df.tab) .float)) :
    ∃ sc', sc.fit df order h = .ok sc' ∧ ∀ order', order'.Perm sc'.transformedColumns →
      ∃ h', sc'.transformInplace df order' h = .ok h' ∧ ∀ c, ((abs h df).col .float c).isSome →
        ∃ out, (abs h' df).floats c = some out ∧ out.length = (vals c).length ∧ (∀ v ∈ out, Plain v) ∧
          (∀ i : Nat, out[i]? = some Ideal.nan ↔ (vals c)[i]? = some Ideal.nan) ∧
          (reals out ≠ [] → mean (reals out) = 0) ∧
          ((∃ x ∈ reals (vals c), ∃ y ∈ reals (vals c), x ≠ y) → variance (reals out) = 1) ∧
          ((∀ x ∈ reals (vals c), ∀ y ∈ reals (vals c), x = y) → ∀ y ∈ reals out, y = 0) := by
  obtain ⟨sc', e, _, n1, n2, g1, g2⟩ := scaler_fit (sc := sc) hv (Or.inr hcpu) hemp hp
  obtain ⟨sc'', e', nd, hcols⟩ := C41_fit_columns (sc := sc) hv (Or.inr hcpu) hemp hp
  rw [e] at e'; cases e'
  have hcols' : ∀ c, c ∈ sc'.transformedColumns ↔ ((abs h df).col .float c).isSome := by
    intro c; rw [hcols, hopt]; simp
  refine ⟨sc', e, ?_⟩
  intro order' hp'
  obtain ⟨h', e2, tr⟩ := C41_transform (sc := sc') wf nd (fun c hc => (hcols' c).1 hc) hr
    (fun c h1 c' h2 => hu c (mem_namesOf_iff.2 ((hcols' c).1 h1)) c' (mem_namesOf_iff.2 ((hcols' c').1 h2))) (Or.inr hcpu)
    (by rw [hcols', hemp]; simp) hp'
  refine ⟨h', e2, ?_⟩
  intro c hc
  have hout := tr.floats ((hcols' c).2 hc) (hv c hc)
  refine ⟨_, hout, by simp, ?_⟩
  have hplc := hpl c hc
  generalize hg : (fun x => GoFloat.mul (GoFloat.add x ((AMap.get sc'.shift c).getD GoFloat.zero))
    ((AMap.get sc'.scale c).getD GoFloat.one)) = g
  have hgn : g Ideal.nan = Ideal.nan := by rw [← hg]; simp only [ideal_nan_add, ideal_nan_mul]
  by_cases hne : reals (vals c) = []
  · -- nothing but missing values
    have hall : ∀ v ∈ vals c, v = Ideal.nan := by
      intro v hvm
      cases v with
      | nan => rfl
      | real x =>
        have : x ∈ reals (vals c) := by unfold reals; rw [List.mem_filterMap]; exact ⟨_, hvm, rfl⟩
        rw [hne] at this; cases this
      | posInf => exact (hplc _ hvm).elim
      | negInf => exact (hplc _ hvm).elim
    have hmap : (vals c).map g = vals c := by
      conv_rhs => rw [← List.map_id (vals c)]
      refine List.map_congr_left fun v hvm => ?_
      rw [hall v hvm, hgn]; rfl
    rw [hmap, hne]
    exact ⟨hplc, fun i => Iff.rfl, by simp, by simp, by simp⟩
  · have hfit := std_fit (o := sc.options) (l := vals c) (by rw [hopt]) hplc hne
    rw [hopt] at hfit
    simp only [if_true] at hfit
    have hgr : ∀ x, g (real x) = real ((x - mean (reals (vals c))) * stdScale (reals (vals c))) := by
      intro x
      rw [← hg, g1, g2, if_pos hc, if_pos hc, hopt, hfit]
      simp only [Option.getD_some, ideal_add, ideal_mul]
      rw [sub_eq_add_neg]
    rw [reals_map hplc hgr hgn]
    obtain ⟨r1, r2, r3⟩ := std_result (reals (vals c)) hne
    refine ⟨?_, ?_, fun _ => r1, r2, r3⟩
    · intro v hvm
      simp only [List.mem_map] at hvm
      obtain ⟨w, hw, rfl⟩ := hvm
      cases w with
      | nan => rw [hgn]; trivial
      | real x => rw [hgr]; trivial
      | posInf => exact (hplc _ hw).elim
      | negInf => exact (hplc _ hw).elim
    · intro i
      rw [List.getElem?_map]
      cases hi : (vals c)[i]? with
      | none => simp
      | some w =>
        have hw := hplc w (List.mem_of_getElem? hi)
        cases w with
        | nan => simp [hgn]
        | real x => simp [hgr]
        | posInf => exact hw.elim
        | negInf => exact hw.elim


/-! ### C41: the inverse -/

theorem keys_map {α β : Type} (m : AMap GoStr α) (f : GoStr × α → β) :
    AMap.keys (m.map fun e => (e.1, f e)) = AMap.keys m := by
  simp [AMap.keys, Function.comp_def]

theorem get_map {α β : Type} (m : AMap GoStr α) (f : GoStr → α → β) (c : GoStr) :
    AMap.get (m.map fun e => (e.1, f e.1 e.2)) c = (AMap.get m c).map (f c) := by
  induction m with
  | nil => rfl
  | cons e m ih =>
    obtain ⟨k, v⟩ := e
    simp only [List.map_cons, AMap.get]
    split
    · rename_i h; subst h; rfl
    · exact ih

theorem reverse_columns {F : Type} [GoFloat F] (sc : Scaler F) : sc.reverse.transformedColumns = sc.transformedColumns := by
  unfold Scaler.transformedColumns Scaler.reverse
  simp only [List.length_map]
  split <;> simp [AMap.keys, Function.comp_def]

/-- The parameters of a column are numbers and the scale is not zero. -/
def Invertible (sc : Scaler Ideal) (c : GoStr) : Prop :=
  ∃ s k : ℝ, (AMap.get sc.shift c).getD (real 0) = real s ∧ (AMap.get sc.scale c).getD (real 1) = real k ∧ k ≠ 0

theorem nan_scale (sc : Scaler Ideal) (c : GoStr) : scaleVal sc c Ideal.nan = Ideal.nan := by
  simp only [scaleVal, ideal_nan_add, ideal_nan_mul]

theorem reverse_scale {sc : Scaler Ideal} {c : GoStr} (hi : Invertible sc c) (x : ℝ) :
    scaleVal sc.reverse c (scaleVal sc c (real x)) = real x := by
  obtain ⟨s, k, h1, h2, h3⟩ := hi
  have hshift : AMap.get sc.reverse.shift c = (AMap.get sc.shift c).map (reverseShift sc.scale c) := by
    unfold Scaler.reverse
    exact get_map sc.shift (reverseShift sc.scale) c
  have hscale : AMap.get sc.reverse.scale c = (AMap.get sc.scale c).map fun v => GoFloat.div GoFloat.one v := by
    unfold Scaler.reverse
    exact get_map sc.scale (fun _ v => GoFloat.div GoFloat.one v) c
  unfold scaleVal
  rw [ideal_zero, ideal_one, h1, h2, ideal_add, ideal_mul, hshift, hscale]
  cases hs : AMap.get sc.shift c with
  | none =>
    rw [hs] at h1
    simp only [Option.getD_none, real.injEq] at h1
    cases hk : AMap.get sc.scale c with
    | none =>
      rw [hk] at h2
      simp only [Option.getD_none, real.injEq] at h2
      simp only [Option.map_none, Option.getD_none, ideal_add, ideal_mul, real.injEq]
      rw [← h1, ← h2]; ring
    | some k' =>
      rw [hk] at h2
      simp only [Option.getD_some] at h2
      subst h2
      simp only [Option.map_none, Option.map_some, Option.getD_none, Option.getD_some, ideal_one, ideal_div _ _ h3, ideal_add, ideal_mul, real.injEq]
      rw [← h1]; field_simp; ring
  | some s' =>
    rw [hs] at h1
    simp only [Option.getD_some] at h1
    subst h1
    cases hk : AMap.get sc.scale c with
    | none =>
      rw [hk] at h2
      simp only [Option.getD_none, real.injEq] at h2
      simp only [Option.map_some, Option.map_none, Option.getD_some, Option.getD_none, reverseShift, hk, ideal_neg, ideal_add, ideal_mul, real.injEq]
      rw [← h2]; ring
    | some k' =>
      rw [hk] at h2
      simp only [Option.getD_some] at h2
      subst h2
      simp only [Option.map_some, Option.getD_some, reverseShift, hk, ideal_one, ideal_div _ _ h3, ideal_neg, ideal_add, ideal_mul, real.injEq]
      field_simp; ring

/-- C41: `TransformInplace` then `InverseTransformInplace` restores everything, for every scaler whose parameters are
numbers with a nonzero scale (columns that only hold missing values need no such parameters). -/
theorem C41_inverse {sc : Scaler Ideal} {vals : GoStr → List Ideal} (wf : df.WF h) (nd : sc.transformedColumns.Nodup)
    (hv : ∀ c ∈ sc.transformedColumns, (abs h df).floats c = some (vals c))
    (hpl : ∀ c ∈ sc.transformedColumns, ∀ v ∈ vals c, Plain v)
    (hinv : ∀ c ∈ sc.transformedColumns, Invertible sc c ∨ reals (vals c) = [])
    (hr : df.rows.Nodup) (hu : Unaliased h df sc.transformedColumns)
    (hw : sc.transformedColumns = [] ∨ 0 < df.maxCPU) (hemp : [] ∉ sc.transformedColumns) {order order' : List GoStr}
    (hp : order.Perm sc.transformedColumns) (hp' : order'.Perm sc.transformedColumns) :
    ∃ h₁ h₂, sc.transformInplace df order h = .ok h₁ ∧ sc.inverseTransformInplace df order' h₁ = .ok h₂ ∧
      (∀ d : DF, locs h₂ d = locs h d) ∧ ∀ (d : DF) k c (j : Nat), d.get h₂ k c j = d.get h k c j := by
  have hcol : ∀ c ∈ sc.transformedColumns, ((abs h df).col .float c).isSome := fun c hc => (floats_iff.1 (hv c hc)).1
  obtain ⟨h₁, e1, t1⟩ := C41_transform (sc := sc) wf nd hcol hr hu hw hemp hp
  have hcell1 : ∀ (d : DF) k c (j : Nat), cellOf h₁ d k c j = cellOf h d k c j := by
    intro d k c j; unfold cellOf; rw [t1.shape]
  obtain ⟨h₂, e2, t2⟩ := C41_transform (sc := sc.reverse) (df := df) (h := h₁) (order := order') (t1.wf df wf) (by rw [reverse_columns]; exact nd)
    (by rw [reverse_columns]; intro c hc; exact (floats_iff.1 (t1.floats hc (hv c hc))).1) hr
    (by rw [reverse_columns]
        intro c hc c' hc' hne i j l
        rw [hcell1, hcell1]
        exact hu c hc c' hc' hne i j l)
    (by rw [reverse_columns]; exact hw) (by rw [reverse_columns]; exact hemp) (by rw [reverse_columns]; exact hp')
  refine ⟨h₁, h₂, e1, e2, fun d => by rw [t2.shape, t1.shape], ?_⟩
  intro d k c' j
  by_cases hhit : ∃ c ∈ sc.transformedColumns, ∃ (i : Nat) (l : Nat × Nat), cellOf h df .float c i = some l ∧ cellOf h d k c' j = some l
  · obtain ⟨c, hc, i, l, hl, hd⟩ := hhit
    -- the value in that cell
    obtain ⟨f1, f2, f3⟩ := floats_iff.1 (hv c hc)
    have hi : i < (vals c).length := by
      rw [f2]
      simp only [cellOf, locs] at hl
      cases hs : AMap.get (h.tab df.tab) (.float, c) with
      | none => rw [hs] at hl; simp at hl
      | some s =>
        rw [hs] at hl
        simp only [Option.map_some, Option.bind_some, List.getElem?_map] at hl
        by_contra hge
        rw [List.getElem?_eq_none (by simp [DF.numRows] at hge ⊢; exact hge)] at hl
        simp at hl
    have hget := f3 i _ (List.getElem?_eq_getElem hi)
    have hplx : Plain (vals c)[i] := hpl c hc _ (List.getElem_mem hi)
    obtain ⟨l', hl', hat⟩ := (get_of_cellOf .float c i _).1 hget
    rw [hl] at hl'; cases hl'
    have hd0 : d.get h k c' j = .ok (.float (vals c)[i]) := (get_of_cellOf k c' j _).2 ⟨l, hd, hat⟩
    have hd1 := t1.hit c hc i l hl d k c' j _ hd hd0
    have hd2 := t2.hit c (by rw [reverse_columns]; exact hc) i l (by rw [hcell1]; exact hl) d k c' j _ (by rw [hcell1]; exact hd) hd1
    rw [hd2, hd0]
    congr 2
    show scaleVal sc.reverse c (scaleVal sc c _) = _
    generalize hx : (vals c)[i] = x at hplx
    cases x with
    | nan => rw [nan_scale, nan_scale]
    | real x =>
      rcases hinv c hc with hinv | hnone
      · exact reverse_scale hinv x
      · have : x ∈ reals (vals c) := by
          unfold reals; rw [List.mem_filterMap]
          exact ⟨_, List.getElem_mem hi, by rw [hx]⟩
        rw [hnone] at this; cases this
    | posInf => exact hplx.elim
    | negInf => exact hplx.elim
  · rw [t2.miss d k c' j, t1.miss d k c' j]
    · intro c hc i l hl hd; exact hhit ⟨c, hc, i, l, hl, hd⟩
    · intro c hc i l hl hd
      rw [reverse_columns] at hc
      rw [hcell1] at hl hd
      exact hhit ⟨c, hc, i, l, hl, hd⟩

/-- Training data from which invertible parameters are learnt. -/
def Trainable (o : ScalerOptions) (l : List Ideal) : Prop :=
  if o.minMax then ∃ x ∈ reals l, ∃ y ∈ reals l, x ≠ y else reals l ≠ []

/-- C41, from training to the inverse: after `Fit(train)` with whatever options, transforming `df` and transforming it
back restores `df` (and all that shares its memory), provided the training columns hold at least one number
(with MinMax: two different numbers), or there is nothing but missing values to transform. -/
theorem C41_fit_inverse {sc : Scaler Ideal} {train : DF} {tvals vals : GoStr → List Ideal} (wf : df.WF h)
    (htv : FloatCols (abs h train) tvals) (htp : ∀ c, ((abs h train).col .float c).isSome → ∀ v ∈ tvals c, Plain v)
    (hv : ∀ c, ((abs h train).col .float c).isSome → (abs h df).floats c = some (vals c))
    (hpl : ∀ c, ((abs h train).col .float c).isSome → ∀ v ∈ vals c, Plain v)
    (htr : ∀ c, ((abs h train).col .float c).isSome → Trainable sc.options (tvals c) ∨ reals (vals c) = [])
    (hr : df.rows.Nodup) (hu : Unaliased h df (namesOf (h.tab train.tab) .float)) (hcput : 0 < train.maxCPU)
    (hcpu : 0 < df.maxCPU) (hemp : (abs h train).col .float [] = none) {order : List GoStr}
    (hp : order.Perm (namesOf (h.tab train.tab) .float)) :
    ∃ sc', sc.fit train order h = .ok sc' ∧ ∀ o₁ o₂, o₁.Perm sc'.transformedColumns → o₂.Perm sc'.transformedColumns →
      ∃ h₁ h₂, sc'.transformInplace df o₁ h = .ok h₁ ∧ sc'.inverseTransformInplace df o₂ h₁ = .ok h₂ ∧
        (∀ d : DF, locs h₂ d = locs h d) ∧ ∀ (d : DF) k c (j : Nat), d.get h₂ k c j = d.get h k c j := by
  obtain ⟨sc', e, _, n1, n2, g1, g2⟩ := scaler_fit (sc := sc) htv (Or.inr hcput) hemp hp
  obtain ⟨sc'', e', nd, hcols⟩ := C41_fit_columns (sc := sc) htv (Or.inr hcput) hemp hp
  rw [e] at e'; cases e'
  have hcol : ∀ c ∈ sc'.transformedColumns, ((abs h train).col .float c).isSome := fun c hc => ((hcols c).1 hc).1
  refine ⟨sc', e, ?_⟩
  intro o₁ o₂ hp1 hp2
  refine C41_inverse (vals := vals) wf nd (fun c hc => hv c (hcol c hc)) (fun c hc => hpl c (hcol c hc)) ?_ hr
    (fun c h1 c' h2 => hu c (mem_namesOf_iff.2 (hcol c h1)) c' (mem_namesOf_iff.2 (hcol c' h2))) (Or.inr hcpu)
    (fun h0 => by have := hcol _ h0; rw [hemp] at this; simp at this) hp1 hp2
  intro c hc
  refine (htr c (hcol c hc)).imp ?_ id
  intro ht
  unfold Trainable at ht
  unfold Invertible
  rw [g1, g2, if_pos (hcol c hc), if_pos (hcol c hc)]
  cases hm : sc.options.minMax with
  | false =>
    rw [hm] at ht
    simp only [Bool.false_eq_true, if_false] at ht
    rw [std_fit hm (htp c (hcol c hc)) ht]
    have hk := stdScale_pos _ ht
    refine ⟨if sc.options.centering then -mean (reals (tvals c)) else 0,
      if sc.options.scaling then stdScale (reals (tvals c)) else 1, ?_, ?_, ?_⟩
    · simp only; split <;> rfl
    · simp only; split <;> rfl
    · split
      · linarith
      · norm_num
  | true =>
    rw [hm] at ht
    simp only [if_true] at ht
    obtain ⟨x, hx, y, hy, hxy⟩ := ht
    obtain ⟨a, b, ha, hb, hab, hf⟩ := minmax_fit hm (htp c (hcol c hc)) (List.ne_nil_of_mem hx)
    rw [hf]
    refine ⟨-a, b - a, rfl, rfl, ?_⟩
    intro h0
    have h1 := hab x hx
    have h2 := hab y hy
    exact hxy (by linarith)

/-! ### C43 -/

/-- C43 as stated is false of this code. What MinMax does: the minimum of the training column goes to 0 and its maximum
to `(max - min)²`, all other values between; so the range is [0,1] exactly when `max - min = 1`. -/
theorem C43_minmax_partial {sc : Scaler Ideal} (hopt : sc.options.minMax = true) {vals : GoStr → List Ideal}
    (wf : df.WF h) (hv : FloatCols (abs h df) vals)
    (hpl : ∀ c, ((abs h df).col .float c).isSome → ∀ v ∈ vals c, Plain v) (hr : df.rows.Nodup)
    (hu : Unaliased h df (namesOf (h.tab df.tab) .float)) (hcpu : 0 < df.maxCPU) (hemp : (abs h df).col .float [] = none)
    {order : List GoStr} (hp : order.Perm (namesOf (h.tab df.tab) .float)) :
    ∃ sc', sc.fit df order h = .ok sc' ∧ ∀ order', order'.Perm sc'.transformedColumns →
      ∃ h', sc'.transformInplace df order' h = .ok h' ∧ ∀ c, ((abs h df).col .float c).isSome → reals (vals c) ≠ [] →
        ∃ out lo hi, (abs h' df).floats c = some out ∧ lo ∈ reals (vals c) ∧ hi ∈ reals (vals c) ∧
          (∀ x ∈ reals (vals c), lo ≤ x ∧ x ≤ hi) ∧ reals out = (reals (vals c)).map (fun x => (x - lo) * (hi - lo)) ∧
          (∀ y ∈ reals out, 0 ≤ y ∧ y ≤ (hi - lo) ^ 2) ∧ 0 ∈ reals out ∧ (hi - lo) ^ 2 ∈ reals out ∧
          ((1 ∈ reals out ∧ ∀ y ∈ reals out, y ≤ 1) ↔ hi - lo = 1) := by
  obtain ⟨sc', e, _, n1, n2, g1, g2⟩ := scaler_fit (sc := sc) hv (Or.inr hcpu) hemp hp
  obtain ⟨sc'', e', nd, hcols⟩ := C41_fit_columns (sc := sc) hv (Or.inr hcpu) hemp hp
  rw [e] at e'; cases e'
  have hcols' : ∀ c, c ∈ sc'.transformedColumns ↔ ((abs h df).col .float c).isSome := by
    intro c; rw [hcols, hopt]; simp
  refine ⟨sc', e, ?_⟩
  intro order' hp'
  obtain ⟨h', e2, tr⟩ := C41_transform (sc := sc') wf nd (fun c hc => (hcols' c).1 hc) hr
    (fun c h1 c' h2 => hu c (mem_namesOf_iff.2 ((hcols' c).1 h1)) c' (mem_namesOf_iff.2 ((hcols' c').1 h2))) (Or.inr hcpu)
    (by rw [hcols', hemp]; simp) hp'
  refine ⟨h', e2, ?_⟩
  intro c hc hne
  have hplc := hpl c hc
  obtain ⟨a, b, ha, hb, hab, hfit⟩ := minmax_fit (o := sc.options) hopt hplc hne
  have hout := tr.floats ((hcols' c).2 hc) (hv c hc)
  refine ⟨_, a, b, hout, ha, hb, hab, ?_⟩
  have hre : reals ((vals c).map fun x => GoFloat.mul (GoFloat.add x ((AMap.get sc'.shift c).getD GoFloat.zero))
      ((AMap.get sc'.scale c).getD GoFloat.one)) = (reals (vals c)).map (fun x => (x - a) * (b - a)) := by
    refine reals_map hplc ?_ ?_
    · intro x
      rw [g1, g2, if_pos hc, if_pos hc, hfit]
      simp only [Option.getD_some, ideal_add, ideal_mul]
      rw [sub_eq_add_neg x a]
    · simp only [ideal_nan_add, ideal_nan_mul]
  rw [hre]
  have hnn : 0 ≤ b - a := by have := hab a ha; linarith
  have hbound : ∀ y ∈ (reals (vals c)).map (fun x => (x - a) * (b - a)), 0 ≤ y ∧ y ≤ (b - a) ^ 2 := by
    intro y hy
    simp only [List.mem_map] at hy
    obtain ⟨x, hx, rfl⟩ := hy
    have := hab x hx
    constructor
    · exact mul_nonneg (by linarith) hnn
    · rw [pow_two]; exact mul_le_mul_of_nonneg_right (by linarith) hnn
  have hmax : (b - a) ^ 2 ∈ (reals (vals c)).map (fun x => (x - a) * (b - a)) :=
    List.mem_map.2 ⟨b, hb, by ring⟩
  refine ⟨rfl, hbound, List.mem_map.2 ⟨a, ha, by ring⟩, hmax, ?_⟩
  constructor
  · rintro ⟨h1, h2⟩
    have h3 := (hbound 1 h1).2
    have h4 := h2 _ hmax
    have h5 : (b - a) ^ 2 = 1 := le_antisymm h4 h3
    nlinarith
  · intro h1
    rw [h1] at hmax hbound
    simp only [one_pow] at hmax hbound
    rw [h1]
    exact ⟨hmax, fun y hy => (hbound y hy).2⟩

/-- C41 is false of MinMax on a constant column: whatever the dataframe, the column is all missing after the round trip. -/
theorem C41_minmax_constant_refuted {sc : Scaler Ideal} (hopt : sc.options.minMax = true) {vals : GoStr → List Ideal}
    (wf : df.WF h) (hv : FloatCols (abs h df) vals)
    (hpl : ∀ c, ((abs h df).col .float c).isSome → ∀ v ∈ vals c, Plain v) (hr : df.rows.Nodup)
    (hu : Unaliased h df (namesOf (h.tab df.tab) .float)) (hcpu : 0 < df.maxCPU) (hemp : (abs h df).col .float [] = none)
    {order : List GoStr} (hp : order.Perm (namesOf (h.tab df.tab) .float)) :
    ∃ sc', sc.fit df order h = .ok sc' ∧ ∀ o₁ o₂, o₁.Perm sc'.transformedColumns → o₂.Perm sc'.transformedColumns →
      ∃ h₁ h₂, sc'.transformInplace df o₁ h = .ok h₁ ∧ sc'.inverseTransformInplace df o₂ h₁ = .ok h₂ ∧
        ∀ c x, ((abs h df).col .float c).isSome → x ∈ reals (vals c) → (∀ y ∈ reals (vals c), y = x) →
          (abs h₂ df).floats c = some ((vals c).map fun _ => Ideal.nan) := by
  obtain ⟨sc', e, _, n1, n2, g1, g2⟩ := scaler_fit (sc := sc) hv (Or.inr hcpu) hemp hp
  obtain ⟨sc'', e', nd, hcols⟩ := C41_fit_columns (sc := sc) hv (Or.inr hcpu) hemp hp
  rw [e] at e'; cases e'
  have hcols' : ∀ c, c ∈ sc'.transformedColumns ↔ ((abs h df).col .float c).isSome := by
    intro c; rw [hcols, hopt]; simp
  have hu' : Unaliased h df sc'.transformedColumns :=
    fun c h1 c' h2 => hu c (mem_namesOf_iff.2 ((hcols' c).1 h1)) c' (mem_namesOf_iff.2 ((hcols' c').1 h2))
  have hem' : [] ∉ sc'.transformedColumns := by rw [hcols', hemp]; simp
  refine ⟨sc', e, ?_⟩
  intro o₁ o₂ hp1 hp2
  obtain ⟨h₁, e1, t1⟩ := C41_transform (sc := sc') wf nd (fun c hc => (hcols' c).1 hc) hr hu' (Or.inr hcpu) hem' hp1
  have hcell1 : ∀ (d : DF) k c (j : Nat), cellOf h₁ d k c j = cellOf h d k c j := by
    intro d k c j; unfold cellOf; rw [t1.shape]
  obtain ⟨h₂, e2, t2⟩ := C41_transform (sc := sc'.reverse) (df := df) (h := h₁) (order := o₂) (t1.wf df wf) (by rw [reverse_columns]; exact nd)
    (by rw [reverse_columns]; intro c hc; exact (floats_iff.1 (t1.floats hc (hv c ((hcols' c).1 hc)))).1) hr
    (by rw [reverse_columns]
        intro c hc c' hc' hne i j l
        rw [hcell1, hcell1]
        exact hu' c hc c' hc' hne i j l)
    (Or.inr hcpu) (by rw [reverse_columns]; exact hem') (by rw [reverse_columns]; exact hp2)
  refine ⟨h₁, h₂, e1, e2, ?_⟩
  intro c x hc hx hconst
  have hm := (hcols' c).2 hc
  have := t2.floats (by rw [reverse_columns]; exact hm) (t1.floats hm (hv c hc))
  rw [this, List.map_map]
  congr 1
  refine List.map_congr_left fun v hvm => ?_
  have hplv := hpl c hc v hvm
  obtain ⟨a, b, ha, hb, hab, hfit⟩ := minmax_fit (o := sc.options) hopt (hpl c hc) (List.ne_nil_of_mem hx)
  have ga : AMap.get sc'.shift c = some (real (-x)) := by rw [g1, if_pos hc, hfit, hconst a ha]
  have gb : AMap.get sc'.scale c = some (real 0) := by rw [g2, if_pos hc, hfit, hconst a ha, hconst b hb, sub_self]
  show scaleVal sc'.reverse c (scaleVal sc' c v) = _
  cases v with
  | nan => rw [nan_scale, nan_scale]
  | real y =>
    have h1 : scaleVal sc' c (real y) = real 0 := by
      simp only [scaleVal, ga, gb, Option.getD_some, ideal_add, ideal_mul, mul_zero]
    have hshift : AMap.get sc'.reverse.shift c = (AMap.get sc'.shift c).map (reverseShift sc'.scale c) := by
      unfold Scaler.reverse
      exact get_map sc'.shift (reverseShift sc'.scale) c
    have hscale : AMap.get sc'.reverse.scale c = (AMap.get sc'.scale c).map fun v => GoFloat.div GoFloat.one v := by
      unfold Scaler.reverse
      exact get_map sc'.scale (fun _ v => GoFloat.div GoFloat.one v) c
    rw [h1]
    simp only [scaleVal, hshift, hscale, ga, gb, Option.map_some, Option.getD_some, reverseShift, ideal_neg, ideal_mul, ideal_add]
    show Ideal.mul _ (Ideal.div (real 1) (real 0)) = _
    simp [Ideal.div, Ideal.infOfSign, Ideal.mul]
  | posInf => exact hplv.elim
  | negInf => exact hplv.elim

end

/-! ### Examples -/

namespace Demo

def iheap0 : Heap Ideal := ⟨rt, 0, fun _ => [], fun _ => [], fun _ => [], fun _ => []⟩

/-- A column that goes from 0 to 2 with a missing value, and a constant one. -/
noncomputable def iops : List (BOp Ideal) :=
  [.add .float b!"x" [.float (real 0), .float Ideal.nan, .float (real 2)], .add .float b!"y" [.float (real 3), .float (real 3), .float (real 3)],
   .add .int b!"a" [.int 10, .int 20, .int 30]]

noncomputable def ires : Except Abort (DF × Heap Ideal) := (build iops iheap0).1.toDataFrame (build iops iheap0).2

noncomputable def idf : DF := match ires with | .ok p => p.1 | .error _ => ⟨⟨0, none, false, none, 0, none⟩, ⟨[], 0⟩, ⟨0,0,0,0⟩, false, false⟩

noncomputable def ih : Heap Ideal := match ires with | .ok p => p.2 | .error _ => iheap0

theorem idf_wf : idf.WF ih := DF.wf_of_check 3 (by decide +kernel)

theorem idf_names : namesOf (ih.tab idf.tab) .float = [b!"x", b!"y"] := by decide +kernel

/-- The numbers of `idf`. -/
noncomputable def ivals (c : GoStr) : List Ideal :=
  if c = b!"x" then [real 0, Ideal.nan, real 2] else if c = b!"y" then [real 3, real 3, real 3] else []

theorem idf_isCol {c : GoStr} (hc : ((abs ih idf).col .float c).isSome) : c = b!"x" ∨ c = b!"y" := by
  have := mem_namesOf_iff.2 hc
  rw [idf_names] at this
  simpa using this

theorem idf_cols : FloatCols (abs ih idf) ivals := by
  intro c hc
  rcases idf_isCol hc with rfl | rfl <;> rfl

theorem idf_plain : ∀ c, ((abs ih idf).col .float c).isSome → ∀ v ∈ ivals c, Plain v := by
  intro c hc v hv
  rcases idf_isCol hc with rfl | rfl
  · simp [ivals] at hv; rcases hv with rfl | rfl | rfl <;> trivial
  · simp [ivals] at hv; subst hv; trivial

theorem idf_unaliased : Unaliased ih idf (namesOf (ih.tab idf.tab) .float) := by
  rw [idf_names]; exact unaliased_of_arrs (by decide +kernel)

theorem idf_rows : idf.rows = [0, 1, 2] := by decide +kernel

/-- C42 at work: the column with numbers 0 and 2 gets mean 0 and variance 1, the constant one becomes 0. -/
example : ∃ sc' h', (newScaler ⟨false, true, true⟩ : Scaler Ideal).fit idf [b!"x", b!"y"] ih = .ok sc' ∧
    sc'.transformInplace idf sc'.transformedColumns ih = .ok h' ∧
    (∃ out, (abs h' idf).floats b!"x" = some out ∧ out[1]? = some Ideal.nan ∧ variance (reals out) = 1) ∧
    (∃ out, (abs h' idf).floats b!"y" = some out ∧ ∀ y ∈ reals out, y = 0) := by
  obtain ⟨sc', e, H⟩ := C42_standard_scaling (sc := newScaler ⟨false, true, true⟩) (order := [b!"x", b!"y"]) rfl idf_wf idf_cols idf_plain
    (by rw [idf_rows]; decide) idf_unaliased (by decide +kernel) (by decide +kernel) (by rw [idf_names])
  obtain ⟨h', e2, H2⟩ := H _ (List.Perm.refl _)
  refine ⟨sc', h', e, e2, ?_, ?_⟩
  · obtain ⟨out, h1, _, _, h2, _, h3, _⟩ := H2 b!"x" (by decide +kernel)
    exact ⟨out, h1, (h2 1).2 rfl, h3 ⟨0, by simp [ivals, reals], 2, by simp [ivals, reals], by norm_num⟩⟩
  · obtain ⟨out, h1, _, _, _, _, _, h3⟩ := H2 b!"y" (by decide +kernel)
    exact ⟨out, h1, h3 (by simp [ivals, reals])⟩

/-- C43 refuted: MinMax sends the maximum of the column (2) to 4, not to 1. -/
theorem C43_refuted : ∃ sc' h', (newScaler ⟨true, false, false⟩ : Scaler Ideal).fit idf [b!"x", b!"y"] ih = .ok sc' ∧
    sc'.transformInplace idf sc'.transformedColumns ih = .ok h' ∧
    ∃ out, (abs h' idf).floats b!"x" = some out ∧ reals out = [0, 4] := by
  obtain ⟨sc', e, H⟩ := C43_minmax_partial (sc := newScaler ⟨true, false, false⟩) (order := [b!"x", b!"y"]) rfl idf_wf idf_cols idf_plain
    (by rw [idf_rows]; decide) idf_unaliased (by decide +kernel) (by decide +kernel) (by rw [idf_names])
  obtain ⟨h', e2, H2⟩ := H _ (List.Perm.refl _)
  obtain ⟨out, lo, hi, h1, h2, h3, h4, h5, _⟩ := H2 b!"x" (by decide +kernel) (by simp [ivals, reals])
  have hr : reals (ivals b!"x") = [0, 2] := rfl
  rw [hr] at h2 h3 h4 h5
  have hlo : lo = 0 := by have := (h4 0 (by simp)).1; simp at h2; rcases h2 with h2 | h2 <;> linarith
  have hhi : hi = 2 := by have := (h4 2 (by simp)).2; simp at h3; rcases h3 with h3 | h3 <;> linarith
  refine ⟨sc', h', e, e2, out, h1, ?_⟩
  rw [h5, hlo, hhi]
  norm_num

/-- The round trip of C41 on `idf` (standard scaling). -/
example : ∃ sc' h₁ h₂, (newScaler ⟨false, true, true⟩ : Scaler Ideal).fit idf [b!"x", b!"y"] ih = .ok sc' ∧
    sc'.transformInplace idf sc'.transformedColumns ih = .ok h₁ ∧ sc'.inverseTransformInplace idf sc'.transformedColumns h₁ = .ok h₂ ∧
    idf.get h₂ .float b!"x" (2 : Nat) = .ok (.float (real 2)) := by
  obtain ⟨sc', e, H⟩ := C41_fit_inverse (sc := newScaler ⟨false, true, true⟩) (order := [b!"x", b!"y"]) (df := idf) (train := idf)
    idf_wf idf_cols idf_plain idf_cols idf_plain
    (by intro c hc
        left
        rcases idf_isCol hc with rfl | rfl <;> simp [Trainable, newScaler, ivals, reals])
    (by rw [idf_rows]; decide) idf_unaliased (by decide +kernel) (by decide +kernel) (by decide +kernel) (by rw [idf_names])
  obtain ⟨h₁, h₂, e1, e2, _, e3⟩ := H _ _ (List.Perm.refl _) (List.Perm.refl _)
  exact ⟨sc', h₁, h₂, e, e1, e2, by rw [e3]; rfl⟩

/-- MinMax on the constant column of `idf` loses it. -/
theorem C41_constant_example : ∃ sc' h₁ h₂, (newScaler ⟨true, false, false⟩ : Scaler Ideal).fit idf [b!"x", b!"y"] ih = .ok sc' ∧
    sc'.transformInplace idf sc'.transformedColumns ih = .ok h₁ ∧ sc'.inverseTransformInplace idf sc'.transformedColumns h₁ = .ok h₂ ∧
    (abs h₂ idf).floats b!"y" = some [Ideal.nan, Ideal.nan, Ideal.nan] := by
  obtain ⟨sc', e, H⟩ := C41_minmax_constant_refuted (sc := newScaler ⟨true, false, false⟩) (order := [b!"x", b!"y"]) rfl
    idf_wf idf_cols idf_plain (by rw [idf_rows]; decide) idf_unaliased (by decide +kernel) (by decide +kernel) (by rw [idf_names])
  obtain ⟨h₁, h₂, e1, e2, e3⟩ := H _ _ (List.Perm.refl _) (List.Perm.refl _)
  exact ⟨sc', h₁, h₂, e, e1, e2, e3 b!"y" 3 (by decide +kernel) (by simp [ivals, reals]) (by simp [ivals, reals])⟩

/-- C41 "exactly once" is false of a view that repeats a row: row 0 (value 5) shown three times, shift 1: it becomes 8. -/
theorem C41_repeated_rows_refuted : okAnd (fdf.indexView [0, 0, 0] fh) (fun p =>
    okAnd ((⟨[(b!"x", 1)], [], ⟨false, true, false⟩⟩ : Scaler Int).transformInplace p.1 [b!"x"] p.2) (fun h' =>
      decide (p.1.get p.2 .float b!"x" 0 = .ok (.float 5)) && decide (p.1.get h' .float b!"x" 0 = .ok (.float 8)))) = true := by
  decide +kernel

end Demo
end Verif
