import Verif.Props.ScalerFloat64Std

/-! C42 in float64: a column whose mean overflows, or that holds an infinity. -/

namespace Verif
namespace Float64
open FP

/-- NaN or plus infinity: the square of a NaN or an infinity. -/
def NanOrInf (x : Float64) : Prop := x = .nan ∨ x = .inf false

theorem mul_self_nanOrInf {d : Float64} (h : ¬ d.Finite) : NanOrInf (mul d d) := by
  cases d with
  | nan => exact Or.inl rfl
  | inf s => right; show FP.inf (s != s) = _; cases s <;> rfl
  | fin => exact absurd trivial h

theorem add_nanOrInf {x y : Float64} (hx : NanOrInf x) (hy : NanOrInf y) : NanOrInf (add x y) := by
  rcases hx with rfl | rfl
  · exact Or.inl rfl
  · rcases hy with rfl | rfl
    · exact Or.inl rfl
    · exact Or.inr rfl

theorem foldl_nanOrInf : ∀ {xs : List Float64} {s : Float64}, NanOrInf s → (∀ x ∈ xs, NanOrInf x) → NanOrInf (xs.foldl FP.add s)
  | [], _, hs, _ => hs
  | x :: xs, _, hs, h => foldl_nanOrInf (xs := xs) (add_nanOrInf hs (h x (by simp))) (fun y hy => h y (by simp [hy]))

theorem fsum_nanOrInf {xs : List Float64} (hne : xs ≠ []) (h : ∀ x ∈ xs, NanOrInf x) : NanOrInf (fsum xs) := by
  cases xs with
  | nil => exact absurd rfl hne
  | cons x xs =>
    refine foldl_nanOrInf (xs := xs) (s := add (GoFloat.zero : Float64) x) ?_ (fun y hy => h y (by simp [hy]))
    rcases h x (by simp) with rfl | rfl
    · exact Or.inl rfl
    · exact Or.inr rfl

theorem not_finite_add {x y : Float64} (hx : ¬ x.Finite) : ¬ (add x y).Finite := by
  cases x with
  | nan => exact id
  | inf s =>
    cases y with
    | nan => exact id
    | inf s' =>
      show ¬ (if s = s' then FP.inf s else FP.nan : Float64).Finite
      split <;> exact id
    | fin => exact id
  | fin => exact absurd trivial hx

theorem not_finite_add' {x y : Float64} (hy : ¬ y.Finite) : ¬ (add x y).Finite := by
  cases x with
  | nan => exact id
  | inf s => exact not_finite_add id
  | fin =>
    cases y with
    | nan => exact id
    | inf s' => exact id
    | fin => exact absurd trivial hy

theorem not_finite_foldl : ∀ {xs : List Float64} {s : Float64}, ¬ s.Finite → ¬ (xs.foldl FP.add s).Finite
  | [], _, hs => hs
  | x :: xs, _, hs => not_finite_foldl (xs := xs) (not_finite_add hs)

theorem not_finite_sum : ∀ {xs : List Float64} {s : Float64}, (∃ x ∈ xs, ¬ x.Finite) → ¬ (xs.foldl FP.add s).Finite
  | [], _, h => by obtain ⟨x, hx, -⟩ := h; cases hx
  | x :: xs, s, h => by
    by_cases hx : x.Finite
    · refine not_finite_sum (xs := xs) (s := add s x) ?_
      obtain ⟨y, hy, hy'⟩ := h
      rcases List.mem_cons.1 hy with rfl | hy
      · exact absurd hx hy'
      · exact ⟨y, hy, hy'⟩
    · exact not_finite_foldl (xs := xs) (not_finite_add' hx)

theorem not_finite_div {x y : Float64} (hx : ¬ x.Finite) : ¬ (div x y).Finite := by
  cases x with
  | nan => exact id
  | inf s => cases y <;> exact id
  | fin => exact absurd trivial hx

/-- The mean of a column with an infinity is not finite. -/
theorem fmean_infinite {l : List Float64} {s : Bool} (h : FP.inf s ∈ l) : ¬ (fmean l).Finite :=
  not_finite_div (not_finite_sum ⟨_, List.mem_filter.2 ⟨h, rfl⟩, id⟩)

theorem sub_inf {x : Float64} {s : Bool} : ¬ (sub x (.inf s)).Finite := not_finite_add' id

/-- What scaling makes of a column with a mean that is not finite. -/
theorem std_overflow {l : List Float64} (hm : ¬ (fmean l).Finite) (x : Float64) : stdVal l x = .nan := by
  unfold stdVal
  cases hmean : fmean l with
  | nan => cases x <;> rfl
  | fin => rw [hmean] at hm; exact absurd trivial hm
  | inf s =>
    have hne : present l ≠ [] := by
      intro h
      have : fmean l = .nan := by
        unfold fmean; rw [h]; decide
      rw [this] at hmean; cases hmean
    have hsq : NanOrInf (fsquares l) := by
      unfold fsquares
      refine fsum_nanOrInf (by simpa using hne) ?_
      intro y hy
      obtain ⟨v, -, rfl⟩ := List.mem_map.1 hy
      rw [hmean]
      exact mul_self_nanOrInf sub_inf
    have hscale : fscale l = .nan ∨ ∃ b e h, fscale l = .fin b 0 e h := by
      unfold fscale
      rcases hsq with h | h
      · left
        rw [h, if_neg (by decide)]
        show FP.sqrt (FP.div _ FP.nan) = _
        cases (GoFloat.ofInt ((present l).length : Int) : Float64) <;> rfl
      · rw [h, if_neg (by decide)]
        show FP.sqrt (FP.div _ (FP.inf false)) = _ ∨ ∃ b e h, FP.sqrt (FP.div _ (FP.inf false)) = _
        cases (GoFloat.ofInt ((present l).length : Int) : Float64) with
        | nan => exact Or.inl rfl
        | inf => exact Or.inl rfl
        | fin b => exact Or.inr ⟨_, _, _, rfl⟩
    have hd := @sub_inf x s
    generalize sub x (.inf s) = d at hd
    cases d with
    | nan => rfl
    | fin => exact absurd trivial hd
    | inf t =>
      rcases hscale with h | ⟨b, e, h', h⟩
      · rw [h]; rfl
      · rw [h]; rfl

/-- **C42** with float64, beyond the range. A scaler with centering and scaling, trained on a dataframe and applied to it. If a
column holds an infinity, or the sum of its values overflows, or it has no value at all, so that the computed mean is not a finite number,
then `FitTransform` turns every value of the column into NaN, also those that were ordinary numbers. -/
theorem C42_float64_overflow {df : DF} {h : Heap Float64} {sc : Scaler Float64} (hopt : sc.options = ⟨false, true, true⟩)
    {vals : GoStr → List Float64} (wf : df.WF h) (hv : FloatCols (Verif.abs h df) vals) (hr : df.rows.Nodup)
    (hu : Unaliased h df (namesOf (h.tab df.tab) .float)) (hcpu : 0 < df.maxCPU) (hemp : (Verif.abs h df).col .float [] = none)
    {order : List GoStr} (hp : order.Perm (namesOf (h.tab df.tab) .float)) :
    ∃ sc', sc.fit df order h = .ok sc' ∧ ∀ order', order'.Perm sc'.transformedColumns →
      ∃ h', sc'.transformInplace df order' h = .ok h' ∧ ∀ c, ((Verif.abs h df).col .float c).isSome →
        ((∃ s, FP.inf s ∈ vals c) ∨ ¬ (fmean (vals c)).Finite) →
        (Verif.abs h' df).floats c = some (List.replicate (vals c).length FP.nan) := by
  obtain ⟨sc', e, _, n1, n2, g1, g2⟩ := scaler_fit (sc := sc) hv (Or.inr hcpu) hemp hp
  obtain ⟨sc'', e', nd, hcols⟩ := C41_fit_columns (sc := sc) hv (Or.inr hcpu) hemp hp
  rw [e] at e'; cases e'
  have hcols' : ∀ c, c ∈ sc'.transformedColumns ↔ ((Verif.abs h df).col .float c).isSome := by
    intro c; rw [hcols, hopt]; simp
  refine ⟨sc', e, ?_⟩
  intro order' hp'
  obtain ⟨h', e2, tr⟩ := C41_transform (sc := sc') wf nd (fun c hc => (hcols' c).1 hc) hr
    (fun c h1 c' h2 => hu c (mem_namesOf_iff.2 ((hcols' c).1 h1)) c' (mem_namesOf_iff.2 ((hcols' c').1 h2))) (Or.inr hcpu)
    (by rw [hcols', hemp]; simp) hp'
  refine ⟨h', e2, ?_⟩
  intro c hc ho
  have hm : ¬ (fmean (vals c)).Finite := by
    rcases ho with ⟨s, hs⟩ | ho
    · exact fmean_infinite hs
    · exact ho
  have hout := tr.floats ((hcols' c).2 hc) (hv c hc)
  have hg : (fun x => GoFloat.mul (GoFloat.add x ((AMap.get sc'.shift c).getD GoFloat.zero))
      ((AMap.get sc'.scale c).getD GoFloat.one)) = stdVal (vals c) := by
    funext x
    rw [g1, g2, if_pos hc, if_pos hc, hopt, scalerFitCol_standard]
    rfl
  rw [hout, hg]
  congr 1
  rw [List.eq_replicate_iff]
  refine ⟨by simp, ?_⟩
  intro y hy
  obtain ⟨x, -, rfl⟩ := List.mem_map.1 hy
  exact std_overflow hm x

/-! ### non-vacuity: an infinity; two numbers of which the sum overflows -/

/-- The largest number. -/
def largest : Float64 := .fin false (2 ^ 53 - 1) 971 (by decide)
/-- A column with an infinity. -/
def icol : List Float64 := [dec 1 10, .inf false, dec 2 3]
/-- A column of finite numbers with a sum that is too large. -/
def lcol : List Float64 := [largest, dec 1 7, largest]
def oops : List (BOp Float64) := [.add .float b!"i" (icol.map .float), .add .float b!"l" (lcol.map .float)]
/-- The dataframe. -/
def odf : DF := match (build oops heap0).1.toDataFrame (build oops heap0).2 with | .ok p => p.1 | .error _ => Demo.df
/-- Its heap. -/
def oh : Heap Float64 := match (build oops heap0).1.toDataFrame (build oops heap0).2 with | .ok p => p.2 | .error _ => heap0
theorem odf_wf : odf.WF oh := DF.wf_of_check 3 (by decide +kernel)
theorem odf_names : namesOf (oh.tab odf.tab) .float = [b!"i", b!"l"] := by decide +kernel
theorem odf_fcols : FloatCols (Verif.abs oh odf) (fun c => if c = b!"i" then icol else lcol) := by
  intro c hc
  have := mem_namesOf_iff.2 hc
  rw [odf_names] at this
  simp at this
  rcases this with rfl | rfl <;> decide +kernel

example := C42_float64_overflow (sc := newScaler ⟨false, true, true⟩) rfl odf_wf odf_fcols (by decide +kernel)
  (by rw [odf_names]; exact unaliased_of_arrs (by decide +kernel)) (by decide +kernel)
  (by decide +kernel) (order := [b!"l", b!"i"]) (by rw [odf_names]; decide)
example : FP.inf false ∈ icol ∧ (∀ x ∈ lcol, finite x = true) ∧ ¬ finite (fmean lcol) = true := by decide +kernel

end Float64
end Verif
