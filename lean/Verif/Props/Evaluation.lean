import Verif.Props.ScalerIdeal
import Verif.Model.Evaluation
import Mathlib.Algebra.Order.Chebyshev
import Mathlib.Analysis.MeanInequalities

/-! C45: MSE and MAE. -/

namespace Verif
open Ideal
variable {F : Type}

/-- What an accessor shows: the numbers, in row order. -/
def FloatAccess.Shows [GoFloat F] (a : FloatAccess) (h : Heap F) (xs : List F) : Prop :=
  a.size = xs.length ∧ ∀ (i : Nat) x, xs[i]? = some x → a.get h i = .ok x

/-- `df.Floats(c)` panics iff there is no such float column; otherwise it shows the visible values. -/
theorem floatAccess_shows [GoFloat F] {h : Heap F} {df : DF} {c : GoStr} {xs : List F}
    (hv : (abs h df).floats c = some xs) : ∃ a, df.floatAccess h c = .ok a ∧ a.Shows h xs := by
  obtain ⟨h1, h2, h3⟩ := floats_iff.1 hv
  unfold DF.floatAccess
  simp only [abs] at h1
  cases hs : AMap.get (h.tab df.tab) (.float, c) with
  | none => rw [hs] at h1; cases h1
  | some s =>
    refine ⟨⟨df.idx, s⟩, rfl, by rw [h2]; rfl, ?_⟩
    intro i x hx
    have := h3 i x hx
    unfold DF.get at this
    rw [hs] at this
    unfold FloatAccess.get
    simp only at this ⊢
    cases hi : df.idx.at i with
    | error e => rw [hi] at this; cases this
    | ok j =>
      rw [hi] at this
      simp only at this ⊢
      cases hc : h.cell s j with
      | none => rw [hc] at this; cases this
      | some v => rw [hc] at this; cases this; rfl

theorem mseLoop_eq [GoFloat F] {h : Heap F} {a b : FloatAccess} (n : Nat) :
    ∀ {xs ys : List F} {i : Nat} {s : F}, xs.length = n → ys.length = n →
      (∀ (j : Nat) x, xs[j]? = some x → a.get h (i + j : Nat) = .ok x) →
      (∀ (j : Nat) x, ys[j]? = some x → b.get h (i + j : Nat) = .ok x) →
      mseLoop h a b i n s = .ok ((List.zipWith (fun x y => GoFloat.mul (GoFloat.sub x y) (GoFloat.sub x y)) xs ys).foldl GoFloat.add s) := by
  induction n with
  | zero =>
    intro xs ys i s hx hy _ _
    rw [List.length_eq_zero_iff] at hx hy
    subst hx hy; rfl
  | succ n ih =>
    intro xs ys i s hx hy h1 h2
    match xs, ys, hx, hy with
    | x :: xs, y :: ys, hx, hy =>
      have e1 : a.get h (i : Nat) = .ok x := h1 0 x (by simp)
      have e2 : b.get h (i : Nat) = .ok y := h2 0 y (by simp)
      simp only [mseLoop, e1, e2, List.zipWith_cons_cons, List.foldl_cons]
      exact ih (by simpa using hx) (by simpa using hy)
        (fun j z hz => by have := h1 (j + 1) z (by simpa using hz); rwa [show i + 1 + j = i + (j + 1) by omega])
        (fun j z hz => by have := h2 (j + 1) z (by simpa using hz); rwa [show i + 1 + j = i + (j + 1) by omega])

theorem maeLoop_eq [GoFloat F] {h : Heap F} {a b : FloatAccess} (n : Nat) :
    ∀ {xs ys : List F} {i : Nat} {s : F}, xs.length = n → ys.length = n →
      (∀ (j : Nat) x, xs[j]? = some x → a.get h (i + j : Nat) = .ok x) →
      (∀ (j : Nat) x, ys[j]? = some x → b.get h (i + j : Nat) = .ok x) →
      maeLoop h a b i n s = .ok ((List.zipWith (fun x y => GoFloat.abs (GoFloat.sub x y)) xs ys).foldl GoFloat.add s) := by
  induction n with
  | zero =>
    intro xs ys i s hx hy _ _
    rw [List.length_eq_zero_iff] at hx hy
    subst hx hy; rfl
  | succ n ih =>
    intro xs ys i s hx hy h1 h2
    match xs, ys, hx, hy with
    | x :: xs, y :: ys, hx, hy =>
      have e1 : a.get h (i : Nat) = .ok x := h1 0 x (by simp)
      have e2 : b.get h (i : Nat) = .ok y := h2 0 y (by simp)
      simp only [maeLoop, e1, e2, List.zipWith_cons_cons, List.foldl_cons]
      exact ih (by simpa using hx) (by simpa using hy)
        (fun j z hz => by have := h1 (j + 1) z (by simpa using hz); rwa [show i + 1 + j = i + (j + 1) by omega])
        (fun j z hz => by have := h2 (j + 1) z (by simpa using hz); rwa [show i + 1 + j = i + (j + 1) by omega])

/-! ### In any arithmetic -/

section
variable [GoFloat F] {h : Heap F} {p t : DF} {c c' : GoStr} {xs ys : List F}

/-- C45, in any float arithmetic: `MSE(p.Floats(c), t.Floats(c'))` panics when the two columns are not equally
long, otherwise it is the sum of the squared differences of what the two columns show, added from the first
row to the last, divided by the number of rows. -/
theorem C45_mse (hp : (abs h p).floats c = some xs) (ht : (abs h t).floats c' = some ys) :
    ∃ a b, p.floatAccess h c = .ok a ∧ t.floatAccess h c' = .ok b ∧
      mse h a b = if xs.length = ys.length
        then .ok (GoFloat.div (fsum (List.zipWith (fun x y => GoFloat.mul (GoFloat.sub x y) (GoFloat.sub x y)) xs ys)) (GoFloat.ofInt xs.length))
        else .error .panic := by
  obtain ⟨a, e1, s1, g1⟩ := floatAccess_shows hp
  obtain ⟨b, e2, s2, g2⟩ := floatAccess_shows ht
  refine ⟨a, b, e1, e2, ?_⟩
  unfold mse
  rw [s1, s2]
  by_cases hl : xs.length = ys.length
  · rw [if_pos hl, if_neg (by simpa using hl), mseLoop_eq xs.length rfl hl.symm (fun j x hx => by simpa using g1 j x hx)
      (fun j x hx => by simpa using g2 j x hx)]
    rfl
  · rw [if_neg hl, if_pos hl]

/-- C45, in any float arithmetic: `MAE` likewise with absolute differences. -/
theorem C45_mae (hp : (abs h p).floats c = some xs) (ht : (abs h t).floats c' = some ys) :
    ∃ a b, p.floatAccess h c = .ok a ∧ t.floatAccess h c' = .ok b ∧
      mae h a b = if xs.length = ys.length
        then .ok (GoFloat.div (fsum (List.zipWith (fun x y => GoFloat.abs (GoFloat.sub x y)) xs ys)) (GoFloat.ofInt xs.length))
        else .error .panic := by
  obtain ⟨a, e1, s1, g1⟩ := floatAccess_shows hp
  obtain ⟨b, e2, s2, g2⟩ := floatAccess_shows ht
  refine ⟨a, b, e1, e2, ?_⟩
  unfold mae
  rw [s1, s2]
  by_cases hl : xs.length = ys.length
  · rw [if_pos hl, if_neg (by simpa using hl), maeLoop_eq xs.length rfl hl.symm (fun j x hx => by simpa using g1 j x hx)
      (fun j x hx => by simpa using g2 j x hx)]
    rfl
  · rw [if_neg hl, if_pos hl]

end

/-! ### In idealised arithmetic -/

/-- The mean of the squared differences. -/
noncomputable def meanSq (us vs : List ℝ) : ℝ := mean (List.zipWith (fun u v => (u - v) ^ 2) us vs)

/-- The mean of the absolute differences. -/
noncomputable def meanAbs (us vs : List ℝ) : ℝ := mean (List.zipWith (fun u v => |u - v|) us vs)

theorem zipWith_real {g : Ideal → Ideal → Ideal} {f : ℝ → ℝ → ℝ} (hg : ∀ x y, g (real x) (real y) = real (f x y)) (us : List ℝ) :
    ∀ vs : List ℝ, List.zipWith g (us.map real) (vs.map real) = (List.zipWith f us vs).map real := by
  induction us with
  | nil => intro vs; rfl
  | cons u us ih =>
    intro vs
    cases vs with
    | nil => rfl
    | cons v vs => simp [hg, ih]

section
variable {h : Heap Ideal} {p t : DF} {c c' : GoStr} {us vs : List ℝ}

/-- C45: on columns of numbers with equally many rows, `MSE` is the mean of the squared differences. -/
theorem C45_mse_mean (hp : (abs h p).floats c = some (us.map real)) (ht : (abs h t).floats c' = some (vs.map real))
    (hl : us.length = vs.length) (hne : us ≠ []) :
    ∃ a b, p.floatAccess h c = .ok a ∧ t.floatAccess h c' = .ok b ∧ mse h a b = .ok (real (meanSq us vs)) := by
  obtain ⟨a, b, e1, e2, e⟩ := C45_mse hp ht
  refine ⟨a, b, e1, e2, ?_⟩
  have hn : ((us.length : Int) : ℝ) ≠ 0 := by simpa using hne
  rw [e, if_pos (by simpa using hl), zipWith_real (f := fun u v => (u - v) * (u - v)) (by intro x y; rw [ideal_sub, ideal_mul])]
  rw [show fsum = fun l : List Ideal => l.foldl GoFloat.add (real 0) from rfl]
  simp only
  rw [fsum_foldl, List.length_map, ideal_ofInt, ideal_div _ _ hn, meanSq, mean]
  simp [pow_two, hl]

/-- C45: on columns of numbers with equally many rows, `MAE` is the mean of the absolute differences. -/
theorem C45_mae_mean (hp : (abs h p).floats c = some (us.map real)) (ht : (abs h t).floats c' = some (vs.map real))
    (hl : us.length = vs.length) (hne : us ≠ []) :
    ∃ a b, p.floatAccess h c = .ok a ∧ t.floatAccess h c' = .ok b ∧ mae h a b = .ok (real (meanAbs us vs)) := by
  obtain ⟨a, b, e1, e2, e⟩ := C45_mae hp ht
  refine ⟨a, b, e1, e2, ?_⟩
  have hn : ((us.length : Int) : ℝ) ≠ 0 := by simpa using hne
  rw [e, if_pos (by simpa using hl), zipWith_real (f := fun u v => |u - v|) (by intro x y; rw [ideal_sub]; rfl)]
  rw [show fsum = fun l : List Ideal => l.foldl GoFloat.add (real 0) from rfl]
  simp only
  rw [fsum_foldl, List.length_map, ideal_ofInt, ideal_div _ _ hn, meanAbs, mean]
  simp [hl]

theorem nan_add_right (x : Ideal) : (GoFloat.add x Ideal.nan : Ideal) = Ideal.nan := by cases x <;> rfl
theorem nan_sub_left (x : Ideal) : (GoFloat.sub Ideal.nan x : Ideal) = Ideal.nan := ideal_nan_add _
theorem nan_sub_right (x : Ideal) : (GoFloat.sub x Ideal.nan : Ideal) = Ideal.nan := nan_add_right x

theorem fsum_nan (l : List Ideal) : ∀ s, (s = Ideal.nan ∨ Ideal.nan ∈ l) → l.foldl GoFloat.add s = Ideal.nan := by
  induction l with
  | nil => intro s hs; simpa using hs
  | cons x l ih =>
    intro s hs
    rw [List.foldl_cons]
    apply ih
    rcases hs with rfl | hs
    · exact Or.inl (ideal_nan_add x)
    · rcases List.mem_cons.1 hs with rfl | hs
      · exact Or.inl (nan_add_right s)
      · exact Or.inr hs

theorem zipWith_nan {g : Ideal → Ideal → Ideal} (h1 : ∀ x, g Ideal.nan x = Ideal.nan) (h2 : ∀ x, g x Ideal.nan = Ideal.nan)
    (xs : List Ideal) : ∀ ys : List Ideal, xs.length = ys.length → Ideal.nan ∈ xs ∨ Ideal.nan ∈ ys → Ideal.nan ∈ List.zipWith g xs ys := by
  induction xs with
  | nil =>
    intro ys hl hm
    have : ys = [] := by rw [← List.length_eq_zero_iff]; exact hl.symm
    subst this; simp at hm
  | cons x xs ih =>
    intro ys hl hm
    match ys, hl with
    | y :: ys, hl =>
      rw [List.zipWith_cons_cons]
      rcases hm with hm | hm
      · rcases List.mem_cons.1 hm with rfl | hm
        · rw [h1]; simp
        · exact List.mem_cons_of_mem _ (ih ys (by simpa using hl) (Or.inl hm))
      · rcases List.mem_cons.1 hm with rfl | hm
        · rw [h2]; simp
        · exact List.mem_cons_of_mem _ (ih ys (by simpa using hl) (Or.inr hm))

/-- C45, missing values are not skipped: one missing value in either column makes `MSE` and `MAE` NaN; and so
does having no rows at all. -/
theorem C45_missing {xs ys : List Ideal} (hp : (abs h p).floats c = some xs) (ht : (abs h t).floats c' = some ys)
    (hl : xs.length = ys.length) (hn : xs = [] ∨ Ideal.nan ∈ xs ∨ Ideal.nan ∈ ys) :
    ∃ a b, p.floatAccess h c = .ok a ∧ t.floatAccess h c' = .ok b ∧ mse h a b = .ok Ideal.nan ∧ mae h a b = .ok Ideal.nan := by
  obtain ⟨a, b, e1, e2, e⟩ := C45_mse hp ht
  obtain ⟨a', b', e1', e2', e'⟩ := C45_mae hp ht
  rw [e1] at e1'; cases e1'
  rw [e2] at e2'; cases e2'
  refine ⟨a, b, e1, e2, ?_⟩
  rw [e, e', if_pos hl, if_pos hl]
  rcases hn with rfl | hn
  · have : (GoFloat.div (real 0) (real ((0 : Int) : ℝ)) : Ideal) = Ideal.nan := by
      simp [GoFloat.div, Ideal.div, infOfSign]
    constructor <;> exact congrArg Except.ok this
  · have hdiv : ∀ x : Ideal, (GoFloat.div Ideal.nan x : Ideal) = Ideal.nan := fun x => by cases x <;> rfl
    unfold fsum
    rw [fsum_nan _ _ (Or.inr (zipWith_nan (fun x => by rw [nan_sub_left]; rfl) (fun x => by rw [nan_sub_right]; rfl) xs ys hl hn)),
      fsum_nan _ _ (Or.inr (zipWith_nan (fun x => by rw [nan_sub_left]; rfl) (fun x => by rw [nan_sub_right]; rfl) xs ys hl hn))]
    simp [hdiv]

end

/-! ### What the two means satisfy -/

/-- C45: both are nonnegative. -/
theorem C45_nonneg (us vs : List ℝ) : 0 ≤ meanSq us vs ∧ 0 ≤ meanAbs us vs := by
  constructor
  · apply div_nonneg _ (Nat.cast_nonneg _)
    apply List.sum_nonneg
    intro y hy
    rw [← List.map_uncurry_zip_eq_zipWith, List.mem_map] at hy
    obtain ⟨x, _, rfl⟩ := hy
    exact sq_nonneg _
  · apply div_nonneg _ (Nat.cast_nonneg _)
    apply List.sum_nonneg
    intro y hy
    rw [← List.map_uncurry_zip_eq_zipWith, List.mem_map] at hy
    obtain ⟨x, _, rfl⟩ := hy
    exact abs_nonneg _

/-- C45: both are symmetric. -/
theorem C45_symmetric (us vs : List ℝ) : meanSq us vs = meanSq vs us ∧ meanAbs us vs = meanAbs vs us := by
  constructor
  · unfold meanSq
    rw [List.zipWith_comm]
    congr 2
    funext u v; ring
  · unfold meanAbs
    rw [List.zipWith_comm]
    congr 2
    funext u v; exact abs_sub_comm v u

theorem sum_zip_zero {f : ℝ → ℝ → ℝ} (hf : ∀ u v, 0 ≤ f u v) (h0 : ∀ u v, f u v = 0 ↔ u = v) (us : List ℝ) :
    ∀ vs : List ℝ, us.length = vs.length → ((List.zipWith f us vs).sum = 0 ↔ us = vs) ∧ 0 ≤ (List.zipWith f us vs).sum := by
  induction us with
  | nil =>
    intro vs hl
    have : vs = [] := by rw [← List.length_eq_zero_iff]; exact hl.symm
    subst this; simp
  | cons u us ih =>
    intro vs hl
    match vs, hl with
    | v :: vs, hl =>
      obtain ⟨h1, h2⟩ := ih vs (by simpa using hl)
      have := hf u v
      simp only [List.zipWith_cons_cons, List.sum_cons, List.cons.injEq]
      refine ⟨?_, by linarith⟩
      rw [← h1, ← h0 u v]
      constructor
      · intro h; constructor <;> linarith
      · rintro ⟨h3, h4⟩; linarith

/-- C45: both are zero exactly when the columns agree. -/
theorem C45_zero_iff {us vs : List ℝ} (hl : us.length = vs.length) :
    (meanSq us vs = 0 ↔ us = vs) ∧ (meanAbs us vs = 0 ↔ us = vs) := by
  cases us with
  | nil =>
    have : vs = [] := by rw [← List.length_eq_zero_iff]; exact hl.symm
    subst this; simp [meanSq, meanAbs, mean]
  | cons u us =>
    have hz : ∀ f : ℝ → ℝ → ℝ, ((List.zipWith f (u :: us) vs).length : ℝ) ≠ 0 := by
      intro f; rw [List.length_zipWith, ← hl]; simp; positivity
    constructor
    · rw [meanSq, mean, div_eq_zero_iff, or_iff_left (hz _)]
      exact (sum_zip_zero (fun _ _ => sq_nonneg _) (fun u v => by rw [sq_eq_zero_iff, sub_eq_zero]) _ _ hl).1
    · rw [meanAbs, mean, div_eq_zero_iff, or_iff_left (hz _)]
      exact (sum_zip_zero (fun _ _ => abs_nonneg _) (fun u v => by rw [abs_eq_zero, sub_eq_zero]) _ _ hl).1

theorem sq_sum_le (l : List ℝ) : l.sum ^ 2 ≤ l.length * (l.map fun x => x ^ 2).sum := by
  have := sq_sum_le_card_mul_sum_sq (s := (Finset.univ : Finset (Fin l.length))) (f := fun i => l[i])
  simp only [Finset.card_univ, Fintype.card_fin] at this
  have e1 : ∑ i : Fin l.length, l[i] = l.sum := by
    have := List.sum_ofFn (f := fun i : Fin l.length => l[i])
    rw [← this]; congr 1; exact List.ofFn_getElem (xs := l)
  have e2 : ∑ i : Fin l.length, l[i] ^ 2 = (l.map fun x => x ^ 2).sum := by
    have := List.sum_ofFn (f := fun i : Fin l.length => l[i] ^ 2)
    rw [← this]; congr 1
    have h3 := List.ofFn_getElem (xs := l)
    conv_rhs => rw [← h3]
    rw [List.map_ofFn]; rfl
  rw [e1, e2] at this
  exact this

/-- C45: the square of `MAE` is at most `MSE`. -/
theorem C45_mae_sq_le_mse (us vs : List ℝ) : meanAbs us vs ^ 2 ≤ meanSq us vs := by
  have e : List.zipWith (fun u v => (u - v) ^ 2) us vs = (List.zipWith (fun u v => |u - v|) us vs).map fun x => x ^ 2 := by
    rw [List.map_zipWith]; congr 1; funext u v; rw [sq_abs]
  unfold meanAbs meanSq
  rw [e]
  generalize List.zipWith (fun u v => |u - v|) us vs = l
  unfold mean
  rw [List.length_map]
  by_cases hn : l.length = 0
  · rw [List.length_eq_zero_iff] at hn; subst hn; simp
  · have hpos : (0 : ℝ) < l.length := by exact_mod_cast Nat.pos_of_ne_zero hn
    rw [div_pow, div_le_div_iff₀ (by positivity) hpos]
    have := sq_sum_le l
    nlinarith

/-! ### Examples -/

namespace Demo

/-- Predictions, targets, and a column with a missing value. -/
noncomputable def evops : List (BOp Ideal) :=
  [.add .float b!"p" [.float (real 1), .float (real 2), .float (real 5)], .add .float b!"t" [.float (real 1), .float (real 4), .float (real 2)],
   .add .float b!"m" [.float (real 1), .float Ideal.nan, .float (real 2)]]

noncomputable def evres : Except Abort (DF × Heap Ideal) := (build evops iheap0).1.toDataFrame (build evops iheap0).2

noncomputable def evdf : DF := match evres with | .ok p => p.1 | .error _ => ⟨⟨0, none, false, none, 0, none⟩, ⟨[], 0⟩, ⟨0,0,0,0⟩, false, false⟩

noncomputable def evh : Heap Ideal := match evres with | .ok p => p.2 | .error _ => iheap0

/-- `MSE` and `MAE` of 1, 2, 5 against 1, 4, 2. -/
example : ∃ a b, evdf.floatAccess evh b!"p" = .ok a ∧ evdf.floatAccess evh b!"t" = .ok b ∧ mse evh a b = .ok (real (13 / 3)) := by
  obtain ⟨a, b, h1, h2, h3⟩ := C45_mse_mean (h := evh) (p := evdf) (t := evdf) (c := b!"p") (c' := b!"t") (us := [1, 2, 5]) (vs := [1, 4, 2])
    rfl rfl rfl (by simp)
  refine ⟨a, b, h1, h2, ?_⟩
  rw [h3, show meanSq [1, 2, 5] [1, 4, 2] = 13 / 3 by simp [meanSq, mean]; norm_num]

example : ∃ a b, evdf.floatAccess evh b!"p" = .ok a ∧ evdf.floatAccess evh b!"t" = .ok b ∧ mae evh a b = .ok (real (5 / 3)) := by
  obtain ⟨a, b, h1, h2, h3⟩ := C45_mae_mean (h := evh) (p := evdf) (t := evdf) (c := b!"p") (c' := b!"t") (us := [1, 2, 5]) (vs := [1, 4, 2])
    rfl rfl rfl (by simp)
  refine ⟨a, b, h1, h2, ?_⟩
  rw [h3, show meanAbs [1, 2, 5] [1, 4, 2] = 5 / 3 by simp [meanAbs, mean]; norm_num]

/-- A missing value makes them NaN. -/
example : ∃ a b, evdf.floatAccess evh b!"p" = .ok a ∧ evdf.floatAccess evh b!"m" = .ok b ∧ mse evh a b = .ok Ideal.nan ∧ mae evh a b = .ok Ideal.nan :=
  C45_missing (xs := [real 1, real 2, real 5]) (ys := [real 1, Ideal.nan, real 2]) rfl rfl rfl (Or.inr (Or.inr (by simp)))

/-- A view with the rows 2, 0 of the predictions, against the full target: panic. -/
example : ∃ v h', evdf.indexView [2, 0] evh = .ok (v, h') ∧ ∃ a b, v.floatAccess h' b!"p" = .ok a ∧ evdf.floatAccess h' b!"t" = .ok b ∧
    mse h' a b = .error .panic :=
  ⟨_, _, rfl, C45_mse (xs := [real 5, real 1]) (ys := [real 1, real 4, real 2]) rfl rfl⟩

/-- The rows 2, 0 of both. -/
example : ∃ v h', evdf.indexView [2, 0] evh = .ok (v, h') ∧ ∃ a b, v.floatAccess h' b!"p" = .ok a ∧ v.floatAccess h' b!"t" = .ok b ∧
    mse h' a b = .ok (real (meanSq [5, 1] [2, 1])) :=
  ⟨_, _, rfl, C45_mse_mean rfl rfl rfl (by simp)⟩

end Demo

end Verif
