import Verif.Spec.Ideal
import Verif.Proofs.Scaler
import Mathlib.Algebra.BigOperators.Group.List.Basic
import Mathlib.Algebra.Order.BigOperators.Group.List
import Mathlib.Tactic.Linarith
import Mathlib.Tactic.Ring
import Mathlib.Tactic.FieldSimp
import Mathlib.Tactic.Positivity

/-! Computing with idealised floats. -/

namespace Verif
open Ideal

theorem ideal_zero : (GoFloat.zero : Ideal) = real 0 := rfl
theorem ideal_one : (GoFloat.one : Ideal) = real 1 := rfl
theorem ideal_ofInt (n : Int) : (GoFloat.ofInt n : Ideal) = real n := rfl
theorem ideal_add (x y : ℝ) : (GoFloat.add (real x) (real y) : Ideal) = real (x + y) := rfl
theorem ideal_sub (x y : ℝ) : (GoFloat.sub (real x) (real y) : Ideal) = real (x - y) := by
  show real (x + -y) = _; rw [sub_eq_add_neg]
theorem ideal_mul (x y : ℝ) : (GoFloat.mul (real x) (real y) : Ideal) = real (x * y) := rfl
theorem ideal_neg (x : ℝ) : (GoFloat.neg (real x) : Ideal) = real (-x) := rfl
theorem ideal_div (x y : ℝ) (hy : y ≠ 0) : (GoFloat.div (real x) (real y) : Ideal) = real (x / y) := by
  show Ideal.div _ _ = _; simp [Ideal.div, hy]
theorem ideal_sqrt (x : ℝ) (hx : 0 ≤ x) : (GoFloat.sqrt (real x) : Ideal) = real (Real.sqrt x) := by
  show Ideal.sqrt _ = _; simp [Ideal.sqrt, not_lt.2 hx]
theorem ideal_isNaN_real (x : ℝ) : (GoFloat.isNaN (real x) : Bool) = false := rfl
theorem ideal_isNaN_nan : (GoFloat.isNaN Ideal.nan : Bool) = true := rfl
theorem ideal_eq (x y : ℝ) : (GoFloat.eq (real x) (real y) : Bool) = decide (x = y) := by
  show Ideal.eq _ _ = _; simp [Ideal.eq]
theorem ideal_lt (x y : ℝ) : (GoFloat.lt (real x) (real y) : Bool) = decide (x < y) := by
  show Ideal.lt _ _ = _; simp [Ideal.lt]
theorem ideal_nan_add (x : Ideal) : (GoFloat.add Ideal.nan x : Ideal) = Ideal.nan := by cases x <;> rfl
theorem ideal_nan_mul (x : Ideal) : (GoFloat.mul Ideal.nan x : Ideal) = Ideal.nan := by cases x <;> rfl

theorem fsum_foldl (l : List ℝ) (s : ℝ) : (l.map real).foldl GoFloat.add (real s) = real (s + l.sum) := by
  induction l generalizing s with
  | nil => simp
  | cons x l ih => simp only [List.map_cons, List.foldl_cons, ideal_add, ih, List.sum_cons]; rw [add_assoc]

theorem reals_nan (l : List Ideal) : reals (Ideal.nan :: l) = reals l := rfl
theorem reals_real (x : ℝ) (l : List Ideal) : reals (real x :: l) = x :: reals l := rfl

theorem present_eq {l : List Ideal} (hp : ∀ v ∈ l, Plain v) : present l = (reals l).map real := by
  induction l with
  | nil => rfl
  | cons v l ih =>
    have ih := ih (fun w hw => hp w (by simp [hw]))
    unfold present at ih ⊢
    cases v with
    | nan => rw [List.filter_cons, ideal_isNaN_nan, reals_nan]; simpa using ih
    | real x => rw [List.filter_cons, ideal_isNaN_real, reals_real]; simpa using ih
    | posInf => exact (hp .posInf (by simp)).elim
    | negInf => exact (hp .negInf (by simp)).elim

theorem fmean_eq {l : List Ideal} (hp : ∀ v ∈ l, Plain v) (hne : reals l ≠ []) : fmean l = real (mean (reals l)) := by
  unfold fmean fsum
  rw [present_eq hp, ideal_zero, fsum_foldl, ideal_ofInt]
  have hl : ((reals l).length : ℝ) ≠ 0 := by
    simpa using hne
  rw [List.length_map, ideal_div _ _ (by simpa using hne)]
  simp [mean]

theorem fmean_nan {l : List Ideal} (hp : ∀ v ∈ l, Plain v) (hne : reals l = []) : fmean l = Ideal.nan := by
  unfold fmean fsum
  rw [present_eq hp, hne]
  show Ideal.div (real 0) (real _) = _
  simp [Ideal.div, Ideal.infOfSign]

theorem squares_eq {l : List Ideal} (hp : ∀ v ∈ l, Plain v) (m : ℝ) :
    scalerSquares (real m) l = real ((reals l).map fun x => (x - m) ^ 2).sum := by
  unfold scalerSquares
  suffices H : ∀ s : ℝ, l.foldl (fun a v => if GoFloat.isNaN v then a else
      GoFloat.add a (GoFloat.mul (GoFloat.sub v (real m)) (GoFloat.sub v (real m)))) (real s)
      = real (s + ((reals l).map fun x => (x - m) ^ 2).sum) by
    rw [ideal_zero, H, zero_add]
  induction l with
  | nil => intro s; simp [reals]
  | cons v l ih =>
    have ih := ih (fun w hw => hp w (by simp [hw]))
    intro s
    cases v with
    | nan => simp only [List.foldl_cons, ideal_isNaN_nan, if_true, reals_nan]; exact ih s
    | real x =>
      simp only [List.foldl_cons, ideal_isNaN_real, Bool.false_eq_true, if_false, ideal_sub, ideal_mul, ideal_add, reals_real,
        List.map_cons, List.sum_cons]
      rw [ih]; congr 1; ring
    | posInf => exact (hp .posInf (by simp)).elim
    | negInf => exact (hp .negInf (by simp)).elim

theorem squares_none {l : List Ideal} (hp : ∀ v ∈ l, Plain v) (hne : reals l = []) (m : Ideal) : scalerSquares m l = real 0 := by
  unfold scalerSquares
  suffices H : ∀ s : Ideal, l.foldl (fun a v => if GoFloat.isNaN v then a else
      GoFloat.add a (GoFloat.mul (GoFloat.sub v m) (GoFloat.sub v m))) s = s from H _
  induction l with
  | nil => intro s; rfl
  | cons v l ih =>
    intro s
    cases v with
    | nan => simp only [List.foldl_cons, ideal_isNaN_nan, if_true]; exact ih (fun w hw => hp w (by simp [hw])) hne s
    | real x => rw [reals_real] at hne; cases hne
    | posInf => exact (hp .posInf (by simp)).elim
    | negInf => exact (hp .negInf (by simp)).elim

/-- The extremes found by the MinMax loop. -/
theorem minmax_eq {l : List Ideal} (hp : ∀ v ∈ l, Plain v) :
    (reals l = [] ∧ scalerMinMax l = (.posInf, .negInf)) ∨
    ∃ a b, a ∈ reals l ∧ b ∈ reals l ∧ (∀ x ∈ reals l, a ≤ x ∧ x ≤ b) ∧ scalerMinMax l = (real a, real b) := by
  induction l using List.reverseRecOn with
  | nil => exact Or.inl ⟨rfl, rfl⟩
  | append_singleton l v ih =>
    have ih := ih (fun w hw => hp w (by simp [hw]))
    have happ : ∀ w, reals (l ++ [w]) = reals l ++ reals [w] := fun w => by simp [reals]
    unfold scalerMinMax at ih ⊢
    rw [List.foldl_append, happ]
    cases v with
    | nan =>
      have h0 : reals [Ideal.nan] = [] := rfl
      rw [h0, List.append_nil]
      rcases ih with ⟨h1, h2⟩ | ⟨a, b, h1, h2, h3, h4⟩
      · exact Or.inl ⟨h1, by rw [h2]; rfl⟩
      · exact Or.inr ⟨a, b, h1, h2, h3, by rw [h4]; rfl⟩
    | real x =>
      have h0 : reals [real x] = [x] := rfl
      rw [h0]
      right
      rcases ih with ⟨h1, h2⟩ | ⟨a, b, h1, h2, h3, h4⟩
      · refine ⟨x, x, by simp, by simp, by simp [h1], ?_⟩
        rw [h2]; rfl
      · rw [h4]
        simp only [List.foldl_cons, List.foldl_nil, ideal_lt, decide_eq_true_eq]
        refine ⟨if x < a then x else a, if b < x then x else b, ?_, ?_, ?_, ?_⟩
        · split <;> simp [h1]
        · split <;> simp [h2]
        · intro y hy
          simp only [List.mem_append, List.mem_singleton] at hy
          have hab := h3 a h1
          rcases hy with hy | rfl
          · have := h3 y hy
            constructor
            · split <;> linarith
            · split <;> linarith
          · constructor <;> split <;> linarith
        · congr 1 <;> split <;> rfl
    | posInf => exact (hp .posInf (by simp)).elim
    | negInf => exact (hp .negInf (by simp)).elim

end Verif
