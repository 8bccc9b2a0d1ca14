import Verif.Props.LinRegFit
import Mathlib.Analysis.Calculus.Deriv.Pow
import Mathlib.Analysis.Calculus.Deriv.Add
import Mathlib.Analysis.Calculus.Deriv.Mul

/-! C69 in idealised arithmetic: the specification `sgdStep` is gradient descent on the squared error. -/

namespace Verif

/-- Half the squared error of the weights `w` on a batch of (features, target) rows. -/
noncomputable def sqLoss (batch : List (List ℝ × ℝ)) (w : List ℝ) : ℝ := (batch.map fun e => (dotReal e.1 w - e.2) ^ 2 / 2).sum

/-- gonum without rounding. -/
structure Blas.Exact (bl : Blas Ideal) : Prop where
  dot : ∀ xs ws : List ℝ, bl.dot (xs.map .real) (ws.map .real) = .real (dotReal xs ws)
  dotT : ∀ xs ws : List ℝ, bl.dotT (xs.map .real) (ws.map .real) = .real (dotReal xs ws)
  axpy : ∀ a α b : ℝ, bl.axpy (.real a) (.real α) (.real b) = .real (a + α * b)

/-- Rows of real numbers, as floats. -/
def idealRows (batch : List (List ℝ × ℝ)) : List (List Ideal × Ideal) := batch.map fun e => (e.1.map .real, .real e.2)

theorem dotReal_set (x w : List ℝ) (j : Nat) (hj : j < w.length) (t : ℝ) :
    dotReal x (w.set j t) = dotReal x w + x.getD j 0 * (t - w.getD j 0) := by
  induction x generalizing w j with
  | nil => simp [dotReal]
  | cons a x ih =>
    cases w with
    | nil => simp at hj
    | cons b w =>
      cases j with
      | zero => simp [dotReal]; ring
      | succ j =>
        have := ih w j (by simpa using hj)
        simp only [dotReal, List.set_cons_succ, List.zipWith_cons_cons, List.sum_cons, List.getD_cons_succ] at this ⊢
        rw [this]; ring

/-- The gradient of the specification is the derivative of the squared error. -/
noncomputable def gradReal (batch : List (List ℝ × ℝ)) (w : List ℝ) (j : Nat) : ℝ :=
  (batch.map fun e => e.1.getD j 0 * (dotReal e.1 w - e.2)).sum

theorem hasDerivAt_sqLoss (batch : List (List ℝ × ℝ)) (w : List ℝ) (j : Nat) (hj : j < w.length) :
    HasDerivAt (fun t => sqLoss batch (w.set j t)) (gradReal batch w j) (w.getD j 0) := by
  induction batch with
  | nil => simpa [sqLoss, gradReal] using hasDerivAt_const (w.getD j 0) (0 : ℝ)
  | cons e batch ih =>
    have h1 : HasDerivAt (fun t => dotReal e.1 (w.set j t) - e.2) (e.1.getD j 0) (w.getD j 0) := by
      have : (fun t => dotReal e.1 (w.set j t) - e.2) = fun t => e.1.getD j 0 * (t - w.getD j 0) + (dotReal e.1 w - e.2) := by
        funext t; rw [dotReal_set e.1 w j hj]; ring
      rw [this]
      simpa using (((hasDerivAt_id (w.getD j 0)).sub_const (w.getD j 0)).const_mul (e.1.getD j 0)).add_const (dotReal e.1 w - e.2)
    have h2 := (h1.pow 2).div_const 2
    have h0 : dotReal e.1 (w.set j (w.getD j 0)) = dotReal e.1 w := by rw [dotReal_set e.1 w j hj]; ring
    have h3 := h2.add ih
    have e1 : (fun t => sqLoss (e :: batch) (w.set j t)) = (fun t => (dotReal e.1 (w.set j t) - e.2) ^ 2 / 2) + fun t => sqLoss batch (w.set j t) := by
      funext t; simp [sqLoss]
    rw [e1]
    refine h3.congr_deriv ?_
    simp only [gradReal, List.map_cons, List.sum_cons, h0]
    norm_num
    ring

theorem gradAt_ideal {bl : Blas Ideal} (ex : bl.Exact) (batch : List (List ℝ × ℝ)) (w : List ℝ) (j : Nat) :
    gradAt bl (idealRows batch) (w.map .real) j = .real (gradReal batch w j) := by
  unfold gradAt idealRows
  rw [List.map_map, List.map_map]
  have h1 : (batch.map ((fun e : List Ideal × Ideal => e.1.getD j GoFloat.zero) ∘ fun e => (e.1.map Ideal.real, Ideal.real e.2))) =
      (batch.map fun e => e.1.getD j 0).map Ideal.real := by
    rw [List.map_map]
    apply List.map_congr_left
    intro e _
    simp only [Function.comp, List.getD_eq_getElem?_getD, List.getElem?_map, ideal_zero]
    cases e.1[j]? <;> rfl
  have h2 : (batch.map ((fun e : List Ideal × Ideal => GoFloat.sub (bl.dot e.1 (w.map Ideal.real)) e.2) ∘ fun e => (e.1.map Ideal.real, Ideal.real e.2))) =
      (batch.map fun e => dotReal e.1 w - e.2).map Ideal.real := by
    rw [List.map_map]
    apply List.map_congr_left
    intro e _
    simp only [Function.comp]
    rw [ex.dot, ideal_sub]
  rw [h1, h2, ex.dotT]
  congr 1
  unfold dotReal gradReal
  rw [List.zipWith_map, List.zipWith_self]
  rfl

/-- C69 in idealised arithmetic: one step of the training on a batch of rows, from the weights `w` and the previous
direction `v`. The direction is the gradient of the squared error of the batch (each entry is the derivative with
respect to that weight), plus `Momentum` times the previous direction; the weights move by `-LR` times the direction and are
then shrunk by `1 - WeightDecay`. -/
theorem C69_step_is_gradient_descent {bl : Blas Ideal} (ex : bl.Exact) {p : LinRegTrainParams Ideal} {lr mom decay : ℝ} (h1 : p.lr = .real lr)
    (h2 : p.momentum = .real mom) (h3 : p.weightDecay = .real decay) (hm : 0 ≤ mom) (hd : 0 ≤ decay) (batch : List (List ℝ × ℝ)) (w v : List ℝ) :
    ∃ w' v' : List ℝ, sgdStep bl p (idealRows batch) (w.map .real, v.map .real) = (w'.map .real, v'.map .real) ∧
      w'.length = w.length ∧ v'.length = w.length ∧
      ∀ j, j < w.length → ∃ g : ℝ, HasDerivAt (fun t => sqLoss batch (w.set j t)) g (w.getD j 0) ∧
        v'.getD j 0 = g + mom * v.getD j 0 ∧ w'.getD j 0 = (1 - decay) * (w.getD j 0 - lr * v'.getD j 0) := by
  refine ⟨(List.range w.length).map (fun j => (1 - decay) * (w.getD j 0 - lr * (gradReal batch w j + mom * v.getD j 0))),
    (List.range w.length).map (fun j => gradReal batch w j + mom * v.getD j 0), ?_, by simp, by simp, ?_⟩
  · have hdir : ∀ j, j < w.length → (if (GoFloat.lt GoFloat.zero p.momentum : Bool) = true then
          bl.axpy (gradAt bl (idealRows batch) (w.map .real) j) p.momentum ((v.map Ideal.real).getD j GoFloat.zero)
        else gradAt bl (idealRows batch) (w.map .real) j) = .real (gradReal batch w j + mom * v.getD j 0) := by
      intro j hj
      have hvj : (v.map Ideal.real).getD j GoFloat.zero = .real (v.getD j 0) := by
        simp only [List.getD_eq_getElem?_getD, List.getElem?_map, ideal_zero]
        cases v[j]? <;> rfl
      rw [gradAt_ideal ex, h2, ideal_zero, ideal_lt, ← ideal_zero, hvj, ex.axpy]
      split
      · rfl
      · rename_i h0
        have : mom = 0 := by
          simp only [decide_eq_true_eq] at h0
          linarith
        rw [this]; simp
    have hwj : ∀ j, (w.map Ideal.real).getD j GoFloat.zero = .real (w.getD j 0) := by
      intro j
      simp only [List.getD_eq_getElem?_getD, List.getElem?_map, ideal_zero]
      cases w[j]? <;> rfl
    unfold sgdStep
    simp only [List.length_map, List.map_map]
    congr 1
    · apply List.map_congr_left
      intro j hj
      simp only [List.mem_range] at hj
      rw [hdir j hj, hwj, h1, ideal_neg, ex.axpy, h3, ideal_zero, ideal_lt, ideal_one, ideal_sub, ideal_mul]
      simp only [Function.comp]
      split
      · congr 1; ring
      · rename_i h0
        have : decay = 0 := by
          simp only [decide_eq_true_eq] at h0
          linarith
        rw [this]; congr 1; ring
    · apply List.map_congr_left
      intro j hj
      simp only [List.mem_range] at hj
      exact hdir j hj
  · intro j hj
    refine ⟨gradReal batch w j, hasDerivAt_sqLoss batch w j hj, ?_, ?_⟩
    · simp [hj]
    · simp [hj]

/-- Exact arithmetic exists: on lists of reals it multiplies and adds. -/
noncomputable def exactBlas : Blas Ideal where
  dot xs ws := (List.zipWith GoFloat.mul xs ws).foldr GoFloat.add GoFloat.zero
  dotT xs ws := (List.zipWith GoFloat.mul xs ws).foldr GoFloat.add GoFloat.zero
  axpy a α b := GoFloat.add a (GoFloat.mul α b)

theorem exactBlas_exact : exactBlas.Exact := by
  have key : ∀ xs ws : List ℝ, (List.zipWith GoFloat.mul (xs.map Ideal.real) (ws.map Ideal.real)).foldr GoFloat.add GoFloat.zero = Ideal.real (dotReal xs ws) := by
    intro xs
    induction xs with
    | nil => intro ws; simp [dotReal, ideal_zero]
    | cons x xs ih =>
      intro ws
      cases ws with
      | nil => simp [dotReal, ideal_zero]
      | cons w ws =>
        simp only [List.map_cons, List.zipWith_cons_cons, List.foldr_cons]
        rw [ih, ideal_mul, ideal_add]
        simp [dotReal]
  exact ⟨key, key, fun _ _ _ => rfl⟩

/-- The hypotheses are met: one row (x = 2, y = 10), weight 1, learning rate 1/4: the derivative is 2 * (2 - 10) = -16, and the new
weight 1 + 16/4 = 5, which predicts the target. -/
example : ∃ w' v' : List ℝ, sgdStep exactBlas ⟨1, .real (1 / 4), 1, .real 0, .real 0, true⟩ (idealRows [([2], 10)]) ([1].map .real, [0].map .real) =
    (w'.map .real, v'.map .real) ∧ w' = [5] := by
  obtain ⟨w', v', e, l1, l2, hj⟩ := C69_step_is_gradient_descent exactBlas_exact (p := ⟨1, .real (1 / 4), 1, .real 0, .real 0, true⟩) rfl rfl rfl
    (le_refl _) (le_refl _) [([2], 10)] [1] [0]
  refine ⟨w', v', e, ?_⟩
  obtain ⟨g, hg, h1, h2⟩ := hj 0 (by simp)
  have := hg.unique (hasDerivAt_sqLoss [([2], 10)] [1] 0 (by simp))
  have hg' : g = -16 := by rw [this]; simp [gradReal, dotReal]; norm_num
  match w', l1 with
  | [a], _ =>
    simp only [List.getD_cons_zero] at h2
    rw [h1, hg'] at h2
    simp at h2
    rw [h2]; norm_num

end Verif
