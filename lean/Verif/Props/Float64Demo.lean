import Verif.Props.Float64Eval
import Verif.Props.ScalerIdeal

/-! What `float64` (IEEE 754 binary64) does to claims that hold in exact arithmetic, on concrete dataframes. -/

namespace Verif
namespace Float64
open FP Demo

/-- `a / b` -/
def dec (a b : Int) : Float64 := GoFloat.div (GoFloat.ofInt a) (GoFloat.ofInt b)

def heap0 : Heap Float64 := ⟨rt, 0, fun _ => [], fun _ => [], fun _ => [], fun _ => []⟩

/-- A dataframe with the float columns "p" and "t". -/
def two (xs ys : List Float64) : Except Abort (DF × Heap Float64) :=
  let ops : List (BOp Float64) := [.add .float b!"p" (xs.map .float), .add .float b!"t" (ys.map .float)]
  (build ops heap0).1.toDataFrame (build ops heap0).2

/-- What `MSE` and `MAE` return on the two columns. -/
def HasErrors (xs ys : List Float64) (r r' : Float64) : Prop :=
  ∃ (df : DF) (h : Heap Float64) (a b : FloatAccess), df.WF h ∧ (abs h df).floats b!"p" = some xs ∧ (abs h df).floats b!"t" = some ys ∧
    df.floatAccess h b!"p" = .ok a ∧ df.floatAccess h b!"t" = .ok b ∧ mse h a b = .ok r ∧ mae h a b = .ok r'

/-- A dataframe with two given float columns of the same length exists. -/
theorem two_columns (xs ys : List Float64) (hl : xs.length = ys.length) : ∃ (df : DF) (h : Heap Float64), df.WF h ∧
    (abs h df).floats b!"p" = some xs ∧ (abs h df).floats b!"t" = some ys := by
  obtain ⟨ops, hops⟩ : ∃ ops : List (BOp Float64), ops = [.add .float b!"p" (xs.map .float), .add .float b!"t" (ys.map .float)] := ⟨_, rfl⟩
  have hcol : ∀ k c, specCol ops k c = if Kind.float = k ∧ b!"t" = c then some (ys.map .float)
      else if Kind.float = k ∧ b!"p" = c then some (xs.map .float) else none := by
    intro k c; subst hops
    simp only [specCol, BOp.stepCol, List.foldl_cons, List.foldl_nil]
    by_cases h1 : Kind.float = k ∧ b!"t" = c
    · have h2 : ¬ (Kind.float = k ∧ b!"p" = c) := by rintro ⟨-, e⟩; rw [← h1.2] at e; exact absurd e (by decide)
      rw [if_neg h2, if_pos h1, if_pos h1]; rfl
    · rw [if_neg h1, if_neg h1]; simp
  obtain ⟨df, h, -, wf, -, hn, hc, -⟩ := C20_toDataFrame_ok ops heap0 xs.length
    (by
      intro k c l h1
      rw [hcol] at h1
      split at h1
      · cases h1; rw [List.length_map, hl]
      · split at h1
        · cases h1; rw [List.length_map]
        · cases h1)
    ⟨.float, b!"p", by rw [hcol]; simp⟩
  have key : ∀ (a : ADF (Val Float64)) (c : GoStr) (zs : List Float64), a.col .float c = some (List.map some (List.map Val.float zs)) →
      a.floats c = some zs := by
    intro a c zs ha
    unfold ADF.floats
    rw [ha]
    dsimp only
    clear ha
    induction zs with
    | nil => rfl
    | cons z zs ih => rw [List.map_cons, List.map_cons, List.mapM_cons]; dsimp only; rw [ih]; rfl
  have e1 : (abs h df).col .float b!"p" = some (List.map some (List.map Val.float xs)) := by rw [hc, hcol]; simp
  have e2 : (abs h df).col .float b!"t" = some (List.map some (List.map Val.float ys)) := by rw [hc, hcol]; simp
  exact ⟨df, h, wf, key _ _ _ e1, key _ _ _ e2⟩

theorem hasErrors {xs ys : List Float64} (hl : xs.length = ys.length) {r r' : Float64}
    (h1 : GoFloat.div (fsum (List.zipWith (fun x y => GoFloat.mul (GoFloat.sub x y) (GoFloat.sub x y)) xs ys)) (GoFloat.ofInt xs.length) = r)
    (h2 : GoFloat.div (fsum (List.zipWith (fun x y => GoFloat.abs (GoFloat.sub x y)) xs ys)) (GoFloat.ofInt xs.length) = r') :
    HasErrors xs ys r r' := by
  obtain ⟨df, h, wf, hp, ht⟩ := two_columns xs ys hl
  obtain ⟨a, b, e1, e2, e3⟩ := C45_mse hp ht
  obtain ⟨a', b', e1', e2', e4⟩ := C45_mae hp ht
  rw [e1] at e1'; cases e1'
  rw [e2] at e2'; cases e2'
  rw [if_pos hl, h1] at e3
  rw [if_pos hl, h2] at e4
  exact ⟨df, h, a, b, wf, hp, ht, e1, e2, e3, e4⟩

/-- `2 ^ -600` -/
def small : Float64 := .fin false (2 ^ 52) (-652) (by decide)

/-- The least positive number. -/
def least : Float64 := .fin false 1 (-1074) (by decide)

/-- `2 ^ 600` -/
def big : Float64 := .fin false (2 ^ 52) 548 (by decide)

/-- **C45** "zero iff the columns agree" is false of `MSE` in float64: the square of a small difference is 0. -/
theorem C45_float64_refuted_mse_zero : GoFloat.lt (GoFloat.zero : Float64) small = true ∧
    HasErrors [small] [GoFloat.zero] GoFloat.zero small :=
  by
  refine ⟨by decide +kernel, hasErrors (by rfl) ?_ ?_⟩ <;> decide +kernel

/-- **C45** "zero iff the columns agree" is false of `MAE` in float64: the mean of the least number and 0 is rounded to 0. -/
theorem C45_float64_refuted_mae_zero : GoFloat.lt (GoFloat.zero : Float64) least = true ∧
    HasErrors [least, GoFloat.zero] [GoFloat.zero, GoFloat.zero] GoFloat.zero GoFloat.zero :=
  by
  refine ⟨by decide +kernel, hasErrors (by rfl) ?_ ?_⟩ <;> decide +kernel

/-- **C45** "MAE^2 <= MSE" is false in float64, by rounding: three differences of 0.4. -/
theorem C45_float64_refuted_squares : ∃ r r', HasErrors [dec 4 10, dec 4 10, dec 4 10] [GoFloat.zero, GoFloat.zero, GoFloat.zero] r r' ∧
    r.Finite ∧ r'.Finite ∧ r.val < r'.val ^ 2 := by
  refine ⟨.fin false 5764607523034236 (-55) (by decide), .fin false 7205759403792795 (-54) (by decide), hasErrors (by rfl) ?_ ?_, trivial, trivial, ?_⟩
  · decide +kernel
  · decide +kernel
  · simp only [FP.val]; norm_num

/-- The non-vacuity of `C45_float64_mse`: two columns of finite numbers, with an error that is not zero. -/
example : HasErrors [GoFloat.ofInt 1, GoFloat.ofInt 2] [GoFloat.ofInt 2, GoFloat.ofInt 4] (dec 5 2) (dec 3 2) := by
  refine hasErrors (by rfl) ?_ ?_ <;> decide +kernel

/-! ### scaler, imputer -/

/-- Train a scaler on the two columns, transform them, and look at the result. -/
def scaledAnd (opt : ScalerOptions) (xs ys : List Float64) (q : DF → Heap Float64 → Scaler Float64 → Bool) : Bool :=
  okAnd (two xs ys) fun p =>
    okAnd ((newScaler opt : Scaler Float64).fit p.1 [b!"p", b!"t"] p.2) fun sc =>
      okAnd (sc.transformInplace p.1 [b!"p", b!"t"] p.2) fun h' => q p.1 h' sc

/-- **C42** "a constant column is mapped to 0" is false in float64: the column 0.1, 0.1, 0.1 becomes -1, -1, -1. The computed mean
is the number next to 0.1, so the squares do not add up to 0, and their sum is what the differences are divided by. -/
theorem C42_float64_constant_refuted : scaledAnd ⟨false, true, true⟩ [dec 1 10, dec 1 10, dec 1 10] [GoFloat.zero, GoFloat.zero, GoFloat.zero]
    (fun df h _ => [0, 1, 2].all fun i => decide (df.get h .float b!"p" i = .ok (.float (GoFloat.ofInt (-1))))) = true := by
  decide +kernel

/-- **C42** "variance 1 when the column is not constant" is false in float64: the squares of small differences are 0, and the column is
taken for a constant one. -/
theorem C42_float64_variance_refuted : scaledAnd ⟨false, true, true⟩ [small, GoFloat.neg small] [GoFloat.zero, GoFloat.one]
    (fun df h _ => okAnd (df.get h .float b!"p" 0) fun v =>
      okAnd (df.get h .float b!"p" 1) fun w => match v, w with
      | .float x, .float y => GoFloat.lt (GoFloat.abs x) (dec 1 1000000000) && GoFloat.lt (GoFloat.abs y) (dec 1 1000000000)
      | _, _ => false) = true := by
  decide +kernel

/-- **C41** "restores every visible value" is false in float64: the squares of large differences overflow, the scale is 0, and the
restored column is NaN. -/
theorem C41_float64_overflow_refuted : scaledAnd ⟨false, true, true⟩ [big, GoFloat.zero] [GoFloat.zero, GoFloat.one]
    (fun df h sc => okAnd (sc.inverseTransformInplace df [b!"p", b!"t"] h) fun h' =>
      [0, 1].all fun i => decide (df.get h' .float b!"p" i = .ok (.float GoFloat.nan))) = true := by
  decide +kernel

/-- **C41**: restored values can differ in the last digits: 1, 2, 4 becomes 1 - 2^-52, 2, 4. -/
theorem C41_float64_rounding : scaledAnd ⟨false, true, true⟩ [GoFloat.ofInt 1, GoFloat.ofInt 2, GoFloat.ofInt 4] [GoFloat.zero, GoFloat.one, GoFloat.one]
    (fun df h sc => okAnd (sc.inverseTransformInplace df [b!"p", b!"t"] h) fun h' =>
      okAnd (df.get h' .float b!"p" 0) fun v => match v with
      | .float x => GoFloat.lt x (GoFloat.ofInt 1) && GoFloat.lt (dec 999999 1000000) x
      | _ => false) = true := by
  decide +kernel

/-- **C40**: the mean a `FloatImputer` fills in is the rounded one: missing values of the column 0.1, 0.1, 0.1, NaN become a number
that is larger than 0.1. -/
theorem C40_float64_mean : okAnd (two [dec 1 10, dec 1 10, dec 1 10, GoFloat.nan] [GoFloat.one, GoFloat.one, GoFloat.one, GoFloat.one]) (fun p =>
    okAnd ((newFloatImputer .mean : FloatImputer Float64).fit p.1 [b!"p", b!"t"] p.2) fun im =>
      okAnd (im.transformInplace p.1 p.2) fun h' =>
        okAnd (p.1.get h' .float b!"p" 3) fun v => match v with
        | .float x => GoFloat.lt (dec 1 10) x
        | _ => false) = true := by
  decide +kernel

/-- **C11**: `0.7` is less than 7/10, but 10 rows split at `0.7` give 7 test rows, since the product is rounded; `0.29` of 100 rows are 28. -/
theorem C11_float64_example : GoFloat.trunc (GoFloat.mul (GoFloat.ofInt 10) (dec 7 10)) = 7 ∧ (dec 7 10).val < 7 / 10 ∧
    GoFloat.trunc (GoFloat.mul (GoFloat.ofInt 100) (dec 29 100)) = 28 := by
  refine ⟨by decide +kernel, ?_, by decide +kernel⟩
  have : dec 7 10 = .fin false 6305039478318694 (-53) (by decide) := by decide +kernel
  rw [this]
  simp only [FP.val]; norm_num

end Float64
end Verif
