import Verif.Props.ScalerFloat64Inf

/-! C43 in float64: MinMax scaling of a column of finite numbers and missing values. -/

namespace Verif
namespace Float64
open FP

variable {f : FFmt}

theorem sub_rnd {x y : FP f} (hx : x.Finite) (hy : y.Finite) :
    ((sub x y).Finite ↔ (rnd f (x.val - y.val)).Finite) ∧ (sub x y).val = (rnd f (x.val - y.val)).val := by
  have h := add_eq_rnd hx (neg_finite hy)
  rw [neg_val, ← sub_eq_add_neg] at h
  unfold sub
  rw [h]
  split
  · next h0 => rw [h0, rnd_zero]; exact ⟨Iff.rfl, by rw [FP.zero_val, FP.zero_val]⟩
  · exact ⟨Iff.rfl, rfl⟩

theorem rnd_finite_iff {q : ℚ} : (rnd f q).Finite ↔ |q| < f.top := by
  constructor
  · intro h
    rcases rnd_cases (f := f) q with ⟨t, -, -⟩ | ⟨-, e⟩
    · exact t
    · rw [e] at h; cases h
  · exact rnd_finite

theorem rnd_nonneg {q : ℚ} (h : 0 ≤ q) (hf : (rnd f q).Finite) : 0 ≤ (rnd f q).val := by
  have := rnd_mono_val (f := f) h (by rw [rnd_zero]; trivial) hf
  rwa [rnd_zero, FP.zero_val] at this

/-- A product of finite numbers, up to the sign of zero. -/
theorem mul_rnd {x y : FP f} (hx : x.Finite) (hy : y.Finite) :
    ((mul x y).Finite ∧ (rnd f (x.val * y.val)).Finite ∧ (mul x y).val = (rnd f (x.val * y.val)).val) ∨
    mul x y = rnd f (x.val * y.val) := by
  rw [mul_eq_rnd hx hy]
  split
  · next h0 => left; rw [h0, rnd_zero]; exact ⟨trivial, trivial, by rw [FP.zero_val, FP.zero_val]⟩
  · exact Or.inr rfl

theorem lt_of_same {x x' y y' : FP f} (hx : (x.Finite ∧ x'.Finite ∧ x.val = x'.val) ∨ x = x')
    (hy : (y.Finite ∧ y'.Finite ∧ y.val = y'.val) ∨ y = y') : lt x y = lt x' y' := by
  have fin : ∀ {a b a' b' : FP f}, a.Finite → b.Finite → a'.Finite → b'.Finite → a.val = a'.val → b.val = b'.val → lt a b = lt a' b' := by
    intro a b a' b' h1 h2 h3 h4 e1 e2
    rw [Bool.eq_iff_iff, lt_iff h1 h2, lt_iff h3 h4, e1, e2]
  rcases hx with ⟨a, b, c⟩ | rfl
  · rcases hy with ⟨a', b', c'⟩ | rfl
    · exact fin a a' b b' c c'
    · cases y with
      | fin => exact fin a trivial b trivial c rfl
      | nan => cases x <;> cases x' <;> first | exact absurd a id | exact absurd b id | rfl
      | inf => cases x <;> cases x' <;> first | exact absurd a id | exact absurd b id | rfl
  · rcases hy with ⟨a', b', c'⟩ | rfl
    · cases x with
      | fin => exact fin trivial a' trivial b' rfl c'
      | nan => cases y <;> cases y' <;> first | exact absurd a' id | exact absurd b' id | rfl
      | inf => cases y <;> cases y' <;> first | exact absurd a' id | exact absurd b' id | rfl
    · rfl

/-- Multiplying is monotone. -/
theorem mul_le {x y r : FP f} (hx : x.Finite) (hy : y.Finite) (hr : r.Finite) (h0 : 0 ≤ r.val) (h : x.val ≤ y.val) :
    lt (mul y r) (mul x r) = false := by
  rw [lt_of_same (mul_rnd hy hr) (mul_rnd hx hr)]
  exact rnd_mono (mul_le_mul_of_nonneg_right h h0)

/-- A square is one only for one (and minus one). -/
theorem sq_eq_one {r : FP f} (hr : r.Finite) (h0 : 0 ≤ r.val) (hone : ∃ o : FP f, o.Finite ∧ o.val = 1) :
    ((mul r r).Finite ∧ (mul r r).val = 1) ↔ r.val = 1 := by
  obtain ⟨o, ho, hov⟩ := hone
  have hrr := rnd_val (f := f) hr
  have h11 := rnd_val (f := f) ho
  rw [hov] at h11
  constructor
  · rintro ⟨hf, hv⟩
    have hm : (rnd f (r.val * r.val)).Finite ∧ (rnd f (r.val * r.val)).val = 1 := by
      rcases mul_rnd hr hr with ⟨-, b, c⟩ | e
      · exact ⟨b, by rw [← c]; exact hv⟩
      · rw [← e]; exact ⟨hf, hv⟩
    rcases lt_trichotomy r.val 1 with hl | he | hg
    · have := rnd_mono_val (f := f) (show r.val * r.val ≤ r.val by nlinarith) hm.1 hrr.1
      rw [hm.2, hrr.2] at this
      linarith
    · exact he
    · have := rnd_mono_val (f := f) (show r.val ≤ r.val * r.val by nlinarith) hrr.1 hm.1
      rw [hm.2, hrr.2] at this
      linarith
  · intro he
    rcases mul_rnd hr hr with ⟨a, -, c⟩ | e
    · rw [he, mul_one] at c; exact ⟨a, by rw [c]; exact h11.2⟩
    · rw [he, mul_one] at e; rw [e]; exact h11

/-- What `workerFits` finds: the least and the greatest number. -/
theorem minMax_fin : ∀ (l : List Float64), (∀ x ∈ l, x = .nan ∨ x.Finite) → (∃ x ∈ l, x.Finite) →
    ∃ a b, a ∈ l ∧ b ∈ l ∧ a.Finite ∧ b.Finite ∧ (∀ x ∈ l, x.Finite → a.val ≤ x.val ∧ x.val ≤ b.val) ∧ scalerMinMax l = (a, b) := by
  intro l
  suffices H : (∀ x ∈ l, x = .nan ∨ x.Finite) →
      ((∀ x ∈ l, ¬ x.Finite) ∧ scalerMinMax l = (.inf false, .inf true)) ∨
      ∃ a b, a ∈ l ∧ b ∈ l ∧ a.Finite ∧ b.Finite ∧ (∀ x ∈ l, x.Finite → a.val ≤ x.val ∧ x.val ≤ b.val) ∧ scalerMinMax l = (a, b) by
    rintro h ⟨x, hx, hx'⟩
    rcases H h with ⟨h1, -⟩ | h2
    · exact absurd hx' (h1 x hx)
    · exact h2
  induction l using List.reverseRecOn with
  | nil => intro _; left; exact ⟨by simp, rfl⟩
  | append_singleton l v ih =>
    intro h
    have hstep : scalerMinMax (l ++ [v]) = (if lt v (scalerMinMax l).1 then v else (scalerMinMax l).1,
        if lt (scalerMinMax l).2 v then v else (scalerMinMax l).2) := by
      unfold scalerMinMax; rw [List.foldl_append]; rfl
    rw [hstep]
    rcases h v (by simp) with rfl | hv
    · have e1 : ∀ y : Float64, lt .nan y = false := by intro y; cases y <;> rfl
      have e2 : ∀ y : Float64, lt y .nan = false := by intro y; cases y <;> rfl
      rw [e1, e2]
      rcases ih (fun x hx => h x (by simp [hx])) with ⟨h1, h2⟩ | ⟨a, b, ha, hb, fa, fb, hab, e⟩
      · left
        refine ⟨?_, by rw [h2]; rfl⟩
        intro x hx
        rcases List.mem_append.1 hx with hx | hx
        · exact h1 x hx
        · rw [List.mem_singleton.1 hx]; exact id
      · right
        refine ⟨a, b, by simp [ha], by simp [hb], fa, fb, ?_, by rw [e]; rfl⟩
        intro x hx hf
        rcases List.mem_append.1 hx with hx | hx
        · exact hab x hx hf
        · rw [List.mem_singleton.1 hx] at hf; cases hf
    · right
      rcases ih (fun x hx => h x (by simp [hx])) with ⟨h1, h2⟩ | ⟨a, b, ha, hb, fa, fb, hab, e⟩
      · refine ⟨v, v, by simp, by simp, hv, hv, ?_, ?_⟩
        · intro x hx hf
          rcases List.mem_append.1 hx with hx | hx
          · exact absurd hf (h1 x hx)
          · rw [List.mem_singleton.1 hx]; exact ⟨le_rfl, le_rfl⟩
        · rw [h2]
          cases v with
          | fin => rfl
          | nan => cases hv
          | inf => cases hv
      · rw [e]
        refine ⟨if lt v a then v else a, if lt b v then v else b, ?_, ?_, ?_, ?_, ?_, rfl⟩
        · split <;> simp [ha]
        · split <;> simp [hb]
        · split <;> assumption
        · split <;> assumption
        · have c1 : (if lt v a then v else a).val ≤ v.val ∧ (if lt v a then v else a).val ≤ a.val := by
            split
            · next hl => exact ⟨le_rfl, ((lt_iff hv fa).1 hl).le⟩
            · next hl => exact ⟨not_lt.1 (fun hc => hl ((lt_iff hv fa).2 hc)), le_rfl⟩
          have c2 : v.val ≤ (if lt b v then v else b).val ∧ b.val ≤ (if lt b v then v else b).val := by
            split
            · next hl => exact ⟨le_rfl, ((lt_iff fb hv).1 hl).le⟩
            · next hl => exact ⟨not_lt.1 (fun hc => hl ((lt_iff fb hv).2 hc)), le_rfl⟩
          intro x hx hf
          rcases List.mem_append.1 hx with hx | hx
          · have := hab x hx hf
            exact ⟨c1.2.trans this.1, this.2.trans c2.2⟩
          · rw [List.mem_singleton.1 hx]; exact ⟨c1.1, c2.1⟩

/-- A finite number minus itself, times a number. -/
theorem sub_self_mul {x r : Float64} (hx : x.Finite) : (r.Finite → (mul (sub x x) r).Finite ∧ (mul (sub x x) r).val = 0) ∧
    (r.Finite ∨ mul (sub x x) r = .nan) := by
  have hs : sub x x = zero _ (zeroSign x (neg x)) := by
    unfold sub
    rw [add_eq_rnd hx (neg_finite hx), if_pos (by rw [neg_val]; ring)]
  rw [hs]
  constructor
  · intro hr
    rw [mul_eq_rnd (x := zero _ _) trivial hr, if_pos (by rw [FP.zero_val]; ring)]
    exact ⟨trivial, FP.zero_val _⟩
  · cases r with
    | fin => exact Or.inl trivial
    | nan => right; rfl
    | inf => right; rfl

/-- **C43** with float64. MinMax does not map the column onto [0,1] (see `Demo.C43_refuted`): it multiplies by the range instead of
dividing by it. What it does to a column of finite numbers and missing values, trained on a dataframe and applied to it, with `lo` and `hi`
the least and the greatest number of the column:
- `x` becomes `(x - lo) * (hi - lo)`, computed in float64; missing values stay missing;
- if `hi - lo` is in the range of float64, no result is negative or NaN, the order is kept, `lo` becomes zero, and `hi` becomes 1 exactly
  when the computed `hi - lo` is 1;
- if it is not, the least number of the column becomes NaN. -/
theorem C43_float64_partial {df : DF} {h : Heap Float64} {sc : Scaler Float64} (hopt : sc.options.minMax = true)
    {vals : GoStr → List Float64} (wf : df.WF h) (hv : FloatCols (Verif.abs h df) vals) (hr : df.rows.Nodup)
    (hu : Unaliased h df (namesOf (h.tab df.tab) .float)) (hcpu : 0 < df.maxCPU) (hemp : (Verif.abs h df).col .float [] = none)
    {order : List GoStr} (hp : order.Perm (namesOf (h.tab df.tab) .float)) :
    ∃ sc', sc.fit df order h = .ok sc' ∧ ∀ order', order'.Perm sc'.transformedColumns →
      ∃ h', sc'.transformInplace df order' h = .ok h' ∧ ∀ c, ((Verif.abs h df).col .float c).isSome →
        (∀ x ∈ vals c, x = .nan ∨ x.Finite) → (∃ x ∈ vals c, x.Finite) →
        ∃ lo hi : Float64, lo ∈ vals c ∧ hi ∈ vals c ∧ lo.Finite ∧ hi.Finite ∧
          (∀ x ∈ vals c, x.Finite → lo.val ≤ x.val ∧ x.val ≤ hi.val) ∧
          ∃ g : Float64 → Float64, (∀ x, g x = mul (sub x lo) (sub hi lo)) ∧
            (Verif.abs h' df).floats c = some ((vals c).map g) ∧ g .nan = .nan ∧
            ((sub hi lo).Finite →
              (∀ x ∈ vals c, x.Finite → (g x).isNaN = false ∧ lt (g x) (zero _ false) = false ∧
                (x.val = lo.val → (g x).Finite ∧ (g x).val = 0) ∧
                ∀ y ∈ vals c, y.Finite → x.val ≤ y.val → lt (g y) (g x) = false) ∧
              (((g hi).Finite ∧ (g hi).val = 1) ↔ (sub hi lo).val = 1)) ∧
            (¬ (sub hi lo).Finite → g lo = .nan) := by
  obtain ⟨sc', e, _, n1, n2, g1, g2⟩ := scaler_fit (sc := sc) hv (Or.inr hcpu) hemp hp
  obtain ⟨sc'', e', nd, hcols⟩ := C41_fit_columns (sc := sc) hv (Or.inr hcpu) hemp hp
  rw [e] at e'; cases e'
  have hcols' : ∀ c, c ∈ sc'.transformedColumns ↔ ((Verif.abs h df).col .float c).isSome := by
    intro c; rw [hcols, hopt]; simp
  refine ⟨sc', e, ?_⟩
  intro order' hp'
  obtain ⟨h', e2, tr⟩ := C41_transform (sc := sc') wf nd (fun c hc => (hcols' c).1 hc) hr
    (fun c h1 c' h2 => hu c (mem_namesOf_iff.2 ((hcols' c).1 h1)) c' (mem_namesOf_iff.2 ((hcols' c').1 h2))) (Or.inr hcpu)
    (by rw [hcols', hemp]; simp) hp'
  refine ⟨h', e2, ?_⟩
  intro c hc hfin hex
  obtain ⟨a, b, ha, hb, fa, fb, hab, hmm⟩ := minMax_fin (vals c) hfin hex
  have hout := tr.floats ((hcols' c).2 hc) (hv c hc)
  refine ⟨a, b, ha, hb, fa, fb, hab, fun x => mul (sub x a) (sub b a), fun _ => rfl, ?_, rfl, ?_, ?_⟩
  · rw [hout]
    congr 1
    refine List.map_congr_left fun x _ => ?_
    have hfit : scalerFitCol sc.options (vals c) = (some (neg a), some (sub b a)) := by
      unfold scalerFitCol; rw [if_pos hopt, hmm]; rfl
    rw [g1, g2, if_pos hc, if_pos hc, hfit]
    rfl
  · intro hrf
    have hba := (sub_rnd fb fa)
    have h0 : 0 ≤ b.val - a.val := by have := hab a ha fa; linarith
    have hr0 : 0 ≤ (sub b a).val := by rw [hba.2]; exact rnd_nonneg h0 (hba.1.1 hrf)
    have hsf : ∀ x ∈ vals c, x.Finite → (sub x a).Finite ∧ 0 ≤ (sub x a).val := by
      intro x hx hf
      have hxa := sub_rnd hf fa
      have hb' := hab x hx hf
      have hxf : (rnd binary64 (x.val - a.val)).Finite := by
        have := hba.1.1 hrf
        rw [rnd_finite_iff] at this ⊢
        rw [abs_of_nonneg h0] at this
        rw [abs_of_nonneg (by linarith)]
        linarith
      exact ⟨hxa.1.2 hxf, by rw [hxa.2]; exact rnd_nonneg (by linarith) hxf⟩
    refine ⟨?_, ?_⟩
    · intro x hx hf
      obtain ⟨sf, s0⟩ := hsf x hx hf
      have hnn : (mul (sub x a) (sub b a)).NonNeg := by
        rcases mul_rnd sf hrf with ⟨q1, q2, q3⟩ | q
        · refine nonNeg_of_finite q1 ?_
          rw [q3]; exact rnd_nonneg (mul_nonneg s0 hr0) q2
        · rw [q]; exact nonNeg_rnd (mul_nonneg s0 hr0)
      refine ⟨(nonNeg_iff.1 hnn).1, (nonNeg_iff.1 hnn).2, ?_, ?_⟩
      · intro hxv
        have hsv : (sub x a).val = 0 := by
          rw [(sub_rnd hf fa).2, hxv, sub_self, rnd_zero, FP.zero_val]
        show (mul (sub x a) (sub b a)).Finite ∧ (mul (sub x a) (sub b a)).val = 0
        rw [mul_eq_rnd sf hrf, if_pos (by rw [hsv, zero_mul])]
        exact ⟨trivial, FP.zero_val _⟩
      · intro y hy hfy hxy
        obtain ⟨sfy, s0y⟩ := hsf y hy hfy
        refine mul_le sf sfy hrf hr0 ?_
        rw [(sub_rnd hf fa).2, (sub_rnd hfy fa).2]
        exact rnd_mono_val (by linarith) ((sub_rnd hf fa).1.1 sf) ((sub_rnd hfy fa).1.1 sfy)
    · exact sq_eq_one hrf hr0 ⟨GoFloat.one, trivial, by decide +kernel⟩
  · intro hrf
    rcases (sub_self_mul (x := a) (r := sub b a) fa).2 with hc' | hc'
    · exact absurd hc' hrf
    · exact hc'

/-! ### non-vacuity: an ordinary column with a missing value; a column with a range beyond float64 -/

/-- An ordinary column with a missing value. -/
def mcol : List Float64 := [dec 1 10, .nan, neg (dec 3 1), dec 7 2]
/-- A column of finite numbers with a range that is too large. -/
def wcol : List Float64 := [neg largest, largest, dec 1 7, .nan]
def mops : List (BOp Float64) := [.add .float b!"m" (mcol.map .float), .add .float b!"w" (wcol.map .float)]
/-- The dataframe. -/
def mdf : DF := match (build mops heap0).1.toDataFrame (build mops heap0).2 with | .ok p => p.1 | .error _ => Demo.df
/-- Its heap. -/
def mh : Heap Float64 := match (build mops heap0).1.toDataFrame (build mops heap0).2 with | .ok p => p.2 | .error _ => heap0
theorem mdf_wf : mdf.WF mh := DF.wf_of_check 4 (by decide +kernel)
theorem mdf_names : namesOf (mh.tab mdf.tab) .float = [b!"m", b!"w"] := by decide +kernel
theorem mdf_fcols : FloatCols (Verif.abs mh mdf) (fun c => if c = b!"m" then mcol else wcol) := by
  intro c hc
  have := mem_namesOf_iff.2 hc
  rw [mdf_names] at this
  simp at this
  rcases this with rfl | rfl <;> decide +kernel

example := C43_float64_partial (sc := newScaler ⟨true, true, true⟩) rfl mdf_wf mdf_fcols (by decide +kernel)
  (by rw [mdf_names]; exact unaliased_of_arrs (by decide +kernel)) (by decide +kernel)
  (by decide +kernel) (order := [b!"w", b!"m"]) (by rw [mdf_names]; decide)
example : (∀ x ∈ mcol ++ wcol, isNaN x = true ∨ finite x = true) ∧
    finite (sub (dec 7 2) (neg (dec 3 1))) = true ∧ finite (sub largest (neg largest)) = false ∧
    lt GoFloat.one (mul (sub (dec 7 2) (neg (dec 3 1))) (sub (dec 7 2) (neg (dec 3 1)))) = true := by decide +kernel

end Float64
end Verif
