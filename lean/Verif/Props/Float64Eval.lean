import Verif.Proofs.Float64Sum
import Verif.Props.Float64
import Verif.Props.Evaluation
import Verif.Props.Imputer

/-! C40 and C45 for Go's `float64` (IEEE 754 binary64): what rounding leaves of the laws of `MSE` and `MAE`. -/

namespace Verif
namespace Float64
open FP

/-- Every number of the column is finite. -/
def AllFinite (xs : List Float64) : Prop := ∀ x ∈ xs, x.Finite

/-- The exact mean of the squared differences of two columns. -/
def exactMSE (xs ys : List Float64) : ℚ := (List.zipWith (fun x y => (x.val - y.val) ^ 2) xs ys).sum / xs.length

/-- The exact mean of the absolute differences of two columns. -/
def exactMAE (xs ys : List Float64) : ℚ := (List.zipWith (fun x y => |x.val - y.val|) xs ys).sum / xs.length

/-- A number of rows, as `float64`. -/
theorem rows_ok {n : ℕ} (h1 : 0 < n) (h2 : n < 2 ^ 63) : (GoFloat.ofInt (n : ℤ) : Float64).Finite ∧ 0 < (GoFloat.ofInt (n : ℤ) : Float64).val := by
  have hb : (FP.fin false (2 ^ 52) 11 (by decide) : Float64).Finite := trivial
  have hbv : (FP.fin false (2 ^ 52) 11 (by decide) : Float64).val = 2 ^ 63 := by simp only [FP.val]; norm_num
  have := rnd_between (one_ok.1) hb (q := (n : ℚ)) (by rw [one_ok.2]; exact_mod_cast h1)
    (by rw [hbv]; exact_mod_cast h2.le)
  rw [one_ok.2] at this
  show (FP.ofInt (n : ℤ) : Float64).Finite ∧ 0 < (FP.ofInt (n : ℤ) : Float64).val
  rw [ofInt_eq_rnd]
  push_cast
  exact ⟨this.1, by linarith [this.2.1]⟩

theorem foldl_add_nonNeg : ∀ {xs : List Float64} {s : Float64}, s.NonNeg → (∀ x ∈ xs, x.NonNeg) → (xs.foldl FP.add s).NonNeg
  | [], _, hs, _ => hs
  | x :: xs, s, hs, h => foldl_add_nonNeg (xs := xs) (nonNeg_add hs (h x (by simp))) (fun y hy => h y (by simp [hy]))

theorem zipWith_all {α β : Type} {g : α → α → β} {P : β → Prop} : ∀ {xs ys : List α},
    (∀ x ∈ xs, ∀ y ∈ ys, P (g x y)) → ∀ z ∈ List.zipWith g xs ys, P z
  | [], _, _, z, hz => by simp at hz
  | _ :: _, [], _, z, hz => by simp at hz
  | x :: xs, y :: ys, h, z, hz => by
    rcases List.mem_cons.1 hz with rfl | hz
    · exact h x (by simp) y (by simp)
    · exact zipWith_all (fun a ha b hb => h a (by simp [ha]) b (by simp [hb])) z hz

theorem zipWith_swap {α β : Type} {g : α → α → β} : ∀ {xs ys : List α}, (∀ x ∈ xs, ∀ y ∈ ys, g x y = g y x) →
    List.zipWith g xs ys = List.zipWith g ys xs
  | [], ys, _ => by cases ys <;> rfl
  | _ :: _, [], _ => rfl
  | x :: xs, y :: ys, h => by
    rw [List.zipWith_cons_cons, List.zipWith_cons_cons, h x (by simp) y (by simp),
      zipWith_swap (fun a ha b hb => h a (by simp [ha]) b (by simp [hb]))]

theorem zipWith_forall₂ {α β : Type} {g : α → α → β} {q : α → α → ℚ} {R : β → ℚ → Prop} : ∀ {xs ys : List α},
    (∀ x ∈ xs, ∀ y ∈ ys, g x y ∈ List.zipWith g xs ys → R (g x y) (q x y)) →
    List.Forall₂ R (List.zipWith g xs ys) (List.zipWith q xs ys)
  | [], ys, _ => by cases ys <;> exact .nil
  | _ :: _, [], _ => .nil
  | x :: xs, y :: ys, h => .cons (h x (by simp) y (by simp) (by simp))
      (zipWith_forall₂ (fun a ha b hb hm => h a (by simp [ha]) b (by simp [hb]) (List.mem_cons_of_mem _ hm)))

theorem finite_sq {x y : Float64} (hx : x.Finite) (hy : y.Finite) : (FP.mul (FP.sub x y) (FP.sub x y)).NonNeg :=
  nonNeg_sq (isNaN_sub hx hy)

section
variable {h : Heap Float64} {p t : DF} {c c' : GoStr} {xs ys : List Float64}

/-- **C45**, float64: `MSE` and `MAE` of two columns of finite numbers, equally long and not empty, are never NaN and never
negative (they are `+Inf` when the sum is too large). -/
theorem C45_float64_nonneg (hp : (abs h p).floats c = some xs) (ht : (abs h t).floats c' = some ys)
    (hx : AllFinite xs) (hy : AllFinite ys) (hl : xs.length = ys.length) (hne : xs ≠ []) (hn : xs.length < 2 ^ 63) :
    ∃ a b r r', p.floatAccess h c = .ok a ∧ t.floatAccess h c' = .ok b ∧ mse h a b = .ok r ∧ mae h a b = .ok r' ∧
      GoFloat.isNaN r = false ∧ GoFloat.lt r GoFloat.zero = false ∧
      GoFloat.isNaN r' = false ∧ GoFloat.lt r' GoFloat.zero = false := by
  obtain ⟨a, b, e1, e2, e3⟩ := C45_mse hp ht
  obtain ⟨a', b', e1', e2', e3'⟩ := C45_mae hp ht
  rw [e1] at e1'; cases e1'
  rw [e2] at e2'; cases e2'
  rw [if_pos hl] at e3 e3'
  have hd := rows_ok (List.length_pos_iff.2 hne) hn
  have hz : (GoFloat.zero : Float64).NonNeg := nonNeg_of_finite zero_ok.1 (by rw [zero_ok.2])
  have n1 := nonNeg_iff.1 (nonNeg_div (foldl_add_nonNeg hz (zipWith_all (g := fun x y : Float64 => FP.mul (FP.sub x y) (FP.sub x y))
    (fun x h1 y h2 => finite_sq (hx x h1) (hy y h2)))) hd.1 hd.2)
  have n2 := nonNeg_iff.1 (nonNeg_div (foldl_add_nonNeg hz (zipWith_all (g := fun x y : Float64 => FP.abs (FP.sub x y))
    (fun x h1 y h2 => nonNeg_abs (isNaN_sub (hx x h1) (hy y h2))))) hd.1 hd.2)
  exact ⟨a, b, _, _, e1, e2, e3, e3', n1.1, n1.2, n2.1, n2.2⟩

/-- **C45**, float64: exchanging the two columns changes neither `MSE` nor `MAE`, not by a bit. -/
theorem C45_float64_symmetric (hp : (abs h p).floats c = some xs) (ht : (abs h t).floats c' = some ys)
    (hx : AllFinite xs) (hy : AllFinite ys) :
    ∃ a b, p.floatAccess h c = .ok a ∧ t.floatAccess h c' = .ok b ∧ mse h a b = mse h b a ∧ mae h a b = mae h b a := by
  obtain ⟨a, b, e1, e2, e3⟩ := C45_mse hp ht
  obtain ⟨a', b', e1', e2', e3'⟩ := C45_mae hp ht
  rw [e1] at e1'; cases e1'
  rw [e2] at e2'; cases e2'
  obtain ⟨b', a', f2, f1, f3⟩ := C45_mse ht hp
  rw [e1] at f1; cases f1
  rw [e2] at f2; cases f2
  obtain ⟨b', a', f2, f1, f3'⟩ := C45_mae ht hp
  rw [e1] at f1; cases f1
  rw [e2] at f2; cases f2
  refine ⟨a, b, e1, e2, ?_, ?_⟩
  · rw [e3, f3]
    by_cases hl : xs.length = ys.length
    · rw [if_pos hl, if_pos hl.symm, hl,
        zipWith_swap (g := fun x y : Float64 => GoFloat.mul (GoFloat.sub x y) (GoFloat.sub x y)) (fun x h1 y h2 => sq_sub_comm (hx x h1) (hy y h2))]
    · rw [if_neg hl, if_neg (Ne.symm hl)]
  · rw [e3', f3']
    by_cases hl : xs.length = ys.length
    · rw [if_pos hl, if_pos hl.symm, hl,
        zipWith_swap (g := fun x y : Float64 => GoFloat.abs (GoFloat.sub x y)) (fun x h1 y h2 => abs_sub_comm (hx x h1) (hy y h2))]
    · rw [if_neg hl, if_neg (Ne.symm hl)]

theorem sub_self_zero {x : Float64} (h : x.Finite) : FP.sub x x = FP.zero _ false := by
  unfold FP.sub
  rw [add_eq_rnd h (neg_finite h), if_pos (by rw [neg_val]; ring)]
  cases x with
  | nan => cases h
  | inf => cases h
  | fin s m e hc => cases s <;> rfl

theorem foldl_zero : ∀ {xs : List Float64}, (∀ x ∈ xs, x = FP.zero _ false) → xs.foldl FP.add (FP.zero _ false) = FP.zero _ false
  | [], _ => rfl
  | x :: xs, h => by
    rw [List.foldl_cons, h x (by simp), show FP.add (FP.zero binary64 false) (FP.zero _ false) = FP.zero _ false by decide +kernel]
    exact foldl_zero (fun y hy => h y (by simp [hy]))

theorem zipWith_self {α β : Type} {g : α → α → β} {b : β} : ∀ {xs : List α}, (∀ x ∈ xs, g x x = b) → ∀ z ∈ List.zipWith g xs xs, z = b
  | [], _, z, hz => by simp at hz
  | x :: xs, h, z, hz => by
    rcases List.mem_cons.1 hz with rfl | hz
    · exact h x (by simp)
    · exact zipWith_self (fun a ha => h a (by simp [ha])) z hz

/-- `0 / n` is 0. -/
theorem zero_div_rows {n : ℕ} (h1 : 0 < n) (h2 : n < 2 ^ 63) : FP.div (FP.zero binary64 false) (GoFloat.ofInt (n : ℤ)) = FP.zero _ false := by
  have hd := rows_ok h1 h2
  rw [div_eq_rnd (zero_finite _) hd.1 hd.2.ne', zero_val, zero_div, if_pos rfl]
  have hs : ∃ m e h, (GoFloat.ofInt (n : ℤ) : Float64) = FP.fin false m e h := by
    cases hx : (GoFloat.ofInt (n : ℤ) : Float64) with
    | nan => rw [hx] at hd; cases hd.1
    | inf => rw [hx] at hd; cases hd.1
    | fin s m e hc =>
      cases s
      · exact ⟨_, _, _, rfl⟩
      · have h0 : (0 : ℚ) ≤ m * 2 ^ e := by positivity
        have := hd.2
        rw [hx] at this
        simp [FP.val] at this
        linarith
  obtain ⟨m, e, hc, hx⟩ := hs
  rw [hx]; rfl

/-- **C45**, float64: equal columns of finite numbers have `MSE` and `MAE` zero. -/
theorem C45_float64_equal (hp : (abs h p).floats c = some xs) (ht : (abs h t).floats c' = some xs)
    (hx : AllFinite xs) (hne : xs ≠ []) (hn : xs.length < 2 ^ 63) :
    ∃ a b, p.floatAccess h c = .ok a ∧ t.floatAccess h c' = .ok b ∧ mse h a b = .ok GoFloat.zero ∧ mae h a b = .ok GoFloat.zero := by
  obtain ⟨a, b, e1, e2, e3⟩ := C45_mse hp ht
  obtain ⟨a', b', e1', e2', e3'⟩ := C45_mae hp ht
  rw [e1] at e1'; cases e1'
  rw [e2] at e2'; cases e2'
  rw [if_pos rfl] at e3 e3'
  have z1 : fsum (List.zipWith (fun x y : Float64 => GoFloat.mul (GoFloat.sub x y) (GoFloat.sub x y)) xs xs) = FP.zero _ false :=
    foldl_zero (zipWith_self (fun x h1 => by
      show FP.mul (FP.sub x x) (FP.sub x x) = _
      rw [sub_self_zero (hx x h1)]; decide +kernel))
  have z2 : fsum (List.zipWith (fun x y : Float64 => GoFloat.abs (GoFloat.sub x y)) xs xs) = FP.zero _ false :=
    foldl_zero (zipWith_self (fun x h1 => by
      show FP.abs (FP.sub x x) = _
      rw [sub_self_zero (hx x h1)]; rfl))
  have hz := zero_div_rows (List.length_pos_iff.2 hne) hn
  refine ⟨a, b, e1, e2, ?_, ?_⟩
  · rw [e3, z1]; exact congrArg Except.ok hz
  · rw [e3', z2]; exact congrArg Except.ok hz

/-- **C45**, float64: unless it overflows, the `MSE` of two columns of `n` finite numbers differs from the exact mean of the squared
differences by a factor of at most `(1 + 2^-53)^(n+4)`, and at most `2^-1075 * ((1 + 2^-53)^(n+1) + 1)`. -/
theorem C45_float64_mse (hp : (abs h p).floats c = some xs) (ht : (abs h t).floats c' = some ys)
    (hx : AllFinite xs) (hy : AllFinite ys) (hl : xs.length = ys.length) (hne : xs ≠ []) (hn : xs.length ≤ 2 ^ 53) :
    ∃ a b r, p.floatAccess h c = .ok a ∧ t.floatAccess h c' = .ok b ∧ mse h a b = .ok r ∧
      (r = .inf false ∨ (r.Finite ∧ |r.val - exactMSE xs ys| ≤
        ((1 + 1 / 2 ^ 53) ^ (xs.length + 4) - 1) * exactMSE xs ys + (1 / 2 ^ 1075) * ((1 + 1 / 2 ^ 53) ^ (xs.length + 1) + 1))) := by
  obtain ⟨a, b, r, r', e1, e2, e3, -, n1, n2, -⟩ := C45_float64_nonneg hp ht hx hy hl hne (by omega)
  refine ⟨a, b, r, e1, e2, e3, ?_⟩
  obtain ⟨a', b', e1', e2', e3'⟩ := C45_mse hp ht
  rw [e1] at e1'; cases e1'
  rw [e2] at e2'; cases e2'
  rw [if_pos hl, e3] at e3'
  have hr := Except.ok.inj e3'
  have hnn : r.NonNeg := nonNeg_iff.2 ⟨n1, n2⟩
  cases hc : r with
  | nan => rw [hc] at hnn; cases hnn
  | inf s => rw [hc] at hnn; cases hnn; exact Or.inl rfl
  | fin s m e hcan =>
    right
    rw [← hc]
    have hf : r.Finite := by rw [hc]; trivial
    refine ⟨hf, ?_⟩
    obtain ⟨zs, hzs⟩ : ∃ zs, zs = List.zipWith (fun x y : Float64 => FP.mul (FP.sub x y) (FP.sub x y)) xs ys := ⟨_, rfl⟩
    have hlen : zs.length = xs.length := by rw [hzs, List.length_zipWith, hl, Nat.min_self]
    have hr' : r = FP.div (zs.foldl FP.add (FP.zero _ false)) (GoFloat.ofInt (xs.length : ℤ)) := by rw [hr, hzs]; rfl
    have hdok := ofInt_ok (n := (xs.length : ℤ)) (by rw [abs_of_nonneg (by positivity)]; exact_mod_cast hn)
    have hsf : (zs.foldl FP.add (FP.zero _ false)).Finite := finite_of_div hdok.1 (by rw [← hr']; exact hf)
    have hall := (foldl_add_finite hsf).2
    have := mean_err (f := binary64) (k := 3) (b := tiny binary64) (tiny_pos _).le (xs := zs)
      (qs := List.zipWith (fun x y : Float64 => (x.val - y.val) ^ 2) xs ys) (d := GoFloat.ofInt (xs.length : ℤ))
      (by
        rw [hzs]
        refine zipWith_forall₂ (fun x h1 y h2 hm => ⟨sq_nonneg _, sq_sub_err (hx x h1) (hy y h2) (hall _ (by rw [hzs]; exact hm))⟩))
      hdok.1 (by rw [hdok.2, hlen]; push_cast; rfl) (by rw [← List.length_pos_iff, hlen]; exact List.length_pos_iff.2 hne)
      (by rw [← hr']; exact hf)
    rw [← hr', hlen] at this
    have hu : ulp binary64 = 1 / 2 ^ 53 := rfl
    have ht : tiny binary64 = 1 / 2 ^ 1075 := by
      show (2 : ℚ) ^ (-1074 : ℤ) / 2 = _
      rw [zpow_neg, show (1074 : ℤ) = ((1074 : ℕ) : ℤ) from rfl, zpow_natCast, pow_succ 2 1074]
      field_simp
    rw [hu, ht, show 3 + xs.length + 1 = xs.length + 4 by omega] at this
    refine this.trans (le_of_eq ?_)
    unfold exactMSE
    ring

/-- **C45**, float64: unless it overflows, the `MAE` of two columns of `n` finite numbers differs from the exact mean of the absolute
differences by a factor of at most `(1 + 2^-53)^(n+2)`, and at most `2^-1075`. -/
theorem C45_float64_mae (hp : (abs h p).floats c = some xs) (ht : (abs h t).floats c' = some ys)
    (hx : AllFinite xs) (hy : AllFinite ys) (hl : xs.length = ys.length) (hne : xs ≠ []) (hn : xs.length ≤ 2 ^ 53) :
    ∃ a b r, p.floatAccess h c = .ok a ∧ t.floatAccess h c' = .ok b ∧ mae h a b = .ok r ∧
      (r = .inf false ∨ (r.Finite ∧ |r.val - exactMAE xs ys| ≤
        ((1 + 1 / 2 ^ 53) ^ (xs.length + 2) - 1) * exactMAE xs ys + 1 / 2 ^ 1075)) := by
  obtain ⟨a, b, r', r, e1, e2, -, e3, -, -, n1, n2⟩ := C45_float64_nonneg hp ht hx hy hl hne (by omega)
  refine ⟨a, b, r, e1, e2, e3, ?_⟩
  obtain ⟨a', b', e1', e2', e3'⟩ := C45_mae hp ht
  rw [e1] at e1'; cases e1'
  rw [e2] at e2'; cases e2'
  rw [if_pos hl, e3] at e3'
  have hr := Except.ok.inj e3'
  have hnn : r.NonNeg := nonNeg_iff.2 ⟨n1, n2⟩
  cases hc : r with
  | nan => rw [hc] at hnn; cases hnn
  | inf s => rw [hc] at hnn; cases hnn; exact Or.inl rfl
  | fin s m e hcan =>
    right
    rw [← hc]
    have hf : r.Finite := by rw [hc]; trivial
    refine ⟨hf, ?_⟩
    obtain ⟨zs, hzs⟩ : ∃ zs, zs = List.zipWith (fun x y : Float64 => FP.abs (FP.sub x y)) xs ys := ⟨_, rfl⟩
    have hlen : zs.length = xs.length := by rw [hzs, List.length_zipWith, hl, Nat.min_self]
    have hr' : r = FP.div (zs.foldl FP.add (FP.zero _ false)) (GoFloat.ofInt (xs.length : ℤ)) := by rw [hr, hzs]; rfl
    have hdok := ofInt_ok (n := (xs.length : ℤ)) (by rw [abs_of_nonneg (by positivity)]; exact_mod_cast hn)
    have hsf : (zs.foldl FP.add (FP.zero _ false)).Finite := finite_of_div hdok.1 (by rw [← hr']; exact hf)
    have hall := (foldl_add_finite hsf).2
    have := mean_err (f := binary64) (k := 1) (b := 0) le_rfl (xs := zs)
      (qs := List.zipWith (fun x y : Float64 => |x.val - y.val|) xs ys) (d := GoFloat.ofInt (xs.length : ℤ))
      (by
        rw [hzs]
        refine zipWith_forall₂ (fun x h1 y h2 hm => ⟨abs_nonneg _, abs_sub_err (hx x h1) (hy y h2) (hall _ (by rw [hzs]; exact hm))⟩))
      hdok.1 (by rw [hdok.2, hlen]; push_cast; rfl) (by rw [← List.length_pos_iff, hlen]; exact List.length_pos_iff.2 hne)
      (by rw [← hr']; exact hf)
    rw [← hr', hlen] at this
    have hu : ulp binary64 = 1 / 2 ^ 53 := rfl
    have ht : tiny binary64 = 1 / 2 ^ 1075 := by
      show (2 : ℚ) ^ (-1074 : ℤ) / 2 = _
      rw [zpow_neg, show (1074 : ℤ) = ((1074 : ℕ) : ℤ) from rfl, zpow_natCast, pow_succ 2 1074]
      field_simp
    rw [hu, ht, show 1 + xs.length + 1 = xs.length + 2 by omega] at this
    refine this.trans (le_of_eq ?_)
    unfold exactMAE
    ring

end

theorem tiny_eq : tiny binary64 = 1 / 2 ^ 1075 := by
  show (2 : ℚ) ^ (-1074 : ℤ) / 2 = _
  rw [zpow_neg, show (1074 : ℤ) = ((1074 : ℕ) : ℤ) from rfl, zpow_natCast, pow_succ 2 1074]
  field_simp

/-- **C40**, float64: the fallback a `FloatImputer` learns with the policy mean, unless it overflows, is the exact mean of the `n`
non-missing values, but for `((1 + 2^-53)^(n+1) - 1)` times the mean of their absolute values, and `2^-1075`. -/
theorem C40_float64 {df : DF} {h : Heap Float64} {im : FloatImputer Float64} {vals : GoStr → List Float64} (wf : df.WF h)
    (hv : FloatCols (Verif.abs h df) vals) (hpol : im.policy = .mean) (hcpu : 0 < df.maxCPU) (hemp : (Verif.abs h df).col .float [] = none)
    {order : List GoStr} (hp : order.Perm (namesOf (h.tab df.tab) .float)) :
    ∃ im', im.fit df order h = .ok im' ∧ ∀ c, ((Verif.abs h df).col .float c).isSome →
      ∃ r, AMap.get im'.fallback c = some r ∧ ∀ xs, xs = present (vals c) → xs ≠ [] → xs.length ≤ 2 ^ 53 → r.Finite →
        |r.val - (xs.map FP.val).sum / xs.length| ≤
          ((1 + 1 / 2 ^ 53) ^ (xs.length + 1) - 1) * ((xs.map fun x => |x.val|).sum / xs.length) + 1 / 2 ^ 1075 := by
  obtain ⟨im', e, -, -, -, hg⟩ := C40_fit (im := im) wf hv hcpu hemp hp
  refine ⟨im', e, ?_⟩
  intro c hc
  refine ⟨_, by rw [hg, if_pos hc], ?_⟩
  intro xs hxs hne hn hf
  have hr : imputerFallback im.policy (vals c) = FP.div (xs.foldl FP.add (FP.zero _ false)) (GoFloat.ofInt (xs.length : ℤ)) := by
    rw [hpol, hxs]; rfl
  rw [hr] at hf ⊢
  have hdok := ofInt_ok (n := (xs.length : ℤ)) (by rw [abs_of_nonneg (by positivity)]; exact_mod_cast hn)
  have := mean_err_abs hdok.1 (by rw [hdok.2]; push_cast; rfl) hne hf
  rw [show ulp binary64 = 1 / 2 ^ 53 from rfl, tiny_eq] at this
  exact this

end Float64
end Verif
