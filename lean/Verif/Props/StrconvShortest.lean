import Verif.Props.Strconv

/-! C84: floats are written with as few digits as possible. -/

namespace Verif
namespace FP
variable {f : FFmt}

/-- What lies between two numbers that are rounded to the same is rounded to the same. -/
theorem rnd_convex {q1 q q2 : ℚ} (h1 : q1 ≤ q) (h2 : q ≤ q2) (hp : 0 < q1) {x : FP f} (hx : x.Finite) (e1 : rnd f q1 = x) (e2 : rnd f q2 = x) :
    rnd f q = x := by
  have r1 := rnd_isRounded (f := f) hp.ne'
  have r2 := rnd_isRounded (f := f) (hp.trans_le (h1.trans h2)).ne'
  have ht : |q| < f.top := by
    rw [e2] at r2
    cases x with
    | nan => cases hx
    | inf => cases hx
    | fin s m e h =>
      have := r2.1
      rw [abs_of_pos (hp.trans_le (h1.trans h2))] at this
      rw [abs_of_pos (hp.trans_le h1)]
      exact h2.trans_lt this
  have hf := rnd_finite ht
  have m1 := rnd_mono_val h1 (by rw [e1]; exact hx) hf
  have m2 := rnd_mono_val h2 hf (by rw [e2]; exact hx)
  rw [e1] at m1
  rw [e2] at m2
  have hv : (rnd f q).val = x.val := le_antisymm m2 m1
  have r := rnd_isRounded (f := f) (hp.trans_le h1).ne'
  rw [e1] at r1
  cases hy : rnd f q with
  | nan => rw [hy] at hf; cases hf
  | inf => rw [hy] at hf; cases hf
  | fin s m e h =>
    rw [hy] at hv r
    cases x with
    | nan => cases hx
    | inf => cases hx
    | fin s' m' e' h' =>
      have hs : s = false := by
        rw [r.2.1 (hp.trans_le h1).ne']; exact decide_eq_false (not_lt.2 (hp.trans_le h1).le)
      have hs' : s' = false := by
        rw [r1.2.1 hp.ne']; exact decide_eq_false (not_lt.2 hp.le)
      subst hs hs'
      have : (m : ℚ) * 2 ^ e = m' * 2 ^ e' := by simpa [val] using hv
      obtain ⟨rfl, rfl⟩ := canon_unique h h' this
      rfl

theorem ofFrac_unsigned {s s' : Bool} {n d m : ℕ} {e : ℤ} {h : f.Canon m e} (hx : ofFrac f s n d = .fin s' m e h) :
    ofFrac f false n d = .fin false m e h := by
  unfold ofFrac pack zero at hx ⊢
  split at hx
  · rename_i h0
    rw [if_pos h0]
    injection hx with h1 h2 h3
    subst h2 h3; rfl
  · rename_i h0
    rw [if_neg h0]
    split at hx
    · rename_i h1
      rw [dif_pos h1]
      injection hx with _ h2 h3
      subst h2 h3; rfl
    · rename_i h1
      rw [dif_neg h1]
      split at hx
      · rename_i h4
        rw [dif_pos h4]
        injection hx with _ h2 h3
        subst h2 h3; rfl
      · cases hx

theorem ofDec_unsigned {s s' : Bool} {n m : ℕ} {j e : ℤ} {h : f.Canon m e} (hx : ofDec f s n j = .fin s' m e h) :
    ofDec f false n j = .fin false m e h := by
  unfold ofDec at hx ⊢
  split at hx
  · rename_i hj; rw [if_pos hj]; exact ofFrac_unsigned hx
  · rename_i hj; rw [if_neg hj]; exact ofFrac_unsigned hx

end FP
open FP

theorem natDec_bounds {c L : ℕ} (hc : c ≠ 0) (hL : (natDec c).length = L + 1) : 10 ^ L ≤ c ∧ c < 10 ^ (L + 1) := by
  unfold natDec at hL
  rw [if_neg hc, List.length_map, List.length_reverse] at hL
  constructor
  · exact (Nat.lt_digits_length_iff (b := 10) (by decide) c (k := L)).1 (by omega)
  · by_contra hlt
    have := (Nat.lt_digits_length_iff (b := 10) (by decide) c (k := L + 1)).2 (by omega)
    omega

theorem natDec_len (c : ℕ) : ∃ L, (natDec c).length = L + 1 := by
  have := List.length_pos_of_ne_nil (natDec_ne_nil c)
  exact ⟨(natDec c).length - 1, by omega⟩

theorem decTop_spec {n d : ℕ} (hn : n ≠ 0) (hd : d ≠ 0) : (n : ℚ) / d < 10 ^ decTop n d := by
  obtain ⟨L, hL⟩ := natDec_len n
  obtain ⟨M, hM⟩ := natDec_len d
  have h1 := (natDec_bounds hn hL).2
  have h2 := (natDec_bounds hd hM).1
  have hd' : (0 : ℚ) < d := by exact_mod_cast Nat.pos_of_ne_zero hd
  unfold decTop
  rw [hL, hM, div_lt_iff₀ hd']
  have e : ((L + 1 : ℕ) : ℤ) - ((M + 1 : ℕ) : ℤ) + 1 = ((L + 1 : ℕ) : ℤ) - (M : ℤ) := by push_cast; ring
  rw [e, zpow_sub₀ (by norm_num), zpow_natCast, zpow_natCast]
  have h1' : (n : ℚ) < 10 ^ (L + 1) := by exact_mod_cast h1
  have h2' : (10 : ℚ) ^ M ≤ d := by exact_mod_cast h2
  have h3 : (0 : ℚ) < 10 ^ M := by positivity
  rw [div_mul_eq_mul_div, lt_div_iff₀ h3]
  calc (n : ℚ) * 10 ^ M < 10 ^ (L + 1) * 10 ^ M := mul_lt_mul_of_pos_right h1' h3
    _ ≤ 10 ^ (L + 1) * d := mul_le_mul_of_nonneg_left h2' (by positivity)

theorem decTop_ge {m : ℕ} (hm : m ≠ 0) (e : ℤ) : min 0 e ≤ decTop (frac m 1 e).1 (frac m 1 e).2 := by
  unfold decTop frac
  split
  · obtain ⟨L, hL⟩ := natDec_len (m * 2 ^ e.toNat)
    have : (natDec 1).length = 1 := by decide
    simp only [this, hL]
    omega
  · rename_i he
    obtain ⟨j, hj⟩ : ∃ j : ℕ, -e = j := Int.eq_ofNat_of_zero_le (by omega)
    rw [hj]
    simp only [one_mul, Int.toNat_natCast]
    obtain ⟨L, hL⟩ := natDec_len m
    have hj0 : 0 < j := by omega
    have : (natDec (2 ^ j)).length ≤ j := natDec_length_le hj0 (Nat.pow_lt_pow_left (by decide) (by omega))
    rw [hL]
    omega

/-- The candidates are the two multiples around the number. -/
theorem decNear_spec {n d : ℕ} (hd : d ≠ 0) (k : ℤ) : ∃ c : ℕ, c ∈ decNear n d k ∧ c + 1 ∈ decNear n d k ∧
    (∀ x ∈ decNear n d k, x = c ∨ x = c + 1) ∧ (c : ℚ) * 10 ^ k ≤ n / d ∧ (n : ℚ) / d < ((c + 1 : ℕ) : ℚ) * 10 ^ k := by
  obtain ⟨p, hp⟩ : ∃ p, p = decFrac n d k := ⟨_, rfl⟩
  have hp2 : 0 < p.2 := by
    rw [hp]; unfold decFrac
    have := Nat.pos_of_ne_zero hd
    split
    · exact Nat.mul_pos this (by positivity)
    · exact this
  have hval : (p.1 : ℚ) / p.2 * 10 ^ k = n / d := by
    have hd' : (d : ℚ) ≠ 0 := by exact_mod_cast hd
    rw [hp]; unfold decFrac
    split
    · rename_i h
      obtain ⟨j, rfl⟩ := Int.eq_ofNat_of_zero_le h
      simp only [Int.ofNat_eq_natCast, Int.toNat_natCast, zpow_natCast, Nat.cast_mul, Nat.cast_pow, Nat.cast_ofNat]
      field_simp
    · rename_i h
      obtain ⟨j, hj⟩ : ∃ j : ℕ, -k = j := Int.eq_ofNat_of_zero_le (by omega)
      have : k = -(j : ℤ) := by omega
      rw [this]
      simp only [neg_neg, Int.toNat_natCast, zpow_neg, zpow_natCast, Nat.cast_mul, Nat.cast_pow, Nat.cast_ofNat]
      field_simp
  have hp2' : (0 : ℚ) < p.2 := by exact_mod_cast hp2
  have h10 : (0 : ℚ) < 10 ^ k := by positivity
  refine ⟨p.1 / p.2, ?_, ?_, ?_, ?_, ?_⟩
  · unfold decNear; rw [← hp]; dsimp only; split <;> simp
  · unfold decNear; rw [← hp]; dsimp only; split <;> simp
  · unfold decNear; rw [← hp]; dsimp only
    intro x hx
    split at hx <;> simp at hx <;> grind
  · rw [← hval]
    refine mul_le_mul_of_nonneg_right ?_ h10.le
    rw [le_div_iff₀ hp2']
    exact_mod_cast Nat.div_mul_le_self p.1 p.2
  · rw [← hval]
    refine mul_lt_mul_of_pos_right ?_ h10
    rw [div_lt_iff₀ hp2']
    have hlt : p.1 < (p.1 / p.2 + 1) * p.2 := by
      have := Nat.div_add_mod p.1 p.2
      have h2 := Nat.mod_lt p.1 hp2
      rw [Nat.add_mul, Nat.one_mul, Nat.mul_comm]
      omega
    exact_mod_cast hlt

/-- The search ends at the first power at which a candidate is read as the number. -/
theorem decSearch_first {f : FFmt} {x : FP f} {n d : ℕ} {r : ℕ × ℤ} : ∀ {steps : ℕ} {k : ℤ}, decSearch x n d steps k = some r →
    r.1 ∈ decNear n d r.2 ∧ r.2 ≤ k ∧ ∀ j, r.2 < j → j ≤ k → ∀ c ∈ decNear n d j, ofDec f false c j ≠ x := by
  intro steps
  induction steps with
  | zero => intro k h; cases h
  | succ steps ih =>
    intro k h
    unfold decSearch at h
    split at h
    · rename_i c hc
      cases h
      exact ⟨List.mem_of_find?_eq_some hc, le_rfl, fun j h1 h2 => by dsimp only at h1; omega⟩
    · rename_i hc
      obtain ⟨h1, h2, h3⟩ := ih h
      refine ⟨h1, by omega, fun j g1 g2 c hm => ?_⟩
      by_cases hj : j = k
      · subst hj
        have := List.find?_eq_none.1 hc c hm
        simpa using this
      · exact h3 j g1 (by omega) c hm

theorem decSearch_some {f : FFmt} {x : FP f} {n d : ℕ} {j : ℤ} {c : ℕ} (hc : c ∈ decNear n d j) (hx : ofDec f false c j = x) :
    ∀ {steps : ℕ} {k : ℤ}, j ≤ k → k < j + steps → (decSearch x n d steps k).isSome := by
  intro steps
  induction steps with
  | zero => intro k h1 h2; simp at h2; omega
  | succ steps ih =>
    intro k h1 h2
    unfold decSearch
    split
    · rfl
    · rename_i hn
      have hj : j ≠ k := by
        rintro rfl
        have := List.find?_eq_none.1 hn c hc
        simp [hx] at this
      refine ih (by omega) ?_
      push_cast at h2
      omega

section
variable {f : FFmt} {m : ℕ} {e : ℤ} (h : f.Canon m e) (hm : m ≠ 0)

theorem frac_value : (((frac m 1 e).1 : ℚ) / (frac m 1 e).2) = m * 2 ^ e := by
  have := frac_val m (d := 1) e one_pos
  simpa using this

include hm in
theorem self_rnd : rnd f ((m : ℚ) * 2 ^ e) = .fin false m e h := by
  have hv : (FP.fin false m e h).val = (m : ℚ) * 2 ^ e := by simp [val]
  rw [← hv]
  refine rnd_self trivial ?_
  rw [hv]
  exact (mul_pos (by exact_mod_cast Nat.pos_of_ne_zero hm) (two_zpow_pos _)).ne'

include hm in
/-- If a multiple of `10 ^ k` is read as the number, so is one of the candidates. -/
theorem near_of_ofDec {c : ℕ} {k : ℤ} (hc : ofDec f false c k = .fin false m e h) :
    ∃ c' ∈ decNear (frac m 1 e).1 (frac m 1 e).2 k, ofDec f false c' k = .fin false m e h := by
  obtain ⟨a, h1, h2, -, h3, h4⟩ := decNear_spec (n := (frac m 1 e).1) (frac_pos (n := m) (e := e) one_pos).ne' k
  rw [frac_value] at h3 h4
  have h10 : (0 : ℚ) < 10 ^ k := by positivity
  have hc0 : 0 < c := by
    rcases Nat.eq_zero_or_pos c with rfl | h0
    · rw [ofDec_zero] at hc
      unfold zero at hc
      injection hc with _ g
      exact absurd g.symm hm
    · exact h0
  have hself := self_rnd h hm
  rw [ofDec_eq_rnd _ _ hc0] at hc
  simp only [Bool.false_eq_true, if_false, one_mul] at hc
  have hcp : (0 : ℚ) < (c : ℚ) * 10 ^ k := mul_pos (by exact_mod_cast hc0) h10
  have hmp : (0 : ℚ) < (m : ℚ) * 2 ^ e := mul_pos (by exact_mod_cast Nat.pos_of_ne_zero hm) (two_zpow_pos _)
  rcases le_or_gt ((c : ℚ) * 10 ^ k) (m * 2 ^ e) with hle | hgt
  · have hca : c ≤ a := by
      have : (c : ℚ) * 10 ^ k < ((a + 1 : ℕ) : ℚ) * 10 ^ k := hle.trans_lt h4
      have : (c : ℚ) < ((a + 1 : ℕ) : ℚ) := lt_of_mul_lt_mul_right this h10.le
      have : c < a + 1 := by exact_mod_cast this
      omega
    refine ⟨a, h1, ?_⟩
    rw [ofDec_eq_rnd _ _ (by omega)]
    simp only [Bool.false_eq_true, if_false, one_mul]
    exact rnd_convex (mul_le_mul_of_nonneg_right (by exact_mod_cast hca) h10.le) h3 hcp trivial hc hself
  · have hca : a + 1 ≤ c := by
      have : (a : ℚ) * 10 ^ k < (c : ℚ) * 10 ^ k := h3.trans_lt hgt
      have : (a : ℚ) < c := lt_of_mul_lt_mul_right this h10.le
      exact_mod_cast this
    refine ⟨a + 1, h2, ?_⟩
    rw [ofDec_eq_rnd _ _ (by omega)]
    simp only [Bool.false_eq_true, if_false, one_mul]
    exact rnd_convex h4.le (mul_le_mul_of_nonneg_right (by exact_mod_cast hca) h10.le) hmp trivial hself hc

include hm in
/-- The search succeeds, at the exact digits at the latest. -/
theorem shortestDec_search : ∃ steps k, k = decTop (frac m 1 e).1 (frac m 1 e).2 ∧
    decSearch (FP.fin false m e h) (frac m 1 e).1 (frac m 1 e).2 steps k = some (shortestDec m e h) := by
  have hex : ∃ c, ofDec f false c (min 0 e) = .fin false m e h := by
    have hself := self_rnd h hm
    by_cases he : 0 ≤ e
    · refine ⟨m * 2 ^ e.toNat, ?_⟩
      rw [min_eq_left he, ofDec_eq_rnd _ _ (Nat.mul_pos (Nat.pos_of_ne_zero hm) (by positivity)), ← hself, zpow_toNat he]
      simp
    · refine ⟨m * 5 ^ (-e).toNat, ?_⟩
      rw [min_eq_right (by omega), ofDec_eq_rnd _ _ (Nat.mul_pos (Nat.pos_of_ne_zero hm) (by positivity)), ← hself]
      obtain ⟨k, hk⟩ : ∃ k : ℕ, -e = k := Int.eq_ofNat_of_zero_le (by omega)
      have : e = -(k : ℤ) := by omega
      rw [hk, this]
      congr 1
      simp only [Bool.false_eq_true, if_false, one_mul, Int.toNat_natCast, zpow_neg, zpow_natCast, Nat.cast_mul, Nat.cast_pow, Nat.cast_ofNat]
      rw [show (10 : ℚ) = 2 * 5 by norm_num, mul_pow]
      field_simp
  obtain ⟨c, hc⟩ := hex
  obtain ⟨c', h1, h2⟩ := near_of_ofDec h hm hc
  have hge := decTop_ge hm e
  have hs := decSearch_some h1 h2 (steps := (decTop (frac m 1 e).1 (frac m 1 e).2 - min 0 e + 1).toNat)
    (k := decTop (frac m 1 e).1 (frac m 1 e).2) hge (by omega)
  refine ⟨(decTop (frac m 1 e).1 (frac m 1 e).2 - min 0 e + 1).toNat, _, rfl, ?_⟩
  obtain ⟨r, hr⟩ := Option.isSome_iff_exists.1 hs
  unfold shortestDec
  dsimp only
  rw [hr]

include hm in
/-- No decimal number with fewer digits is read as the number. -/
theorem shortestDec_min {n : ℕ} {j : ℤ} (hn : ofDec f false n j = .fin false m e h) {d : ℕ} (hd : n < 10 ^ d) :
    (shortestDec m e h).1 < 10 ^ d := by
  obtain ⟨hx, hc0⟩ := shortestDec_spec h hm
  obtain ⟨steps, k0, hk0, hs⟩ := shortestDec_search h hm
  obtain ⟨hmem, hle, hno⟩ := decSearch_first hs
  obtain ⟨c, hc⟩ : ∃ c, c = (shortestDec m e h).1 := ⟨_, rfl⟩
  obtain ⟨k, hk⟩ : ∃ k, k = (shortestDec m e h).2 := ⟨_, rfl⟩
  rw [← hc] at hmem hx hc0 ⊢
  rw [← hk] at hmem hx hle hno
  clear hs
  have hself := self_rnd h hm
  have hmp : (0 : ℚ) < (m : ℚ) * 2 ^ e := mul_pos (by exact_mod_cast Nat.pos_of_ne_zero hm) (two_zpow_pos _)
  have hn0 : 0 < n := by
    rcases Nat.eq_zero_or_pos n with rfl | h0
    · rw [ofDec_zero] at hn
      unfold zero at hn
      injection hn with _ g
      exact absurd g.symm hm
    · exact h0
  have rn := hn
  rw [ofDec_eq_rnd _ _ hn0] at rn
  have rc := hx
  rw [ofDec_eq_rnd _ _ (Nat.pos_of_ne_zero hc0)] at rc
  simp only [Bool.false_eq_true, if_false, one_mul] at rn rc
  have hfp := frac_pos (n := m) (e := e) one_pos
  have hfn := frac_num_pos (d := 1) (e := e) (Nat.pos_of_ne_zero hm)
  have htop := decTop_spec hfn.ne' hfp.ne'
  rw [frac_value, ← hk0] at htop
  have hd1 : 0 < d := by
    rcases Nat.eq_zero_or_pos d with rfl | h0
    · simp at hd; omega
    · exact h0
  rcases eq_or_lt_of_le hle with heq | hlt
  · -- at the first step the candidates are 0 and 1
    obtain ⟨a, -, -, h3, h4, -⟩ := decNear_spec (n := (frac m 1 e).1) hfp.ne' k
    rw [frac_value, heq] at h4
    have h10 : (0 : ℚ) < 10 ^ k0 := by positivity
    have ha : a < 1 := by
      have : (a : ℚ) * 10 ^ k0 < 1 * 10 ^ k0 := by rw [one_mul]; exact h4.trans_lt htop
      exact_mod_cast lt_of_mul_lt_mul_right this h10.le
    have hc1 : c = 1 := by
      rcases h3 c hmem with g | g <;> omega
    rw [hc1]
    exact Nat.one_lt_pow (by omega) (by decide)
  -- no multiple of a greater power is read as the number
  have hno' : ∀ j, k < j → ∀ a, ofDec f false a j ≠ .fin false m e h := by
    intro j hj a ha
    by_cases hjk : j ≤ k0
    · obtain ⟨c', h1, h2⟩ := near_of_ofDec h hm ha
      exact hno j hj hjk c' h1 h2
    · -- then the power `10 ^ k0` is
      have ha0 : 0 < a := by
        rcases Nat.eq_zero_or_pos a with rfl | h0
        · rw [ofDec_zero] at ha
          unfold zero at ha
          injection ha with _ g
          exact absurd g.symm hm
        · exact h0
      have ra := ha
      rw [ofDec_eq_rnd _ _ ha0] at ra
      simp only [Bool.false_eq_true, if_false, one_mul] at ra
      have hle2 : (10 : ℚ) ^ k0 ≤ (a : ℚ) * 10 ^ j := by
        calc (10 : ℚ) ^ k0 ≤ 10 ^ j := zpow_le_zpow_right₀ (by norm_num) (by omega)
          _ = 1 * 10 ^ j := (one_mul _).symm
          _ ≤ a * 10 ^ j := mul_le_mul_of_nonneg_right (by exact_mod_cast ha0) (by positivity)
      have r0 := rnd_convex htop.le hle2 hmp (x := .fin false m e h) trivial hself ra
      have r1 : ofDec f false 1 k0 = .fin false m e h := by
        rw [ofDec_eq_rnd _ _ one_pos]
        simpa using r0
      obtain ⟨c', h1, h2⟩ := near_of_ofDec h hm r1
      exact hno k0 hlt le_rfl c' h1 h2
  by_contra hge
  have hge : 10 ^ d ≤ c := by omega
  rcases lt_or_ge k j with hj | hj
  · exact hno' j hj n hn
  · refine hno' (d + k) (by omega) 1 ?_
    rw [ofDec_eq_rnd _ _ one_pos]
    simp only [Bool.false_eq_true, if_false, one_mul, Nat.cast_one]
    refine rnd_convex (q1 := (n : ℚ) * 10 ^ j) (q2 := (c : ℚ) * 10 ^ k) ?_ ?_ (mul_pos (by exact_mod_cast hn0) (by positivity)) trivial rn rc
    · rw [zpow_add₀ (by norm_num), zpow_natCast]
      exact mul_le_mul (by exact_mod_cast hd.le) (zpow_le_zpow_right₀ (by norm_num) hj) (by positivity) (by positivity)
    · rw [zpow_add₀ (by norm_num), zpow_natCast]
      exact mul_le_mul_of_nonneg_right (by exact_mod_cast hge) (by positivity)

end

namespace Float64

/-- **C84** (few digits). The text of a finite number is that of `± c * 10 ^ k`, where `c` has no more digits than any decimal
number that is read as the same float. -/
theorem C84_shortest {x : Float64} (hx : x.Finite) : ∃ (s : Bool) (c : ℕ) (k : ℤ),
    DecValue (fmtFloat64 x) ((if s then -1 else 1) * ((c : ℚ) * 10 ^ k)) ∧
    ∀ (t : GoStr) (s' : Bool) (n : ℕ) (j : ℤ), DecText t s' n j → parseFloat64 t = some x → ∀ d, n < 10 ^ d → c < 10 ^ d := by
  cases x with
  | nan => cases hx
  | inf => cases hx
  | fin s m e h =>
    by_cases hm : m = 0
    · refine ⟨s, 0, 0, ?_, fun t s' n j _ _ d _ => by positivity⟩
      refine ⟨s, 0, 0, ?_, rfl⟩
      unfold fmtFloat64
      simp only [if_pos hm]
      exact ⟨fmtSign s, b!"0", [], [], [], 0, by simp, fmtSign_text s, by unfold DigitsOrNone; decide, Or.inl ⟨rfl, rfl⟩, by decide, Or.inl ⟨rfl, rfl⟩,
        by decide, by decide⟩
    · refine ⟨s, (shortestDec m e h).1, (shortestDec m e h).2, ?_, ?_⟩
      · unfold fmtFloat64
        simp only [if_neg hm]
        refine ⟨s, _, _, decFixed_text s _ _, ?_⟩
        congr 1
        push_cast
        rw [mul_assoc, ← zpow_natCast, ← zpow_add₀ (by norm_num)]
        congr 2
        omega
      · intro t s' n j ht hp d hd
        rw [parseFloat64_dec ht] at hp
        refine shortestDec_min h hm (n := n) (j := j) ?_ hd
        cases hy : ofDec binary64 s' n j with
        | nan => rw [hy] at hp; cases hp
        | inf => rw [hy] at hp; cases hp
        | fin s2 m2 e2 h2 =>
          rw [hy] at hp
          cases hp
          exact ofDec_unsigned hy

end Float64
end Verif
