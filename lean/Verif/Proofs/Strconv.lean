import Verif.Go.Strconv
import Verif.Spec.Strconv
import Verif.Proofs.Float64Error
import Verif.Proofs.OneHot

/-! `strconv.ParseFloat` and `strconv.FormatFloat`. -/

namespace Verif
namespace FP
variable {f : FFmt}

theorem ofDec_zero (s : Bool) (e : ℤ) : ofDec f s 0 e = zero f s := by
  unfold ofDec ofFrac
  split <;> simp

theorem ofDec_eq_rnd (s : Bool) {n : ℕ} (e : ℤ) (hn : 0 < n) :
    ofDec f s n e = rnd f ((if s then -1 else 1) * ((n : ℚ) * 10 ^ e)) := by
  unfold ofDec
  split
  · rename_i h
    obtain ⟨k, rfl⟩ := Int.eq_ofNat_of_zero_le h
    rw [ofFrac_eq_rnd s (by positivity) one_pos]
    simp
  · rename_i h
    obtain ⟨k, hk⟩ : ∃ k : ℕ, -e = k := Int.eq_ofNat_of_zero_le (by omega)
    rw [ofFrac_eq_rnd s hn (by positivity), hk]
    have : e = -(k : ℤ) := by omega
    rw [this, zpow_neg, zpow_natCast]
    simp [div_eq_mul_inv]

theorem ofDec_isRounded (s : Bool) (n : ℕ) (e : ℤ) : IsRounded ((if s then -1 else 1) * ((n : ℚ) * 10 ^ e)) (ofDec f s n e) := by
  rcases Nat.eq_zero_or_pos n with rfl | hn
  · rw [ofDec_zero]
    have : (if s then (-1 : ℚ) else 1) * (((0 : ℕ) : ℚ) * 10 ^ e) = 0 := by simp
    rw [this]
    refine ⟨by rw [abs_zero]; exact top_pos f, fun hh => absurd rfl hh, ?_⟩
    intro y _
    constructor
    · show |0 - (zero f s).val| ≤ _
      rw [zero_val, sub_zero, abs_zero]; exact abs_nonneg _
    · intros; rfl
  · rw [ofDec_eq_rnd s e hn]
    refine rnd_isRounded ?_
    have h1 : (0 : ℚ) < n * 10 ^ e := mul_pos (by exact_mod_cast hn) (by positivity)
    cases s
    · simpa using h1.ne'
    · simpa using h1.ne'

theorem neg_ofFrac (n d : ℕ) : ofFrac f true n d = neg (ofFrac f false n d) := by
  unfold ofFrac pack zero
  split
  · rfl
  · split
    · rfl
    · split <;> rfl

theorem neg_ofDec (n : ℕ) (e : ℤ) : ofDec f true n e = neg (ofDec f false n e) := by
  unfold ofDec
  split <;> exact neg_ofFrac _ _

/-- A number that is not zero is itself, rounded. -/
theorem rnd_self {x : FP f} (hx : x.Finite) (h0 : x.val ≠ 0) : rnd f x.val = x := by
  obtain ⟨h1, h2⟩ := rnd_val hx
  have hr := rnd_isRounded (f := f) h0
  cases hy : rnd f x.val with
  | nan => rw [hy] at h1; cases h1
  | inf s => rw [hy] at h1; cases h1
  | fin s m e h =>
    rw [hy] at h2 hr
    cases x with
    | nan => cases hx
    | inf s => cases hx
    | fin s' m' e' h' =>
      have hs := hr.2.1 h0
      have hp : ∀ {m : ℕ} {e : ℤ}, (m : ℚ) * 2 ^ e ≠ 0 → 0 < (m : ℚ) * 2 ^ e := fun h =>
        lt_of_le_of_ne (mul_nonneg (by positivity) (two_zpow_pos _).le) (Ne.symm h)
      have hs' : s' = decide ((fin s' m' e' h').val < 0) := by
        have : (m' : ℚ) * 2 ^ e' ≠ 0 := by
          intro h; apply h0; show _ * ((m' : ℚ) * 2 ^ e') = 0; rw [h]; simp
        have := hp this
        unfold val
        cases s' <;> simp [this, this.le]
      have : s = s' := by rw [hs]; exact hs'.symm
      subst this
      have hv : (m : ℚ) * 2 ^ e = m' * 2 ^ e' := by
        unfold val at h2
        cases s <;> simpa using h2
      obtain ⟨rfl, rfl⟩ := canon_unique h h' hv
      rfl

end FP

open FP

/-! ### digits -/

theorem isDigit_mem {b : UInt8} (h : isDigit b = true) : b ∈ ([48, 49, 50, 51, 52, 53, 54, 55, 56, 57] : List UInt8) := by
  have h := isDigit_iff.1 h
  have h1 : (48 : UInt8).toNat ≤ b.toNat := UInt8.le_iff_toNat_le.1 h.1
  have h2 : b.toNat ≤ (57 : UInt8).toNat := UInt8.le_iff_toNat_le.1 h.2
  have h1 : 48 ≤ b.toNat := h1
  have h2 : b.toNat ≤ 57 := h2
  obtain ⟨n, hn⟩ : ∃ n, n = b.toNat := ⟨_, rfl⟩
  have e : b = UInt8.ofNat n := by rw [hn]; simp
  rw [← hn] at h1 h2
  rw [e]
  clear hn e
  interval_cases n <;> decide

theorem digit_forall {p : UInt8 → Prop} (h : ∀ b ∈ ([48, 49, 50, 51, 52, 53, 54, 55, 56, 57] : List UInt8), p b) {b : UInt8}
    (hb : isDigit b = true) : p b := h b (isDigit_mem hb)

theorem foldl_digitsVal (l : GoStr) : ∀ n, l.foldl (fun n b => 10 * n + (b.toNat - 48)) n = n * 10 ^ l.length + digitsVal l := by
  unfold digitsVal
  induction l with
  | nil => intro n; simp
  | cons b l ih =>
    intro n
    rw [List.foldl_cons, ih, List.foldl_cons, ih (10 * 0 + _), List.length_cons, Nat.pow_succ]
    ring

theorem digitsVal_append (a b : GoStr) : digitsVal (a ++ b) = digitsVal a * 10 ^ b.length + digitsVal b := by
  rw [← foldl_digitsVal]
  unfold digitsVal
  rw [List.foldl_append]

/-! ### scanning -/

theorem scanMant_digits (d s : GoStr) (hd : ∀ b ∈ d, isDigit b = true) : ∀ a : Mant,
    scanMant false a (d ++ s) =
      scanMant false ⟨a.dot, a.some || !d.isEmpty, a.m * 10 ^ d.length + digitsVal d, if a.dot then a.frac + d.length else a.frac⟩ s := by
  induction d with
  | nil => intro a; simp [digitsVal]
  | cons b d ih =>
    intro a
    have hb := hd b (by simp)
    have n1 : b ≠ 95 := digit_forall (p := fun b => b ≠ 95) (by decide) hb
    have n2 : b ≠ 46 := digit_forall (p := fun b => b ≠ 46) (by decide) hb
    rw [List.cons_append, scanMant, if_neg n1, if_neg n2]
    simp only [digitVal, hb, if_true, Bool.false_eq_true, if_false]
    rw [ih fun x hx => hd x (by simp [hx])]
    have : digitsVal (b :: d) = (b.toNat - 48) * 10 ^ d.length + digitsVal d := by
      rw [← List.singleton_append, digitsVal_append]; simp [digitsVal]
    rw [this]
    congr 2
    · simp
    · rw [List.length_cons, Nat.pow_succ]; ring
    · by_cases h : a.dot = true
      · simp only [h, if_true, List.length_cons]; omega
      · simp only [h, if_false, Bool.false_eq_true]

theorem scanExp_digits (d : GoStr) (hd : ∀ b ∈ d, isDigit b = true) : ∀ n, n * 10 ^ d.length + digitsVal d < 100000 →
    scanExp n d = (n * 10 ^ d.length + digitsVal d, []) := by
  induction d with
  | nil => intro n _; simp [scanExp, digitsVal]
  | cons b d ih =>
    intro n hn
    have hb := hd b (by simp)
    have n1 : b ≠ 95 := digit_forall (p := fun b => b ≠ 95) (by decide) hb
    have e : digitsVal (b :: d) = (b.toNat - 48) * 10 ^ d.length + digitsVal d := by
      rw [← List.singleton_append, digitsVal_append]; simp [digitsVal]
    have e2 : n * 10 ^ (b :: d).length + digitsVal (b :: d) = (10 * n + (b.toNat - 48)) * 10 ^ d.length + digitsVal d := by
      rw [e, List.length_cons, Nat.pow_succ]; ring
    rw [e2] at hn ⊢
    have h1 : 1 ≤ 10 ^ d.length := Nat.one_le_pow _ _ (by decide)
    have h2 : (10 * n + (b.toNat - 48)) * 1 ≤ (10 * n + (b.toNat - 48)) * 10 ^ d.length := Nat.mul_le_mul_left _ h1
    have hlt : n < 10000 := by omega
    rw [scanExp, if_neg n1, if_pos hb, if_pos hlt]
    exact ih (fun x hx => hd x (by simp [hx])) _ hn

theorem readSign_text {sign r : GoStr} {neg : Bool} (hs : SignText sign neg) (hr : ∀ b, r.head? = some b → b ≠ 43 ∧ b ≠ 45) :
    readSign (sign ++ r) = (neg, r) := by
  rcases hs with ⟨rfl | rfl, rfl⟩ | ⟨rfl, rfl⟩
  · cases r with
    | nil => rfl
    | cons b r =>
      have := hr b rfl
      unfold readSign
      simp only [List.nil_append]
      split
      · rename_i h; cases h; exact absurd rfl this.1
      · rename_i h; cases h; exact absurd rfl this.2
      · rfl
  · rfl
  · rfl

theorem head_of_digits {d : GoStr} (hd : ∀ b ∈ d, isDigit b = true) {p : UInt8 → Prop}
    (hp : ∀ b ∈ ([48, 49, 50, 51, 52, 53, 54, 55, 56, 57] : List UInt8), p b) : ∀ b, d.head? = some b → p b := by
  intro b hb
  cases d with
  | nil => cases hb
  | cons c d => cases hb; exact digit_forall hp (hd b (by simp))

theorem readExp_text {exp : GoStr} {x : Int} (h : ExpIs exp x) : readExp false exp = some (x, []) := by
  rcases h with ⟨rfl, rfl⟩ | ⟨e, sign, neg, d, rfl, he, hs, hd, hl, rfl⟩
  · rfl
  · have hd' : ∀ b ∈ d, isDigit b = true := fun b hb => isDigit_iff.2 (hd.2 b hb)
    have key : ∀ c : UInt8, lowerByte c = 101 → readExp false (c :: (sign ++ d)) = some (if neg then -(digitsVal d : Int) else digitsVal d, []) := by
      intro c hc
      have hr := readSign_text hs (r := d) (head_of_digits hd' (by decide))
      unfold readExp
      simp only [hc, Bool.false_eq_true, if_false, if_true, hr]
      obtain ⟨b, r, rfl⟩ := List.exists_cons_of_ne_nil hd.1
      simp only [hd' b (by simp), if_true]
      rw [scanExp_digits _ hd' 0 (by simpa using hl)]
      simp [FP.signed]
    rcases he with rfl | rfl
    · exact key 101 (by decide)
    · exact key 69 (by decide)

theorem ExpIs.head {exp : GoStr} {x : Int} (h : ExpIs exp x) : exp = [] ∨ ∃ b t, exp = b :: t ∧ (b = 101 ∨ b = 69) := by
  rcases h with ⟨rfl, rfl⟩ | ⟨e, sign, neg, d, rfl, he, -⟩
  · exact Or.inl rfl
  · rcases he with rfl | rfl
    · exact Or.inr ⟨101, _, rfl, Or.inl rfl⟩
    · exact Or.inr ⟨69, _, rfl, Or.inr rfl⟩

theorem scanMant_stop {exp : GoStr} {x : Int} (h : ExpIs exp x) (a : Mant) : scanMant false a exp = (a, exp) := by
  rcases h.head with rfl | ⟨b, t, rfl, rfl | rfl⟩
  · rfl
  · simp [scanMant, digitVal, isDigit, between]
  · simp [scanMant, digitVal, isDigit, between]

/-- The characters of decimal numbers. -/
def decChars : List UInt8 := [48, 49, 50, 51, 52, 53, 54, 55, 56, 57, 43, 45, 46, 69, 101]

theorem DecText.chars {s : GoStr} {neg : Bool} {n : Nat} {e : Int} (h : DecText s neg n e) : ∀ b ∈ s, b ∈ decChars := by
  have hdig : ∀ {d : GoStr}, DigitsOrNone d → ∀ b ∈ d, b ∈ decChars := fun hd b hb =>
    digit_forall (p := fun b => b ∈ decChars) (by decide) (isDigit_iff.2 (hd b hb))
  have hsg : ∀ {s : GoStr} {neg : Bool}, SignText s neg → ∀ b ∈ s, b ∈ decChars := by
    rintro s neg (⟨rfl | rfl, -⟩ | ⟨rfl, -⟩)
    · intro b hb; cases hb
    · decide
    · decide
  obtain ⟨sign, ip, frac, fp, exp, x, rfl, hs, hi, hf, -, hx, -⟩ := h
  intro b hb
  simp only [List.mem_append] at hb
  rcases hb with hb | hb | hb | hb
  · exact hsg hs b hb
  · exact hdig hi b hb
  · rcases hf with ⟨rfl, -⟩ | ⟨rfl, hf⟩
    · cases hb
    · rcases List.mem_append.1 hb with hb | hb
      · exact (by decide : ∀ b ∈ b!".", b ∈ decChars) b hb
      · exact hdig hf b hb
  · rcases hx with ⟨rfl, -⟩ | ⟨e, sign, neg, d, rfl, he, hs, hd, -⟩
    · cases hb
    · simp only [List.mem_append] at hb
      rcases hb with hb | hb | hb
      · rcases he with rfl | rfl
        · exact (by decide : ∀ b ∈ b!"e", b ∈ decChars) b hb
        · exact (by decide : ∀ b ∈ b!"E", b ∈ decChars) b hb
      · exact hsg hs b hb
      · exact hdig hd.2 b hb

theorem lowerAZ_ne {s t : GoStr} (c : UInt8) (h : ∀ b ∈ s, b ∈ decChars) (hc : c ∈ t) (hne : ∀ b ∈ decChars, (if between 65 90 b then b + 32 else b) ≠ c) :
    lowerAZ s ≠ t := by
  intro he
  rw [← he] at hc
  obtain ⟨b, hb, rfl⟩ := List.mem_map.1 hc
  exact hne b (h b hb) rfl

theorem readPrefix_dec {s : GoStr} (h : ∀ b ∈ s, b ∈ decChars) : readPrefix s = (false, s) := by
  unfold readPrefix
  split
  · rename_i b c t
    have : lowerByte b ≠ 120 := (by decide : ∀ b ∈ decChars, lowerByte b ≠ 120) b (h b (by simp))
    rw [if_neg this]
  · rfl

/-- A decimal number is read as the nearest float; it is an error if that is infinite. -/
theorem parseFloat64_dec {s : GoStr} {neg : Bool} {n : Nat} {e : Int} (h : DecText s neg n e) :
    parseFloat64 s = match ofDec binary64 neg n e with
      | .inf _ => none
      | x => some x := by
  have hch := h.chars
  obtain ⟨sign, ip, frac, fp, exp, x, hse, hs, hi, hf, hne, hx, hn, he⟩ := h
  have hi' : ∀ b ∈ ip, isDigit b = true := fun b hb => isDigit_iff.2 (hi b hb)
  obtain ⟨r, hr⟩ : ∃ r, r = ip ++ (frac ++ exp) := ⟨_, rfl⟩
  -- the sign
  have hhead : ∀ b, r.head? = some b → b ≠ 43 ∧ b ≠ 45 := by
    intro b hb
    rw [hr] at hb
    cases ip with
    | cons c ip => cases hb; exact digit_forall (p := fun b => b ≠ 43 ∧ b ≠ 45) (by decide) (hi' b (by simp))
    | nil =>
      rcases hf with ⟨rfl, rfl⟩ | ⟨rfl, -⟩
      · exact absurd rfl hne
      · cases hb; decide
  have hsign : readSign s = (neg, r) := by rw [hse, ← hr]; exact readSign_text hs hhead
  have hrc : ∀ b ∈ r, b ∈ decChars := fun b hb => hch b (by rw [hse, ← hr]; simp [hb])
  have hspec : specialFloat binary64 s = none := by
    unfold specialFloat
    rw [hsign, if_neg (lowerAZ_ne 110 hch (by decide) (by decide)), if_neg]
    rintro (h | h)
    · exact lowerAZ_ne 110 hrc (by decide) (by decide) h
    · exact lowerAZ_ne 110 hrc (by decide) (by decide) h
  -- the digits
  have hscan : ∃ dot, scanMant false ⟨false, false, 0, 0⟩ r = (⟨dot, true, n, fp.length⟩, exp) := by
    rw [hr, scanMant_digits _ _ hi']
    rcases hf with ⟨rfl, rfl⟩ | ⟨rfl, hf⟩
    · refine ⟨false, ?_⟩
      rw [List.nil_append, scanMant_stop hx]
      have : ip ≠ [] := by simpa using hne
      rw [hn]
      cases ip with
      | nil => exact absurd rfl this
      | cons b ip => simp
    · refine ⟨true, ?_⟩
      have hf' : ∀ b ∈ fp, isDigit b = true := fun b hb => isDigit_iff.2 (hf b hb)
      rw [List.append_assoc]
      show scanMant false _ (46 :: (fp ++ exp)) = _
      rw [scanMant, if_neg (by decide), if_pos rfl, if_neg (by simp), scanMant_digits _ _ hf', scanMant_stop hx, hn, digitsVal_append]
      congr 2
      · cases ip <;> cases fp <;> simp at hne ⊢
      · simp
      · simp
  obtain ⟨dot, hscan⟩ := hscan
  have h95 : ¬ (95 ∈ s ∧ underscoreOK s = false) := by
    rintro ⟨h, -⟩
    exact absurd (hch _ h) (by decide)
  unfold parseFloat64
  simp only [hspec, hsign, readPrefix_dec hrc, hscan, readExp_text hx, if_neg h95, if_true, Bool.false_eq_true, if_false, ← he]
  cases ofDec binary64 neg n e <;> rfl

/-! ### the digits that are written -/

theorem decSearch_spec {f : FFmt} {x : FP f} {n d : ℕ} {r : ℕ × ℤ} : ∀ {steps : ℕ} {k : ℤ}, decSearch x n d steps k = some r →
    ofDec f false r.1 r.2 = x := by
  intro steps
  induction steps with
  | zero => intro k h; cases h
  | succ steps ih =>
    intro k h
    unfold decSearch at h
    split at h
    · rename_i c hc
      cases h
      simpa using List.find?_some hc
    · exact ih h

/-- The digits that are written are read as the number. -/
theorem shortestDec_spec {f : FFmt} {m : ℕ} {e : ℤ} (h : f.Canon m e) (hm : m ≠ 0) :
    ofDec f false (shortestDec m e h).1 (shortestDec m e h).2 = .fin false m e h ∧ (shortestDec m e h).1 ≠ 0 := by
  have hm' : 0 < m := Nat.pos_of_ne_zero hm
  have hval : (FP.fin false m e h).val = (m : ℚ) * 2 ^ e := by simp [val]
  have key : ofDec f false (shortestDec m e h).1 (shortestDec m e h).2 = .fin false m e h := by
    unfold shortestDec
    dsimp only
    split
    · rename_i r hr; exact decSearch_spec hr
    · have h0 : (FP.fin false m e h).val ≠ 0 := by
        rw [hval]
        have := two_zpow_pos (K := ℚ) e
        exact (mul_pos (by exact_mod_cast hm') this).ne'
      refine Eq.trans ?_ (rnd_self (x := FP.fin false m e h) trivial h0)
      rw [hval]
      split
      · rename_i he
        rw [ofDec_eq_rnd _ _ (by positivity), zpow_toNat he]
        simp
      · rename_i he
        rw [ofDec_eq_rnd _ _ (by positivity)]
        obtain ⟨k, hk⟩ : ∃ k : ℕ, -e = k := Int.eq_ofNat_of_zero_le (by omega)
        have : e = -(k : ℤ) := by omega
        rw [hk, this]
        congr 1
        simp only [Bool.false_eq_true, if_false, one_mul, Int.toNat_natCast, zpow_neg, zpow_natCast, Nat.cast_mul, Nat.cast_pow, Nat.cast_ofNat]
        rw [show (10 : ℚ) = 2 * 5 by norm_num, mul_pow]
        field_simp
  refine ⟨key, fun h0 => ?_⟩
  rw [h0, ofDec_zero] at key
  unfold zero at key
  injection key with _ h1
  exact hm h1.symm

theorem natDec_digitsOrNone (n : ℕ) : DigitsOrNone (natDec n) := by
  intro b hb
  have := natDec_digits n b hb
  exact ⟨UInt8.le_iff_toNat_le.2 this.1, UInt8.le_iff_toNat_le.2 (by change _ ≤ 57; omega)⟩

theorem padDec_digitsOrNone (w n : ℕ) : DigitsOrNone (padDec w n) := by
  intro b hb
  unfold padDec at hb
  rcases List.mem_append.1 hb with hb | hb
  · obtain rfl := List.eq_of_mem_replicate hb
    decide
  · exact natDec_digitsOrNone n b hb

theorem natDec_length_le {n w : ℕ} (hw : 0 < w) (h : n < 10 ^ w) : (natDec n).length ≤ w := by
  unfold natDec
  split
  · exact hw
  · rw [List.length_map, List.length_reverse]
    by_contra hlt
    rename_i h0
    have := Nat.lt_digits_length_iff (b := 10) (by decide) n (k := w) |>.1 (by omega)
    omega

theorem padDec_length {n w : ℕ} (hw : 0 < w) (h : n < 10 ^ w) : (padDec w n).length = w := by
  have := natDec_length_le hw h
  unfold padDec
  rw [List.length_append, List.length_replicate]
  omega

theorem padDec_val (n w : ℕ) : digitsVal (padDec w n) = n := by
  unfold padDec; rw [digitsVal_zeros, digitsVal_natDec]

theorem fmtSign_text (s : Bool) : SignText (fmtSign s) s := by
  cases s
  · exact Or.inl ⟨Or.inl rfl, rfl⟩
  · exact Or.inr ⟨rfl, rfl⟩

/-- The parts of a number that is written without exponent. -/
theorem decFixed_parts (c : ℕ) (k : ℤ) : ∃ ip frac fp, decFixed c k = natDec ip ++ frac ∧
    (frac = [] ∧ fp = [] ∨ frac = b!"." ++ fp ∧ Digits fp) ∧ digitsVal (natDec ip ++ fp) = c * 10 ^ k.toNat ∧ (fp.length : ℤ) = k.toNat - k := by
  unfold decFixed
  split
  · rename_i hk
    refine ⟨_, [], [], (List.append_nil _).symm, Or.inl ⟨rfl, rfl⟩, ?_, ?_⟩
    · rw [List.append_nil, digitsVal_natDec]
    · simp only [List.length_nil, Nat.cast_zero]; omega
  · rename_i hk
    obtain ⟨j, hj⟩ : ∃ j : ℕ, -k = j := Int.eq_ofNat_of_zero_le (by omega)
    have hj0 : 0 < j := by omega
    rw [hj]
    have hlt : c % 10 ^ j < 10 ^ j := Nat.mod_lt _ (by positivity)
    have hlen := padDec_length hj0 hlt
    refine ⟨_, 46 :: padDec j (c % 10 ^ j), padDec j (c % 10 ^ j), rfl, Or.inr ⟨rfl, ?_, padDec_digitsOrNone _ _⟩, ?_, ?_⟩
    · intro h0
      rw [h0] at hlen
      simp at hlen
      omega
    · have : k.toNat = 0 := by omega
      rw [digitsVal_append, digitsVal_natDec, padDec_val, hlen, this]
      simp only [Int.toNat_natCast, pow_zero, mul_one]
      rw [Nat.mul_comm]
      exact Nat.div_add_mod c _
    · rw [hlen]; omega

theorem decFixed_text (neg : Bool) (c : ℕ) (k : ℤ) : DecText (fmtSign neg ++ decFixed c k) neg (c * 10 ^ k.toNat) (k - k.toNat) := by
  obtain ⟨ip, frac, fp, he, hf, hv, hl⟩ := decFixed_parts c k
  refine ⟨fmtSign neg, natDec ip, frac, fp, [], 0, by rw [he]; simp, fmtSign_text neg, natDec_digitsOrNone _, ?_, ?_, Or.inl ⟨rfl, rfl⟩, hv.symm,
    by omega⟩
  · rcases hf with h | ⟨h1, h2⟩
    · exact Or.inl h
    · exact Or.inr ⟨h1, h2.2⟩
  · intro h
    exact natDec_ne_nil ip (List.append_eq_nil_iff.1 h).1

theorem natDec_head {n : ℕ} (hn : n ≠ 0) : (natDec n).head? ≠ some 48 := by
  intro h
  obtain ⟨b, r, e⟩ := List.exists_cons_of_ne_nil (natDec_ne_nil n)
  rw [e] at h
  cases h
  have h1 := digitsVal_natDec n
  have hz := digitsVal_zeros 1 r
  rw [e] at h1
  simp only [List.replicate_one, List.singleton_append] at hz
  rw [hz] at h1
  -- a number with the digits `r` has no more digits than `r`
  have hr : ∀ b ∈ r, isDigit b = true := fun b hb => isDigit_iff.2 (natDec_digitsOrNone n b (by rw [e]; simp [hb]))
  have hb : ∀ l : GoStr, (∀ b ∈ l, isDigit b = true) → digitsVal l < 10 ^ l.length := by
    intro l
    induction l with
    | nil => intro _; simp [digitsVal]
    | cons c l ih =>
      intro hl
      have := ih fun b hb => hl b (by simp [hb])
      have hc : c.toNat - 48 ≤ 9 := digit_forall (p := fun c => c.toNat - 48 ≤ 9) (by decide) (hl c (by simp))
      rw [← List.singleton_append, digitsVal_append, List.length_append, List.length_singleton, Nat.add_comm, Nat.pow_add]
      have : digitsVal [c] = c.toNat - 48 := by simp [digitsVal]
      rw [this]
      nlinarith [Nat.mul_le_mul_right (10 ^ l.length) hc]
  have h2 := hb r hr
  rw [h1] at h2
  rcases Nat.eq_zero_or_pos r.length with h0 | h0
  · rw [h0] at h2; omega
  · have := natDec_length_le h0 h2
    rw [e, List.length_cons] at this
    omega

/-- The parts of a number that is written with an exponent. -/
theorem decSci_parts {c : ℕ} (hc : c ≠ 0) (k : ℤ) : ∃ b r frac, decSci c k = ([b] ++ (frac ++ (b!"e" ++
      ((if k + r.length < 0 then b!"-" else b!"+") ++ natDec (k + r.length).natAbs)))) ∧ 48 ≤ b ∧ b ≤ 57 ∧ b ≠ 48 ∧
    (frac = [] ∧ r = [] ∨ frac = b!"." ++ r ∧ Digits r) ∧ digitsVal ([b] ++ r) = c ∧ natDec c = b :: r := by
  obtain ⟨b, r, e⟩ := List.exists_cons_of_ne_nil (natDec_ne_nil c)
  have hd := natDec_digitsOrNone c
  have h1 := digitsVal_natDec c
  have h2 := natDec_head hc
  rw [e] at hd h1 h2
  refine ⟨b, r, if r = [] then [] else 46 :: r, ?_, (hd b (by simp)).1, (hd b (by simp)).2, by simpa using h2, ?_, h1, e⟩
  · unfold decSci
    rw [e]
    by_cases h : k + (r.length : ℤ) < 0
    · cases r <;> simp_all
    · cases r <;> simp_all <;> rw [if_neg (by omega), if_neg (by omega)] <;> rfl
  · cases r with
    | nil => exact Or.inl ⟨rfl, rfl⟩
    | cons x r => exact Or.inr ⟨rfl, by simp, fun y hy => hd y (List.mem_cons_of_mem _ hy)⟩

theorem decSci_text (neg : Bool) {c : ℕ} (hc : c ≠ 0) (k : ℤ) (hk : (k + ((natDec c).length - 1 : ℕ)).natAbs < 100000) :
    DecText (fmtSign neg ++ decSci c k) neg c k := by
  obtain ⟨b, r, frac, he, h1, h2, -, hf, hv, hn⟩ := decSci_parts hc k
  rw [hn, List.length_cons, Nat.add_sub_cancel] at hk
  refine ⟨fmtSign neg, [b], frac, r, _, k + r.length, by rw [he], fmtSign_text neg, ?_, ?_, by simp, ?_, hv.symm, by omega⟩
  · intro x hx; rw [List.mem_singleton] at hx; subst hx; exact ⟨h1, h2⟩
  · rcases hf with h | ⟨h, h'⟩
    · exact Or.inl h
    · exact Or.inr ⟨h, h'.2⟩
  · refine Or.inr ⟨b!"e", _, decide (k + (r.length : ℤ) < 0), natDec (k + r.length).natAbs, rfl, Or.inl rfl, ?_,
      ⟨natDec_ne_nil _, natDec_digitsOrNone _⟩, by rw [digitsVal_natDec]; exact hk, ?_⟩
    · by_cases h : k + (r.length : ℤ) < 0
      · rw [if_pos h]; exact Or.inr ⟨rfl, by simp [h]⟩
      · rw [if_neg h]; exact Or.inl ⟨Or.inr rfl, by simpa using h⟩
    · rw [digitsVal_natDec]
      by_cases h : k + (r.length : ℤ) < 0 <;> simp only [h, decide_true, decide_false, if_true, if_false, Bool.false_eq_true] <;> omega

/-- The exponents of floats are small. -/
theorem ofDec_exp {m : ℕ} {e : ℤ} {h : binary64.Canon m e} {c : ℕ} {k : ℤ} (hm : m ≠ 0) (hc : c ≠ 0)
    (hx : ofDec binary64 false c k = .fin false m e h) : (k + ((natDec c).length - 1 : ℕ)).natAbs < 100000 := by
  have hr := ofDec_isRounded (f := binary64) false c k
  rw [hx] at hr
  obtain ⟨h1, -, h2⟩ := hr
  have h2 := (h2 (zero binary64 false) trivial).1
  simp only [Bool.false_eq_true, if_false, one_mul, zero_val, sub_zero] at h1 h2
  have hq : (0 : ℚ) < (c : ℚ) * 10 ^ k := mul_pos (by exact_mod_cast Nat.pos_of_ne_zero hc) (by positivity)
  rw [abs_of_pos hq] at h1 h2
  have hv : (FP.fin false m e h).val = (m : ℚ) * 2 ^ e := by simp [val]
  rw [hv] at h2
  have hlow : (2 : ℚ) ^ (-1074 : ℤ) ≤ (m : ℚ) * 2 ^ e := by
    have h3 : (1 : ℚ) ≤ m := by exact_mod_cast Nat.pos_of_ne_zero hm
    have h4 : (2 : ℚ) ^ (-1074 : ℤ) ≤ 2 ^ e := zpow_le_zpow_right₀ (by norm_num) h.2.1
    calc (2 : ℚ) ^ (-1074 : ℤ) = 1 * 2 ^ (-1074 : ℤ) := (one_mul _).symm
      _ ≤ m * 2 ^ e := mul_le_mul h3 h4 (by positivity) (by linarith)
  have h5 := (abs_le.1 h2).1
  have hlow2 : (2 : ℚ) ^ (-1074 : ℤ) ≤ 2 * ((c : ℚ) * 10 ^ k) := by linarith
  obtain ⟨L, hL⟩ : ∃ L, (natDec c).length = L + 1 := ⟨(natDec c).length - 1, by have := natDec_ne_nil c; have := List.length_pos_of_ne_nil this; omega⟩
  have hc1 : 10 ^ L ≤ c ∧ c < 10 ^ (L + 1) := by
    unfold natDec at hL
    rw [if_neg hc, List.length_map, List.length_reverse] at hL
    constructor
    · exact (Nat.lt_digits_length_iff (b := 10) (by decide) c (k := L)).1 (by omega)
    · by_contra hlt
      have := (Nat.lt_digits_length_iff (b := 10) (by decide) c (k := L + 1)).2 (by omega)
      omega
  rw [hL, Nat.add_sub_cancel]
  have hupper : k + L < 2000 := by
    by_contra hlt
    have h6 : (10 : ℚ) ^ (2000 : ℤ) ≤ (c : ℚ) * 10 ^ k := by
      calc (10 : ℚ) ^ (2000 : ℤ) ≤ 10 ^ (k + L) := zpow_le_zpow_right₀ (by norm_num) (by omega)
        _ = (10 : ℚ) ^ L * 10 ^ k := by rw [add_comm, zpow_add₀ (by norm_num), zpow_natCast]
        _ ≤ (c : ℚ) * 10 ^ k := mul_le_mul_of_nonneg_right (by exact_mod_cast hc1.1) (by positivity)
    have h7 : binary64.top < (10 : ℚ) ^ (2000 : ℤ) := by
      have e1 : binary64.top < (2 : ℚ) ^ (53 : ℤ) * 2 ^ (971 : ℤ) :=
        mul_lt_mul_of_pos_right (by change (2 : ℚ) ^ 53 - 1 / 2 < _; norm_num) (two_zpow_pos _)
      rw [← zpow_add₀ (by norm_num)] at e1
      have e2 : (2 : ℚ) ^ (53 + 971 : ℤ) ≤ 2 ^ (2000 : ℤ) := zpow_le_zpow_right₀ (by norm_num) (by norm_num)
      have e3 : (2 : ℚ) ^ (2000 : ℤ) ≤ 10 ^ (2000 : ℤ) := zpow_le_zpow_left₀ (by norm_num) (by norm_num) (by norm_num)
      exact lt_of_lt_of_le e1 (e2.trans e3)
    linarith
  have hlower : -2000 < k + L + 1 := by
    by_contra hlt
    have h6 : (c : ℚ) * 10 ^ k ≤ (10 : ℚ) ^ (-2000 : ℤ) := by
      calc (c : ℚ) * 10 ^ k ≤ (10 : ℚ) ^ (L + 1) * 10 ^ k := mul_le_mul_of_nonneg_right (by exact_mod_cast hc1.2.le) (by positivity)
        _ = 10 ^ (((L + 1 : ℕ) : ℤ) + k) := by rw [zpow_add₀ (by norm_num), zpow_natCast]
        _ ≤ (10 : ℚ) ^ (-2000 : ℤ) := zpow_le_zpow_right₀ (by norm_num) (by push_cast; omega)
    have h7 : 2 * (10 : ℚ) ^ (-2000 : ℤ) < (2 : ℚ) ^ (-1074 : ℤ) := by
      have e1 : (10 : ℚ) ^ (-2000 : ℤ) ≤ 2 ^ (-2000 : ℤ) := by
        rw [zpow_neg, zpow_neg]
        exact inv_anti₀ (two_zpow_pos _) (zpow_le_zpow_left₀ (by norm_num) (by norm_num) (by norm_num))
      have e2 : 2 * (2 : ℚ) ^ (-2000 : ℤ) = 2 ^ (-1999 : ℤ) := by
        rw [show (-1999 : ℤ) = 1 + -2000 by norm_num, zpow_add₀ (by norm_num), zpow_one]
      have e3 : (2 : ℚ) ^ (-1999 : ℤ) < 2 ^ (-1074 : ℤ) := zpow_lt_zpow_right₀ (by norm_num) (by norm_num)
      linarith
    linarith
  omega

/-- A float that was written is read as the same float. -/
theorem parse_ofDec {s : Bool} {m : ℕ} {e : ℤ} {h : binary64.Canon m e} {c : ℕ} {k : ℤ} {t : GoStr}
    (hx : ofDec binary64 false c k = .fin false m e h) (ht : DecText t s c k) : parseFloat64 t = some (.fin s m e h) := by
  rw [parseFloat64_dec ht]
  cases s
  · rw [hx]
  · rw [neg_ofDec, hx]; rfl

theorem ofDec_fixed {f : FFmt} (c : ℕ) (k : ℤ) : ofDec f false (c * 10 ^ k.toNat) (k - k.toNat) = ofDec f false c k := by
  rcases Nat.eq_zero_or_pos c with rfl | hc
  · rw [Nat.zero_mul, ofDec_zero, ofDec_zero]
  · rw [ofDec_eq_rnd _ _ hc, ofDec_eq_rnd _ _ (by positivity)]
    congr 2
    push_cast
    rw [mul_assoc, ← zpow_natCast, ← zpow_add₀ (by norm_num)]
    congr 2
    omega

theorem zero_canon {m : ℕ} {e : ℤ} {f : FFmt} (h : f.Canon m e) (hm : m = 0) (s : Bool) : FP.fin s m e h = zero f s := by
  subst hm
  have he : e = f.emin := by
    rcases h.2.2.2 with h1 | h1
    · have : 0 < 2 ^ (f.p - 1) := by positivity
      omega
    · exact h1
  subst he
  rfl

theorem parse_fmtFloat64 (x : Float64) : parseFloat64 (fmtFloat64 x) = some x := by
  cases x with
  | nan => decide +kernel
  | inf s => cases s <;> decide +kernel
  | fin s m e h =>
    by_cases hm : m = 0
    · rw [zero_canon h hm]
      cases s <;> decide +kernel
    · unfold fmtFloat64
      simp only [if_neg hm]
      obtain ⟨h1, h2⟩ := shortestDec_spec h hm
      exact parse_ofDec (by rw [ofDec_fixed]; exact h1) (decFixed_text s _ _)

theorem parse_fmtJson64 {x : Float64} (hx : x.Finite) : parseFloat64 (fmtJson64 x) = some x := by
  cases x with
  | nan => cases hx
  | inf s => cases hx
  | fin s m e h =>
    unfold fmtJson64
    dsimp only
    split
    · rename_i hc
      obtain ⟨h1, h2⟩ := shortestDec_spec h hc.1
      exact parse_ofDec h1 (decSci_text s h2 _ (ofDec_exp hc.1 h2 h1))
    · exact parse_fmtFloat64 _

theorem natDec_int (n : ℕ) : natDec n = b!"0" ∨ Digits (natDec n) ∧ (natDec n).head? ≠ some 48 := by
  by_cases hn : n = 0
  · exact Or.inl (by rw [hn]; rfl)
  · exact Or.inr ⟨⟨natDec_ne_nil n, natDec_digitsOrNone n⟩, natDec_head hn⟩

theorem fmtJson64_valid {x : Float64} (hx : x.Finite) : NumberText (fmtJson64 x) := by
  have hsg : ∀ s, fmtSign s = [] ∨ fmtSign s = b!"-" := by decide
  cases x with
  | nan => cases hx
  | inf s => cases hx
  | fin s m e h =>
    unfold fmtJson64
    dsimp only
    split
    · rename_i hc
      obtain ⟨-, h2⟩ := shortestDec_spec h hc.1
      obtain ⟨b, r, frac, he, h3, h4, h5, hf, -⟩ := decSci_parts h2 (shortestDec m e h).2
      refine ⟨fmtSign s, [b], frac, _, by rw [he], hsg s, Or.inr ⟨⟨by simp, ?_⟩, by simpa using h5⟩, ?_, Or.inr ⟨b!"e", _, _, rfl, Or.inl rfl, ?_,
        natDec_ne_nil _, natDec_digitsOrNone _⟩⟩
      · intro x hx; rw [List.mem_singleton] at hx; subst hx; exact ⟨h3, h4⟩
      · rcases hf with h | ⟨h, h'⟩
        · exact Or.inl h.1
        · exact Or.inr ⟨r, h, h'⟩
      · split
        · exact Or.inr (Or.inr rfl)
        · exact Or.inr (Or.inl rfl)
    · unfold fmtFloat64
      dsimp only
      split
      · exact ⟨fmtSign s, b!"0", [], [], by simp, hsg s, Or.inl rfl, Or.inl rfl, Or.inl rfl⟩
      · obtain ⟨ip, frac, fp, he, hf, -⟩ := decFixed_parts (shortestDec m e h).1 (shortestDec m e h).2
        refine ⟨fmtSign s, natDec ip, frac, [], by rw [he]; simp, hsg s, natDec_int ip, ?_, Or.inl rfl⟩
        rcases hf with h | ⟨h, h'⟩
        · exact Or.inl h.1
        · exact Or.inr ⟨_, h, h'⟩

theorem finite_iff64 (x : Float64) : finite x = true ↔ x.Finite := by
  cases x with
  | nan => exact ⟨fun h => Bool.noConfusion h, fun h => h.elim⟩
  | inf s => cases s <;> exact ⟨fun h => Bool.noConfusion h, fun h => h.elim⟩
  | fin s m e h => exact ⟨fun _ => trivial, fun _ => rfl⟩

end Verif
