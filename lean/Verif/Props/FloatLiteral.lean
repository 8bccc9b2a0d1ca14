import Verif.Proofs.Float64Scale
import Verif.Proofs.FloatLiteral
import Verif.Props.Strconv

/-! C84: exactly which texts are taken for floats, and which floats they are. -/

namespace Verif
namespace Float64
open FP

/-! ### NaN and infinities -/

/-- The letters of the special texts. -/
def specialLetters : List UInt8 := b!"nanityf"

theorem lower_letter : ∀ (a : UInt8), ∀ b ∈ specialLetters, (if between 65 90 a then a + 32 else a) = b ↔ (a = b ∨ 97 ≤ b ∧ b ≤ 122 ∧ a = b - 32) :=
  byte_forall (by decide +kernel)

theorem lowerAZ_iff {t : GoStr} (ht : ∀ b ∈ t, b ∈ specialLetters) {s : GoStr} : lowerAZ s = t ↔ SameLetters s t := by
  unfold SameLetters
  induction t generalizing s with
  | nil => cases s <;> simp [lowerAZ]
  | cons b t ih =>
    cases s with
    | nil => simp [lowerAZ]
    | cons a s =>
      have := ih (fun c hc => ht c (by simp [hc])) (s := s)
      rw [List.forall₂_cons, ← this, ← lower_letter a b (ht b (by simp))]
      unfold lowerAZ
      rw [List.map_cons, List.cons.injEq]

theorem special_iff {s : GoStr} {x : Float64} : specialFloat binary64 s = some x ↔ SpecialText s x := by
  have e1 : ∀ s, lowerAZ s = b!"nan" ↔ SameLetters s b!"nan" := fun s => lowerAZ_iff (by decide)
  have e2 : ∀ s, lowerAZ s = b!"inf" ↔ SameLetters s b!"inf" := fun s => lowerAZ_iff (by decide)
  have e3 : ∀ s, lowerAZ s = b!"infinity" ↔ SameLetters s b!"infinity" := fun s => lowerAZ_iff (by decide)
  have hhead : ∀ t : GoStr, SameLetters t b!"inf" ∨ SameLetters t b!"infinity" → ∃ b u, t = b :: u ∧ (b = 105 ∨ b = 73) := by
    have : ∀ (t : GoStr) (w : GoStr), SameLetters t (105 :: w) → ∃ b u, t = b :: u ∧ (b = 105 ∨ b = 73) := by
      intro t w h
      cases h with
      | cons h _ =>
        refine ⟨_, _, rfl, ?_⟩
        rcases h with h | ⟨_, _, h⟩
        · exact Or.inl h
        · right; rw [h]; decide
    rintro t (h | h)
    · exact this t _ h
    · exact this t _ h
  unfold specialFloat SpecialText
  constructor
  · intro h
    split at h
    · rename_i hn
      cases h
      exact Or.inl ⟨(e1 s).1 hn, rfl⟩
    · split at h
      · rename_i hi
        cases h
        rw [e2, e3] at hi
        obtain ⟨sign, hs, hsg⟩ := readSign_total s
        exact Or.inr ⟨sign, _, _, hs, hsg, hi, rfl⟩
      · cases h
  · rintro (⟨h, rfl⟩ | ⟨sign, neg, t, rfl, hsg, ht, rfl⟩)
    · rw [if_pos ((e1 s).2 h)]
    · obtain ⟨b, u, rfl, hb⟩ := hhead t ht
      have hr := readSign_text hsg (r := b :: u) (by rintro c ⟨⟩; rcases hb with rfl | rfl <;> decide)
      rw [hr, if_neg, if_pos]
      · simp only; rw [e2, e3]; exact ht
      · rw [e1]
        intro h
        rcases hsg with ⟨rfl | rfl, -⟩ | ⟨rfl, -⟩
        · cases h with
          | cons h _ => rcases hb with rfl | rfl <;> revert h <;> decide
        · cases h with
          | cons h _ => revert h; decide
        · cases h with
          | cons h _ => revert h; decide

/-! ### numbers -/

/-- The float that a literal stands for. -/
def litNum (hex neg : Bool) (n : ℕ) (e : ℤ) : Float64 := if hex then ofScaled binary64 neg n 1 e else ofDec binary64 neg n e

theorem litNum_rounded (hex neg : Bool) (n : ℕ) (e : ℤ) : IsRounded (litValue hex neg n e) (litNum hex neg n e) := by
  cases hex
  · exact ofDec_isRounded neg n e
  · unfold litNum litValue
    simp only [if_true]
    rcases Nat.eq_zero_or_pos n with rfl | hn
    · have e0 : ofScaled binary64 neg 0 1 e = zero binary64 neg := by
        unfold ofScaled frac ofFrac
        split <;> simp
      rw [e0]
      have : (if neg then (-1 : ℚ) else 1) * (((0 : ℕ) : ℚ) * 2 ^ e) = 0 := by simp
      rw [this]
      refine ⟨by rw [abs_zero]; exact top_pos _, fun hh => absurd rfl hh, ?_⟩
      intro y _
      constructor
      · show |0 - (FP.zero binary64 neg).val| ≤ _
        rw [FP.zero_val, sub_zero, abs_zero]; exact abs_nonneg _
      · intros; rfl
    · rw [ofScaled_eq_rnd neg e hn Nat.one_pos]
      have h1 : (0 : ℚ) < n * 2 ^ e := mul_pos (by exact_mod_cast hn) (by positivity)
      have e1 : (n : ℚ) / ((1 : ℕ) : ℚ) = n := by simp
      rw [e1]
      refine rnd_isRounded ?_
      cases neg
      · simpa using h1.ne'
      · simpa using h1.ne'

theorem ofFrac_sign {neg : Bool} {n d : ℕ} (hd : 0 < d) {s : Bool} {m : ℕ} {e : ℤ} {h : binary64.Canon m e}
    (hx : ofFrac binary64 neg n d = .fin s m e h) : s = neg := by
  rcases Nat.eq_zero_or_pos n with rfl | hn
  · unfold ofFrac at hx
    rw [if_pos rfl] at hx
    unfold zero at hx
    cases hx; rfl
  · rcases ofFrac_cases (f := binary64) neg hn hd with ⟨-, m', e', h', he, -⟩ | ⟨-, he⟩
    · rw [he] at hx; cases hx; rfl
    · rw [he] at hx; cases hx

theorem litNum_sign {hex neg : Bool} {n : ℕ} {e : ℤ} {s : Bool} {m : ℕ} {e' : ℤ} {h : binary64.Canon m e'}
    (hx : litNum hex neg n e = .fin s m e' h) : s = neg := by
  unfold litNum at hx
  split at hx
  · unfold ofScaled at hx
    exact ofFrac_sign (frac_pos Nat.one_pos) hx
  · unfold ofDec at hx
    split at hx
    · exact ofFrac_sign Nat.one_pos hx
    · exact ofFrac_sign (by positivity) hx

/-- The text of a number, without underscores. -/
theorem parse_literal {s : GoStr} {hex neg : Bool} {n : ℕ} {e : ℤ} (h95 : 95 ∉ s) (hl : Literal s hex neg n e) :
    parseFloat64 s = match litNum hex neg n e with
      | .inf _ => none
      | x => some x := by
  obtain ⟨sign, pre, ip, is, frac, fp, fs, exp, x, hse, hs, hpre, hi, hf, hne, hx, hn, he⟩ := hl
  obtain ⟨body, hbody⟩ : ∃ body, body = ip ++ (frac ++ exp) := ⟨_, rfl⟩
  obtain ⟨r, hr⟩ : ∃ r, r = pre ++ body := ⟨_, rfl⟩
  have hsr : s = sign ++ r := by rw [hse, hr, hbody]
  have hbh : ∃ b t, body = b :: t ∧ (b = 46 ∨ ∃ d, digitVal hex b = some d) := by
    rw [hbody]
    cases hi with
    | cons h _ => exact ⟨_, _, rfl, Or.inr ⟨_, digitVal_iff.2 h⟩⟩
    | nil =>
      rcases hf with ⟨rfl, rfl, rfl⟩ | ⟨rfl, -⟩
      · exact absurd rfl hne
      · exact ⟨46, _, rfl, Or.inl rfl⟩
  -- the first character
  have hrh : ∃ b t, r = b :: t ∧ (b = 46 ∨ ∃ d, digitVal false b = some d) := by
    cases hex
    · simp only [Bool.false_eq_true, if_false] at hpre
      rw [hr, hpre]; exact hbh
    · simp only [if_true] at hpre
      rcases hpre with rfl | rfl
      · exact ⟨48, _, by rw [hr]; rfl, Or.inr ⟨0, by decide⟩⟩
      · exact ⟨48, _, by rw [hr]; rfl, Or.inr ⟨0, by decide⟩⟩
  obtain ⟨b0, t0, hb0, hb0'⟩ := hrh
  have hb0n : b0 ≠ 43 ∧ b0 ≠ 45 ∧ b0 ≠ 110 ∧ b0 ≠ 78 ∧ b0 ≠ 105 ∧ b0 ≠ 73 := by
    rcases hb0' with rfl | ⟨d, hd⟩
    · decide
    · have key : ∀ b : UInt8, (digitTab false b).isSome → b ≠ 43 ∧ b ≠ 45 ∧ b ≠ 110 ∧ b ≠ 78 ∧ b ≠ 105 ∧ b ≠ 73 := byte_forall (by decide +kernel)
      rw [digitVal_tab] at hd
      exact key b0 (by rw [hd]; rfl)
  have hsign : readSign s = (neg, r) := by
    rw [hsr]
    exact readSign_text hs (by rw [hb0]; rintro c ⟨⟩; exact ⟨hb0n.1, hb0n.2.1⟩)
  have hspec : specialFloat binary64 s = none := by
    cases hsp : specialFloat binary64 s with
    | none => rfl
    | some y =>
      exfalso
      rcases special_iff.1 hsp with ⟨h, -⟩ | ⟨sg, ng, t, hst, hsg, ht, -⟩
      · rw [hsr, hb0] at h
        rcases hs with ⟨rfl | rfl, -⟩ | ⟨rfl, -⟩
        · cases h with
          | cons h _ =>
            rcases h with h | ⟨_, _, h⟩
            · exact hb0n.2.2.1 h
            · exact hb0n.2.2.2.1 (h.trans (by decide))
        · cases h with
          | cons h _ => revert h; decide
        · cases h with
          | cons h _ => revert h; decide
      · have hhead : ∃ b u, t = b :: u ∧ (b = 105 ∨ b = 73) := by
          have : ∀ (t : GoStr) (w : GoStr), SameLetters t (105 :: w) → ∃ b u, t = b :: u ∧ (b = 105 ∨ b = 73) := by
            intro t w h
            cases h with
            | cons h _ =>
              refine ⟨_, _, rfl, ?_⟩
              rcases h with h | ⟨_, _, h⟩
              · exact Or.inl h
              · right; rw [h]; decide
          rcases ht with h | h
          · exact this t _ h
          · exact this t _ h
        obtain ⟨b, u, rfl, hb⟩ := hhead
        have h2 := readSign_text hsg (r := b :: u) (by rintro c ⟨⟩; rcases hb with rfl | rfl <;> decide)
        rw [← hst, hsign] at h2
        have h3 : r = b :: u := congrArg Prod.snd h2
        rw [hb0] at h3
        cases h3
        rcases hb with rfl | rfl
        · exact hb0n.2.2.2.2.1 rfl
        · exact hb0n.2.2.2.2.2 rfl
  have h95b : 95 ∉ body := fun h => h95 (by rw [hsr, hr]; simp [h])
  have h95e : 95 ∉ exp := fun h => h95b (by rw [hbody]; simp [h])
  have hprefix : readPrefix r = (hex, body) := by
    cases hex
    · simp only [Bool.false_eq_true, if_false] at hpre
      have hrb : r = body := by rw [hr, hpre]; rfl
      rw [hrb]
      have key : ∀ b c t, 48 :: b :: c :: t = ip ++ (frac ++ exp) → lowerByte b ≠ 120 := by
        intro b c t hb1 hb
        have hx2 : b = 120 ∨ b = 88 := (lower_x b).1 hb
        -- the second character is a digit, a point or the letter of the exponent
        have hno : digitVal false b = none ∧ b ≠ 46 ∧ b ≠ 101 ∧ b ≠ 69 := by rcases hx2 with rfl | rfl <;> decide
        cases hi with
        | nil =>
          rcases hf with ⟨rfl, rfl, rfl⟩ | ⟨rfl, -⟩
          · exact absurd rfl hne
          · cases hb1
        | cons hd hds =>
          rename_i c0 d0 l0 ds0
          have hb2 : b :: c :: t = l0 ++ (frac ++ exp) := (List.cons.inj hb1).2
          cases hds with
          | cons hd2 _ =>
            have : b = _ := (List.cons.inj hb2).1
            rw [this, digitVal_iff.2 hd2] at hno; cases hno.1
          | nil =>
            rcases hf with ⟨rfl, rfl, rfl⟩ | ⟨rfl, -⟩
            · simp only [List.nil_append] at hb2
              rcases hx with ⟨-, rfl, -⟩ | ⟨e1, sg, ng, d, nn, rfl, he1, -⟩
              · cases hb2
              · simp only [Bool.false_eq_true, if_false] at he1
                rcases he1 with rfl | rfl
                · exact hno.2.2.1 (List.cons.inj hb2).1
                · exact hno.2.2.2 (List.cons.inj hb2).1
            · exact hno.2.1 (List.cons.inj hb2).1
      rw [← hbody] at key
      unfold readPrefix
      split
      · rw [if_neg (key _ _ _ rfl)]
      · rfl
    · simp only [if_true] at hpre
      obtain ⟨b, t, hbt, -⟩ := hbh
      rw [hr, hbt]
      rcases hpre with rfl | rfl <;> rfl
  have hscan : ∃ dot, scanMant hex ⟨false, false, 0, 0⟩ body =
      (⟨dot, true, (is ++ fs).foldl (fun n d => baseOf hex * n + d) 0, fs.length⟩, exp) := by
    rw [hbody, scan_digits hex hi]
    rcases hf with ⟨rfl, rfl, rfl⟩ | ⟨rfl, hf⟩
    · refine ⟨false, ?_⟩
      rw [List.nil_append, scan_stop]
      · rw [List.append_nil] at hne ⊢
        cases is with
        | nil => exact absurd rfl hne
        | cons b is => simp
      · intro b hb
        obtain ⟨h1, h2, h3⟩ := hx.head b hb
        exact ⟨h1, fun h => absurd h h2, h3⟩
    · refine ⟨true, ?_⟩
      rw [List.append_assoc]
      show scanMant hex _ (46 :: (fp ++ exp)) = _
      rw [scanMant, if_neg (by decide), if_pos rfl, if_neg (by simp), scan_digits hex hf, scan_stop]
      · simp only [List.foldl_append]
        congr 2
        · cases is <;> cases fs <;> simp at hne ⊢
        · simp
      · intro b hb
        obtain ⟨h1, h2, h3⟩ := hx.head b hb
        exact ⟨h1, fun h => absurd h h2, h3⟩
  obtain ⟨dot, hscan⟩ := hscan
  have hn' : (is ++ fs).foldl (fun n d => baseOf hex * n + d) 0 = n := by rw [hn, ofDigits_snoc]; rfl
  rw [hn'] at hscan
  have h95' : ¬ (95 ∈ s ∧ underscoreOK s = false) := fun h => h95 h.1
  unfold parseFloat64
  simp only [hspec, hsign, hprefix, hscan, (readExp_iff h95e).2 hx, if_neg h95', if_true]
  unfold litNum
  rw [he]
  cases hex
  · simp only [Bool.false_eq_true, if_false, one_mul]
    cases ofDec binary64 neg n (x - fs.length) <;> rfl
  · simp only [if_true]
    cases ofScaled binary64 neg n 1 (x - 4 * fs.length) <;> rfl

/-- What is read, is the text of a number. -/
theorem literal_of_parse {s : GoStr} {y : Float64} (h95 : 95 ∉ s) (h : parseFloat64 s = some y) (hsp : specialFloat binary64 s = none) :
    ∃ hex neg n e, Literal s hex neg n e ∧ y = litNum hex neg n e ∧ y.Finite := by
  unfold parseFloat64 at h
  simp only [hsp] at h
  obtain ⟨sign, hs, hsg⟩ := readSign_total s
  obtain ⟨r, hr⟩ : ∃ r, r = (readSign s).2 := ⟨_, rfl⟩
  obtain ⟨neg, hneg⟩ : ∃ neg, neg = (readSign s).1 := ⟨_, rfl⟩
  rw [← hr] at hs
  rw [← hneg] at hsg
  rw [← hr, ← hneg] at h
  have hp : ∃ pre hex body, readPrefix r = (hex, body) ∧ r = pre ++ body ∧ (if hex then pre = b!"0x" ∨ pre = b!"0X" else pre = []) := by
    unfold readPrefix
    split
    · rename_i b c t
      by_cases hb : lowerByte b = 120
      · rw [if_pos hb]
        refine ⟨[48, b], true, c :: t, rfl, rfl, ?_⟩
        rcases (lower_x b).1 hb with rfl | rfl
        · exact Or.inl rfl
        · exact Or.inr rfl
      · rw [if_neg hb]
        exact ⟨[], false, _, rfl, rfl, rfl⟩
    · exact ⟨[], false, _, rfl, rfl, rfl⟩
  obtain ⟨pre, hex, body, hpre, hrb, hpre'⟩ := hp
  rw [hpre] at h
  have h95b : 95 ∉ body := fun h => h95 (by rw [hs, hrb]; simp [h])
  obtain ⟨ip, is, frac, fp, fs, exp, dot, hbody, hi, hf, hscan⟩ := scan_total hex h95b
  rw [hscan] at h
  simp only at h
  have h95e : 95 ∉ exp := fun h => h95b (by rw [hbody]; simp [h])
  by_cases hne : (!(is ++ fs).isEmpty) = true
  · rw [if_pos hne] at h
    have hne' : is ++ fs ≠ [] := by intro e; rw [e] at hne; cases hne
    cases hx : readExp hex exp with
    | none => rw [hx] at h; cases h
    | some p =>
      obtain ⟨x, rest⟩ := p
      rw [hx] at h
      cases rest with
      | cons b t => simp at h
      | nil =>
        simp only at h
        rw [if_neg (fun h => h95 h.1)] at h
        have hn : (is ++ fs).foldl (fun n d => baseOf hex * n + d) 0 = Nat.ofDigits (if hex then 16 else 10) (is ++ fs).reverse := by
          rw [ofDigits_snoc]; rfl
        refine ⟨hex, neg, _, _, ⟨sign, pre, ip, is, frac, fp, fs, exp, x, by rw [hs, hrb, hbody], hsg, hpre', hi, hf, hne',
          (readExp_iff h95e).1 hx, rfl, rfl⟩, ?_⟩
        rw [hn] at h
        unfold litNum
        cases hex
        · simp only [Bool.false_eq_true, if_false, one_mul] at h ⊢
          cases hz : ofDec binary64 neg (Nat.ofDigits 10 (is ++ fs).reverse) (x - fs.length) with
          | nan => exact absurd (ofDec_isRounded (f := binary64) neg (Nat.ofDigits 10 (is ++ fs).reverse) (x - fs.length)) (by rw [hz]; exact id)
          | inf => rw [hz] at h; cases h
          | fin => rw [hz] at h; cases h; exact ⟨rfl, trivial⟩
        · simp only [if_true] at h ⊢
          cases hz : ofScaled binary64 neg (Nat.ofDigits 16 (is ++ fs).reverse) 1 (x - 4 * fs.length) with
          | nan =>
            have := litNum_rounded true neg (Nat.ofDigits 16 (is ++ fs).reverse) (x - 4 * fs.length)
            unfold litNum at this
            rw [if_pos rfl, hz] at this
            exact this.elim
          | inf => rw [hz] at h; cases h
          | fin => rw [hz] at h; cases h; exact ⟨rfl, trivial⟩
  · rw [if_neg hne] at h; cases h

/-- **C84** (all texts). A text without underscores is read as a float exactly if it is NaN or an infinity in small or capital letters,
or a decimal or hexadecimal number, written out by the rules of `Literal`, that is not too large; the float is the nearest one
(ties to even), with the sign of the text, also for zero. Nothing else is a float. -/
theorem C84_syntax {s : GoStr} (h95 : (95 : UInt8) ∉ s) :
    (∀ y, parseFloat64 s = some y → SpecialText s y ∨
      ∃ hex neg n e m e' hc, Literal s hex neg n e ∧ y = .fin neg m e' hc ∧ IsRounded (litValue hex neg n e) y) ∧
    (∀ y, SpecialText s y → parseFloat64 s = some y) ∧
    (∀ hex neg n e, Literal s hex neg n e →
      (|litValue hex neg n e| < binary64.top → ∃ m e' hc, parseFloat64 s = some (.fin neg m e' hc) ∧
        IsRounded (litValue hex neg n e) (.fin neg m e' hc : Float64)) ∧
      (binary64.top ≤ |litValue hex neg n e| → parseFloat64 s = none)) := by
  refine ⟨?_, ?_, ?_⟩
  · intro y h
    cases hsp : specialFloat binary64 s with
    | some z =>
      left
      unfold parseFloat64 at h
      simp only [hsp] at h
      cases h
      exact special_iff.1 hsp
    | none =>
      right
      obtain ⟨hex, neg, n, e, hl, rfl, hfin⟩ := literal_of_parse h95 h hsp
      have hr := litNum_rounded hex neg n e
      cases hz : litNum hex neg n e with
      | nan => rw [hz] at hfin; cases hfin
      | inf => rw [hz] at hfin; cases hfin
      | fin sg m e' hc =>
        have := litNum_sign hz
        subst this
        rw [hz] at hr
        exact ⟨hex, _, n, e, m, e', hc, hl, rfl, hr⟩
  · intro y hy
    unfold parseFloat64
    rw [special_iff.2 hy]
  · intro hex neg n e hl
    have hr := litNum_rounded hex neg n e
    rw [parse_literal h95 hl]
    cases hz : litNum hex neg n e with
    | nan => rw [hz] at hr; exact hr.elim
    | inf sg => rw [hz] at hr; exact ⟨fun h => absurd h (not_lt.2 hr.1), fun _ => rfl⟩
    | fin sg m e' hc =>
      have := litNum_sign hz
      subst this
      rw [hz] at hr
      exact ⟨fun _ => ⟨m, e', hc, rfl, hr⟩, fun h => absurd hr.1 (not_lt.2 h)⟩

/-- **C84**: how NaN and the infinities are written; only they have such texts. -/
theorem C84_special_out (x : Float64) : (fmtFloat64 x = b!"NaN" ↔ x = .nan) ∧ (fmtFloat64 x = b!"+Inf" ↔ x = .inf false) ∧
    (fmtFloat64 x = b!"-Inf" ↔ x = .inf true) := by
  have h : ∀ y : Float64, fmtFloat64 x = fmtFloat64 y ↔ x = y := fun y => ⟨C84_injective, fun e => by rw [e]⟩
  exact ⟨h .nan, h (.inf false), h (.inf true)⟩

/-- `-0x1.8p-1` is `-24 * 2 ^ -5 = -0.75`. -/
theorem literal_hex : Literal b!"-0x1.8p-1" true true 24 (-5) :=
  ⟨b!"-", b!"0x", b!"1", [1], b!".8", b!"8", [8], b!"p-1", -1, rfl, Or.inr ⟨rfl, rfl⟩, Or.inl rfl,
    .cons (Or.inl (by decide)) .nil, Or.inr ⟨rfl, .cons (Or.inl (by decide)) .nil⟩, by decide,
    Or.inr ⟨b!"p", b!"-", true, b!"1", 1, rfl, Or.inl rfl, Or.inr ⟨rfl, rfl⟩, ⟨by decide, by decide⟩, ⟨b!"1", [], rfl, by decide, Or.inl rfl, by decide⟩, rfl⟩,
    by decide, by decide⟩

example : (∃ m e hc, parseFloat64 b!"-0x1.8p-1" = some (.fin true m e hc) ∧ IsRounded (litValue true true 24 (-5)) (.fin true m e hc : Float64)) ∧
    litValue true true 24 (-5) = -(3 / 4) :=
  ⟨((C84_syntax (s := b!"-0x1.8p-1") (by decide)).2.2 _ _ _ _ literal_hex).1 (by
    have h : litValue true true 24 (-5) = -(3 / 4) := by unfold litValue; norm_num
    rw [h]
    exact lt_top64 (a := 0) (by norm_num) (by norm_num [abs_of_neg])), by unfold litValue; norm_num⟩

example : SpecialText b!"nAn" .nan ∧ SpecialText b!"+INFinity" (.inf false) ∧ parseFloat64 b!"nAn" = some .nan ∧
    parseFloat64 b!"+INFinity" = some (.inf false) ∧ parseFloat64 b!"0x1.8" = none ∧ parseFloat64 b!"1e" = none ∧ parseFloat64 b!"1.2.3" = none := by
  refine ⟨?_, ?_, by decide +kernel, by decide +kernel, by decide +kernel, by decide +kernel, by decide +kernel⟩
  · exact special_iff.1 (by decide +kernel)
  · exact special_iff.1 (by decide +kernel)

end Float64
end Verif
