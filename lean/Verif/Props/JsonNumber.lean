import Verif.Model.Json
import Mathlib.Data.List.TakeWhile

/-! C77, the numbers: the texts that are JSON numbers are those of the grammar (RFC 8259, section 6). -/

namespace Verif

/-- One digit or more. -/
def Digits (s : GoStr) : Prop := s ≠ [] ∧ ∀ b ∈ s, 48 ≤ b ∧ b ≤ 57

/-- `number = [ "-" ] ( "0" / digit1-9 *digit ) [ "." 1*digit ] [ ( "e" / "E" ) [ "-" / "+" ] 1*digit ]` -/
def NumberText (s : GoStr) : Prop :=
  ∃ sign int frac exp, s = sign ++ (int ++ (frac ++ exp)) ∧ (sign = [] ∨ sign = b!"-") ∧
    (int = b!"0" ∨ Digits int ∧ int.head? ≠ some 48) ∧
    (frac = [] ∨ ∃ d, frac = b!"." ++ d ∧ Digits d) ∧
    (exp = [] ∨ ∃ e s d, exp = e ++ (s ++ d) ∧ (e = b!"e" ∨ e = b!"E") ∧ (s = [] ∨ s = b!"+" ∨ s = b!"-") ∧ Digits d)

theorem isDigit_iff {b : UInt8} : isDigit b = true ↔ 48 ≤ b ∧ b ≤ 57 := by
  unfold isDigit between
  simp

theorem allDigits_iff {s : GoStr} : allDigits s = true ↔ Digits s := by
  unfold allDigits Digits
  simp [isDigit_iff]

/-- Digits followed by something that is no digit. -/
theorem dropWhile_digits {d s : GoStr} (hd : ∀ b ∈ d, isDigit b = true) (hs : ∀ b, s.head? = some b → isDigit b = false) :
    (d ++ s).takeWhile isDigit = d ∧ (d ++ s).dropWhile isDigit = s := by
  induction d with
  | nil =>
    cases s with
    | nil => exact ⟨rfl, rfl⟩
    | cons b s =>
      have := hs b rfl
      simp [this]
  | cons b d ih =>
    obtain ⟨h1, h2⟩ := ih fun x hx => hd x (by simp [hx])
    have := hd b (by simp)
    simp [this, h1, h2]

def ExpText (exp : GoStr) : Prop :=
  exp = [] ∨ ∃ e s d, exp = e ++ (s ++ d) ∧ (e = b!"e" ∨ e = b!"E") ∧ (s = [] ∨ s = b!"+" ∨ s = b!"-") ∧ Digits d

theorem validExp_iff {s : GoStr} : validExp s = true ↔ ExpText s := by
  unfold ExpText
  constructor
  · intro h
    cases s with
    | nil => exact Or.inl rfl
    | cons e s =>
      right
      unfold validExp at h
      rw [Bool.and_eq_true] at h
      obtain ⟨h1, h2⟩ := h
      have he : ([e] : GoStr) = b!"e" ∨ ([e] : GoStr) = b!"E" := by
        simp only [Bool.or_eq_true, beq_iff_eq] at h1
        rcases h1 with rfl | rfl
        · exact Or.inr (by decide)
        · exact Or.inl (by decide)
      cases s with
      | nil => cases h2
      | cons c s =>
        simp only at h2
        split at h2
        · rename_i hc
          refine ⟨[e], [c], s, rfl, he, ?_, allDigits_iff.1 h2⟩
          rcases hc with rfl | rfl
          · exact Or.inr (Or.inl (by decide))
          · exact Or.inr (Or.inr (by decide))
        · exact ⟨[e], [], c :: s, rfl, he, Or.inl rfl, allDigits_iff.1 h2⟩
  · rintro (rfl | ⟨e, s, d, rfl, he, hs, hd⟩)
    · rfl
    · have hd' := allDigits_iff.2 hd
      have key : ∀ x : UInt8, (x == 69 || x == 101) = true → validExp (x :: (s ++ d)) = true := by
        intro x hx
        unfold validExp
        dsimp only
        rw [hx, Bool.true_and]
        rcases hs with rfl | rfl | rfl
        · obtain ⟨c, d, rfl⟩ := List.exists_cons_of_ne_nil hd.1
          have := hd.2 c (by simp)
          simp only [List.nil_append]
          rw [if_neg]
          · exact hd'
          · rintro (rfl | rfl)
            · exact absurd this.1 (by decide)
            · exact absurd this.1 (by decide)
        · exact hd'
        · exact hd'
      rcases he with rfl | rfl
      · exact key 101 (by decide)
      · exact key 69 (by decide)

theorem ExpText.head {s : GoStr} (h : ExpText s) : ∀ b, s.head? = some b → isDigit b = false ∧ b ≠ 46 := by
  rintro b hb
  rcases h with rfl | ⟨e, s, d, rfl, rfl | rfl, _⟩
  · cases hb
  · cases hb; decide
  · cases hb; decide

def FracText (t : GoStr) : Prop :=
  ∃ frac exp, t = frac ++ exp ∧ (frac = [] ∨ ∃ d, frac = b!"." ++ d ∧ Digits d) ∧ ExpText exp

theorem validFrac_iff {t : GoStr} : validFrac t = true ↔ FracText t := by
  unfold FracText
  constructor
  · intro h
    unfold validFrac at h
    split at h
    · rename_i s
      rw [Bool.and_eq_true] at h
      refine ⟨46 :: s.takeWhile isDigit, s.dropWhile isDigit, ?_, Or.inr ⟨_, rfl, ?_, ?_⟩, validExp_iff.1 h.2⟩
      · rw [List.cons_append, List.takeWhile_append_dropWhile]
      · intro h0
        rw [h0] at h
        cases h.1
      · intro b hb
        exact isDigit_iff.1 (List.mem_takeWhile_imp hb)
    · exact ⟨[], t, rfl, Or.inl rfl, validExp_iff.1 h⟩
  · rintro ⟨frac, exp, rfl, rfl | ⟨d, rfl, hd⟩, hx⟩
    · rw [List.nil_append]
      unfold validFrac
      split
      · exact absurd rfl (hx.head 46 rfl).2
      · exact validExp_iff.2 hx
    · obtain ⟨h1, h2⟩ := dropWhile_digits (d := d) (s := exp) (fun b hb => isDigit_iff.2 (hd.2 b hb)) fun b hb => (hx.head b hb).1
      show (!((d ++ exp).takeWhile isDigit).isEmpty && validExp ((d ++ exp).dropWhile isDigit)) = true
      rw [h1, h2, validExp_iff.2 hx]
      cases d with
      | nil => exact absurd rfl hd.1
      | cons b d => rfl

theorem FracText.head {s : GoStr} (h : FracText s) : ∀ b, s.head? = some b → isDigit b = false := by
  obtain ⟨frac, exp, rfl, rfl | ⟨d, rfl, hd⟩, hx⟩ := h
  · intro b hb; exact (hx.head b hb).1
  · intro b hb
    cases hb; decide

theorem validUnsigned_iff {t : GoStr} : validUnsigned t = true ↔
    ∃ int rest, t = int ++ rest ∧ (int = b!"0" ∨ Digits int ∧ int.head? ≠ some 48) ∧ FracText rest := by
  constructor
  · intro h
    unfold validUnsigned at h
    split at h
    · cases h
    · rename_i s
      exact ⟨b!"0", s, rfl, Or.inl rfl, validFrac_iff.1 h⟩
    · rename_i b s hb
      rw [Bool.and_eq_true] at h
      refine ⟨b :: s.takeWhile isDigit, s.dropWhile isDigit, ?_, Or.inr ⟨⟨by simp, ?_⟩, ?_⟩, validFrac_iff.1 h.2⟩
      · rw [List.cons_append, List.takeWhile_append_dropWhile]
      · have h1 := h.1
        unfold between at h1
        simp only [Bool.and_eq_true, decide_eq_true_eq] at h1
        intro x hx
        rcases List.mem_cons.1 hx with rfl | hx
        · exact ⟨UInt8.le_trans (by decide) h1.1, h1.2⟩
        · exact isDigit_iff.1 (List.mem_takeWhile_imp hx)
      · intro hx
        simp only [List.head?_cons, Option.some.injEq] at hx
        exact hb hx
  · rintro ⟨int, rest, rfl, rfl | ⟨hi, h0⟩, hr⟩
    · exact validFrac_iff.2 hr
    · obtain ⟨b, d, rfl⟩ := List.exists_cons_of_ne_nil hi.1
      have hb : b ≠ 48 := by simpa using h0
      rw [List.cons_append]
      unfold validUnsigned
      split
      · rename_i h; cases h
      · rename_i h; cases h; exact absurd rfl hb
      · rename_i h
        cases h
        have hb2 := hi.2 b (by simp)
        have h49 : 49 ≤ b := by
          have h1 : (48 : UInt8).toNat ≤ b.toNat := UInt8.le_iff_toNat_le.1 hb2.1
          have h2 : b.toNat ≠ 48 := fun h => hb (UInt8.toNat_inj.1 h)
          apply UInt8.le_iff_toNat_le.2
          change 48 ≤ b.toNat at h1
          show 49 ≤ b.toNat
          omega
        rw [(dropWhile_digits (fun x hx => isDigit_iff.2 (hi.2 x (by simp [hx]))) hr.head).2, validFrac_iff.2 hr]
        unfold between
        simp [h49, hb2.2]

/-- **C77** (numbers). A text is taken for a JSON number if and only if it follows the grammar of JSON. -/
theorem C77_numbers (s : GoStr) : validNumber s = true ↔ NumberText s := by
  constructor
  · intro h
    have key : ∀ t sign, validUnsigned t = true → (sign = [] ∨ sign = b!"-") → NumberText (sign ++ t) := by
      intro t sign ht hs
      obtain ⟨int, rest, rfl, hi, frac, exp, rfl, hf, hx⟩ := validUnsigned_iff.1 ht
      exact ⟨sign, int, frac, exp, rfl, hs, hi, hf, hx⟩
    unfold validNumber at h
    split at h
    · rename_i s; exact key s b!"-" h (Or.inr rfl)
    · exact key s [] h (Or.inl rfl)
  · rintro ⟨sign, int, frac, exp, rfl, hs, hi, hf, hx⟩
    have hu : validUnsigned (int ++ (frac ++ exp)) = true := validUnsigned_iff.2 ⟨int, _, rfl, hi, frac, exp, rfl, hf, hx⟩
    rcases hs with rfl | rfl
    · rw [List.nil_append]
      unfold validNumber
      split
      · rename_i s h
        rw [h] at hu
        exfalso
        revert hu
        unfold validUnsigned
        simp [between]
      · exact hu
    · exact hu

/-- Instances. -/
example : NumberText b!"-12.50e-07" :=
  ⟨b!"-", b!"12", b!".50", b!"e-07", rfl, Or.inr rfl, Or.inr ⟨⟨by decide, by decide⟩, by decide⟩, Or.inr ⟨b!"50", rfl, by decide, by decide⟩,
    Or.inr ⟨b!"e", b!"-", b!"07", rfl, Or.inl rfl, Or.inr (Or.inr rfl), by decide, by decide⟩⟩

example : ¬ NumberText b!"01" := fun h => absurd ((C77_numbers _).2 h) (by decide)

/-- The characters of a number are those the reader takes for one. -/
theorem numChar_of_valid {s : GoStr} (h : validNumber s = true) : ∀ b ∈ s, numChar b = true := by
  obtain ⟨sign, int, frac, exp, rfl, hs, hi, hf, he⟩ := (C77_numbers s).1 h
  have hd : ∀ {d : GoStr}, Digits d → ∀ b ∈ d, numChar b = true := fun hd b hb => by
    have := isDigit_iff.2 (hd.2 b hb)
    simp [numChar, this]
  have hl : ∀ b ∈ ([43, 45, 46, 48, 69, 101] : GoStr), numChar b = true := by decide
  have e1 : b!"-" = [45] := by decide
  have e2 : b!"0" = [48] := by decide
  have e3 : b!"." = [46] := by decide
  have e4 : b!"e" = [101] := by decide
  have e5 : b!"E" = [69] := by decide
  have e6 : b!"+" = [43] := by decide
  rw [e1] at hs
  rw [e2] at hi
  rw [e3] at hf
  rw [e1, e4, e5, e6] at he
  intro b hb
  simp only [List.mem_append] at hb
  rcases hb with hb | hb | hb | hb
  · rcases hs with rfl | rfl
    · cases hb
    · exact hl b (by simp_all)
  · rcases hi with rfl | hi
    · exact hl b (by simp_all)
    · exact hd hi.1 b hb
  · rcases hf with rfl | ⟨d, rfl, h1⟩
    · cases hb
    · rcases List.mem_append.1 hb with hb | hb
      · exact hl b (by simp_all)
      · exact hd h1 b hb
  · rcases he with rfl | ⟨e, s, d, rfl, h1, h2, h3⟩
    · cases hb
    · simp only [List.mem_append] at hb
      rcases hb with hb | hb | hb
      · exact hl b (by rcases h1 with rfl | rfl <;> simp_all)
      · exact hl b (by rcases h2 with rfl | rfl | rfl <;> simp_all)
      · exact hd h3 b hb

end Verif
