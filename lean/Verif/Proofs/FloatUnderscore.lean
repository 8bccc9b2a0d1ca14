import Verif.Props.FloatLiteral

/-! `strconv.ParseFloat`: underscores. -/

namespace Verif
open FP

/-- Without the underscores. -/
def strip (s : GoStr) : GoStr := s.filter (fun b => decide (b ≠ 95))

theorem strip_cons {b : UInt8} (hb : b ≠ 95) (s : GoStr) : strip (b :: s) = b :: strip s := by
  unfold strip; rw [List.filter_cons, if_pos (by simpa using hb)]
theorem strip_us (s : GoStr) : strip (95 :: s) = strip s := by
  unfold strip; rw [List.filter_cons, if_neg (by simp)]
theorem strip_append (s t : GoStr) : strip (s ++ t) = strip s ++ strip t := List.filter_append _ _

theorem scanMant_strip (hex : Bool) : ∀ (s : GoStr) (a : Mant),
    scanMant hex a (strip s) = ((scanMant hex a s).1, strip (scanMant hex a s).2) ∧ (scanMant hex a s).2.head? ≠ some 95
  | [], a => ⟨rfl, by simp [scanMant]⟩
  | b :: s, a => by
    by_cases hb : b = 95
    · subst hb
      rw [strip_us, scanMant, if_pos rfl]
      exact scanMant_strip hex s a
    · rw [strip_cons hb, scanMant, if_neg hb, scanMant, if_neg hb]
      by_cases h46 : b = 46
      · rw [if_pos h46, if_pos h46]
        by_cases hd : a.dot = true
        · rw [if_pos hd, if_pos hd]
          exact ⟨by rw [← strip_cons hb], by simpa using hb⟩
        · rw [if_neg hd, if_neg hd]
          exact scanMant_strip hex s _
      · rw [if_neg h46, if_neg h46]
        cases hv : digitVal hex b with
        | none => exact ⟨by simp only [hv]; rw [← strip_cons hb], by simpa [hv] using hb⟩
        | some d => simpa [hv] using scanMant_strip hex s _

theorem scanExp_strip : ∀ (s : GoStr) (n : ℕ),
    scanExp n (strip s) = ((scanExp n s).1, strip (scanExp n s).2) ∧ (scanExp n s).2.head? ≠ some 95
  | [], n => ⟨rfl, by simp [scanExp]⟩
  | b :: s, n => by
    by_cases hb : b = 95
    · subst hb
      rw [strip_us, scanExp, if_pos rfl]
      exact scanExp_strip s n
    · rw [strip_cons hb, scanExp, if_neg hb, scanExp, if_neg hb]
      by_cases hd : isDigit b = true
      · rw [if_pos hd, if_pos hd]
        exact scanExp_strip s _
      · rw [if_neg hd, if_neg hd]
        exact ⟨by rw [← strip_cons hb], by simpa using hb⟩

/-! ### the rule -/

/-- A digit for `underscoreOK`. -/
def usDigit (hex : Bool) (b : UInt8) : Bool := isDigit b || (hex && between 97 102 (lowerByte b))

/-- Next to an underscore there are digits. -/
def UsNext (hex : Bool) (x y : UInt8) : Prop := (y = 95 → usDigit hex x = true) ∧ (x = 95 → usDigit hex y = true)

theorem usDigit_95 (hex : Bool) : usDigit hex 95 = false := by cases hex <;> decide
theorem usDigit_33 (hex : Bool) : usDigit hex 33 = false := by cases hex <;> decide
theorem usDigit_94 (hex : Bool) : usDigit hex 94 = false := by cases hex <;> decide
theorem usDigit_48 (hex : Bool) : usDigit hex 48 = true := by cases hex <;> decide

/-- Two first characters of the same kind. -/
theorem chain_head {hex : Bool} {x y : UInt8} (h1 : usDigit hex x = usDigit hex y) (h2 : x = 95 ↔ y = 95) (s : GoStr) :
    List.IsChain (UsNext hex) (x :: s) ↔ List.IsChain (UsNext hex) (y :: s) := by
  cases s with
  | nil => simp
  | cons c s =>
    rw [List.isChain_cons_cons, List.isChain_cons_cons]
    unfold UsNext
    rw [h1, h2]

theorem underscoreScan_iff (hex : Bool) : ∀ (s : GoStr) (last : UInt8), last = 48 ∨ usDigit hex last = false →
    (underscoreScan hex last s = true ↔ List.IsChain (UsNext hex) (last :: s) ∧ (last :: s).getLast? ≠ some 95)
  | [], last, _ => by simp [underscoreScan]
  | b :: s, last, hlast => by
    rw [underscoreScan, List.getLast?_cons_cons]
    by_cases hd : usDigit hex b = true
    · have hb : b ≠ 95 := by rintro rfl; rw [usDigit_95] at hd; cases hd
      have hd' := hd
      unfold usDigit at hd'
      rw [if_pos hd', underscoreScan_iff hex s 48 (Or.inl rfl), List.isChain_cons_cons,
        chain_head (hex := hex) (x := 48) (y := b) (by rw [hd, usDigit_48]) (by simp [hb])]
      have e : (48 :: s).getLast? ≠ some 95 ↔ (b :: s).getLast? ≠ some 95 := by
        cases s with
        | nil => simp [hb]
        | cons c s => rw [List.getLast?_cons_cons, List.getLast?_cons_cons]
      rw [e]
      have : UsNext hex last b := ⟨fun h => absurd h hb, fun _ => hd⟩
      simp [this]
    · have hd' := hd
      unfold usDigit at hd'
      rw [if_neg hd']
      have hdf : usDigit hex b = false := by simpa using hd
      by_cases hb : b = 95
      · subst hb
        rw [if_pos rfl, Bool.and_eq_true, underscoreScan_iff hex s 95 (Or.inr (usDigit_95 hex)), List.isChain_cons_cons]
        have : UsNext hex last 95 ↔ (last == 48) = true := by
          unfold UsNext
          constructor
          · rintro ⟨h1, -⟩
            rcases hlast with rfl | h
            · rfl
            · rw [h1 rfl] at h; cases h
          · intro h
            have : last = 48 := by simpa using h
            subst this
            exact ⟨fun _ => usDigit_48 hex, fun h => by cases h⟩
        rw [this]
        constructor
        · rintro ⟨a, b, c⟩; exact ⟨⟨a, b⟩, c⟩
        · rintro ⟨⟨a, b⟩, c⟩; exact ⟨a, b, c⟩
      · rw [if_neg hb, Bool.and_eq_true, underscoreScan_iff hex s 33 (Or.inr (usDigit_33 hex)), List.isChain_cons_cons,
          chain_head (hex := hex) (x := 33) (y := b) (by rw [hdf, usDigit_33]) (by simp [hb])]
        have e : (33 :: s).getLast? ≠ some 95 ↔ (b :: s).getLast? ≠ some 95 := by
          cases s with
          | nil => simp [hb]
          | cons c s => rw [List.getLast?_cons_cons, List.getLast?_cons_cons]
        rw [e]
        have : UsNext hex last b ↔ (last != 95) = true := by
          unfold UsNext
          rw [hdf]
          simp [hb]
        rw [this]
        constructor
        · rintro ⟨a, b, c⟩; exact ⟨⟨a, b⟩, c⟩
        · rintro ⟨⟨a, b⟩, c⟩; exact ⟨a, b, c⟩

/-- The rule, by the places of the underscores. -/
theorem chain_iff (hex : Bool) (L : GoStr) :
    (List.IsChain (UsNext hex) L ∧ L.head? ≠ some 95 ∧ L.getLast? ≠ some 95) ↔
      ∀ u v, L = u ++ 95 :: v → (∃ u' c, u = u' ++ [c] ∧ usDigit hex c = true) ∧ ∃ c v', v = c :: v' ∧ usDigit hex c = true := by
  constructor
  · rintro ⟨hc, hh, hl⟩ u v rfl
    constructor
    · rcases List.eq_nil_or_concat u with rfl | ⟨u', c, rfl⟩
      · exact absurd rfl hh
      · refine ⟨u', c, by simp, ?_⟩
        have : List.IsChain (UsNext hex) (c :: 95 :: v) := by
          rw [List.concat_eq_append, List.append_assoc] at hc
          exact hc.right_of_append
        rw [List.isChain_cons_cons] at this
        exact this.1.1 rfl
    · cases v with
      | nil => simp at hl
      | cons c v =>
        refine ⟨c, v, rfl, ?_⟩
        have := hc.right_of_append
        rw [List.isChain_cons_cons] at this
        exact this.1.2 rfl
  · intro h
    refine ⟨?_, ?_, ?_⟩
    · suffices H : ∀ (w L' : GoStr), L = w ++ L' → List.IsChain (UsNext hex) L' from H [] L rfl
      intro w L'
      induction L' generalizing w with
      | nil => intro _; exact List.isChain_nil
      | cons a t ih =>
        intro e
        cases t with
        | nil => exact List.isChain_singleton _
        | cons b t =>
          rw [List.isChain_cons_cons]
          refine ⟨⟨?_, ?_⟩, ih (w ++ [a]) (by rw [e]; simp)⟩
          · rintro rfl
            obtain ⟨⟨u', c, hu, hc⟩, -⟩ := h (w ++ [a]) t (by rw [e]; simp)
            have := List.append_inj_right' hu rfl
            cases this
            exact hc
          · rintro rfl
            obtain ⟨-, c, v', hv, hc⟩ := h w (b :: t) (by rw [e])
            cases hv
            exact hc
    · intro hh
      cases L with
      | nil => cases hh
      | cons b t =>
        cases hh
        obtain ⟨⟨u', c, hu, -⟩, -⟩ := h [] t rfl
        simp at hu
    · intro hl
      obtain ⟨w, hw⟩ := List.getLast?_eq_some_iff.1 hl
      obtain ⟨-, c, v', hv, -⟩ := h w [] (by rw [hw])
      cases hv

end Verif
