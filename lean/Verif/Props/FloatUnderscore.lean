import Verif.Proofs.FloatUnderscore

/-! C84: texts with underscores. -/

namespace Verif
namespace Float64
open FP

theorem hexStart_iff {s : GoStr} : HexStart s ↔ ∃ b t, (readSign s).2 = 48 :: b :: t ∧ (b = 120 ∨ b = 88) := by
  constructor
  · rintro ⟨sign, neg, t, hs, rfl | rfl⟩
    · refine ⟨120, t, ?_, Or.inl rfl⟩
      rw [readSign_text hs (by rintro c ⟨⟩; decide)]; rfl
    · refine ⟨88, t, ?_, Or.inr rfl⟩
      rw [readSign_text hs (by rintro c ⟨⟩; decide)]; rfl
  · rintro ⟨b, t, hr, hb⟩
    obtain ⟨sign, hs, hsg⟩ := readSign_total s
    rw [hr] at hs
    refine ⟨sign, _, t, hsg, ?_⟩
    rcases hb with rfl | rfl
    · exact Or.inl hs
    · exact Or.inr hs

theorem usDigit_iff {hex : Bool} {b : UInt8} : usDigit hex b = true ↔ (48 ≤ b ∧ b ≤ 57) ∨ hex = true ∧ (97 ≤ b ∧ b ≤ 102 ∨ 65 ≤ b ∧ b ≤ 70) := by
  have h : ∀ b : UInt8, usDigit hex b = true ↔ (48 ≤ b ∧ b ≤ 57) ∨ hex = true ∧ (97 ≤ b ∧ b ≤ 102 ∨ 65 ≤ b ∧ b ≤ 70) := by
    cases hex
    · exact byte_forall (by decide +kernel)
    · exact byte_forall (by decide +kernel)
  exact h b

theorem digitOf_iff {s : GoStr} {hex : Bool} (h : hex = true ↔ HexStart s) {b : UInt8} : DigitOf s b ↔ usDigit hex b = true := by
  rw [usDigit_iff, h]; rfl

/-- A text with a digit is not NaN or an infinity. -/
theorem special_digit {s : GoStr} {b : UInt8} (hb : b ∈ s) (hd : (48 ≤ b ∧ b ≤ 57) ∨ b = 95) : specialFloat binary64 s = none := by
  have hlow : ∀ b : UInt8, (48 ≤ b ∧ b ≤ 57) ∨ b = 95 → (if between 65 90 b then b + 32 else b) = b ∧ b ∉ specialLetters ∧ b ≠ 43 ∧ b ≠ 45 :=
    byte_forall (by decide +kernel)
  obtain ⟨h1, h2, h3, h4⟩ := hlow b hd
  have hno : ∀ (l t : GoStr), b ∈ l → (∀ c ∈ t, c ∈ specialLetters) → lowerAZ l ≠ t := by
    intro l t hl ht e
    apply h2
    apply ht
    rw [← e]
    exact List.mem_map.2 ⟨b, hl, h1⟩
  have hr : b ∈ (readSign s).2 := by
    obtain ⟨sign, hs, hsg⟩ := readSign_total s
    rw [hs] at hb
    rcases List.mem_append.1 hb with hb | hb
    · rcases hsg with ⟨e | e, -⟩ | ⟨e, -⟩ <;> rw [e] at hb
      · cases hb
      · exact absurd (List.mem_singleton.1 hb) h3
      · exact absurd (List.mem_singleton.1 hb) h4
    · exact hb
  unfold specialFloat
  rw [if_neg (hno s _ hb (by decide)), if_neg]
  rintro (h | h)
  · exact hno _ _ hr (by decide) h
  · exact hno _ _ hr (by decide) h

/-- `0b1`, `0o7`: not floats. -/
theorem parse_other {s : GoStr} {b : UInt8} {t : GoStr} (hr : (readSign s).2 = 48 :: b :: t) (hb : lowerByte b = 98 ∨ lowerByte b = 111) :
    parseFloat64 s = none := by
  have hfacts : ∀ b : UInt8, lowerByte b = 98 ∨ lowerByte b = 111 → b ≠ 95 ∧ b ≠ 46 ∧ digitVal false b = none ∧ lowerByte b ≠ 120 ∧ lowerByte b ≠ 101 :=
    byte_forall (by decide +kernel)
  obtain ⟨h1, h2, h3, h4, h5⟩ := hfacts b hb
  have hsp : specialFloat binary64 s = none := by
    obtain ⟨sign, hs, -⟩ := readSign_total s
    exact special_digit (b := 48) (by rw [hs, hr]; simp) (by decide)
  have hpre : readPrefix (48 :: b :: t) = (false, 48 :: b :: t) := by
    unfold readPrefix
    split
    · rename_i heq
      cases heq
      rw [if_neg h4]
    · rfl
  have hscan : scanMant false ⟨false, false, 0, 0⟩ (48 :: b :: t) = (⟨false, true, 0, 0⟩, b :: t) := by
    rw [scanMant, if_neg (by decide), if_neg (by decide)]
    have : digitVal false 48 = some 0 := by decide
    simp only [this]
    rw [scan_stop]
    · rfl
    · rintro c ⟨⟩; exact ⟨h1, fun h => absurd h h2, h3⟩
  have hexp : readExp false (b :: t) = some (0, b :: t) := by
    rw [readExp, if_neg (by simpa using h5)]; rfl
  unfold parseFloat64
  simp only [hsp, hr, hpre, hscan, hexp, if_true]

/-- What `underscoreOK` refuses is not read. -/
theorem parse_refused {s : GoStr} (h95 : 95 ∈ s) (h : underscoreOK s = false) : parseFloat64 s = none := by
  unfold parseFloat64
  simp only [special_digit h95 (Or.inr rfl)]
  split
  · split
    · rw [if_pos ⟨h95, h⟩]
    · rfl
  · rfl

theorem scanMant_suffix (hex : Bool) : ∀ (s : GoStr) (a : Mant), ∃ w, s = w ++ (scanMant hex a s).2
  | [], a => ⟨[], rfl⟩
  | b :: s, a => by
    rw [scanMant]
    split
    · obtain ⟨w, hw⟩ := scanMant_suffix hex s a
      exact ⟨b :: w, by rw [List.cons_append, ← hw]⟩
    · split
      · split
        · exact ⟨[], rfl⟩
        · obtain ⟨w, hw⟩ := scanMant_suffix hex s { a with dot := true }
          exact ⟨b :: w, by rw [List.cons_append, ← hw]⟩
      · split
        · exact ⟨[], rfl⟩
        · rename_i d _
          obtain ⟨w, hw⟩ := scanMant_suffix hex s ⟨a.dot, true, (if hex then 16 else 10) * a.m + d, if a.dot then a.frac + 1 else a.frac⟩
          exact ⟨b :: w, by rw [List.cons_append, ← hw]⟩

theorem strip_nil_iff {s : GoStr} (h : s.head? ≠ some 95) : strip s = [] ↔ s = [] := by
  cases s with
  | nil => simp [strip]
  | cons b s =>
    have : b ≠ 95 := by rintro rfl; exact h rfl
    rw [strip_cons this]; simp

/-- The rule as `underscoreOK` has it. -/
theorem fit_iff {s : GoStr} (hbo : ∀ b t, (readSign s).2 = 48 :: b :: t → lowerByte b ≠ 98 ∧ lowerByte b ≠ 111) :
    UnderscoresFit s ↔ underscoreOK s = true := by
  obtain ⟨sign, hs, hsg⟩ := readSign_total s
  obtain ⟨r, hr⟩ : ∃ r, r = (readSign s).2 := ⟨_, rfl⟩
  rw [← hr] at hs
  by_cases hx : HexStart s
  · -- hexadecimal
    have hD : ∀ b, DigitOf s b ↔ usDigit true b = true := fun b => digitOf_iff (by simp [hx])
    obtain ⟨b, t, hrt, hb⟩ := hexStart_iff.1 hx
    have hlb : lowerByte b = 120 := (lower_x b).2 hb
    have hok : underscoreOK s = underscoreScan true 48 t := by
      unfold underscoreOK
      rw [hrt]
      simp only [hlb]
      rw [if_pos (by decide)]; rfl
    rw [hr] at hs
    rw [hrt] at hs
    rw [hok, underscoreScan_iff true t 48 (Or.inl rfl)]
    have e := chain_iff true (48 :: t)
    have e' : (List.IsChain (UsNext true) (48 :: t) ∧ (48 :: t).getLast? ≠ some 95) ↔
        (List.IsChain (UsNext true) (48 :: t) ∧ (48 :: t).head? ≠ some 95 ∧ (48 :: t).getLast? ≠ some 95) := by simp
    rw [e', e]
    unfold UnderscoresFit
    have h95p : (95 : UInt8) ∉ sign ++ [48, b] := by
      intro h
      rcases List.mem_append.1 h with h | h
      · rcases hsg with ⟨e | e, -⟩ | ⟨e, -⟩ <;> rw [e] at h <;> revert h <;> decide
      · simp at h; rcases hb with rfl | rfl <;> revert h <;> decide
    constructor
    · intro h u v huv
      rcases List.append_eq_cons_iff.1 huv.symm with ⟨-, hc⟩ | ⟨u2, rfl, ht⟩
      · cases hc
      · obtain ⟨h1, c, v', hv, hc⟩ := h (sign ++ 48 :: b :: u2) v (by rw [hs, ht]; simp)
        refine ⟨?_, c, v', hv, (hD c).1 hc⟩
        rcases List.eq_nil_or_concat u2 with rfl | ⟨u3, c3, rfl⟩
        · exact ⟨[], 48, rfl, by decide⟩
        · refine ⟨48 :: u3, c3, by simp, ?_⟩
          rcases h1 with ⟨u', c', hu, hc'⟩ | ⟨sg, ng, hsg', hu⟩
          · rw [List.concat_eq_append, show sign ++ 48 :: b :: (u3 ++ [c3]) = (sign ++ 48 :: b :: u3) ++ [c3] by simp] at hu
            have := List.append_inj_right' hu rfl
            cases this
            exact (hD _).1 hc'
          · exfalso
            have hrs : readSign (sign ++ 48 :: b :: u3.concat c3) = (_, 48 :: b :: u3.concat c3) :=
              readSign_text hsg (by rintro c ⟨⟩; decide)
            have hrs2 : ∀ x, readSign (sg ++ [48, x]) = (ng, [48, x]) := fun x => readSign_text hsg' (by rintro c ⟨⟩; decide)
            rcases hu with hu | hu
            · have h2 := hrs2 120
              have hu' : sign ++ 48 :: b :: u3.concat c3 = sg ++ [48, 120] := hu
              rw [← hu', hrs] at h2
              simp at h2
            · have h2 := hrs2 88
              have hu' : sign ++ 48 :: b :: u3.concat c3 = sg ++ [48, 88] := hu
              rw [← hu', hrs] at h2
              simp at h2
    · intro h u v huv
      have huv' : (sign ++ [48, b]) ++ t = u ++ 95 :: v := by
        rw [List.append_assoc]
        refine (show sign ++ ([48, b] ++ t) = s from by rw [hs]; rfl).trans ?_
        rw [huv]; simp
      obtain ⟨u2, rfl, ht⟩ : ∃ u2, u = (sign ++ [48, b]) ++ u2 ∧ t = u2 ++ 95 :: v := by
        rcases List.append_eq_append_iff.1 huv' with ⟨u2, hu, ht⟩ | ⟨u2, hp, ht⟩
        · exact ⟨u2, hu, ht⟩
        · cases u2 with
          | nil => exact ⟨[], by simpa using hp.symm, by simpa using ht.symm⟩
          | cons c u2 =>
            have hc : c = 95 := by
              have := congrArg List.head? ht
              simpa using this.symm
            exfalso
            apply h95p
            rw [hp, hc]; simp
      obtain ⟨⟨u', c, hu, hc⟩, c2, v', hv, hc2⟩ := h (48 :: u2) v (by rw [ht]; rfl)
      refine ⟨?_, c2, v', hv, (hD c2).2 hc2⟩
      rcases List.eq_nil_or_concat u2 with rfl | ⟨u3, c3, rfl⟩
      · right
        refine ⟨sign, _, hsg, ?_⟩
        rcases hb with rfl | rfl
        · left; simp
        · right; simp
      · left
        refine ⟨sign ++ [48, b] ++ u3, c3, by simp, ?_⟩
        rw [List.concat_eq_append, ← List.cons_append] at hu
        have := List.append_inj_right' hu rfl
        cases this
        exact (hD _).2 hc
  · have hD : ∀ b, DigitOf s b ↔ usDigit false b = true := fun b => digitOf_iff (by simp [hx])
    have hok : underscoreOK s = underscoreScan false 94 r := by
      unfold underscoreOK
      rw [← hr]
      split
      · rename_i b t
        rw [if_neg]
        rintro (h | h | h)
        · exact (hbo b t hr.symm).1 h
        · exact (hbo b t hr.symm).2 h
        · exact hx (hexStart_iff.2 ⟨b, t, hr.symm, (lower_x b).1 h⟩)
      · rfl
    rw [hok, underscoreScan_iff false r 94 (Or.inr (usDigit_94 false))]
    have e' : (List.IsChain (UsNext false) (94 :: r) ∧ (94 :: r).getLast? ≠ some 95) ↔
        (List.IsChain (UsNext false) (94 :: r) ∧ (94 :: r).head? ≠ some 95 ∧ (94 :: r).getLast? ≠ some 95) := by simp
    rw [e', chain_iff false (94 :: r)]
    unfold UnderscoresFit
    have hsd : ∀ c ∈ sign, c ≠ 95 ∧ usDigit false c = false := by
      rcases hsg with ⟨e | e, -⟩ | ⟨e, -⟩ <;> rw [e] <;> decide
    constructor
    · intro h u v huv
      rcases List.append_eq_cons_iff.1 huv.symm with ⟨-, hc⟩ | ⟨u2, rfl, ht⟩
      · cases hc
      · obtain ⟨h1, c, v', hv, hc⟩ := h (sign ++ u2) v (by rw [hs, ht]; simp)
        refine ⟨?_, c, v', hv, (hD c).1 hc⟩
        rcases h1 with ⟨u', c', hu, hc'⟩ | ⟨sg, ng, hsg', hu⟩
        · have hc' := (hD _).1 hc'
          rcases List.eq_nil_or_concat u2 with rfl | ⟨u3, c3, rfl⟩
          · rw [List.append_nil] at hu
            rw [(hsd c' (by rw [hu]; simp)).2] at hc'
            cases hc'
          · refine ⟨94 :: u3, c3, by simp, ?_⟩
            rw [List.concat_eq_append, ← List.append_assoc] at hu
            have := List.append_inj_right' hu rfl
            cases this
            exact hc'
        · exfalso
          apply hx
          refine ⟨sg, ng, 95 :: v, hsg', ?_⟩
          rcases hu with hu | hu
          · left; rw [hs, ht, ← List.append_assoc, hu]; simp
          · right; rw [hs, ht, ← List.append_assoc, hu]; simp
    · intro h u v huv
      have huv' : sign ++ r = u ++ 95 :: v := by rw [← hs, huv]; simp
      obtain ⟨u2, rfl, ht⟩ : ∃ u2, u = sign ++ u2 ∧ r = u2 ++ 95 :: v := by
        rcases List.append_eq_append_iff.1 huv' with ⟨u2, hu, ht⟩ | ⟨u2, hp, ht⟩
        · exact ⟨u2, hu, ht⟩
        · cases u2 with
          | nil => exact ⟨[], by simpa using hp.symm, by simpa using ht.symm⟩
          | cons c u2 =>
            have hc : c = 95 := by
              have := congrArg List.head? ht
              simpa using this.symm
            exact absurd hc (hsd c (by rw [hp]; simp)).1
      obtain ⟨⟨u', c, hu, hc⟩, c2, v', hv, hc2⟩ := h (94 :: u2) v (by rw [ht]; rfl)
      refine ⟨?_, c2, v', hv, (hD c2).2 hc2⟩
      rcases List.eq_nil_or_concat u2 with rfl | ⟨u3, c3, rfl⟩
      · have : [94] = u' ++ [c] := hu
        have e := List.append_inj_right' (s₁ := []) (t₁ := [94]) this rfl
        cases e
        rw [usDigit_94] at hc; cases hc
      · left
        refine ⟨sign ++ u3, c3, by simp, ?_⟩
        rw [List.concat_eq_append, ← List.cons_append] at hu
        have := List.append_inj_right' hu rfl
        cases this
        exact (hD _).2 hc

/-! ### reading without the underscores -/

theorem fit_before {s w v : GoStr} {c : UInt8} (h : UnderscoresFit s) (e : s = w ++ c :: 95 :: v) : DigitOf s c ∨ c = 120 ∨ c = 88 := by
  obtain ⟨h1, -⟩ := h (w ++ [c]) v (by rw [e]; simp)
  rcases h1 with ⟨u', c', hu, hc⟩ | ⟨sg, ng, -, hu⟩
  · have := List.append_inj_right' hu rfl
    cases this
    exact Or.inl hc
  · right
    rcases hu with hu | hu
    · left
      have : w ++ [c] = (sg ++ [48]) ++ [120] := by rw [hu]; simp
      have := List.append_inj_right' this rfl
      cases this; rfl
    · right
      have : w ++ [c] = (sg ++ [48]) ++ [88] := by rw [hu]; simp
      have := List.append_inj_right' this rfl
      cases this; rfl

theorem fit_after {s w v : GoStr} (h : UnderscoresFit s) (e : s = w ++ 95 :: v) : ∃ c v', v = c :: v' ∧ DigitOf s c :=
  (h w v (by rw [e]; simp)).2

theorem fit_head {s : GoStr} (h : UnderscoresFit s) : s.head? ≠ some 95 := by
  intro hh
  cases s with
  | nil => cases hh
  | cons b t =>
    cases hh
    rcases (h [] t rfl).1 with ⟨u', c, hu, -⟩ | ⟨sg, ng, -, hu | hu⟩
    · simp at hu
    · exact absurd (congrArg List.length hu) (by simp)
    · exact absurd (congrArg List.length hu) (by simp)

theorem readSign_other {b : UInt8} {t : GoStr} (h1 : b ≠ 43) (h2 : b ≠ 45) : readSign (b :: t) = (false, b :: t) := by
  unfold readSign
  split
  · rename_i e; cases e; exact absurd rfl h1
  · rename_i e; cases e; exact absurd rfl h2
  · rfl

theorem readSign_strip {s : GoStr} (h : s.head? ≠ some 95) : readSign (strip s) = ((readSign s).1, strip (readSign s).2) := by
  cases s with
  | nil => rfl
  | cons b t =>
    have hb : b ≠ 95 := by rintro rfl; exact h rfl
    rw [strip_cons hb]
    by_cases h1 : b = 43
    · subst h1; rfl
    · by_cases h2 : b = 45
      · subst h2; rfl
      · rw [readSign_other h1 h2, readSign_other h1 h2, ← strip_cons hb]

/-- A digit is none of these. -/
theorem digit_not : ∀ b : UInt8, (48 ≤ b ∧ b ≤ 57) ∨ (97 ≤ b ∧ b ≤ 102 ∨ 65 ≤ b ∧ b ≤ 70) →
    b ≠ 95 ∧ lowerByte b ≠ 120 ∧ lowerByte b ≠ 112 ∧ b ≠ 43 ∧ b ≠ 45 := byte_forall (by decide +kernel)

theorem _root_.Verif.DigitOf.not {s : GoStr} {b : UInt8} (h : DigitOf s b) : b ≠ 95 ∧ lowerByte b ≠ 120 ∧ lowerByte b ≠ 112 ∧ b ≠ 43 ∧ b ≠ 45 :=
  digit_not b (h.imp id And.right)

theorem _root_.Verif.DigitOf.not_e {s : GoStr} {b : UInt8} (hx : ¬ HexStart s) (h : DigitOf s b) : lowerByte b ≠ 101 := by
  have hd : ∀ b : UInt8, (48 ≤ b ∧ b ≤ 57) → lowerByte b ≠ 101 := byte_forall (by decide +kernel)
  rcases h with h | h
  · exact hd b h
  · exact absurd h.1 hx

theorem readPrefix_of {b c : UInt8} {t : GoStr} (hb : lowerByte b = 120) : readPrefix (48 :: b :: c :: t) = (true, c :: t) := by
  show (if lowerByte b = 120 then _ else _) = _
  rw [if_pos hb]

theorem readPrefix_false {r : GoStr} (h : ∀ b c t, r = 48 :: b :: c :: t → lowerByte b ≠ 120) : readPrefix r = (false, r) := by
  unfold readPrefix
  split
  · rename_i b c t; rw [if_neg (h b c t rfl)]
  · rfl

theorem readPrefix_strip {s w r : GoStr} (hf : UnderscoresFit s) (e : s = w ++ r) (hr : r.head? ≠ some 95)
    (hw : r = (readSign s).2) (h95 : 95 ∈ r) : readPrefix (strip r) = ((readPrefix r).1, strip (readPrefix r).2) ∧
      ((readPrefix r).1 = true ↔ HexStart s) ∧ ∃ w', s = w' ++ (readPrefix r).2 := by
  by_cases hx : ∃ b t, r = 48 :: b :: t ∧ lowerByte b = 120
  · obtain ⟨b, t, rfl, hb⟩ := hx
    have hb' : b ≠ 95 := by rintro rfl; revert hb; decide
    cases t with
    | nil =>
      exfalso
      rw [List.mem_cons, List.mem_singleton] at h95
      rcases h95 with h | h
      · revert h; decide
      · exact hb' h.symm
    | cons c t =>
      have hne : strip (c :: t) ≠ [] := by
        by_cases hc : c = 95
        · subst hc
          obtain ⟨c', v', rfl, hc'⟩ := fit_after (w := w ++ [48, b]) (v := t) hf (by rw [e]; simp)
          rw [strip_us, strip_cons hc'.not.1]; simp
        · rw [strip_cons hc]; simp
      rw [readPrefix_of hb, strip_cons (by decide), strip_cons hb']
      refine ⟨?_, ⟨fun _ => hexStart_iff.2 ⟨b, c :: t, hw.symm, (lower_x b).1 hb⟩, fun _ => rfl⟩, w ++ [48, b], by rw [e]; simp⟩
      cases hq : strip (c :: t) with
      | nil => exact absurd hq hne
      | cons c' t' => rw [readPrefix_of hb]
  · have h1 : readPrefix r = (false, r) := readPrefix_false (fun b c t h hb => hx ⟨b, c :: t, h, hb⟩)
    rw [h1]
    refine ⟨readPrefix_false ?_, ⟨fun h => absurd h Bool.false_ne_true, ?_⟩, w, e⟩
    · intro b c t h hb
      cases r with
      | nil => cases h
      | cons a r =>
        have ha : a ≠ 95 := by rintro rfl; exact hr rfl
        rw [strip_cons ha] at h
        obtain ⟨rfl, hstp⟩ := List.cons.inj h
        clear h
        cases r with
        | nil => cases hstp
        | cons a' r =>
          by_cases ha' : a' = 95
          · subst ha'
            obtain ⟨c', v', rfl, hc'⟩ := fit_after (w := w ++ [48]) (v := r) hf (by rw [e]; simp)
            have h := hstp
            rw [strip_us, strip_cons hc'.not.1] at h
            obtain ⟨rfl, h⟩ := List.cons.inj h
            exact hc'.not.2.1 hb
          · have h := hstp
            rw [strip_cons ha'] at h
            obtain ⟨rfl, h⟩ := List.cons.inj h
            exact hx ⟨a', r, rfl, hb⟩
    · intro h
      obtain ⟨b, t, hrt, hb⟩ := hexStart_iff.1 h
      exact absurd ⟨b, t, hw.trans hrt, (lower_x b).2 hb⟩ hx

theorem readExp_strip {s w q : GoStr} {hex : Bool} (hf : UnderscoresFit s) (e : s = w ++ q) (hq : q.head? ≠ some 95)
    (hhex : hex = true ↔ HexStart s) (x : ℤ) : readExp hex (strip q) = some (x, []) ↔ readExp hex q = some (x, []) := by
  cases q with
  | nil => rfl
  | cons b q =>
    have hb : b ≠ 95 := by rintro rfl; exact hq rfl
    rw [strip_cons hb, readExp, readExp]
    by_cases hl : lowerByte b = (if hex then 112 else 101)
    · rw [if_pos hl, if_pos hl]
      have hbd : ¬ (DigitOf s b ∨ b = 120 ∨ b = 88) := by
        rintro (h | h | h)
        · cases hex with
          | true => exact h.not.2.2.1 hl
          | false => exact h.not_e (fun hx => by simpa using hhex.2 hx) hl
        · subst h; revert hl; cases hex <;> decide
        · subst h; revert hl; cases hex <;> decide
      have hqh : q.head? ≠ some 95 := by
        intro hh
        cases q with
        | nil => cases hh
        | cons c q => cases hh; exact hbd (fit_before (w := w) (v := q) hf e)
      rw [readSign_strip hqh]
      simp only
      obtain ⟨sg, hs, hsg⟩ := readSign_total q
      have hq2 : (readSign q).2.head? ≠ some 95 := by
        intro hh
        cases hr : (readSign q).2 with
        | nil => rw [hr] at hh; cases hh
        | cons c t =>
          rw [hr] at hh hs
          cases hh
          have key : ∀ z : UInt8, z = 43 ∨ z = 45 → ¬ (DigitOf s z ∨ z = 120 ∨ z = 88) := by
            rintro z hz (h | h | h)
            · rcases hz with rfl | rfl
              · exact h.not.2.2.2.1 rfl
              · exact h.not.2.2.2.2 rfl
            · subst h; revert hz; decide
            · subst h; revert hz; decide
          rcases hsg with ⟨e' | e', -⟩ | ⟨e', -⟩
          · subst e'
            rw [hs] at hqh
            exact hqh rfl
          · subst e'
            exact key 43 (Or.inl rfl) (fit_before (w := w ++ [b]) (v := t) hf (by rw [e, hs]; simp))
          · subst e'
            exact key 45 (Or.inr rfl) (fit_before (w := w ++ [b]) (v := t) hf (by rw [e, hs]; simp))
      cases hr : (readSign q).2 with
      | nil => exact Iff.rfl
      | cons c t =>
        have hc : c ≠ 95 := by rintro rfl; rw [hr] at hq2; exact hq2 rfl
        rw [strip_cons hc]
        by_cases hd : isDigit c = true
        · simp only [hd, if_true]
          obtain ⟨h1, h2⟩ := scanExp_strip (c :: t) 0
          rw [strip_cons hc] at h1
          rw [h1]
          simp only [Option.some.injEq, Prod.mk.injEq]
          rw [strip_nil_iff h2]
        · simp [hd]
    · rw [if_neg hl, if_neg hl]
      cases hex with
      | true => exact Iff.rfl
      | false => simp

/-- **C84.** Underscores in a number: they may stand between two digits, and after `0x`, and then they make no difference. A text with an underscore
anywhere else is not a number. -/
theorem C84_underscores {s : GoStr} (h95 : (95 : UInt8) ∈ s) :
    (UnderscoresFit s → parseFloat64 s = parseFloat64 (s.filter (· ≠ 95))) ∧ (¬ UnderscoresFit s → parseFloat64 s = none) := by
  have hstrip : s.filter (· ≠ 95) = strip s := rfl
  rw [hstrip]
  by_cases hbo : ∀ b t, (readSign s).2 = 48 :: b :: t → lowerByte b ≠ 98 ∧ lowerByte b ≠ 111
  · refine ⟨fun hf => ?_, fun hf => parse_refused h95 (by
      rw [fit_iff hbo] at hf; simpa using hf)⟩
    obtain ⟨sg, hs, hsg⟩ := readSign_total s
    have hsh := readSign_strip (fit_head hf)
    have hsg95 : (95 : UInt8) ∉ sg := by
      rcases hsg with ⟨e | e, -⟩ | ⟨e, -⟩ <;> rw [e] <;> decide
    have hr : (readSign s).2.head? ≠ some 95 := by
      intro hh
      cases hrs : (readSign s).2 with
      | nil => rw [hrs] at hh; cases hh
      | cons c t =>
        rw [hrs] at hh hs
        cases hh
        rcases hsg with ⟨e' | e', -⟩ | ⟨e', -⟩ <;> subst e'
        · exact fit_head hf (by rw [hs]; rfl)
        · rcases fit_before (w := []) (v := t) hf hs with h | h | h
          · exact h.not.2.2.2.1 rfl
          · cases h
          · cases h
        · rcases fit_before (w := []) (v := t) hf hs with h | h | h
          · exact h.not.2.2.2.2 rfl
          · cases h
          · cases h
    have h95r : 95 ∈ (readSign s).2 := by
      rw [hs] at h95
      exact (List.mem_append.1 h95).resolve_left hsg95
    obtain ⟨hp, hhex, w', hw'⟩ := readPrefix_strip hf hs hr rfl h95r
    obtain ⟨hm, hmh⟩ := scanMant_strip (readPrefix (readSign s).2).1 (readPrefix (readSign s).2).2 ⟨false, false, 0, 0⟩
    obtain ⟨w2, hw2⟩ := scanMant_suffix (readPrefix (readSign s).2).1 (readPrefix (readSign s).2).2 ⟨false, false, 0, 0⟩
    have he := readExp_strip (q := (scanMant (readPrefix (readSign s).2).1 ⟨false, false, 0, 0⟩ (readPrefix (readSign s).2).2).2)
      (w := w' ++ w2) hf (by rw [List.append_assoc, ← hw2]; exact hw') hmh hhex
    have hsp : specialFloat binary64 (strip s) = none := by
      obtain ⟨u, v, huv⟩ := List.append_of_mem h95
      obtain ⟨c, v', rfl, hc⟩ := fit_after hf huv
      obtain ⟨z, hz, hzd⟩ : ∃ z ∈ s, 48 ≤ z ∧ z ≤ 57 := by
        rcases hc with hc | ⟨hc, -⟩
        · exact ⟨c, by rw [huv]; simp, hc⟩
        · obtain ⟨b, t, hrt, -⟩ := hexStart_iff.1 hc
          exact ⟨48, by rw [hs, hrt]; simp, by decide⟩
      refine special_digit (b := z) ?_ (Or.inl hzd)
      refine List.mem_filter.2 ⟨hz, ?_⟩
      simpa using (digit_not z (Or.inl hzd)).1
    have hok : underscoreOK s = true := (fit_iff hbo).1 hf
    have hn95 : ¬ (95 ∈ strip s ∧ underscoreOK (strip s) = false) := by
      rintro ⟨h, -⟩
      simpa using (List.mem_filter.1 h).2
    unfold parseFloat64
    simp only [special_digit h95 (Or.inr rfl), hsp, hsh, hp, hm]
    split
    · cases hq : readExp (readPrefix (readSign s).2).1 (scanMant (readPrefix (readSign s).2).1 ⟨false, false, 0, 0⟩ (readPrefix (readSign s).2).2).2 with
      | none =>
        split
        · rename_i h; cases h
        · split
          · rename_i h
            rw [he, hq] at h; cases h
          · rfl
      | some y =>
        obtain ⟨x, t⟩ := y
        cases t with
        | nil =>
          rw [(he x).2 hq]
          simp only
          rw [if_neg (by rw [hok]; simp)]
        | cons b t =>
          simp only
          split
          · rename_i h
            rw [he, hq] at h; cases h
          · rfl
    · rfl
  · push Not at hbo
    obtain ⟨b, t, hrt, hb⟩ := hbo
    have hb : lowerByte b = 98 ∨ lowerByte b = 111 := by
      by_cases h : lowerByte b = 98
      · exact Or.inl h
      · exact Or.inr (hb h)
    have hnone := parse_other hrt hb
    refine ⟨fun hf => ?_, fun _ => hnone⟩
    rw [hnone]
    have hsh := readSign_strip (fit_head hf)
    have hb95 : b ≠ 95 := by rintro rfl; revert hb; decide
    rw [hrt, strip_cons (by decide), strip_cons hb95] at hsh
    exact (parse_other (congrArg Prod.snd hsh) hb).symm

/-- `1_000.5e1_0` is read as `1000.5e10`, `0x_1p4` as `0x1p4`; `1__0` and `1_e5` are not numbers. -/
example : parseFloat64 b!"1_000.5e1_0" = parseFloat64 b!"1000.5e10" ∧ parseFloat64 b!"0x_1p4" = parseFloat64 b!"0x1p4" ∧
    parseFloat64 b!"1__0" = none ∧ parseFloat64 b!"1_e5" = none := by decide +kernel

end Float64
end Verif
