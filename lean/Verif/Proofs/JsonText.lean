import Verif.Spec.Json

namespace Verif
variable {F : Type}

/-- The text with the bytes that are not UTF-8 replaced; at most `n` characters. -/
def clean : Nat → GoStr → GoStr
  | _, [] => []
  | 0, _ => []
  | n + 1, b :: s =>
    if runeLen (b :: s) = 0 then runeError ++ clean n s
    else (b :: s).take (runeLen (b :: s)) ++ clean n ((b :: s).drop (runeLen (b :: s)))

theorem clean_cons (n : Nat) (b : UInt8) (s : GoStr) : clean (n + 1) (b :: s) =
    if runeLen (b :: s) = 0 then runeError ++ clean n s
    else (b :: s).take (runeLen (b :: s)) ++ clean n ((b :: s).drop (runeLen (b :: s))) := by rw [clean]

theorem runeLen_le (s : GoStr) : runeLen s ≤ s.length := by
  unfold runeLen
  repeat' split
  all_goals simp

theorem runeLen_cons (a : UInt8) (s : GoStr) : runeLen (a :: s) =
    if a < 0x80 then 1
    else if between 0xC2 0xDF a then
      match s with
      | b :: _ => if between 0x80 0xBF b then 2 else 0
      | _ => 0
    else if between 0xE0 0xEF a then
      match s with
      | b :: c :: _ =>
        if between (if a = 0xE0 then 0xA0 else 0x80) (if a = 0xED then 0x9F else 0xBF) b && between 0x80 0xBF c then 3 else 0
      | _ => 0
    else if between 0xF0 0xF4 a then
      match s with
      | b :: c :: d :: _ =>
        if between (if a = 0xF0 then 0x90 else 0x80) (if a = 0xF4 then 0x8F else 0xBF) b && between 0x80 0xBF c &&
          between 0x80 0xBF d then 4 else 0
      | _ => 0
    else 0 := rfl

theorem runeLen_take {s : GoStr} (t : GoStr) (h : runeLen s ≠ 0) : runeLen (s.take (runeLen s) ++ t) = runeLen s := by
  match s with
  | [] => exact absurd rfl h
  | a :: s =>
    by_cases h1 : a < 0x80
    · have e : runeLen (a :: s) = 1 := by rw [runeLen_cons]; rw [if_pos h1]
      rw [e]; simp only [List.take_succ_cons, List.take_zero, List.cons_append]; rw [runeLen_cons]; rw [if_pos h1]
    · by_cases h2 : between 0xC2 0xDF a
      · match s with
        | [] => exact absurd (by rw [runeLen_cons]; rw [if_neg h1, if_pos h2]) h
        | b :: s =>
          by_cases h3 : between 0x80 0xBF b
          · have e : runeLen (a :: b :: s) = 2 := by rw [runeLen_cons]; rw [if_neg h1, if_pos h2]; simp only [h3, if_true]
            rw [e]; simp only [List.take_succ_cons, List.take_zero, List.cons_append]; rw [runeLen_cons]
            rw [if_neg h1, if_pos h2]; simp only [h3, if_true]
          · exact absurd (by rw [runeLen_cons]; rw [if_neg h1, if_pos h2]; simp only [h3]; rfl) h
      · by_cases h3 : between 0xE0 0xEF a
        · match s with
          | [] => exact absurd (by rw [runeLen_cons]; rw [if_neg h1, if_neg h2, if_pos h3]) h
          | [_] => exact absurd (by rw [runeLen_cons]; rw [if_neg h1, if_neg h2, if_pos h3]) h
          | b :: c :: s =>
            by_cases h4 : (between (if a = 0xE0 then 0xA0 else 0x80) (if a = 0xED then 0x9F else 0xBF) b && between 0x80 0xBF c) = true
            · have e : runeLen (a :: b :: c :: s) = 3 := by
                rw [runeLen_cons]; rw [if_neg h1, if_neg h2, if_pos h3]; simp only; rw [if_pos h4]
              rw [e]; simp only [List.take_succ_cons, List.take_zero, List.cons_append]; rw [runeLen_cons]
              rw [if_neg h1, if_neg h2, if_pos h3]; simp only; rw [if_pos h4]
            · exact absurd (by rw [runeLen_cons]; rw [if_neg h1, if_neg h2, if_pos h3]; simp only; rw [if_neg h4]) h
        · by_cases h4 : between 0xF0 0xF4 a
          · match s with
            | [] => exact absurd (by rw [runeLen_cons]; rw [if_neg h1, if_neg h2, if_neg h3, if_pos h4]) h
            | [_] => exact absurd (by rw [runeLen_cons]; rw [if_neg h1, if_neg h2, if_neg h3, if_pos h4]) h
            | [_, _] => exact absurd (by rw [runeLen_cons]; rw [if_neg h1, if_neg h2, if_neg h3, if_pos h4]) h
            | b :: c :: d :: s =>
              by_cases h5 : (between (if a = 0xF0 then 0x90 else 0x80) (if a = 0xF4 then 0x8F else 0xBF) b && between 0x80 0xBF c &&
                  between 0x80 0xBF d) = true
              · have e : runeLen (a :: b :: c :: d :: s) = 4 := by
                  rw [runeLen_cons]; rw [if_neg h1, if_neg h2, if_neg h3, if_pos h4]; simp only; rw [if_pos h5]
                rw [e]; simp only [List.take_succ_cons, List.take_zero, List.cons_append]; rw [runeLen_cons]
                rw [if_neg h1, if_neg h2, if_neg h3, if_pos h4]; simp only; rw [if_pos h5]
              · exact absurd (by rw [runeLen_cons]; rw [if_neg h1, if_neg h2, if_neg h3, if_pos h4]; simp only; rw [if_neg h5]) h
          · exact absurd (by rw [runeLen_cons]; rw [if_neg h1, if_neg h2, if_neg h3, if_neg h4]) h

/-! ### Strings -/

theorem utf8_ascii_byte {b : UInt8} (h : b < 0x80) : utf8 b.toNat = [b] := by
  unfold utf8
  rw [if_pos (by simpa using UInt8.lt_iff_toNat_lt.1 h)]
  simp

theorem hexVal_hexDigit : ∀ n < 16, hexVal (hexDigit n) = some n := by decide

theorem readString_jsonByte {b : UInt8} (h : b < 0x80) (n : Nat) (t : GoStr) :
    readString (n + 1) (jsonByte b ++ t) = (readString n t).map fun p => (b :: p.1, p.2) := by
  unfold jsonByte
  split
  · rename_i h1
    simp only [htmlSafe, decide_eq_true_eq] at h1
    simp only [List.cons_append, List.nil_append, readString]
    rw [if_neg h1.2.2.1, if_neg h1.2.2.2.1, if_neg (by rw [UInt8.lt_iff_toNat_lt]; have := UInt8.le_iff_toNat_le.1 h1.1; omega), if_pos h]
  · split
    · rename_i h2
      rcases h2 with rfl | rfl
      · simp [readString, shortEscape]
      · simp [readString, shortEscape]
    · split
      · rename_i h2; subst h2; simp [readString, shortEscape]
      · split
        · rename_i h2; subst h2; simp [readString, shortEscape]
        · split
          · rename_i h2; subst h2; simp [readString, shortEscape]
          · have hb : b.toNat < 128 := by simpa using UInt8.lt_iff_toNat_lt.1 h
            have e : hex4 (48 :: 48 :: hexDigit (b.toNat / 16) :: hexDigit (b.toNat % 16) :: t) = some (b.toNat, t) := by
              have z : hexVal 48 = some 0 := by decide
              simp only [hex4, z, hexVal_hexDigit _ (show b.toNat / 16 < 16 by omega), hexVal_hexDigit _ (show b.toNat % 16 < 16 by omega)]
              congr 2; omega
            simp only [List.cons_append, List.nil_append, readString]
            rw [if_neg (by decide), if_pos trivial]
            simp only [e]
            have e2 : jsonEscape b.toNat t = ([b], t) := by
              unfold jsonEscape
              rw [if_neg (by omega), utf8_ascii_byte h]
            rw [e2]
            rfl

theorem readString_chars : ∀ (m : Nat) (s : GoStr) (n : Nat) (rest : GoStr), s.length ≤ m → (jsonChars m s).length < n →
    readString n (jsonChars m s ++ 34 :: rest) = some (clean m s, rest) := by
  intro m
  induction m with
  | zero =>
    intro s n rest hm hn
    obtain rfl : s = [] := List.length_eq_zero_iff.1 (by omega)
    obtain ⟨n, rfl⟩ : ∃ k, n = k + 1 := ⟨n - 1, by omega⟩
    simp [jsonChars, clean, readString]
  | succ m ih =>
    intro s n rest hm hn
    obtain ⟨n, rfl⟩ : ∃ k, n = k + 1 := ⟨n - 1, by omega⟩
    match s with
    | [] => simp [jsonChars, clean, readString]
    | b :: s =>
      simp only [List.length_cons] at hm
      unfold jsonChars at hn ⊢
      by_cases h1 : b < 0x80
      · rw [if_pos h1] at hn ⊢
        have e1 : runeLen (b :: s) = 1 := by rw [runeLen_cons]; rw [if_pos h1]
        have hlen : 0 < (jsonByte b).length := by unfold jsonByte; repeat' split
                                                  all_goals simp
        rw [List.length_append] at hn
        rw [List.append_assoc, readString_jsonByte h1, ih s n rest (by omega) (by omega)]
        rw [clean_cons]
        rw [e1, if_neg (by decide)]
        rfl
      · rw [if_neg h1] at hn ⊢
        have g : ∀ (x : GoStr) (r : Nat) (t : GoStr), hex4 (x ++ t) = some (r, t) → ¬ (0xD800 ≤ r ∧ r < 0xE000) →
            readString (n + 1) (92 :: 117 :: (x ++ t)) = (readString n t).map fun p => (utf8 r ++ p.1, p.2) := by
          intro x r t hx hr
          simp only [readString]
          rw [if_neg (by decide), if_pos trivial]
          simp only [hx, jsonEscape, if_neg hr]
        have h34 : ¬ b = 34 := by rintro rfl; exact h1 (by decide)
        have h92 : ¬ b = 92 := by rintro rfl; exact h1 (by decide)
        have h32 : ¬ b < 32 := by
          intro h; apply h1; rw [UInt8.lt_iff_toNat_lt] at h ⊢
          have : (32 : UInt8).toNat = 32 := rfl
          have : (128 : UInt8).toNat = 128 := rfl
          omega
        by_cases h2 : runeLen (b :: s) = 0
        · rw [if_pos h2] at hn ⊢
          simp only [List.length_append, List.length_cons, List.length_nil] at hn
          have := g [102, 102, 102, 100] 0xfffd (jsonChars m s ++ 34 :: rest) rfl (by decide)
          rw [clean_cons]
          rw [if_pos h2]
          rw [show b!"\\ufffd" ++ jsonChars m s ++ 34 :: rest = 92 :: 117 :: ([102, 102, 102, 100] ++ (jsonChars m s ++ 34 :: rest)) by simp]
          rw [this, ih s n rest (by omega) (by omega)]
          rfl
        · rw [if_neg h2] at hn ⊢
          have sep : ∀ (x : GoStr) (r : Nat), (b :: s).take 3 = utf8 r → (utf8 r).length = 3 → runeLen (utf8 r) = 3 →
              hex4 x = some (r, []) → (∀ t, hex4 (x ++ t) = some (r, t)) → ¬ (0xD800 ≤ r ∧ r < 0xE000) →
              (92 :: 117 :: x ++ jsonChars m (s.drop 2)).length < n + 1 →
              readString (n + 1) (92 :: 117 :: x ++ jsonChars m (s.drop 2) ++ 34 :: rest) = some (clean (m + 1) (b :: s), rest) := by
            intro x r ht hl hr _ hx hd hn
            simp only [List.cons_append, List.length_cons, List.length_append] at hn
            have hl3 : 3 ≤ (b :: s).length := by
              have := congrArg List.length ht
              rw [List.length_take, hl] at this
              omega
            have hk : runeLen (b :: s) = 3 := by
              have hs : (b :: s) = utf8 r ++ (b :: s).drop 3 := by rw [← ht, List.take_append_drop]
              rw [hs]
              have := runeLen_take (s := utf8 r) ((b :: s).drop 3) (by rw [hr]; decide)
              rw [hr, List.take_of_length_le (by omega)] at this
              exact this
            rw [show 92 :: 117 :: x ++ jsonChars m (s.drop 2) ++ 34 :: rest = 92 :: 117 :: (x ++ (jsonChars m (s.drop 2) ++ 34 :: rest)) by simp]
            rw [g x r _ (hx _) hd, ih (s.drop 2) n rest (by rw [List.length_drop]; omega) (by omega)]
            rw [clean_cons]
            rw [if_neg h2, hk, ht]
            rfl
          by_cases h3 : (b :: s).take 3 = [0xE2, 0x80, 0xA8]
          · rw [if_pos h3] at hn ⊢
            exact sep [50, 48, 50, 56] 0x2028 h3 rfl (by decide) rfl (fun t => rfl) (by decide) hn
          · rw [if_neg h3] at hn ⊢
            by_cases h4 : (b :: s).take 3 = [0xE2, 0x80, 0xA9]
            · rw [if_pos h4] at hn ⊢
              exact sep [50, 48, 50, 57] 0x2029 h4 rfl (by decide) rfl (fun t => rfl) (by decide) hn
            · rw [if_neg h4] at hn ⊢
              obtain ⟨k, hk⟩ : ∃ k, runeLen (b :: s) = k + 1 := ⟨runeLen (b :: s) - 1, by omega⟩
              have hle := runeLen_le (b :: s)
              have ht := runeLen_take (s := b :: s) (jsonChars m ((b :: s).drop (runeLen (b :: s))) ++ 34 :: rest) h2
              simp only [hk, List.take_succ_cons, List.drop_succ_cons, List.cons_append, List.length_cons, List.length_append] at hn ht hle ⊢
              have hlt : (s.take k).length = k := by rw [List.length_take]; omega
              unfold readString
              rw [if_neg h34, if_neg h92, if_neg h32, if_neg h1, if_neg (by rw [← List.append_assoc] at ht; rw [ht]; omega)]
              rw [← List.append_assoc] at ht
              rw [ht]
              simp only [List.take_succ_cons, List.drop_succ_cons, List.append_assoc]
              rw [List.drop_left' hlt, List.take_left' hlt, ih (s.drop k) n rest (by rw [List.length_drop]; omega) (by omega)]
              rw [clean_cons]
              rw [if_neg h2, hk]
              rfl

/-- Reading a string that was written. -/
theorem readString_text (s rest : GoStr) (n : Nat) (hn : (jsonChars s.length s).length < n) :
    readString n (jsonChars s.length s ++ 34 :: rest) = some (clean s.length s, rest) :=
  readString_chars _ _ _ _ (Nat.le_refl _) hn

theorem between_ofNat {lo hi : UInt8} {n : Nat} (h1 : lo.toNat ≤ n) (h2 : n ≤ hi.toNat) : between lo hi (UInt8.ofNat n) = true := by
  have hh := hi.toNat_lt
  have e : (UInt8.ofNat n).toNat = n := by rw [UInt8.toNat_ofNat']; omega
  unfold between
  simp only [Bool.and_eq_true, decide_eq_true_eq, UInt8.le_iff_toNat_le, e]
  exact ⟨h1, h2⟩

theorem between_false {lo hi : UInt8} {n : Nat} (hn : n < 256) (h : n < lo.toNat ∨ hi.toNat < n) : ¬ between lo hi (UInt8.ofNat n) = true := by
  have e : (UInt8.ofNat n).toNat = n := by rw [UInt8.toNat_ofNat']; omega
  unfold between
  simp only [Bool.and_eq_true, decide_eq_true_eq, UInt8.le_iff_toNat_le, e]
  omega

theorem ofNat_lt {n k : Nat} (hn : n < 256) (hk : k < 256) : UInt8.ofNat n < UInt8.ofNat k ↔ n < k := by
  rw [UInt8.lt_iff_toNat_lt, UInt8.toNat_ofNat', UInt8.toNat_ofNat', Nat.mod_eq_of_lt (by omega), Nat.mod_eq_of_lt (by omega)]

theorem ofNat_eq {n k : Nat} (hn : n < 256) (hk : k < 256) : UInt8.ofNat n = UInt8.ofNat k ↔ n = k := by
  rw [← UInt8.toNat_inj, UInt8.toNat_ofNat', UInt8.toNat_ofNat', Nat.mod_eq_of_lt (by omega), Nat.mod_eq_of_lt (by omega)]

theorem runeLen_utf8 {r : Nat} (h : validRune r) : runeLen (utf8 r) = (utf8 r).length := by
  unfold validRune at h
  unfold utf8
  split
  · rename_i h1
    rw [runeLen_cons, if_pos (show UInt8.ofNat r < (0x80 : UInt8) from (ofNat_lt (k := 128) (by omega) (by omega)).2 h1)]; rfl
  · rename_i h1
    have big : ∀ n, 128 ≤ n → n < 256 → ¬ UInt8.ofNat n < 0x80 := fun n a b => by
      rw [show (0x80 : UInt8) = UInt8.ofNat 128 from rfl, ofNat_lt b (by omega)]; omega
    split
    · rename_i h2
      rw [runeLen_cons, if_neg (big _ (by omega) (by omega)), if_pos (between_ofNat (by show 194 ≤ _; omega) (by show _ ≤ 223; omega))]
      simp only
      rw [if_pos (between_ofNat (by show 128 ≤ _; omega) (by show _ ≤ 191; omega))]; rfl
    · rename_i h2
      split
      · rename_i h3
        rw [runeLen_cons, if_neg (big _ (by omega) (by omega)), if_neg (between_false (by omega) (Or.inr (by show 223 < _; omega))),
          if_pos (between_ofNat (by show 224 ≤ _; omega) (by show _ ≤ 239; omega))]
        simp only
        have e0 : UInt8.ofNat (0xE0 + r / 4096) = 0xE0 ↔ 0xE0 + r / 4096 = 0xE0 := ofNat_eq (k := 0xE0) (by omega) (by decide)
        have eD : UInt8.ofNat (0xE0 + r / 4096) = 0xED ↔ 0xE0 + r / 4096 = 0xED := ofNat_eq (k := 0xED) (by omega) (by decide)
        rw [if_pos]; rfl
        rw [Bool.and_eq_true]
        refine ⟨between_ofNat ?_ ?_, between_ofNat (by show 128 ≤ _; omega) (by show _ ≤ 191; omega)⟩
        · split
          · rename_i hx; rw [e0] at hx; show 160 ≤ _; omega
          · show 128 ≤ _; omega
        · split
          · rename_i hx; rw [eD] at hx; show _ ≤ 159; omega
          · show _ ≤ 191; omega
      · rename_i h3
        rw [runeLen_cons, if_neg (big _ (by omega) (by omega)), if_neg (between_false (by omega) (Or.inr (by show 223 < _; omega))),
          if_neg (between_false (by omega) (Or.inr (by show 239 < _; omega))),
          if_pos (between_ofNat (by show 240 ≤ _; omega) (by show _ ≤ 244; omega))]
        simp only
        have e0 : UInt8.ofNat (0xF0 + r / 262144) = 0xF0 ↔ 0xF0 + r / 262144 = 0xF0 := ofNat_eq (k := 0xF0) (by omega) (by decide)
        have eD : UInt8.ofNat (0xF0 + r / 262144) = 0xF4 ↔ 0xF0 + r / 262144 = 0xF4 := ofNat_eq (k := 0xF4) (by omega) (by decide)
        rw [if_pos]; rfl
        rw [Bool.and_eq_true, Bool.and_eq_true]
        refine ⟨⟨between_ofNat ?_ ?_, between_ofNat (by show 128 ≤ _; omega) (by show _ ≤ 191; omega)⟩,
          between_ofNat (by show 128 ≤ _; omega) (by show _ ≤ 191; omega)⟩
        · split
          · rename_i hx; rw [e0] at hx; show 144 ≤ _; omega
          · show 128 ≤ _; omega
        · split
          · rename_i hx; rw [eD] at hx; show _ ≤ 143; omega
          · show _ ≤ 191; omega

theorem utf8_len_pos (r : Nat) : 0 < (utf8 r).length := by
  unfold utf8; repeat' split
  all_goals simp

theorem clean_runes : ∀ (rs : List Nat), (∀ r ∈ rs, validRune r) → ∀ n, (rs.flatMap utf8).length ≤ n →
    clean n (rs.flatMap utf8) = rs.flatMap utf8 := by
  intro rs
  induction rs with
  | nil => intro _ n _; cases n <;> rfl
  | cons r rs ih =>
    intro hv n hn
    have hr := runeLen_utf8 (hv r (by simp))
    have hp := utf8_len_pos r
    rw [List.flatMap_cons] at hn ⊢
    rw [List.length_append] at hn
    obtain ⟨n, rfl⟩ : ∃ k, n = k + 1 := ⟨n - 1, by omega⟩
    have ht := runeLen_take (s := utf8 r) (rs.flatMap utf8) (by omega)
    rw [hr, List.take_of_length_le (by omega)] at ht
    generalize hu : utf8 r = u at *
    match u with
    | [] => simp at hp
    | b :: s =>
      rw [List.cons_append, clean_cons, ← List.cons_append, ht, if_neg (by omega), List.take_left' rfl, List.drop_left' rfl,
        ih (fun x hx => hv x (List.mem_cons_of_mem _ hx)) n (by simp only [List.length_cons] at hn; omega)]

/-- A text is not changed. -/
theorem clean_text {s : GoStr} (h : IsText s) : clean s.length s = s := by
  obtain ⟨rs, hv, rfl⟩ := h
  exact clean_runes rs hv _ (Nat.le_refl _)

end Verif
