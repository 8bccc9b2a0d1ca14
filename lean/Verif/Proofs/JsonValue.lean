import Verif.Proofs.JsonText
import Verif.Props.JsonNumber

namespace Verif
variable {F : Type}

mutual
/-- The value with all strings and names cleaned. -/
def Json.clean : Json → Json
  | .null => .null
  | .bool b => .bool b
  | .num t => .num t
  | .str s => .str (Verif.clean s.length s)
  | .arr l => .arr (cleanElems l)
  | .obj l => .obj (cleanFields l)

def cleanElems : List Json → List Json
  | [] => []
  | v :: l => v.clean :: cleanElems l

def cleanFields : List (GoStr × Json) → List (GoStr × Json)
  | [] => []
  | (k, v) :: l => (Verif.clean k.length k, v.clean) :: cleanFields l
end

mutual
/-- The numbers are numbers. -/
def Json.Ok : Json → Prop
  | .null => True
  | .bool _ => True
  | .num t => validNumber t = true ∧ ∀ b ∈ t, numChar b = true
  | .str _ => True
  | .arr l => okElems l
  | .obj l => okFields l

def okElems : List Json → Prop
  | [] => True
  | v :: l => v.Ok ∧ okElems l

def okFields : List (GoStr × Json) → Prop
  | [] => True
  | (_, v) :: l => v.Ok ∧ okFields l
end

/-- What can follow a value. -/
def Delim (s : GoStr) : Prop := s = [] ∨ ∃ b t, s = b :: t ∧ (b = 44 ∨ b = 93 ∨ b = 125)

theorem skipSpaces_cons {b : UInt8} (s : GoStr) (h : jsonSpace b = false) : skipSpaces (b :: s) = b :: s := by
  simp [skipSpaces, List.dropWhile, h]

theorem notSpace {b : UInt8} (h : numChar b = true) : jsonSpace b = false := by
  cases hs : jsonSpace b with
  | false => rfl
  | true =>
    simp only [jsonSpace, Bool.or_eq_true, beq_iff_eq] at hs
    rcases hs with ((rfl | rfl) | rfl) | rfl <;> revert h <;> decide

theorem numChar_facts {b : UInt8} (h : numChar b = true) :
    jsonSpace b = false ∧ b ≠ 91 ∧ b ≠ 123 ∧ b ≠ 34 ∧ b ≠ 110 ∧ b ≠ 116 ∧ b ≠ 102 := by
  refine ⟨notSpace h, ?_, ?_, ?_, ?_, ?_, ?_⟩ <;> rintro rfl <;> revert h <;> decide

theorem takeWhile_num {t rest : GoStr} (ht : ∀ b ∈ t, numChar b = true) (hr : Delim rest) :
    (t ++ rest).takeWhile numChar = t ∧ (t ++ rest).dropWhile numChar = rest := by
  have h1 : rest.takeWhile numChar = [] ∧ rest.dropWhile numChar = rest := by
    rcases hr with rfl | ⟨b, t, rfl, rfl | rfl | rfl⟩ <;> exact ⟨rfl, rfl⟩
  rw [List.takeWhile_append_of_pos ht, List.dropWhile_append_of_pos ht, h1.1, h1.2]
  simp

theorem validNumber_ne_nil {t : GoStr} (h : validNumber t = true) : t ≠ [] := by
  rintro rfl; cases h

theorem readValue_num {t rest : GoStr} (n : Nat) (hv : validNumber t = true) (ht : ∀ b ∈ t, numChar b = true) (hr : Delim rest) :
    readValue (n + 1) (t ++ rest) = some (.num t, rest) := by
  obtain ⟨b, s, rfl⟩ := List.exists_cons_of_ne_nil (validNumber_ne_nil hv)
  have hb := numChar_facts (ht b (by simp))
  have tw := takeWhile_num ht hr
  unfold readValue
  rw [List.cons_append, skipSpaces_cons _ hb.1]
  split
  · rename_i e; simp at e; exact absurd e.1 hb.2.1
  · rename_i e; simp at e; exact absurd e.1 hb.2.2.1
  · rename_i e; simp at e; exact absurd e.1 hb.2.2.2.1
  · rename_i e; simp at e; exact absurd e.1 hb.2.2.2.2.1
  · rename_i e; simp at e; exact absurd e.1 hb.2.2.2.2.2.1
  · rename_i e; simp at e; exact absurd e.1 hb.2.2.2.2.2.2
  · rw [List.cons_append] at tw
    rw [tw.1, tw.2, if_pos hv]

theorem text_pos {v : Json} (h : v.Ok) : ∃ b s, v.text = b :: s ∧ jsonSpace b = false ∧ b ≠ 93 ∧ b ≠ 125 := by
  cases v with
  | null => exact ⟨_, _, rfl, by decide, by decide, by decide⟩
  | bool b => cases b <;> exact ⟨_, _, rfl, by decide, by decide, by decide⟩
  | num t =>
    obtain ⟨b, s, rfl⟩ := List.exists_cons_of_ne_nil (validNumber_ne_nil h.1)
    refine ⟨b, s, rfl, ?_⟩
    have := h.2 b (by simp)
    refine ⟨notSpace this, ?_, ?_⟩ <;> rintro rfl <;> revert this <;> decide
  | str s => exact ⟨_, _, rfl, by decide, by decide, by decide⟩
  | arr l => exact ⟨_, _, rfl, by decide, by decide, by decide⟩
  | obj l => exact ⟨_, _, rfl, by decide, by decide, by decide⟩

mutual
theorem readValue_text : ∀ (v : Json) (n : Nat) (rest : GoStr), v.Ok → v.text.length ≤ n → Delim rest →
    readValue n (v.text ++ rest) = some (v.clean, rest)
  | .null, n, rest, _, hn, _ => by
    obtain ⟨n, rfl⟩ : ∃ k, n = k + 1 := ⟨n - 1, by simp [Json.text] at hn; omega⟩
    simp [Json.text, Json.clean, readValue, skipSpaces, jsonSpace]
  | .bool true, n, rest, _, hn, _ => by
    obtain ⟨n, rfl⟩ : ∃ k, n = k + 1 := ⟨n - 1, by simp [Json.text] at hn; omega⟩
    simp [Json.text, Json.clean, readValue, skipSpaces, jsonSpace]
  | .bool false, n, rest, _, hn, _ => by
    obtain ⟨n, rfl⟩ : ∃ k, n = k + 1 := ⟨n - 1, by simp [Json.text] at hn; omega⟩
    simp [Json.text, Json.clean, readValue, skipSpaces, jsonSpace]
  | .num t, n, rest, ok, hn, hr => by
    have := List.length_pos_of_ne_nil (validNumber_ne_nil ok.1)
    obtain ⟨n, rfl⟩ : ∃ k, n = k + 1 := ⟨n - 1, by simp only [Json.text] at hn; omega⟩
    simp only [Json.text, Json.clean]
    exact readValue_num n ok.1 ok.2 hr
  | .str s, n, rest, _, hn, _ => by
    obtain ⟨n, rfl⟩ : ∃ k, n = k + 1 := ⟨n - 1, by simp [Json.text, jsonString] at hn; omega⟩
    simp only [Json.text, Json.clean, jsonString, List.cons_append, List.append_assoc, List.nil_append]
    rw [readValue, skipSpaces_cons _ (by decide)]
    simp only
    rw [readString_text _ _ _ (by simp; omega)]
    rfl
  | .arr [], n, rest, _, hn, _ => by
    obtain ⟨n, rfl⟩ : ∃ k, n = k + 1 := ⟨n - 1, by simp [Json.text] at hn; omega⟩
    simp [Json.text, textElems, Json.clean, cleanElems, readValue, skipSpaces, jsonSpace]
  | .arr (v :: l), n, rest, ok, hn, hr => by
    have ok' : okElems (v :: l) := ok
    simp only [Json.text, List.length_cons, List.length_append, List.length_nil] at hn
    obtain ⟨n, rfl⟩ : ∃ k, n = k + 1 := ⟨n - 1, by omega⟩
    have ih := readElems_text (v :: l) n rest (by simp) ok' (by omega)
    obtain ⟨b, s, hb, h1, h2, -⟩ := text_pos ok'.1
    have hx : ∃ s, textElems (v :: l) = b :: s := by
      cases l with
      | nil => exact ⟨s, by simp [textElems, hb]⟩
      | cons w l => exact ⟨s ++ (44 :: textElems (w :: l)), by simp [textElems, hb]⟩
    obtain ⟨s', hs'⟩ := hx
    simp only [Json.text, Json.clean, List.cons_append, List.append_assoc, List.nil_append]
    rw [readValue, skipSpaces_cons _ (by decide)]
    rw [hs'] at ih ⊢
    simp only [List.cons_append] at ih ⊢
    rw [skipSpaces_cons _ h1]
    split
    · rename_i e; simp at e; exact absurd e.1 h2
    · rw [ih]; rfl
  | .obj [], n, rest, _, hn, _ => by
    obtain ⟨n, rfl⟩ : ∃ k, n = k + 1 := ⟨n - 1, by simp [Json.text] at hn; omega⟩
    simp [Json.text, textFields, Json.clean, cleanFields, readValue, skipSpaces, jsonSpace]
  | .obj ((k, v) :: l), n, rest, ok, hn, hr => by
    have ok' : okFields ((k, v) :: l) := ok
    simp only [Json.text, List.length_cons, List.length_append, List.length_nil] at hn
    obtain ⟨n, rfl⟩ : ∃ k, n = k + 1 := ⟨n - 1, by omega⟩
    have ih := readFields_text ((k, v) :: l) n rest (by simp) ok' (by omega)
    have hx : ∃ s, textFields ((k, v) :: l) = 34 :: s := by
      cases l with
      | nil => exact ⟨_, by simp only [textFields, jsonString, List.cons_append]; rfl⟩
      | cons w l => exact ⟨_, by simp only [textFields, jsonString, List.cons_append]; rfl⟩
    obtain ⟨s', hs'⟩ := hx
    simp only [Json.text, Json.clean, List.cons_append, List.append_assoc, List.nil_append]
    rw [readValue, skipSpaces_cons _ (by decide)]
    rw [hs'] at ih ⊢
    simp only [List.cons_append] at ih ⊢
    rw [skipSpaces_cons _ (by decide)]
    split
    · rename_i e; simp at e
    · rw [ih]; rfl

theorem readElems_text : ∀ (l : List Json) (n : Nat) (rest : GoStr), l ≠ [] → okElems l → (textElems l).length < n →
    readElems n (textElems l ++ 93 :: rest) = some (cleanElems l, rest)
  | [], _, _, h, _, _ => absurd rfl h
  | [v], n, rest, _, ok, hn => by
    obtain ⟨n, rfl⟩ : ∃ k, n = k + 1 := ⟨n - 1, by omega⟩
    simp only [textElems] at hn ⊢
    rw [readElems, readValue_text v n (93 :: rest) ok.1 (by omega) (Or.inr ⟨_, _, rfl, by simp⟩)]
    simp only
    rw [skipSpaces_cons _ (by decide)]
    rfl
  | v :: w :: l, n, rest, _, ok, hn => by
    obtain ⟨n, rfl⟩ : ∃ k, n = k + 1 := ⟨n - 1, by omega⟩
    simp only [textElems, List.length_append, List.length_cons] at hn
    have ih := readElems_text (w :: l) n rest (by simp) ok.2 (by omega)
    have ihv := readValue_text v n (44 :: (textElems (w :: l) ++ 93 :: rest)) ok.1 (by omega) (Or.inr ⟨_, _, rfl, by simp⟩)
    simp only [textElems, List.append_assoc, List.cons_append]
    rw [readElems, ihv]
    simp only
    rw [skipSpaces_cons _ (by decide)]
    simp only
    rw [ih]
    rfl

theorem readFields_text : ∀ (l : List (GoStr × Json)) (n : Nat) (rest : GoStr), l ≠ [] → okFields l → (textFields l).length < n →
    readFields n (textFields l ++ 125 :: rest) = some (cleanFields l, rest)
  | [], _, _, h, _, _ => absurd rfl h
  | [(k, v)], n, rest, _, ok, hn => by
    obtain ⟨n, rfl⟩ : ∃ k, n = k + 1 := ⟨n - 1, by omega⟩
    simp only [textFields, List.length_append, List.length_cons] at hn
    have ihv := readValue_text v n (125 :: rest) ok.1 (by omega) (Or.inr ⟨_, _, rfl, by simp⟩)
    simp only [textFields, jsonString, List.append_assoc, List.cons_append, List.nil_append]
    rw [readFields, skipSpaces_cons _ (by decide)]
    simp only
    rw [readString_text _ _ _ (by simp; omega)]
    simp only
    rw [skipSpaces_cons _ (by decide)]
    simp only
    rw [ihv]
    simp only
    rw [skipSpaces_cons _ (by decide)]
    rfl
  | (k, v) :: e :: l, n, rest, _, ok, hn => by
    obtain ⟨n, rfl⟩ : ∃ k, n = k + 1 := ⟨n - 1, by omega⟩
    simp only [textFields, List.length_append, List.length_cons] at hn
    have ih := readFields_text (e :: l) n rest (by simp) ok.2 (by omega)
    have ihv := readValue_text v n (44 :: (textFields (e :: l) ++ 125 :: rest)) ok.1 (by omega) (Or.inr ⟨_, _, rfl, by simp⟩)
    simp only [textFields, jsonString, List.append_assoc, List.cons_append, List.nil_append]
    rw [readFields, skipSpaces_cons _ (by decide)]
    simp only
    rw [readString_text _ _ _ (by simp; omega)]
    simp only
    rw [skipSpaces_cons _ (by decide)]
    simp only
    rw [ihv]
    simp only
    rw [skipSpaces_cons _ (by decide)]
    simp only
    rw [ih]
    rfl
end

/-- Reading a value that was written. -/
theorem parse_text (v : Json) (h : v.Ok) : Json.parse v.text = some v.clean := by
  have := readValue_text v (v.text.length + 1) [] h (by omega) (Or.inl rfl)
  rw [List.append_nil] at this
  unfold Json.parse
  rw [this]
  rfl

end Verif
