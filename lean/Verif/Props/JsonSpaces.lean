import Verif.Proofs.JsonValue
import Verif.Props.Json
import Verif.Props.Strconv
import Verif.Props.Float64Demo

/-! C77: JSON texts with spaces and newlines between the tokens, as `json.MarshalIndent` or an editor leaves them. -/

namespace Verif

/-- Spaces, tabs and line ends. -/
def Blank (s : GoStr) : Prop := ∀ b ∈ s, b = 32 ∨ b = 9 ∨ b = 13 ∨ b = 10

mutual
/-- The text of the value, with blanks around the tokens. -/
def Json.Spaced : Json → GoStr → Prop
  | .arr l, s => ∃ a t b, Blank a ∧ Blank b ∧ spacedElems l t ∧ s = a ++ 91 :: (t ++ 93 :: b)
  | .obj l, s => ∃ a t b, Blank a ∧ Blank b ∧ spacedFields l t ∧ s = a ++ 123 :: (t ++ 125 :: b)
  | .null, s => ∃ a b, Blank a ∧ Blank b ∧ s = a ++ (b!"null" ++ b)
  | .bool true, s => ∃ a b, Blank a ∧ Blank b ∧ s = a ++ (b!"true" ++ b)
  | .bool false, s => ∃ a b, Blank a ∧ Blank b ∧ s = a ++ (b!"false" ++ b)
  | .num t, s => ∃ a b, Blank a ∧ Blank b ∧ s = a ++ (t ++ b)
  | .str t, s => ∃ a b, Blank a ∧ Blank b ∧ s = a ++ (jsonString t ++ b)

/-- The elements of an array. -/
def spacedElems : List Json → GoStr → Prop
  | [], s => Blank s
  | [v], s => v.Spaced s
  | v :: w :: l, s => ∃ t u, v.Spaced t ∧ spacedElems (w :: l) u ∧ s = t ++ 44 :: u

/-- The members of an object. -/
def spacedFields : List (GoStr × Json) → GoStr → Prop
  | [], s => Blank s
  | [(k, v)], s => ∃ a b t, Blank a ∧ Blank b ∧ v.Spaced t ∧ s = a ++ (jsonString k ++ (b ++ 58 :: t))
  | (k, v) :: e :: l, s => ∃ a b t u, Blank a ∧ Blank b ∧ v.Spaced t ∧ spacedFields (e :: l) u ∧
      s = a ++ (jsonString k ++ (b ++ 58 :: (t ++ 44 :: u)))
end

theorem skip_blank {a : GoStr} (h : Blank a) (s : GoStr) : skipSpaces (a ++ s) = skipSpaces s := by
  unfold skipSpaces
  refine List.dropWhile_append_of_pos ?_
  intro b hb
  rcases h b hb with rfl | rfl | rfl | rfl <;> decide

theorem readValue_blank {a : GoStr} (h : Blank a) (n : Nat) (s : GoStr) : readValue (n + 1) (a ++ s) = readValue (n + 1) s := by
  rw [readValue, readValue, skip_blank h]

/-- What can follow a number. -/
def After (s : GoStr) : Prop := ∀ b, s.head? = some b → numChar b = false

theorem after_cons {b : UInt8} {s : GoStr} (h : numChar b = false) : After (b :: s) := by rintro _ ⟨⟩; exact h

theorem after_blank {a s : GoStr} (h : Blank a) (hs : After s) : After (a ++ s) := by
  cases a with
  | nil => exact hs
  | cons b a =>
    refine after_cons ?_
    rcases h b (by simp) with rfl | rfl | rfl | rfl <;> decide

theorem takeWhile_after {t rest : GoStr} (ht : ∀ b ∈ t, numChar b = true) (hr : After rest) :
    (t ++ rest).takeWhile numChar = t ∧ (t ++ rest).dropWhile numChar = rest := by
  have h1 : rest.takeWhile numChar = [] ∧ rest.dropWhile numChar = rest := by
    cases rest with
    | nil => exact ⟨rfl, rfl⟩
    | cons b s => simp [List.takeWhile_cons, List.dropWhile_cons, hr b rfl]
  rw [List.takeWhile_append_of_pos ht, List.dropWhile_append_of_pos ht, h1.1, h1.2]
  simp

theorem readValue_number {t rest : GoStr} (n : Nat) (hv : validNumber t = true) (ht : ∀ b ∈ t, numChar b = true) (hr : After rest) :
    readValue (n + 1) (t ++ rest) = some (.num t, rest) := by
  obtain ⟨b, s, rfl⟩ := List.exists_cons_of_ne_nil (validNumber_ne_nil hv)
  have hb := numChar_facts (ht b (by simp))
  have tw := takeWhile_after ht hr
  unfold readValue
  rw [List.cons_append, skipSpaces_cons _ hb.1]
  split
  · rename_i e; simp at e; exact absurd e.1 hb.2.1
  · rename_i e; simp at e; exact absurd e.1 hb.2.2.1
  · rename_i e; simp at e; exact absurd e.1 hb.2.2.2.1
  · rename_i e; simp at e; exact absurd e.1 hb.2.2.2.2.1
  · rename_i e; simp at e; exact absurd e.1 hb.2.2.2.2.2.1
  · rename_i e; simp at e; exact absurd e.1 hb.2.2.2.2.2.2
  · rw [List.cons_append] at tw
    rw [tw.1, tw.2, if_pos hv]

/-- The first token. -/
theorem spaced_head {v : Json} {s : GoStr} (hok : v.Ok) (h : v.Spaced s) :
    ∃ a b t, Blank a ∧ s = a ++ b :: t ∧ jsonSpace b = false ∧ b ≠ 93 ∧ b ≠ 125 := by
  cases v with
  | null => obtain ⟨a, b, ha, -, rfl⟩ := h; exact ⟨a, _, _, ha, rfl, by decide, by decide, by decide⟩
  | bool x =>
    cases x
    · obtain ⟨a, b, ha, -, rfl⟩ := h; exact ⟨a, _, _, ha, rfl, by decide, by decide, by decide⟩
    · obtain ⟨a, b, ha, -, rfl⟩ := h; exact ⟨a, _, _, ha, rfl, by decide, by decide, by decide⟩
  | num t =>
    obtain ⟨a, b, ha, -, rfl⟩ := h
    obtain ⟨c, s, e, h1⟩ := text_pos (v := .num t) hok
    have e : t = c :: s := e
    exact ⟨a, c, s ++ b, ha, by rw [e]; rfl, h1⟩
  | str t => obtain ⟨a, b, ha, -, rfl⟩ := h; exact ⟨a, _, _, ha, rfl, by decide, by decide, by decide⟩
  | arr l => obtain ⟨a, t, b, ha, -, -, rfl⟩ := h; exact ⟨a, _, _, ha, rfl, by decide, by decide, by decide⟩
  | obj l => obtain ⟨a, t, b, ha, -, -, rfl⟩ := h; exact ⟨a, _, _, ha, rfl, by decide, by decide, by decide⟩

theorem skip_head {a : GoStr} {b : UInt8} {t : GoStr} (ha : Blank a) (hb : jsonSpace b = false) : skipSpaces (a ++ b :: t) = b :: t := by
  rw [skip_blank ha, skipSpaces_cons _ hb]

mutual
theorem readValue_spaced : ∀ (v : Json) (n : Nat) (s rest : GoStr), v.Ok → v.Spaced s → s.length ≤ n → After rest →
    ∃ b, Blank b ∧ readValue n (s ++ rest) = some (v.clean, b ++ rest)
  | .null, n, s, rest, _, h, hn, _ => by
    obtain ⟨a, b, ha, hb, rfl⟩ := h
    simp only [List.length_append, List.length_cons] at hn
    obtain ⟨n, rfl⟩ : ∃ k, n = k + 1 := ⟨n - 1, by omega⟩
    refine ⟨b, hb, ?_⟩
    rw [List.append_assoc, readValue_blank ha]
    simp [Json.clean, readValue, skipSpaces, jsonSpace]
  | .bool true, n, s, rest, _, h, hn, _ => by
    obtain ⟨a, b, ha, hb, rfl⟩ := h
    simp only [List.length_append, List.length_cons] at hn
    obtain ⟨n, rfl⟩ : ∃ k, n = k + 1 := ⟨n - 1, by omega⟩
    refine ⟨b, hb, ?_⟩
    rw [List.append_assoc, readValue_blank ha]
    simp [Json.clean, readValue, skipSpaces, jsonSpace]
  | .bool false, n, s, rest, _, h, hn, _ => by
    obtain ⟨a, b, ha, hb, rfl⟩ := h
    simp only [List.length_append, List.length_cons] at hn
    obtain ⟨n, rfl⟩ : ∃ k, n = k + 1 := ⟨n - 1, by omega⟩
    refine ⟨b, hb, ?_⟩
    rw [List.append_assoc, readValue_blank ha]
    simp [Json.clean, readValue, skipSpaces, jsonSpace]
  | .num t, n, s, rest, ok, h, hn, hr => by
    obtain ⟨a, b, ha, hb, rfl⟩ := h
    have := List.length_pos_of_ne_nil (validNumber_ne_nil ok.1)
    simp only [List.length_append] at hn
    obtain ⟨n, rfl⟩ : ∃ k, n = k + 1 := ⟨n - 1, by omega⟩
    refine ⟨b, hb, ?_⟩
    rw [List.append_assoc, readValue_blank ha, List.append_assoc]
    exact readValue_number n ok.1 ok.2 (after_blank hb hr)
  | .str t, n, s, rest, _, h, hn, _ => by
    obtain ⟨a, b, ha, hb, rfl⟩ := h
    simp only [List.length_append, jsonString, List.length_cons] at hn
    obtain ⟨n, rfl⟩ : ∃ k, n = k + 1 := ⟨n - 1, by omega⟩
    refine ⟨b, hb, ?_⟩
    rw [List.append_assoc, readValue_blank ha]
    simp only [Json.clean, jsonString, List.cons_append, List.append_assoc, List.nil_append]
    rw [readValue, skipSpaces_cons _ (by decide)]
    simp only
    rw [readString_text _ _ _ (by simp <;> omega)]
    rfl
  | .arr [], n, s, rest, _, h, hn, _ => by
    obtain ⟨a, t, b, ha, hb, ht, rfl⟩ := h
    have ht : Blank t := ht
    simp only [List.length_append, List.length_cons] at hn
    obtain ⟨n, rfl⟩ : ∃ k, n = k + 1 := ⟨n - 1, by omega⟩
    refine ⟨b, hb, ?_⟩
    rw [List.append_assoc, readValue_blank ha]
    simp only [List.cons_append, List.append_assoc]
    rw [readValue, skipSpaces_cons _ (by decide)]
    simp only
    rw [skip_head ht (by decide)]
    rfl
  | .arr (v :: l), n, s, rest, ok, h, hn, hr => by
    obtain ⟨a, t, b, ha, hb, ht, rfl⟩ := h
    have ok' : okElems (v :: l) := ok
    simp only [List.length_append, List.length_cons] at hn
    obtain ⟨n, rfl⟩ : ∃ k, n = k + 1 := ⟨n - 1, by omega⟩
    have ih := readElems_spaced (v :: l) n t (b ++ rest) (by simp) ok' ht (by omega)
    obtain ⟨a', c, s', ha', hs', h1, h2, -⟩ : ∃ a b u, Blank a ∧ t = a ++ b :: u ∧ jsonSpace b = false ∧ b ≠ 93 ∧ b ≠ 125 := by
      cases l with
      | nil => exact spaced_head ok'.1 ht
      | cons w l =>
        obtain ⟨t1, u, h1, -, rfl⟩ := ht
        obtain ⟨a, b, t2, h3, rfl, h4⟩ := spaced_head ok'.1 h1
        exact ⟨a, b, t2 ++ 44 :: u, h3, by simp, h4⟩
    refine ⟨b, hb, ?_⟩
    rw [List.append_assoc, readValue_blank ha]
    simp only [Json.clean, List.cons_append, List.append_assoc]
    rw [readValue, skipSpaces_cons _ (by decide)]
    simp only
    have ih' : readElems n (c :: (s' ++ 93 :: (b ++ rest))) = some (cleanElems (v :: l), b ++ rest) := by
      cases n with
      | zero => simp at hn; omega
      | succ n =>
        rw [hs', List.append_assoc] at ih
        rw [readElems] at ih ⊢
        cases n with
        | zero => rw [readValue] at ih; cases ih
        | succ n => rwa [readValue_blank ha'] at ih
    rw [hs', List.append_assoc, List.cons_append, skip_head ha' h1]
    split
    · rename_i e; simp at e; exact absurd e.1 h2
    · rw [ih']; rfl
  | .obj [], n, s, rest, _, h, hn, _ => by
    obtain ⟨a, t, b, ha, hb, ht, rfl⟩ := h
    have ht : Blank t := ht
    simp only [List.length_append, List.length_cons] at hn
    obtain ⟨n, rfl⟩ : ∃ k, n = k + 1 := ⟨n - 1, by omega⟩
    refine ⟨b, hb, ?_⟩
    rw [List.append_assoc, readValue_blank ha]
    simp only [List.cons_append, List.append_assoc]
    rw [readValue, skipSpaces_cons _ (by decide)]
    simp only
    rw [skip_head ht (by decide)]
    rfl
  | .obj ((k, v) :: l), n, s, rest, ok, h, hn, hr => by
    obtain ⟨a, t, b, ha, hb, ht, rfl⟩ := h
    have ok' : okFields ((k, v) :: l) := ok
    simp only [List.length_append, List.length_cons] at hn
    obtain ⟨n, rfl⟩ : ∃ k, n = k + 1 := ⟨n - 1, by omega⟩
    have ih := readFields_spaced ((k, v) :: l) n t (b ++ rest) (by simp) ok' ht (by omega)
    obtain ⟨a', s', ha', hs'⟩ : ∃ a u, Blank a ∧ t = a ++ 34 :: u := by
      cases l with
      | nil =>
        obtain ⟨a, b, t, h1, -, -, rfl⟩ := ht
        exact ⟨a, _, h1, rfl⟩
      | cons w l =>
        obtain ⟨a, b, t, u, h1, -, -, -, rfl⟩ := ht
        exact ⟨a, _, h1, rfl⟩
    refine ⟨b, hb, ?_⟩
    rw [List.append_assoc, readValue_blank ha]
    simp only [Json.clean, List.cons_append, List.append_assoc]
    rw [readValue, skipSpaces_cons _ (by decide)]
    simp only
    have ih' : readFields n (34 :: (s' ++ 125 :: (b ++ rest))) = some (cleanFields ((k, v) :: l), b ++ rest) := by
      cases n with
      | zero => simp at hn; omega
      | succ n =>
        rw [hs', List.append_assoc] at ih
        rw [readFields] at ih ⊢
        rwa [skip_blank ha'] at ih
    rw [hs', List.append_assoc, List.cons_append, skip_head ha' (by decide)]
    split
    · rename_i e; simp at e
    · rw [ih']; rfl

theorem readElems_spaced : ∀ (l : List Json) (n : Nat) (s rest : GoStr), l ≠ [] → okElems l → spacedElems l s → s.length < n →
    readElems n (s ++ 93 :: rest) = some (cleanElems l, rest)
  | [], _, _, _, h, _, _, _ => absurd rfl h
  | [v], n, s, rest, _, ok, hs, hn => by
    obtain ⟨n, rfl⟩ : ∃ k, n = k + 1 := ⟨n - 1, by omega⟩
    obtain ⟨b, hb, e⟩ := readValue_spaced v n s (93 :: rest) ok.1 hs (by omega) (after_cons (by decide))
    rw [readElems, e]
    simp only
    rw [skip_head hb (by decide)]
    rfl
  | v :: w :: l, n, s, rest, _, ok, hs, hn => by
    obtain ⟨n, rfl⟩ : ∃ k, n = k + 1 := ⟨n - 1, by omega⟩
    obtain ⟨t, u, h1, h2, rfl⟩ := hs
    simp only [List.length_append, List.length_cons] at hn
    have ih := readElems_spaced (w :: l) n u rest (by simp) ok.2 h2 (by omega)
    obtain ⟨b, hb, e⟩ := readValue_spaced v n t (44 :: (u ++ 93 :: rest)) ok.1 h1 (by omega) (after_cons (by decide))
    simp only [List.append_assoc, List.cons_append]
    rw [readElems, e]
    simp only
    rw [skip_head hb (by decide)]
    simp only
    rw [ih]
    rfl

theorem readFields_spaced : ∀ (l : List (GoStr × Json)) (n : Nat) (s rest : GoStr), l ≠ [] → okFields l → spacedFields l s → s.length < n →
    readFields n (s ++ 125 :: rest) = some (cleanFields l, rest)
  | [], _, _, _, h, _, _, _ => absurd rfl h
  | [(k, v)], n, s, rest, _, ok, hs, hn => by
    obtain ⟨n, rfl⟩ : ∃ k, n = k + 1 := ⟨n - 1, by omega⟩
    obtain ⟨a, b, t, ha, hb, ht, rfl⟩ := hs
    simp only [List.length_append, List.length_cons] at hn
    obtain ⟨c, hc, e⟩ := readValue_spaced v n t (125 :: rest) ok.1 ht (by omega) (after_cons (by decide))
    simp only [jsonString, List.append_assoc, List.cons_append, List.nil_append]
    rw [readFields, skip_head ha (by decide)]
    simp only
    rw [readString_text _ _ _ (by simp <;> omega)]
    simp only
    rw [skip_head hb (by decide)]
    simp only
    rw [e]
    simp only
    rw [skip_head hc (by decide)]
    rfl
  | (k, v) :: e :: l, n, s, rest, _, ok, hs, hn => by
    obtain ⟨n, rfl⟩ : ∃ k, n = k + 1 := ⟨n - 1, by omega⟩
    obtain ⟨a, b, t, u, ha, hb, ht, hu, rfl⟩ := hs
    simp only [List.length_append, List.length_cons] at hn
    have ih := readFields_spaced (e :: l) n u rest (by simp) ok.2 hu (by omega)
    obtain ⟨c, hc, e⟩ := readValue_spaced v n t (44 :: (u ++ 125 :: rest)) ok.1 ht (by omega) (after_cons (by decide))
    simp only [jsonString, List.append_assoc, List.cons_append, List.nil_append]
    rw [readFields, skip_head ha (by decide)]
    simp only
    rw [readString_text _ _ _ (by simp <;> omega)]
    simp only
    rw [skip_head hb (by decide)]
    simp only
    rw [e]
    simp only
    rw [skip_head hc (by decide)]
    simp only
    rw [ih]
    rfl
end

theorem parse_spaced {v : Json} {s : GoStr} (h : v.Ok) (hs : v.Spaced s) : Json.parse s = some v.clean := by
  obtain ⟨b, hb, e⟩ := readValue_spaced v (s.length + 1) s [] h hs (by omega) (by rintro _ ⟨⟩)
  rw [List.append_nil] at e
  unfold Json.parse
  rw [e]
  simp only
  rw [skip_blank hb]; rfl

theorem blank_nil : Blank [] := fun _ h => absurd h (by simp)

mutual
/-- The text that is written is one of them. -/
theorem spaced_text : ∀ v : Json, v.Spaced v.text
  | .null => ⟨[], [], blank_nil, blank_nil, by simp [Json.text]⟩
  | .bool true => ⟨[], [], blank_nil, blank_nil, by simp [Json.text]⟩
  | .bool false => ⟨[], [], blank_nil, blank_nil, by simp [Json.text]⟩
  | .num t => ⟨[], [], blank_nil, blank_nil, by simp [Json.text]⟩
  | .str t => ⟨[], [], blank_nil, blank_nil, by simp [Json.text]⟩
  | .arr l => ⟨[], textElems l, [], blank_nil, blank_nil, spaced_textElems l, by simp [Json.text]⟩
  | .obj l => ⟨[], textFields l, [], blank_nil, blank_nil, spaced_textFields l, by simp [Json.text]⟩

theorem spaced_textElems : ∀ l : List Json, spacedElems l (textElems l)
  | [] => blank_nil
  | [v] => spaced_text v
  | v :: w :: l => ⟨v.text, textElems (w :: l), spaced_text v, spaced_textElems (w :: l), rfl⟩

theorem spaced_textFields : ∀ l : List (GoStr × Json), spacedFields l (textFields l)
  | [] => blank_nil
  | [(k, v)] => ⟨[], [], v.text, blank_nil, blank_nil, spaced_text v, rfl⟩
  | (k, v) :: e :: l => ⟨[], [], v.text, textFields (e :: l), blank_nil, blank_nil, spaced_text v, spaced_textFields (e :: l), rfl⟩
end

theorem JCodec.spaced {α : Type} {enc : α → Option Json} {dec : Json → Option α} {P : α → Prop} {R : α → α → Prop} (hc : JCodec enc dec P R)
    {a : α} (ha : P a) {v : Json} (hv : enc a = some v) {t : GoStr} (ht : v.Spaced t) : unmarshal dec t = unmarshal dec v.text := by
  obtain ⟨ok, -⟩ := hc a ha v hv
  simp only [unmarshal, parse_spaced ok ht, parse_text v ok]

variable {F : Type} [GoFloat F] (j : JsonFloats F)

/-- **C77** (spaces). What `json.Marshal` has written can be laid out anew with spaces, tabs and line ends between the tokens, as
`json.Indent` or an editor does: `json.Unmarshal` restores the same structure from it. -/
theorem C77_spaces {v : Json} {t : GoStr} (ht : v.Spaced t) :
    (∀ x : Scaler F, x.Named → Scaler.enc j x = some v → unmarshal (Scaler.dec j) t = unmarshal (Scaler.dec j) v.text) ∧
    (∀ x : FloatImputer F, Named x.fallback → FloatImputer.enc j x = some v → unmarshal (FloatImputer.dec j) t = unmarshal (FloatImputer.dec j) v.text) ∧
    (∀ x : HashEncoder, (∀ c ∈ x.categoricalColumns, IsText c) → HashEncoder.enc x = v → unmarshal HashEncoder.dec t = unmarshal HashEncoder.dec v.text) ∧
    (∀ x : OneHotEncoder, x.Named → OneHotEncoder.enc x = some v → unmarshal OneHotEncoder.dec t = unmarshal OneHotEncoder.dec v.text) ∧
    (∀ x : LinearRegressor F, x.Named → LinearRegressor.enc j x = some v → unmarshal (LinearRegressor.dec j) t = unmarshal (LinearRegressor.dec j) v.text) ∧
    (∀ x : AutoPreprocessor F, x.Named → AutoPreprocessor.enc j x = some v → unmarshal (AutoPreprocessor.dec j) t = unmarshal (AutoPreprocessor.dec j) v.text) :=
  ⟨fun _ hx hv => (codec_scaler j).spaced hx hv ht, fun _ hx hv => (codec_imputer j).spaced hx hv ht,
    fun _ hx hv => codec_hash.spaced hx (congrArg some hv) ht, fun _ hx hv => codec_oneHot.spaced hx hv ht,
    fun _ hx hv => (codec_linreg j).spaced hx hv ht, fun _ hx hv => (codec_auto j).spaced hx hv ht⟩

/-! ### non-vacuity: what an editor makes of a saved encoder -/

/-- Two columns. -/
def henc : HashEncoder := { categoricalColumns := [b!"a", b!"b"] }

/-- `{ "CategoricalColumns" : [ "a" , "b" ] }` with a line end after it. -/
theorem henc_spaced : (HashEncoder.enc henc).Spaced b!"{ \"CategoricalColumns\" : [ \"a\" , \"b\" ] }\n" :=
  ⟨[], b!" \"CategoricalColumns\" : [ \"a\" , \"b\" ] ", b!"\n", blank_nil, by unfold Blank; decide,
    ⟨b!" ", b!" ", b!" [ \"a\" , \"b\" ] ", by unfold Blank; decide, by unfold Blank; decide,
      ⟨b!" ", b!" \"a\" , \"b\" ", b!" ", by unfold Blank; decide, by unfold Blank; decide,
        ⟨b!" \"a\" ", b!" \"b\" ", ⟨b!" ", b!" ", by unfold Blank; decide, by unfold Blank; decide, by decide⟩,
          ⟨b!" ", b!" ", by unfold Blank; decide, by unfold Blank; decide, by decide⟩, by decide⟩, by decide⟩, by decide⟩, by decide⟩

example := ((C77_spaces (F := Float64) Float64.jsonFloat64 henc_spaced).2.2.1 henc)
example : (unmarshal HashEncoder.dec b!"{ \"CategoricalColumns\" : [ \"a\" , \"b\" ] }\n").map HashEncoder.categoricalColumns = some [b!"a", b!"b"] := by
  decide +kernel

end Verif
