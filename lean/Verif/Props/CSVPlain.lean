import Verif.Props.CSVText
import Verif.Props.ExampleEnds

/-! **C74** for the texts that other programs write: lines of fields without quotes. -/

namespace Verif

theorem cutSep_none_iff {sep s : GoStr} (h0 : sep ≠ []) : cutSep sep s = none ↔ ¬ sep <:+: s := by
  induction s with
  | nil => simp [cutSep, h0]
  | cons b s ih =>
    rw [cutSep, List.infix_cons_iff]
    by_cases hp : sep <+: b :: s
    · rw [if_pos (List.isPrefixOf_iff_prefix.2 hp)]; simp [hp]
    · rw [if_neg (fun h => hp (List.isPrefixOf_iff_prefix.1 h))]
      simp [hp, ih]

/-- A field that needs no quotes: no quote, no line end, no separator. -/
def PlainField (sep f : GoStr) : Prop := ¬ sep <:+: f ∧ 34 ∉ f ∧ 10 ∉ f ∧ 13 ∉ f

/-- The end of a line. -/
def lineEnd (crlf : Bool) : GoStr := if crlf then [13, 10] else [10]

/-- The text of lines, each with its fields and its kind of line end. -/
def linesText (sep : GoStr) (lines : List (List GoStr × Bool)) : GoStr :=
  lines.flatMap fun l => List.intercalate sep l.1 ++ lineEnd l.2

theorem intercalate_cons2 (sep f g : GoStr) (fs : List GoStr) :
    List.intercalate sep (f :: g :: fs) = f ++ (sep ++ List.intercalate sep (g :: fs)) := by
  simp [List.intercalate]

theorem intercalate_one (sep f : GoStr) : List.intercalate sep [f] = f := by simp [List.intercalate]

theorem head_append_ne {f X : GoStr} (h : 34 ∉ f) (hX : X.head? ≠ some 34) : (f ++ X).head? ≠ some 34 := by
  cases f with
  | nil => exact hX
  | cons b f => simp only [List.cons_append, List.head?_cons, ne_eq, Option.some.injEq]; rintro rfl; simp at h

theorem fields_plain {o : TextReader} (hs : SepOk o.sep) (ht : o.trim = false) {fs : List GoStr} (hne : fs ≠ [])
    (hf : ∀ f ∈ fs, cutSep o.sep f = none ∧ 34 ∉ f) (n : Nat) (hn : fs.length ≤ n) (rest : GoStr) (acc : List GoStr) :
    o.fields n (List.intercalate o.sep fs ++ [10]) rest acc = some (acc ++ fs, rest) := by
  induction fs generalizing n acc with
  | nil => exact absurd rfl hne
  | cons f fs ih =>
    obtain ⟨h1, h2⟩ := hf f (by simp)
    cases n with
    | zero => simp at hn
    | succ n =>
      cases fs with
      | nil =>
        rw [intercalate_one, TextReader.fields]
        simp only [ht, Bool.false_eq_true, if_false]
        rw [if_neg (head_append_ne h2 (by simp)), cutSep_none_append hs h1]
        simp only [dropNL_append]
        rw [if_neg (fun h => h2 h.2)]
      | cons g fs =>
        rw [intercalate_cons2, TextReader.fields]
        simp only [ht, Bool.false_eq_true, if_false, List.append_assoc]
        rw [if_neg (head_append_ne h2 (hs.head _)), cutSep_append hs h1]
        simp only
        rw [if_neg (fun h => h2 h.2), ih (by simp) (fun x hx => hf x (by simp [hx])) n (by simpa using hn)]
        simp

theorem lineOf_lineEnd (crlf : Bool) (R : GoStr) : lineOf (lineEnd crlf ++ R) = ([10], R) := by
  unfold lineEnd
  split
  · exact lineOf_crnl R
  · exact lineOf_nl R

theorem intercalate_plain {sep : GoStr} (hs : SepOk sep) {fs : List GoStr} (hf : ∀ f ∈ fs, 10 ∉ f ∧ 13 ∉ f) :
    ∀ b ∈ List.intercalate sep fs, b ≠ 10 ∧ b ≠ 13 := by
  induction fs with
  | nil => simp [List.intercalate]
  | cons f fs ih =>
    have h0 := hf f (by simp)
    have key : ∀ b ∈ f, b ≠ 10 ∧ b ≠ 13 := fun b hb => ⟨by rintro rfl; exact h0.1 hb, by rintro rfl; exact h0.2 hb⟩
    cases fs with
    | nil => rw [intercalate_one]; exact key
    | cons g fs =>
      rw [intercalate_cons2]
      intro b hb
      rcases List.mem_append.1 hb with hb | hb
      · exact key b hb
      · rcases List.mem_append.1 hb with hb | hb
        · exact ⟨by rintro rfl; exact hs.noNL hb, by rintro rfl; exact hs.noCR hb⟩
        · exact ih (fun x hx => hf x (by simp [hx])) b hb

theorem intercalate_nil_iff {sep : GoStr} (h0 : sep ≠ []) {fs : List GoStr} (hne : fs ≠ []) :
    List.intercalate sep fs = [] ↔ fs = [[]] := by
  cases fs with
  | nil => exact absurd rfl hne
  | cons f fs =>
    cases fs with
    | nil => simp
    | cons g fs => rw [intercalate_cons2]; simp [h0]

theorem intercalate_length {sep : GoStr} (h0 : sep ≠ []) (fs : List GoStr) : fs.length ≤ (List.intercalate sep fs).length + 1 := by
  induction fs with
  | nil => simp
  | cons f fs ih =>
    cases fs with
    | nil => simp
    | cons g fs =>
      rw [intercalate_cons2]
      have : 0 < sep.length := List.length_pos_iff.2 h0
      simp only [List.length_append, List.length_cons] at ih ⊢
      omega

/-- The lines up to some point of the text. -/
theorem records_plain {o : TextReader} (hs : SepOk o.sep) (ht : o.trim = false) (hc : o.comment = none)
    {lines : List (List GoStr × Bool)} (hne : ∀ l ∈ lines, l.1 ≠ [])
    (hf : ∀ l ∈ lines, ∀ f ∈ l.1, PlainField o.sep f) (n : Nat) (R : GoStr) :
    o.records (lines.length + n) (linesText o.sep lines ++ R) =
      ⟨(lines.map (·.1)).filter (· ≠ [[]]) ++ (o.records n R).records, (o.records n R).fails⟩ := by
  induction lines with
  | nil => simp [linesText]
  | cons l lines ih =>
    have ih := ih (fun x hx => hne x (by simp [hx])) (fun x hx => hf x (by simp [hx]))
    have hp := hf l (by simp)
    have hl := hne l (by simp)
    obtain ⟨T, hT⟩ : ∃ T, T = linesText o.sep lines ++ R := ⟨_, rfl⟩
    rw [← hT] at ih
    have e : linesText o.sep (l :: lines) ++ R = List.intercalate o.sep l.1 ++ (lineEnd l.2 ++ T) := by
      rw [hT]; simp [linesText]
    have hne' : List.intercalate o.sep l.1 ++ (lineEnd l.2 ++ T) ≠ [] := by unfold lineEnd; split <;> simp
    rw [e, show (l :: lines).length + n = (lines.length + n) + 1 by simp; omega, TextReader.records, readLine_eq hne',
      lineOf_append (intercalate_plain hs (fun f hm => (hp f hm).2.2)), lineOf_lineEnd]
    have hcm : o.isComment (List.intercalate o.sep l.1 ++ [10]) = false := by unfold TextReader.isComment; rw [hc]
    simp only [hcm, Bool.false_eq_true, if_false]
    by_cases hb : l.1 = [[]]
    · rw [if_pos (Or.inr (by rw [(intercalate_nil_iff hs.ne hl).2 hb]; rfl)), ih]
      simp [hb]
    · have hi : List.intercalate o.sep l.1 ≠ [] := fun h => hb ((intercalate_nil_iff hs.ne hl).1 h)
      rw [if_neg (by
        rintro (h | h)
        · simp at h
        · exact hi (List.append_left_eq_self.1 h))]
      rw [fields_plain hs ht hl (fun f hm => ⟨(cutSep_none_iff hs.ne).2 (hp f hm).1, (hp f hm).2.1⟩) _ (by
        have := intercalate_length hs.ne l.1
        simp; omega)]
      simp only [List.nil_append, ih]
      simp [hb]

theorem linesText_length (sep : GoStr) (lines : List (List GoStr × Bool)) : lines.length ≤ (linesText sep lines).length := by
  induction lines with
  | nil => simp
  | cons l lines ih =>
    have : linesText sep (l :: lines) = List.intercalate sep l.1 ++ (lineEnd l.2 ++ linesText sep lines) := by simp [linesText]
    rw [this]
    have : 1 ≤ (lineEnd l.2).length := by unfold lineEnd; split <;> simp
    simp only [List.length_append, List.length_cons]
    omega

theorem records_fuel_nil (o : TextReader) {n : Nat} (hn : 0 < n) : o.records n [] = ⟨[], false⟩ := by
  cases n with
  | zero => omega
  | succ n => rfl

/-- **C74** (plain text). A text made of lines of fields without quotes, line ends and separators, whatever else they hold (spaces too) and
whether the lines end in LF or in CR LF, or some in one and some in the other: the records are the fields of the lines that are not
empty, and there is no error. `LazyQuotes` does not matter; no comment rune, and leading spaces are not trimmed. -/
theorem C74_plain {t : CSVTextSpec} (hv : validDelim (if t.comma ≠ 0 then t.comma else 44) = true) (hc : t.comment = 0)
    (ht : t.trimLeadingSpace = false) {lines : List (List GoStr × Bool)} (hne : ∀ l ∈ lines, l.1 ≠ [])
    (hf : ∀ l ∈ lines, ∀ f ∈ l.1, PlainField (utf8 (if t.comma ≠ 0 then t.comma else 44)) f) :
    csvRead t (linesText (utf8 (if t.comma ≠ 0 then t.comma else 44)) lines) = ⟨(lines.map (·.1)).filter (· ≠ [[]]), false⟩ := by
  obtain ⟨c, hcc⟩ : ∃ c, c = if t.comma ≠ 0 then t.comma else 44 := ⟨_, rfl⟩
  rw [← hcc] at hv hf ⊢
  unfold csvRead
  simp only
  rw [← hcc, if_neg (by
    rintro (h | h | h)
    · rw [h, hc] at hv; exact absurd hv (by decide)
    · rw [hv] at h; cases h
    · exact h.1 hc)]
  unfold TextReader.input
  have hl := linesText_length (utf8 c) lines
  have := records_plain (o := ⟨utf8 c, if t.comment ≠ 0 then some (utf8 t.comment) else none, t.lazyQuotes, t.trimLeadingSpace⟩)
    (sepOk_utf8 hv) ht (by simp [hc]) hne hf ((linesText (utf8 c) lines).length + 1 - lines.length) []
  rw [List.append_nil, show lines.length + ((linesText (utf8 c) lines).length + 1 - lines.length) = (linesText (utf8 c) lines).length + 1 by omega,
    records_fuel_nil _ (by omega)] at this
  rw [this]; simp

/-- **C74** (stray quotes). Without `LazyQuotes`, a text is an error whose plain lines are followed by a line with a quote inside a field
that does not start with one. -/
theorem C74_stray_quote {t : CSVTextSpec} (hq : t.lazyQuotes = false) (hv : validDelim (if t.comma ≠ 0 then t.comma else 44) = true)
    (hc : t.comment = 0) (ht : t.trimLeadingSpace = false) {lines : List (List GoStr × Bool)} (hne : ∀ l ∈ lines, l.1 ≠ [])
    (hf : ∀ l ∈ lines, ∀ f ∈ l.1, PlainField (utf8 (if t.comma ≠ 0 then t.comma else 44)) f) {f R : GoStr}
    (h34 : 34 ∈ f) (hh : f.head? ≠ some 34) (hn : 10 ∉ f ∧ 13 ∉ f) (hs : ¬ utf8 (if t.comma ≠ 0 then t.comma else 44) <:+: f) (crlf : Bool) :
    (csvRead t (linesText (utf8 (if t.comma ≠ 0 then t.comma else 44)) lines ++ (f ++ (lineEnd crlf ++ R)))).fails = true ∧
    (csvRead t (linesText (utf8 (if t.comma ≠ 0 then t.comma else 44)) lines ++
      (f ++ (utf8 (if t.comma ≠ 0 then t.comma else 44) ++ R)))).fails = true := by
  obtain ⟨c, hcc⟩ : ∃ c, c = if t.comma ≠ 0 then t.comma else 44 := ⟨_, rfl⟩
  rw [← hcc] at hv hf hs ⊢
  have hsep := sepOk_utf8 hv
  have key : ∀ T : GoStr, (∃ l, (lineOf (f ++ T)).1 = f ++ l ∧ (l = [10] ∨ ∃ l', l = utf8 c ++ l')) →
      (csvRead t (linesText (utf8 c) lines ++ (f ++ T))).fails = true := by
    rintro T ⟨l, hl, hl'⟩
    unfold csvRead
    simp only
    rw [← hcc, if_neg (by
      rintro (h | h | h)
      · rw [h, hc] at hv; exact absurd hv (by decide)
      · rw [hv] at h; cases h
      · exact h.1 hc)]
    unfold TextReader.input
    have hlen := linesText_length (utf8 c) lines
    obtain ⟨S, hS⟩ : ∃ S, S = linesText (utf8 c) lines ++ (f ++ T) := ⟨_, rfl⟩
    have hfne : f ≠ [] := by rintro rfl; cases h34
    have hSl : lines.length + 1 ≤ S.length + 1 := by rw [hS]; simp only [List.length_append]; omega
    have := records_plain (o := ⟨utf8 c, if t.comment ≠ 0 then some (utf8 t.comment) else none, t.lazyQuotes, t.trimLeadingSpace⟩)
      hsep ht (by simp [hc]) hne hf (S.length + 1 - lines.length) (f ++ T)
    simp only at this
    rw [← hS, show lines.length + (S.length + 1 - lines.length) = S.length + 1 by omega] at this
    rw [← hS, this]
    simp only
    obtain ⟨m, hm⟩ : ∃ m, S.length + 1 - lines.length = m + 1 := ⟨S.length - lines.length, by omega⟩
    rw [hm, TextReader.records, readLine_eq (by simp [hfne])]
    have hcm : ∀ s, TextReader.isComment ⟨utf8 c, if t.comment ≠ 0 then some (utf8 t.comment) else none, t.lazyQuotes, t.trimLeadingSpace⟩ s =
        false := by intro s; simp [TextReader.isComment, hc]
    generalize lineOf (f ++ T) = L at hl
    obtain ⟨line, rest⟩ := L
    dsimp only at hl
    subst hl
    simp only [hcm, Bool.false_eq_true, if_false]
    rw [if_neg (by
      rintro (h | h)
      · simp [hfne] at h
      · cases f with
        | nil => exact hfne rfl
        | cons b f =>
          injection h with h1 h2
          subst h1; exact hn.1 (by simp))]
    rw [TextReader.fields]
    simp only [ht, Bool.false_eq_true, if_false]
    have hhd : (f ++ l).head? ≠ some 34 := by
      cases f with
      | nil => exact absurd rfl hfne
      | cons b f => simpa using hh
    rw [if_neg hhd]
    have hcut : cutSep (utf8 c) f = none := (cutSep_none_iff hsep.ne).2 hs
    rcases hl' with rfl | ⟨l', rfl⟩
    · rw [cutSep_none_append hsep hcut]
      simp only [dropNL_append]
      rw [if_pos ⟨hq, h34⟩]
    · rw [cutSep_append hsep hcut]
      simp only
      rw [if_pos ⟨hq, h34⟩]
  have hfb : ∀ b ∈ f, b ≠ 10 ∧ b ≠ 13 := fun b hb => ⟨by rintro rfl; exact hn.1 hb, by rintro rfl; exact hn.2 hb⟩
  constructor
  · exact key _ ⟨[10], by rw [lineOf_append hfb, lineOf_lineEnd], .inl rfl⟩
  · exact key _ ⟨_, by rw [lineOf_append hfb, lineOf_sep hsep], .inr ⟨_, rfl⟩⟩

/-! #### the example program -/

section
variable {F : Type} [GoFloat F]
variable {pf : GoStr → Option F} {ff : F → GoStr} {j : JsonFloats F} {bl : Blas F} {sch : ExampleSched F} {disk : GoStr → Option GoStr}
  {a : ExampleArgs F} {target : GoStr} {exclude : List GoStr} {comma : Nat}

/-- C82: the program takes the fields of a plain file as they are, with their spaces. -/
theorem C82_plain_file (hv : validDelim (if comma ≠ 0 then comma else 44) = true) {lines : List (List GoStr × Bool)}
    (hne : ∀ l ∈ lines, l.1 ≠ []) (hf : ∀ l ∈ lines, ∀ f ∈ l.1, PlainField (utf8 (if comma ≠ 0 then comma else 44)) f) :
    csvRead (exampleText comma) (linesText (utf8 (if comma ≠ 0 then comma else 44)) lines) =
      ⟨(lines.map (·.1)).filter (· ≠ [[]]), false⟩ := C74_plain (t := exampleText comma) hv rfl rfl hne hf

/-- C82: with a file in which a quote is inside a field that does not start with one, the program panics. -/
theorem C82_stray_quote {path : GoStr} (hp : a.parsed = some (path, target, exclude, comma))
    (hv : validDelim (if comma ≠ 0 then comma else 44) = true) {lines : List (List GoStr × Bool)}
    (hne : ∀ l ∈ lines, l.1 ≠ []) (hf : ∀ l ∈ lines, ∀ f ∈ l.1, PlainField (utf8 (if comma ≠ 0 then comma else 44)) f) {f R : GoStr}
    (h34 : 34 ∈ f) (hh : f.head? ≠ some 34) (hn : 10 ∉ f ∧ 13 ∉ f) (hs : ¬ utf8 (if comma ≠ 0 then comma else 44) <:+: f) (crlf : Bool)
    (hd : disk path = some (linesText (utf8 (if comma ≠ 0 then comma else 44)) lines ++ (f ++ (lineEnd crlf ++ R)))) (w : Bool) (h : Heap F) :
    exampleMain pf ff j bl sch disk w a h = .error .panic :=
  C82_bad_file hp (.inr (.inr (.inr (.inr ⟨_, hd, .inl
    (C74_stray_quote (t := exampleText comma) rfl hv rfl rfl hne hf h34 hh hn hs crlf).1⟩)))) w h

end

/-! #### demonstration -/

namespace Demo

def plainLines : List (List GoStr × Bool) := [([b!"a", b!" b"], false), ([[]], true), ([b!"1", []], true), ([b!" 2", b!"x y"], false)]

example : csvRead (exampleText 59) (linesText (utf8 59) plainLines) = ⟨[[b!"a", b!" b"], [b!"1", []], [b!" 2", b!"x y"]], false⟩ :=
  C82_plain_file (comma := 59) (by decide) (by decide) (by unfold PlainField; decide)

example : (csvRead plainText (linesText (utf8 44) plainLines ++ ([53, 34, 32] ++ (lineEnd true ++ b!"etc")))).fails = true :=
  (C74_stray_quote (t := plainText) rfl (by decide) rfl rfl (lines := plainLines) (by decide) (by unfold PlainField; decide)
    (f := [53, 34, 32]) (R := b!"etc") (by decide) (by decide) (by decide) (by decide) true).1

end Demo
end Verif
