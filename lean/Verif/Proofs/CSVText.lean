import Verif.Spec.CSVText

/-! The text layer: what is written is read. -/

namespace Verif

/-! ### Lines -/

/-- The first line of a text, and the rest. -/
def lineOf (s : GoStr) : GoStr × GoStr := (normLine (takeLine s).1, (takeLine s).2)

theorem readLine_eq {s : GoStr} (h : s ≠ []) : readLine s = some (lineOf s) := by
  unfold readLine lineOf
  rw [if_neg h]

theorem lineOf_nl (s : GoStr) : lineOf (10 :: s) = ([10], s) := by
  simp [lineOf, takeLine, normLine]

theorem lineOf_crnl (s : GoStr) : lineOf (13 :: 10 :: s) = ([10], s) := by
  simp [lineOf, takeLine, normLine]

theorem takeLine_eq_nil {s : GoStr} (h : (takeLine s).1 = []) : s = [] := by
  cases s with
  | nil => rfl
  | cons b s => unfold takeLine at h; split at h <;> cases h

theorem takeLine_eq_nl {s : GoStr} (h : (takeLine s).1 = [10]) : s.head? = some 10 := by
  cases s with
  | nil => cases h
  | cons b s =>
    unfold takeLine at h
    split at h
    · rename_i hb; simp [hb]
    · rename_i hb
      simp only [List.cons.injEq] at h
      exact absurd h.1 hb

theorem lineOf_cons {b : UInt8} {s : GoStr} (h10 : b ≠ 10) (h13 : b = 13 → s ≠ [] ∧ s.head? ≠ some 10) :
    lineOf (b :: s) = (b :: (lineOf s).1, (lineOf s).2) := by
  unfold lineOf
  have e : takeLine (b :: s) = (b :: (takeLine s).1, (takeLine s).2) := by
    rw [takeLine, if_neg h10]
  rw [e]
  simp only
  rw [normLine, if_neg]
  rintro ⟨hb, h | h⟩
  · exact (h13 hb).1 (takeLine_eq_nil h)
  · exact (h13 hb).2 (takeLine_eq_nl h)

theorem lineOf_cr {s : GoStr} (h : s.head? = some 10) : lineOf (13 :: s) = lineOf s := by
  cases s with
  | nil => cases h
  | cons b s =>
    simp at h
    subst h
    rw [lineOf_crnl, lineOf_nl]

theorem lineOf_append {p s : GoStr} (h : ∀ b ∈ p, b ≠ 10 ∧ b ≠ 13) : lineOf (p ++ s) = (p ++ (lineOf s).1, (lineOf s).2) := by
  induction p with
  | nil => rfl
  | cons b p ih =>
    rw [List.cons_append, lineOf_cons (h b (by simp)).1 (fun e => absurd e (h b (by simp)).2), ih (fun x hx => h x (by simp [hx]))]
    rfl

theorem lineOf_fst_ne_nil {s : GoStr} (h : s ≠ []) (h13 : s ≠ [13]) : (lineOf s).1 ≠ [] := by
  cases s with
  | nil => exact absurd rfl h
  | cons b s =>
    by_cases hb : b = 10
    · subst hb; rw [lineOf_nl]; simp
    · by_cases hc : b = 13 ∧ (s = [] ∨ s.head? = some 10)
      · obtain ⟨rfl, hs | hs⟩ := hc
        · subst hs; exact absurd rfl h13
        · rw [lineOf_cr hs]
          cases s with
          | nil => cases hs
          | cons c s => simp at hs; subst hs; rw [lineOf_nl]; simp
      · rw [lineOf_cons hb]
        · simp
        · intro e
          refine ⟨fun h => hc ⟨e, Or.inl h⟩, fun h => hc ⟨e, Or.inr h⟩⟩

/-! ### Separators -/

/-- How many bytes follow the first byte of a rune. -/
def runeTail (a : UInt8) : Nat := if a.toNat < 0xC0 then 0 else if a.toNat < 0xE0 then 1 else if a.toNat < 0xF0 then 2 else 3

/-- The text of a rune: a first byte, then as many continuation bytes as it says. -/
structure RuneText (c : GoStr) (a : UInt8) (r : GoStr) : Prop where
  eq : c = a :: r
  first : ¬ (0x80 ≤ a.toNat ∧ a.toNat < 0xC0)
  cont : ∀ b ∈ r, 0x80 ≤ b.toNat ∧ b.toNat < 0xC0
  len : r.length = runeTail a

theorem RuneText.prefix_free {c d : GoStr} {a b : UInt8} {r s : GoStr} (hc : RuneText c a r) (hd : RuneText d b s) {X : GoStr}
    (h : c <+: d ++ X) : c = d := by
  have hab : a = b := by
    obtain ⟨u, hu⟩ := h
    rw [hc.eq, hd.eq] at hu
    simp only [List.cons_append, List.cons.injEq] at hu
    exact hu.1
  have hl : c.length = d.length := by
    rw [hc.eq, hd.eq]
    simp [hc.len, hd.len, hab]
  have : c <+: d := List.prefix_of_prefix_length_le h (List.prefix_append _ _) (by omega)
  exact this.eq_of_length hl

/-- Text in which no rune begins in the middle. -/
def NoCont (t : GoStr) : Prop := ∀ b, t.head? = some b → ¬ (0x80 ≤ b.toNat ∧ b.toNat < 0xC0)

theorem RuneText.inside {c : GoStr} {a : UInt8} {r : GoStr} (hc : RuneText c a r) {f T : GoStr} (hf : f ≠ []) (hT : NoCont T)
    (h : c <+: f ++ T) : c <+: f := by
  rcases Nat.lt_or_ge f.length c.length with hl | hl
  · exfalso
    have hp : f <+: c := List.prefix_of_prefix_length_le (List.prefix_append _ _) h (by omega)
    obtain ⟨t, ht⟩ := hp
    have ht0 : t ≠ [] := by
      rintro rfl
      rw [List.append_nil] at ht
      rw [ht] at hl; omega
    rw [← ht] at h
    obtain ⟨u, hu⟩ := h
    rw [List.append_assoc] at hu
    have hu := List.append_cancel_left hu
    cases t with
    | nil => exact ht0 rfl
    | cons b t =>
      have := hT b (by rw [← hu]; rfl)
      apply this
      apply hc.cont
      have : c.tail = r := by rw [hc.eq]; rfl
      rw [← this, ← ht]
      cases f with
      | nil => exact absurd rfl hf
      | cons x f => simp
  · exact List.prefix_of_prefix_length_le h (List.prefix_append _ _) hl

/-- A separator: the text of a rune that is not a quote or a line end. -/
structure SepOk (sep : GoStr) : Prop where
  rune : ∃ a r, RuneText sep a r
  noQuote : 34 ∉ sep
  noCR : 13 ∉ sep
  noNL : 10 ∉ sep

theorem SepOk.ne {sep : GoStr} (h : SepOk sep) : sep ≠ [] := by
  obtain ⟨a, r, hr⟩ := h.rune
  rw [hr.eq]; simp

theorem SepOk.noCont {sep : GoStr} (h : SepOk sep) (X : GoStr) : NoCont (sep ++ X) := by
  obtain ⟨a, r, hr⟩ := h.rune
  intro b hb
  rw [hr.eq] at hb
  simp at hb
  subst hb
  exact hr.first

theorem noCont_nl (X : GoStr) : NoCont (10 :: X) := by
  intro b hb
  simp at hb
  subst hb
  decide

theorem cutSep_append {sep : GoStr} (hs : SepOk sep) {f s : GoStr} (h : cutSep sep f = none) :
    cutSep sep (f ++ (sep ++ s)) = some (f, s) := by
  obtain ⟨a, r, hr⟩ := hs.rune
  induction f with
  | nil =>
    have : sep ++ s = a :: (r ++ s) := by rw [hr.eq]; rfl
    rw [List.nil_append, this, cutSep, ← this, if_pos (List.isPrefixOf_iff_prefix.2 (List.prefix_append _ _))]
    simp
  | cons b f ih =>
    unfold cutSep at h
    split at h
    · cases h
    · rename_i hp
      rw [Option.map_eq_none_iff] at h
      rw [List.cons_append, cutSep, if_neg, ih h]
      · rfl
      · intro hc
        apply hp
        rw [List.isPrefixOf_iff_prefix] at hc ⊢
        rw [← List.cons_append] at hc
        exact hr.inside (by simp) (hs.noCont s) hc

theorem cutSep_none_append {sep : GoStr} (hs : SepOk sep) {f : GoStr} (h : cutSep sep f = none) :
    cutSep sep (f ++ [10]) = none := by
  obtain ⟨a, r, hr⟩ := hs.rune
  induction f with
  | nil =>
    simp only [List.nil_append, cutSep, Option.map_none]
    rw [if_neg]
    rw [List.isPrefixOf_iff_prefix]
    rintro ⟨u, hu⟩
    rw [hr.eq] at hu
    simp only [List.cons_append, List.cons.injEq] at hu
    exact hs.noNL (by rw [hr.eq, ← hu.1]; simp)
  | cons b f ih =>
    unfold cutSep at h
    split at h
    · cases h
    · rename_i hp
      rw [Option.map_eq_none_iff] at h
      rw [List.cons_append, cutSep, if_neg, ih h]
      · rfl
      · intro hc
        apply hp
        rw [List.isPrefixOf_iff_prefix] at hc ⊢
        rw [← List.cons_append] at hc
        exact hr.inside (by simp) (noCont_nl []) hc

/-! ### Quoted fields -/

theorem cutSep_quote_cons {b : UInt8} {l : GoStr} (h : b ≠ 34) :
    cutSep [34] (b :: l) = (cutSep [34] l).map fun p => (b :: p.1, p.2) := by
  rw [cutSep, if_neg]
  rw [List.isPrefixOf_iff_prefix]
  rintro ⟨u, hu⟩
  simp at hu
  exact h hu.1.symm

theorem cutSep_quote {l : GoStr} : cutSep [34] (34 :: l) = some ([], l) := by
  rw [cutSep, if_pos] <;> simp [List.isPrefixOf]

/-- A byte that is not a quote, inside a line. -/
theorem quoted_byte (o : TextReader) (n : Nat) {b : UInt8} {l : GoStr} (rest f : GoStr) (hb : b ≠ 34) (hl : l ≠ []) :
    o.quoted n (b :: l) rest f = o.quoted n l rest (f ++ [b]) := by
  cases n with
  | zero => rfl
  | succ n =>
    rw [TextReader.quoted, TextReader.quoted, cutSep_quote_cons hb]
    cases cutSep [34] l with
    | some p => simp
    | none =>
      simp only [Option.map_none, ne_eq, reduceCtorEq, not_false_eq_true, if_true, hl]
      simp

/-- The end of a line inside a quoted field. -/
theorem quoted_nl (o : TextReader) (n : Nat) {rest : GoStr} (f : GoStr) (hr : rest ≠ []) :
    o.quoted (n + 1) [10] rest f = o.quoted n (lineOf rest).1 (lineOf rest).2 (f ++ [10]) := by
  rw [TextReader.quoted, cutSep_quote_cons (by decide)]
  simp only [cutSep, Option.map_none, readLine_eq hr]
  simp

/-- A doubled quote. -/
theorem quoted_quote (o : TextReader) (n : Nat) (l rest f : GoStr) :
    o.quoted (n + 1) (34 :: 34 :: l) rest f = o.quoted n l rest (f ++ [34]) := by
  rw [TextReader.quoted, cutSep_quote]
  simp

theorem quoteByte_head_ne (w : TextWriter) (f t : GoStr) :
    ((f.flatMap w.quoteByte) ++ 34 :: t).head? ≠ some 10 ∨ (f.head? = some 10 ∧ w.crlf = false) ∨ w.crlf = true := by
  cases hc : w.crlf with
  | true => exact Or.inr (Or.inr rfl)
  | false =>
    cases f with
    | nil => left; simp
    | cons c f =>
      by_cases h : c = 10
      · right; left; simp [h]
      · left
        simp only [List.flatMap_cons, TextWriter.quoteByte, hc]
        split
        · simp
        · split
          · simp
          · simp [h]

/-- The inside of a quoted field and its last quote are read as what survives of the field. `T` is the text after it. -/
theorem quoted_body (o : TextReader) (w : TextWriter) (T : GoStr) (R : GoStr → Quoted)
    (hR : ∀ n f, 1 ≤ n → o.quoted n (lineOf (34 :: T)).1 (lineOf (34 :: T)).2 f = R f) :
    ∀ (g : GoStr) (n : Nat) (f : GoStr), (g.flatMap w.quoteByte).length + 1 ≤ n →
      o.quoted n (lineOf (g.flatMap w.quoteByte ++ 34 :: T)).1 (lineOf (g.flatMap w.quoteByte ++ 34 :: T)).2 f =
        R (f ++ survives w.crlf g) := by
  intro g
  induction g with
  | nil =>
    intro n f hn
    simp only [List.flatMap_nil, List.nil_append]
    rw [hR n f (by simpa using hn)]
    unfold survives dropCRLF
    simp
  | cons b g ih =>
    intro n f hn
    have hne : g.flatMap w.quoteByte ++ 34 :: T ≠ [] := by simp
    have hne13 : g.flatMap w.quoteByte ++ 34 :: T ≠ [13] := by
      intro h
      have := congrArg (fun l => (34 : UInt8) ∈ l) h
      simp at this
    have hline := lineOf_fst_ne_nil hne hne13
    simp only [List.flatMap_cons, List.length_append] at hn
    rw [List.flatMap_cons, List.append_assoc]
    by_cases h34 : b = 34
    · subst h34
      have e : w.quoteByte 34 = [34, 34] := rfl
      rw [e] at hn ⊢
      simp only [List.length_cons, List.length_nil] at hn
      obtain ⟨m, rfl⟩ : ∃ m, n = m + 1 := ⟨n - 1, by omega⟩
      rw [List.cons_append, List.cons_append, List.nil_append,
        lineOf_cons (by decide) (fun h => absurd h (by decide)), lineOf_cons (by decide) (fun h => absurd h (by decide))]
      rw [quoted_quote, ih m _ (by omega)]
      congr 1
      rw [List.append_assoc]
      congr 1
      unfold survives
      split
      · simp
      · simp [dropCRLF]
    · by_cases h13 : b = 13
      · subst h13
        cases hc : w.crlf with
        | true =>
          have e : w.quoteByte 13 = [] := by simp [TextWriter.quoteByte, hc]
          rw [e] at hn ⊢
          simp only [List.nil_append]
          rw [ih n f (by simpa using hn)]
          simp [survives, hc]
        | false =>
          have e : w.quoteByte 13 = [13] := by simp [TextWriter.quoteByte, hc]
          rw [e] at hn ⊢
          simp only [List.length_cons, List.length_nil] at hn
          rw [List.cons_append, List.nil_append]
          by_cases hg : g.head? = some 10
          · have hh : (g.flatMap w.quoteByte ++ 34 :: T).head? = some 10 := by
              cases g with
              | nil => cases hg
              | cons c g =>
                simp at hg
                subst hg
                simp [TextWriter.quoteByte, hc]
            rw [lineOf_cr hh, ih n f (by omega)]
            simp [survives, hc, dropCRLF, hg]
          · rw [lineOf_cons (by decide), quoted_byte o n _ _ (by decide) hline, ih n _ (by omega)]
            · congr 1
              simp [survives, hc, dropCRLF, hg]
            · intro _
              refine ⟨hne, ?_⟩
              rcases quoteByte_head_ne w g T with h | h | h
              · exact h
              · exact absurd h.1 hg
              · rw [hc] at h; cases h
      · by_cases h10 : b = 10
        · subst h10
          cases hc : w.crlf with
          | true =>
            have e : w.quoteByte 10 = [13, 10] := by simp [TextWriter.quoteByte, hc]
            rw [e] at hn ⊢
            simp only [List.length_cons, List.length_nil] at hn
            obtain ⟨m, rfl⟩ : ∃ m, n = m + 1 := ⟨n - 1, by omega⟩
            rw [List.cons_append, List.cons_append, List.nil_append, lineOf_crnl]
            simp only
            rw [quoted_nl o m f hne, ih m _ (by omega)]
            simp [survives, hc]
          | false =>
            have e : w.quoteByte 10 = [10] := by simp [TextWriter.quoteByte, hc]
            rw [e] at hn ⊢
            simp only [List.length_cons, List.length_nil] at hn
            obtain ⟨m, rfl⟩ : ∃ m, n = m + 1 := ⟨n - 1, by omega⟩
            rw [List.cons_append, List.nil_append, lineOf_nl]
            simp only
            rw [quoted_nl o m f hne, ih m _ (by omega)]
            simp [survives, hc, dropCRLF]
        · have e : w.quoteByte b = [b] := by simp [TextWriter.quoteByte, h34, h13, h10]
          rw [e] at hn ⊢
          simp only [List.length_cons, List.length_nil] at hn
          rw [List.cons_append, List.nil_append, lineOf_cons h10 (fun h => absurd h h13), quoted_byte o n _ _ h34 hline, ih n _ (by omega)]
          congr 1
          unfold survives
          split
          · simp [h13]
          · simp [dropCRLF, h13]

/-! ### Fields -/

theorem spaceRunes_rune : ∀ s ∈ spaceRunes, ∃ a r, RuneText s a r := by
  have key : ∀ s ∈ spaceRunes, s ≠ [] ∧ ¬ (0x80 ≤ (s.headD 0).toNat ∧ (s.headD 0).toNat < 0xC0) ∧
      (∀ b ∈ s.tail, 0x80 ≤ b.toNat ∧ b.toNat < 0xC0) ∧ s.tail.length = runeTail (s.headD 0) := by
    decide
  intro s hs
  have := key s hs
  cases s with
  | nil => exact absurd rfl this.1
  | cons a r => exact ⟨a, r, rfl, this.2.1, this.2.2.1, this.2.2.2⟩

theorem leadSpace_append {f T : GoStr} (hf : f ≠ []) (hT : NoCont T) (h : leadSpace f = none) : leadSpace (f ++ T) = none := by
  unfold leadSpace at h ⊢
  rw [List.find?_eq_none] at h ⊢
  intro s hs hp
  obtain ⟨a, r, hr⟩ := spaceRunes_rune s hs
  rw [List.isPrefixOf_iff_prefix] at hp
  exact h s hs (List.isPrefixOf_iff_prefix.2 (hr.inside hf hT hp))

theorem leadSpace_sep {sep : GoStr} (hs : SepOk sep) (hsp : sep ∉ spaceRunes) (X : GoStr) : leadSpace (sep ++ X) = none := by
  unfold leadSpace
  rw [List.find?_eq_none]
  intro s hm hp
  obtain ⟨a, r, hr⟩ := spaceRunes_rune s hm
  obtain ⟨b, t, hb⟩ := hs.rune
  rw [List.isPrefixOf_iff_prefix] at hp
  have := hr.prefix_free hb hp
  subst this
  exact hsp hm

theorem leadSpace_quote (l : GoStr) : leadSpace (34 :: l) = none := by
  unfold leadSpace
  rw [List.find?_eq_none]
  have key : ∀ s ∈ spaceRunes, s.head? ≠ some 34 ∧ s ≠ [] := by decide
  intro s hs hp
  rw [List.isPrefixOf_iff_prefix] at hp
  obtain ⟨u, hu⟩ := hp
  cases s with
  | nil => exact (key _ hs).2 rfl
  | cons a s =>
    simp only [List.cons_append, List.cons.injEq] at hu
    exact (key _ hs).1 (by simp [hu.1])

theorem trimLeft_none {n : Nat} {s : GoStr} (h : leadSpace s = none) : trimLeft n s = s := by
  cases n with
  | zero => rfl
  | succ n => rw [trimLeft, h]

theorem takeLine_length (s : GoStr) : (takeLine s).1.length + (takeLine s).2.length = s.length := by
  induction s with
  | nil => rfl
  | cons b s ih =>
    rw [takeLine]
    split
    · simp; omega
    · simp only [List.length_cons]; omega

theorem normLine_length (s : GoStr) : s.length ≤ (normLine s).length + 1 := by
  induction s with
  | nil => simp
  | cons b s ih =>
    rw [normLine]
    split
    · simp
    · simp only [List.length_cons]; omega

theorem lineOf_length (s : GoStr) : s.length ≤ (lineOf s).1.length + (lineOf s).2.length + 1 := by
  have h1 := takeLine_length s
  have h2 := normLine_length (takeLine s).1
  unfold lineOf
  simp only
  omega

theorem needsQuotes_false {w : TextWriter} {f : GoStr} (h : w.needsQuotes f = false) :
    f = [] ∨ (cutSep w.sep f = none ∧ 34 ∉ f ∧ 13 ∉ f ∧ 10 ∉ f ∧ leadSpace f = none) := by
  unfold TextWriter.needsQuotes at h
  split at h
  · rename_i hf; exact Or.inl hf
  · right
    simp only [Bool.or_eq_false_iff] at h
    obtain ⟨⟨⟨⟨⟨-, h1⟩, h2⟩, h3⟩, h4⟩, h5⟩ := h
    refine ⟨by simpa using h1, by simpa using h2, by simpa using h3, by simpa using h4, by simpa using h5⟩

theorem survives_plain {crlf : Bool} {f : GoStr} (h : 13 ∉ f) : survives crlf f = f := by
  unfold survives
  split
  · rw [List.filter_eq_self]
    intro b hb
    simp only [decide_eq_true_eq]
    rintro rfl
    exact h hb
  · induction f with
    | nil => rfl
    | cons b f ih =>
      rw [dropCRLF, if_neg, ih (fun hm => h (by simp [hm]))]
      rintro ⟨rfl, -⟩
      exact h (by simp)

/-- The end of a line. -/
def TextWriter.nl (w : TextWriter) : GoStr := if w.crlf then [13, 10] else [10]

theorem lineOf_end (w : TextWriter) (R : GoStr) : lineOf (w.nl ++ R) = ([10], R) := by
  unfold TextWriter.nl
  split
  · exact lineOf_crnl R
  · exact lineOf_nl R

theorem lineOf_sep {sep : GoStr} (hs : SepOk sep) (U : GoStr) : lineOf (sep ++ U) = (sep ++ (lineOf U).1, (lineOf U).2) := by
  apply lineOf_append
  intro b hb
  refine ⟨?_, ?_⟩
  · rintro rfl; exact hs.noNL hb
  · rintro rfl; exact hs.noCR hb

theorem SepOk.head {sep : GoStr} (hs : SepOk sep) (X : GoStr) : (sep ++ X).head? ≠ some 34 := by
  obtain ⟨a, r, hr⟩ := hs.rune
  rw [hr.eq]
  simp only [List.cons_append, List.head?_cons, ne_eq, Option.some.injEq]
  rintro rfl
  exact hs.noQuote (by rw [hr.eq]; simp)

theorem SepOk.not_nl {sep : GoStr} (hs : SepOk sep) : sep.isPrefixOf [10] = false := by
  rw [Bool.eq_false_iff]
  intro hp
  rw [List.isPrefixOf_iff_prefix] at hp
  obtain ⟨a, r, hr⟩ := hs.rune
  obtain ⟨u, hu⟩ := hp
  rw [hr.eq] at hu
  simp only [List.cons_append, List.cons.injEq] at hu
  exact hs.noNL (by rw [hr.eq, ← hu.1]; simp)

/-- The trimming does nothing to a line that starts with what the writer writes. -/
def TextReader.cutTrim (o : TextReader) (line : GoStr) : GoStr := if o.trim then trimLeft line.length line else line

theorem cutTrim_none {o : TextReader} {line : GoStr} (h : leadSpace line = none) : o.cutTrim line = line := by
  unfold TextReader.cutTrim
  split
  · exact trimLeft_none h
  · rfl

/-- A field and a separator. -/
theorem fields_sep {o : TextReader} {w : TextWriter} (hs : SepOk w.sep) (he : o.sep = w.sep) (ht : o.trim = true → w.sep ∉ spaceRunes)
    (f : GoStr) (U : GoStr) (n : Nat) (acc : List GoStr) :
    o.fields (n + 1) (lineOf (w.field f ++ (w.sep ++ U))).1 (lineOf (w.field f ++ (w.sep ++ U))).2 acc =
      o.fields n (lineOf U).1 (lineOf U).2 (acc ++ [survives w.crlf f]) := by
  cases hq : w.needsQuotes f with
  | true =>
    have hfield : w.field f ++ (w.sep ++ U) = 34 :: (f.flatMap w.quoteByte ++ 34 :: (w.sep ++ U)) := by
      unfold TextWriter.field
      rw [if_pos hq]
      simp
    have hbody := quoted_body o w (w.sep ++ U) (fun f => .next f (lineOf U).1 (lineOf U).2) (by
      intro n f hn
      obtain ⟨n, rfl⟩ : ∃ m, n = m + 1 := ⟨n - 1, by omega⟩
      rw [lineOf_cons (by decide) (fun h => absurd h (by decide)), lineOf_sep hs]
      simp only
      rw [TextReader.quoted, cutSep_quote]
      simp only
      rw [if_neg (hs.head _), he, if_pos (List.isPrefixOf_iff_prefix.2 (List.prefix_append _ _))]
      simp)
    have hlen := lineOf_length (w.field f ++ (w.sep ++ U))
    rw [hfield] at hlen ⊢
    have hl : lineOf (34 :: (f.flatMap w.quoteByte ++ 34 :: (w.sep ++ U))) =
        (34 :: (lineOf (f.flatMap w.quoteByte ++ 34 :: (w.sep ++ U))).1, (lineOf (f.flatMap w.quoteByte ++ 34 :: (w.sep ++ U))).2) :=
      lineOf_cons (by decide) (fun h => absurd h (by decide))
    rw [hl] at hlen ⊢
    simp only [List.length_cons, List.length_append] at hlen
    rw [TextReader.fields]
    have e := cutTrim_none (o := o) (leadSpace_quote (lineOf (f.flatMap w.quoteByte ++ 34 :: (w.sep ++ U))).1)
    unfold TextReader.cutTrim at e
    simp only [e, List.head?_cons, if_true, List.drop_succ_cons, List.drop_zero]
    rw [hbody f _ [] (by simp only [List.length_cons]; omega)]
    simp
  | false =>
    have hfield : w.field f = f := by unfold TextWriter.field; rw [hq]; rfl
    rw [hfield]
    have hno : (∀ b ∈ f, b ≠ 10 ∧ b ≠ 13) ∧ 34 ∉ f ∧ cutSep w.sep f = none := by
      rcases needsQuotes_false hq with rfl | ⟨h1, h2, h3, h4, h5⟩
      · simp [cutSep]
      · exact ⟨fun b hb => ⟨fun e => h4 (e ▸ hb), fun e => h3 (e ▸ hb)⟩, h2, h1⟩
    rw [lineOf_append hno.1, lineOf_sep hs]
    simp only
    rw [TextReader.fields]
    have e : o.cutTrim (f ++ (w.sep ++ (lineOf U).1)) = f ++ (w.sep ++ (lineOf U).1) := by
      rcases needsQuotes_false hq with rfl | ⟨h1, h2, h3, h4, h5⟩
      · unfold TextReader.cutTrim
        split
        · rename_i hh
          exact trimLeft_none (leadSpace_sep hs (ht hh) _)
        · rfl
      · by_cases hf : f = []
        · subst hf
          unfold TextReader.cutTrim
          split
          · rename_i hh
            exact trimLeft_none (leadSpace_sep hs (ht hh) _)
          · rfl
        · exact cutTrim_none (leadSpace_append hf (hs.noCont _) h5)
    unfold TextReader.cutTrim at e
    simp only [e]
    have hh : (f ++ (w.sep ++ (lineOf U).1)).head? ≠ some 34 := by
      cases f with
      | nil => exact hs.head _
      | cons b f =>
        simp only [List.cons_append, List.head?_cons, ne_eq, Option.some.injEq]
        rintro rfl
        exact hno.2.1 (by simp)
    rw [if_neg hh, he, cutSep_append hs hno.2.2]
    simp only
    rw [if_neg (fun h => hno.2.1 h.2), survives_plain (fun h => (hno.1 13 h).2 rfl)]

theorem dropNL_append (f : GoStr) : dropNL (f ++ [10]) = f := by
  unfold dropNL
  simp

/-- The last field of a line. -/
theorem fields_end {o : TextReader} {w : TextWriter} (hs : SepOk w.sep) (he : o.sep = w.sep)
    (f : GoStr) (R : GoStr) (n : Nat) (acc : List GoStr) :
    o.fields (n + 1) (lineOf (w.field f ++ (w.nl ++ R))).1 (lineOf (w.field f ++ (w.nl ++ R))).2 acc =
      some (acc ++ [survives w.crlf f], R) := by
  cases hq : w.needsQuotes f with
  | true =>
    have hfield : w.field f ++ (w.nl ++ R) = 34 :: (f.flatMap w.quoteByte ++ 34 :: (w.nl ++ R)) := by
      unfold TextWriter.field
      rw [if_pos hq]
      simp
    have hbody := quoted_body o w (w.nl ++ R) (fun f => .done f R) (by
      intro n f hn
      obtain ⟨n, rfl⟩ : ∃ m, n = m + 1 := ⟨n - 1, by omega⟩
      rw [lineOf_cons (by decide) (fun h => absurd h (by decide)), lineOf_end]
      simp only
      rw [TextReader.quoted, cutSep_quote]
      simp only
      rw [if_neg (by simp), he, hs.not_nl]
      simp)
    have hlen := lineOf_length (w.field f ++ (w.nl ++ R))
    rw [hfield] at hlen ⊢
    have hl : lineOf (34 :: (f.flatMap w.quoteByte ++ 34 :: (w.nl ++ R))) =
        (34 :: (lineOf (f.flatMap w.quoteByte ++ 34 :: (w.nl ++ R))).1, (lineOf (f.flatMap w.quoteByte ++ 34 :: (w.nl ++ R))).2) :=
      lineOf_cons (by decide) (fun h => absurd h (by decide))
    rw [hl] at hlen ⊢
    simp only [List.length_cons, List.length_append] at hlen
    rw [TextReader.fields]
    have e := cutTrim_none (o := o) (leadSpace_quote (lineOf (f.flatMap w.quoteByte ++ 34 :: (w.nl ++ R))).1)
    unfold TextReader.cutTrim at e
    simp only [e, List.head?_cons, if_true, List.drop_succ_cons, List.drop_zero]
    rw [hbody f _ [] (by simp only [List.length_cons]; omega)]
    simp
  | false =>
    have hfield : w.field f = f := by unfold TextWriter.field; rw [hq]; rfl
    rw [hfield]
    have hno : (∀ b ∈ f, b ≠ 10 ∧ b ≠ 13) ∧ 34 ∉ f ∧ cutSep w.sep f = none := by
      rcases needsQuotes_false hq with rfl | ⟨h1, h2, h3, h4, h5⟩
      · simp [cutSep]
      · exact ⟨fun b hb => ⟨fun e => h4 (e ▸ hb), fun e => h3 (e ▸ hb)⟩, h2, h1⟩
    rw [lineOf_append hno.1, lineOf_end]
    simp only
    rw [TextReader.fields, survives_plain (fun h => (hno.1 13 h).2 rfl)]
    by_cases hf : f = []
    · subst hf
      have e : o.cutTrim [10] = [10] ∨ o.cutTrim [10] = [] := by
        unfold TextReader.cutTrim
        split
        · right; decide
        · left; rfl
      unfold TextReader.cutTrim at e
      simp only [List.nil_append]
      rcases e with e | e <;> simp only [e]
      · have := cutSep_none_append hs (f := []) rfl
        rw [List.nil_append] at this
        rw [he, this]
        simp [dropNL]
      · simp [cutSep, dropNL]
    · have h5 : leadSpace f = none := by
        rcases needsQuotes_false hq with h | ⟨-, -, -, -, h5⟩
        · exact absurd h hf
        · exact h5
      have e := cutTrim_none (o := o) (leadSpace_append hf (noCont_nl []) h5)
      unfold TextReader.cutTrim at e
      simp only [e]
      have hh : (f ++ [10]).head? ≠ some 34 := by
        cases f with
        | nil => simp
        | cons b f =>
          simp only [List.cons_append, List.head?_cons, ne_eq, Option.some.injEq]
          rintro rfl
          exact hno.2.1 (by simp)
      rw [if_neg hh, he, cutSep_none_append hs hno.2.2]
      simp only [dropNL_append]
      rw [if_neg (fun h => hno.2.1 h.2)]

/-- A line. -/
theorem fields_line {o : TextReader} {w : TextWriter} (hs : SepOk w.sep) (he : o.sep = w.sep) (ht : o.trim = true → w.sep ∉ spaceRunes)
    (R : GoStr) : ∀ (fs : List GoStr) (n : Nat) (acc : List GoStr), fs ≠ [] → fs.length ≤ n →
    o.fields n (lineOf (w.fields fs ++ (w.nl ++ R))).1 (lineOf (w.fields fs ++ (w.nl ++ R))).2 acc =
      some (acc ++ fs.map (survives w.crlf), R) := by
  intro fs
  induction fs with
  | nil => intro n acc h; exact absurd rfl h
  | cons f fs ih =>
    intro n acc _ hn
    simp only [List.length_cons] at hn
    obtain ⟨n, rfl⟩ : ∃ m, n = m + 1 := ⟨n - 1, by omega⟩
    cases fs with
    | nil => rw [TextWriter.fields, fields_end hs he]; rfl
    | cons g fs =>
      rw [TextWriter.fields]
      · rw [List.append_assoc, List.append_assoc, fields_sep hs he ht, ih n _ (by simp) (by omega)]
        simp
      · simp

/-! ### Records -/

theorem quoteByte_field_ne {w : TextWriter} {f : GoStr} (hf : f ≠ []) :
    ∃ b l, w.field f = b :: l ∧ b ≠ 10 ∧ b ≠ 13 := by
  unfold TextWriter.field
  cases hq : w.needsQuotes f with
  | true => exact ⟨34, _, rfl, by decide, by decide⟩
  | false =>
    simp only [Bool.false_eq_true, if_false]
    rcases needsQuotes_false hq with h | ⟨-, -, h3, h4, -⟩
    · exact absurd h hf
    · cases f with
      | nil => exact absurd rfl hf
      | cons b f => exact ⟨b, f, rfl, fun e => h4 (by simp [e]), fun e => h3 (by simp [e])⟩

theorem fields_first {w : TextWriter} (hs : SepOk w.sep) {r : List GoStr} (hr : blank r = false) :
    ∃ b l, w.fields r = b :: l ∧ b ≠ 10 ∧ b ≠ 13 := by
  unfold blank at hr
  simp only [decide_eq_false_iff_not, not_or] at hr
  cases r with
  | nil => exact absurd rfl hr.1
  | cons f r =>
    by_cases hf : f = []
    · subst hf
      cases r with
      | nil => exact absurd rfl hr.2
      | cons g r =>
        obtain ⟨a, t, ht⟩ := hs.rune
        have e : w.field [] = [] := rfl
        rw [TextWriter.fields, e, List.nil_append]
        · refine ⟨a, t ++ w.fields (g :: r), by rw [ht.eq]; rfl, ?_, ?_⟩
          · rintro rfl; exact hs.noNL (by rw [ht.eq]; simp)
          · rintro rfl; exact hs.noCR (by rw [ht.eq]; simp)
        · simp
    · obtain ⟨b, l, e, h1, h2⟩ := quoteByte_field_ne (w := w) hf
      cases r with
      | nil => exact ⟨b, l, e, h1, h2⟩
      | cons g r =>
        rw [TextWriter.fields, e]
        · exact ⟨b, _, rfl, h1, h2⟩
        · simp

theorem fields_blank {w : TextWriter} {r : List GoStr} (hr : blank r = true) : w.fields r = [] := by
  unfold blank at hr
  simp only [decide_eq_true_eq] at hr
  rcases hr with rfl | rfl
  · rfl
  · rfl

theorem record_eq (w : TextWriter) (r : List GoStr) : w.record r = w.fields r ++ w.nl := rfl

theorem text_length (w : TextWriter) (rs : List (List GoStr)) : rs.length ≤ (w.text rs).length := by
  induction rs with
  | nil => simp
  | cons r rs ih =>
    have : 1 ≤ (w.record r).length := by
      rw [record_eq]
      unfold TextWriter.nl
      split <;> simp
    unfold TextWriter.text at ih ⊢
    simp only [List.flatMap_cons, List.length_append, List.length_cons]
    omega

theorem fields_length (w : TextWriter) (hs : SepOk w.sep) (r : List GoStr) : r.length ≤ (w.fields r).length + 1 := by
  induction r with
  | nil => simp
  | cons f r ih =>
    cases r with
    | nil => simp
    | cons g r =>
      have := List.length_pos_of_ne_nil hs.ne
      rw [TextWriter.fields]
      · simp only [List.length_append, List.length_cons] at ih ⊢
        omega
      · simp

/-- What is written is read, when no line looks like a comment. -/
theorem records_text {o : TextReader} {w : TextWriter} (hs : SepOk w.sep) (he : o.sep = w.sep) (ht : o.trim = true → w.sep ∉ spaceRunes)
    (hc : o.isComment [10] = false) : ∀ (rs : List (List GoStr)) (n : Nat), rs.length + 1 ≤ n →
    (∀ r ∈ rs, ∀ R, blank r = false → o.isComment (lineOf (w.record r ++ R)).1 = false) →
    o.records n (w.text rs) = ⟨(rs.filter (fun r => !blank r)).map (·.map (survives w.crlf)), false⟩ := by
  intro rs
  induction rs with
  | nil =>
    intro n hn _
    obtain ⟨n, rfl⟩ : ∃ m, n = m + 1 := ⟨n - 1, by omega⟩
    rfl
  | cons r rs ih =>
    intro n hn hcom
    simp only [List.length_cons] at hn
    obtain ⟨n, rfl⟩ : ∃ m, n = m + 1 := ⟨n - 1, by omega⟩
    have hih := ih n (by omega) (fun r hr => hcom r (by simp [hr]))
    have htx : w.text (r :: rs) = w.record r ++ w.text rs := by simp [TextWriter.text]
    have hne : w.text (r :: rs) ≠ [] := by
      intro h
      have := text_length w (r :: rs)
      rw [h] at this
      simp at this
    rw [TextReader.records, readLine_eq hne]
    simp only
    cases hb : blank r with
    | true =>
      have : lineOf (w.text (r :: rs)) = ([10], w.text rs) := by
        rw [htx, record_eq, fields_blank hb, List.nil_append, lineOf_end]
      rw [this]
      simp only
      rw [hc]
      simp only [Bool.false_eq_true, if_false, or_true, if_true, hih]
      rw [List.filter_cons_of_neg (by simp [hb])]
    | false =>
      have hcr := hcom r (by simp) (w.text rs) hb
      obtain ⟨b, l, hf, h10, h13⟩ := fields_first hs hb
      have hl : ∃ l', (lineOf (w.text (r :: rs))).1 = b :: l' := by
        rw [htx, record_eq, hf, List.cons_append, List.cons_append, lineOf_cons h10 (fun h => absurd h h13)]
        exact ⟨_, rfl⟩
      obtain ⟨l', hl'⟩ := hl
      have hrne : r ≠ [] := by
        rintro rfl
        simp [blank] at hb
      have hfl := fields_line (o := o) hs he ht (w.text rs) r ((lineOf (w.text (r :: rs))).1.length + (lineOf (w.text (r :: rs))).2.length + 1) [] hrne (by
        have h1 := lineOf_length (w.text (r :: rs))
        have h2 := fields_length w hs r
        rw [htx] at h1 ⊢
        rw [record_eq] at h1 ⊢
        simp only [List.length_append] at h1
        have : 1 ≤ w.nl.length := by unfold TextWriter.nl; split <;> simp
        omega)
      rw [← htx] at hcr
      rw [← List.append_assoc, ← record_eq, ← htx] at hfl
      rw [hcr]
      rw [if_neg (by simp), if_neg (by rw [hl']; simp [h10]), hfl]
      simp only [List.nil_append, hih]
      rw [List.filter_cons_of_pos (by simp [hb])]
      rfl

end Verif
