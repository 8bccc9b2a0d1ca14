import Verif.Props.CSVText

/-! C74: the last line of a text needs no line feed. -/

namespace Verif

/-! ### Bytes that do not matter -/

theorem isPrefixOf_nl {r : GoStr} (h10 : 10 ∉ r) (s : GoStr) : r.isPrefixOf (s ++ [10]) = r.isPrefixOf s := by
  induction r generalizing s with
  | nil => simp [List.isPrefixOf]
  | cons a r ih =>
    simp only [List.mem_cons, not_or] at h10
    cases s with
    | nil =>
      have : (a == 10) = false := by simpa using fun e => h10.1 e.symm
      simp [List.isPrefixOf, this]
    | cons b s => simp only [List.cons_append, List.isPrefixOf]; rw [ih h10.2]

theorem isPrefixOf_length {r s : GoStr} (h : r.isPrefixOf s = true) : r.length ≤ s.length :=
  (List.isPrefixOf_iff_prefix.1 h).length_le

theorem cutSep_nl {sep : GoStr} (h10 : 10 ∉ sep) (h0 : sep ≠ []) (s : GoStr) :
    cutSep sep (s ++ [10]) = (cutSep sep s).map fun p => (p.1, p.2 ++ [10]) := by
  induction s with
  | nil =>
    have : sep.isPrefixOf [10] = false := by
      have := isPrefixOf_nl h10 []
      simp only [List.nil_append] at this
      rw [this]
      cases sep with
      | nil => exact absurd rfl h0
      | cons a r => rfl
    simp [cutSep, this]
  | cons b s ih =>
    simp only [List.cons_append, cutSep]
    have := isPrefixOf_nl h10 (b :: s)
    simp only [List.cons_append] at this
    rw [this]
    cases hp : sep.isPrefixOf (b :: s) with
    | true =>
      simp only [if_true, Option.map_some, Option.some.injEq, Prod.mk.injEq, true_and]
      rw [← List.cons_append, List.drop_append_of_le_length (isPrefixOf_length hp)]
    | false =>
      simp only [Bool.false_eq_true, if_false, ih, Option.map_map]
      rfl

theorem cutSep_length {sep : GoStr} {s f l : GoStr} (h : cutSep sep s = some (f, l)) : f.length + sep.length + l.length = s.length := by
  induction s generalizing f with
  | nil => cases h
  | cons b s ih =>
    unfold cutSep at h
    split at h
    · rename_i hp
      cases h
      have := isPrefixOf_length hp
      simp only [List.length_nil, List.length_drop]
      omega
    · cases hc : cutSep sep s with
      | none => rw [hc] at h; cases h
      | some p =>
        rw [hc] at h; cases h
        have := ih hc
        simp only [List.length_cons]; omega

theorem cutSep_mem {sep : GoStr} {s f l : GoStr} (h : cutSep sep s = some (f, l)) : (∀ b ∈ f, b ∈ s) ∧ ∀ b ∈ l, b ∈ s := by
  induction s generalizing f with
  | nil => cases h
  | cons b s ih =>
    unfold cutSep at h
    split at h
    · cases h
      exact ⟨by simp, fun x hx => List.mem_of_mem_drop hx⟩
    · cases hc : cutSep sep s with
      | none => rw [hc] at h; cases h
      | some p =>
        rw [hc] at h; cases h
        have := ih hc
        refine ⟨?_, fun x hx => List.mem_cons_of_mem _ (this.2 x hx)⟩
        intro x hx
        rcases List.mem_cons.1 hx with rfl | hx
        · simp
        · exact List.mem_cons_of_mem _ (this.1 x hx)

theorem leadSpace_nl {s : GoStr} (hs : s ≠ []) : leadSpace (s ++ [10]) = leadSpace s := by
  have hr : ∀ r ∈ spaceRunes, r = [10] ∨ 10 ∉ r := by decide
  have hp : ∀ r ∈ spaceRunes, r.isPrefixOf (s ++ [10]) = r.isPrefixOf s := by
    intro r hm
    rcases hr r hm with rfl | h
    · cases s with
      | nil => exact absurd rfl hs
      | cons b s => simp [List.isPrefixOf]
    · exact isPrefixOf_nl h s
  unfold leadSpace
  generalize spaceRunes = l at hp
  induction l with
  | nil => rfl
  | cons r l ih =>
    simp only [List.find?_cons, hp r (by simp)]
    rw [ih (fun r hm => hp r (by simp [hm]))]

theorem leadSpace_pos {s r : GoStr} (h : leadSpace s = some r) : 0 < r.length ∧ r.length ≤ s.length := by
  unfold leadSpace at h
  have h1 := List.mem_of_find?_eq_some h
  have h2 : r.isPrefixOf s = true := List.find?_some (p := fun r : GoStr => r.isPrefixOf s) h
  have hr : ∀ r ∈ spaceRunes, 0 < r.length := by decide
  exact ⟨hr r h1, isPrefixOf_length h2⟩

theorem trim_nl : ∀ (n n' : Nat) (s : GoStr), s.length ≤ n → s.length < n' →
    (trimLeft n' (s ++ [10]) = trimLeft n s ++ [10] ∧ ∀ b ∈ trimLeft n s, b ∈ s) ∨ (trimLeft n s = [] ∧ trimLeft n' (s ++ [10]) = []) := by
  intro n
  induction n with
  | zero =>
    intro n' s h1 h2
    have : s = [] := List.length_eq_zero_iff.1 (by omega)
    subst this
    right
    obtain ⟨m, rfl⟩ : ∃ m, n' = m + 1 := ⟨n' - 1, by simp at h2; omega⟩
    refine ⟨rfl, ?_⟩
    have : trimLeft (m + 1) ([] ++ [10]) = trimLeft m [] := rfl
    rw [this, trimLeft_none (by decide)]
  | succ n ih =>
    intro n' s h1 h2
    obtain ⟨m, rfl⟩ : ∃ m, n' = m + 1 := ⟨n' - 1, by omega⟩
    by_cases hs : s = []
    · subst hs
      right
      have : trimLeft (m + 1) ([] ++ [10]) = trimLeft m [] := rfl
      rw [this, trimLeft_none (by decide), trimLeft_none (by decide)]
      exact ⟨rfl, rfl⟩
    · have hl := leadSpace_nl hs
      unfold trimLeft
      rw [hl]
      cases hr : leadSpace s with
      | none => exact Or.inl ⟨rfl, fun b hb => hb⟩
      | some r =>
        have := leadSpace_pos hr
        simp only
        rw [List.drop_append_of_le_length this.2]
        rcases ih m (s.drop r.length) (by rw [List.length_drop]; omega) (by rw [List.length_drop]; omega) with ⟨x, y⟩ | x
        · exact Or.inl ⟨x, fun b hb => List.mem_of_mem_drop (y b hb)⟩
        · exact Or.inr x

theorem trimLeft_length (n : Nat) (s : GoStr) : (trimLeft n s).length ≤ s.length := by
  induction n generalizing s with
  | zero => exact Nat.le_refl _
  | succ n ih =>
    unfold trimLeft
    split
    · exact Nat.le_refl _
    · refine Nat.le_trans (ih _) ?_
      rw [List.length_drop]; omega

/-! ### Lines -/

theorem takeLine_has {s : GoStr} (h : 10 ∈ s) (t : GoStr) : takeLine (s ++ t) = ((takeLine s).1, (takeLine s).2 ++ t) := by
  induction s with
  | nil => cases h
  | cons b s ih =>
    simp only [List.cons_append, takeLine]
    split
    · rfl
    · rename_i hb
      have hs : 10 ∈ s := by
        rcases List.mem_cons.1 h with e | h
        · exact absurd e.symm hb
        · exact h
      rw [ih hs]

theorem takeLine_not {s : GoStr} (h : 10 ∉ s) : takeLine s = (s, []) ∧ takeLine (s ++ [10]) = (s ++ [10], []) := by
  induction s with
  | nil => exact ⟨rfl, rfl⟩
  | cons b s ih =>
    simp only [List.mem_cons, not_or] at h
    have := ih h.2
    simp only [List.cons_append, takeLine, this.1, this.2, if_neg (fun e : b = 10 => h.1 e.symm)]
    exact ⟨trivial, trivial⟩

theorem takeLine_split (s : GoStr) : (takeLine s).1 ++ (takeLine s).2 = s := by
  induction s with
  | nil => rfl
  | cons b s ih =>
    simp only [takeLine]
    split
    · rename_i h; subst h; rfl
    · simpa using ih

theorem normLine_le (s : GoStr) : (normLine s).length ≤ s.length := by
  induction s with
  | nil => exact Nat.le_refl _
  | cons b s ih => unfold normLine; split <;> simp only [List.length_cons] <;> omega

theorem normLine_last {s : GoStr} (h10 : 10 ∉ s) (h : s.getLast? ≠ some 13) : normLine s = s ∧ normLine (s ++ [10]) = s ++ [10] := by
  induction s with
  | nil => exact ⟨rfl, rfl⟩
  | cons b s ih =>
    simp only [List.mem_cons, not_or] at h10
    cases s with
    | nil =>
      have hb : b ≠ 13 := by rintro rfl; exact h rfl
      have hn : ¬ (b = 13 ∧ (([] : GoStr) = [] ∨ ([] : GoStr) = [10])) := fun x => hb x.1
      have hn' : ¬ (b = 13 ∧ (([10] : GoStr) = [] ∨ ([10] : GoStr) = [10])) := fun x => hb x.1
      constructor
      · unfold normLine; rw [if_neg hn]; rfl
      · simp only [List.cons_append, List.nil_append]
        unfold normLine; rw [if_neg hn']; rfl
    | cons c s =>
      have hl : (c :: s).getLast? ≠ some 13 := by simpa [List.getLast?_cons_cons] using h
      have := ih h10.2 hl
      have hc : c ≠ 10 := fun e => h10.2 (by simp [e])
      have hn : ¬ (b = 13 ∧ (c :: s = [] ∨ c :: s = [10])) := by
        rintro ⟨_, e | e⟩
        · cases e
        · injection e with e1 _; exact hc e1
      have hn' : ¬ (b = 13 ∧ (c :: s ++ [10] = [] ∨ c :: s ++ [10] = [10])) := by
        rintro ⟨_, e | e⟩
        · cases e
        · injection e with e1 _; exact hc e1
      constructor
      · unfold normLine; rw [if_neg hn, this.1]
      · rw [List.cons_append]
        unfold normLine; rw [if_neg hn', this.2]

/-- The following lines of two texts of which the second has one more line feed. -/
def EndRel (r r' : GoStr) : Prop := (r' = r ++ [10] ∧ r.getLast? ≠ some 13) ∨ (r = [] ∧ r' = [])

/-- The current line and the following ones of two texts of which the second has one more line feed. -/
def LineRel (l r l' r' : GoStr) : Prop := (l' = l ∧ r' = r ++ [10] ∧ r.getLast? ≠ some 13) ∨ (l' = l ++ [10] ∧ r = [] ∧ r' = [] ∧ 10 ∉ l)

theorem readLine_nl {s : GoStr} (hs : s ≠ []) (h13 : s.getLast? ≠ some 13) : ∃ l r l' r', readLine s = some (l, r) ∧
    readLine (s ++ [10]) = some (l', r') ∧ LineRel l r l' r' ∧ l.length + r.length ≤ s.length ∧ r.length < s.length := by
  have hs' : s ++ [10] ≠ [] := by simp
  simp only [readLine, if_neg hs, if_neg hs', Option.some.injEq]
  have hlen := takeLine_length s
  have hpos : 0 < (takeLine s).1.length := List.length_pos_iff.2 fun e => hs (takeLine_eq_nil e)
  by_cases h10 : 10 ∈ s
  · rw [takeLine_has h10]
    refine ⟨_, _, _, _, rfl, rfl, Or.inl ⟨rfl, rfl, ?_⟩, ?_, by omega⟩
    · intro e
      apply h13
      rw [← takeLine_split s, List.getLast?_append, e]; rfl
    · have := normLine_le (takeLine s).1
      omega
  · obtain ⟨e1, e2⟩ := takeLine_not h10
    obtain ⟨n1, n2⟩ := normLine_last h10 h13
    rw [e1, e2]
    simp only [n1, n2]
    refine ⟨s, [], s ++ [10], [], rfl, rfl, Or.inr ⟨rfl, rfl, rfl, h10⟩, by simp, ?_⟩
    exact List.length_pos_iff.2 hs

theorem quoted_zero (o : TextReader) (l r f : GoStr) : o.quoted 0 l r f = .bad := rfl

theorem quoted_bad (o : TextReader) (hq : o.lazyQuotes = false) (n : Nat) (f : GoStr) : o.quoted n [] [] f = .bad := by
  cases n with
  | zero => rfl
  | succ n => simp [TextReader.quoted, cutSep, hq]

/-- The results for two texts of which the second has one more line feed. -/
def QuotedRel (line rest : GoStr) (q q' : Quoted) : Prop :=
  (q = .bad ∧ q' = .bad) ∨
  (∃ f l r l' r', q = .next f l r ∧ q' = .next f l' r' ∧ LineRel l r l' r' ∧ l.length + r.length < line.length + rest.length ∧
    r.length ≤ rest.length) ∨
  (∃ f r r', q = .done f r ∧ q' = .done f r' ∧ EndRel r r' ∧ r.length ≤ rest.length)

theorem QuotedRel.mono {line rest line' rest' : GoStr} {q q' : Quoted} (h : QuotedRel line rest q q')
    (h1 : line.length + rest.length ≤ line'.length + rest'.length) (h2 : rest.length ≤ rest'.length) : QuotedRel line' rest' q q' := by
  rcases h with h | ⟨f, l, r, l', r', a, b, c, d, e⟩ | ⟨f, r, r', a, b, c, d⟩
  · exact Or.inl h
  · exact Or.inr (Or.inl ⟨f, l, r, l', r', a, b, c, by omega, by omega⟩)
  · exact Or.inr (Or.inr ⟨f, r, r', a, b, c, by omega⟩)

theorem quoted_nl_rel (o : TextReader) (hq : o.lazyQuotes = false) (h10 : 10 ∉ o.sep) (h0 : o.sep ≠ []) :
    ∀ (n n' : Nat) (line rest line' rest' field : GoStr), line.length + rest.length < n → line.length + rest.length + 1 < n' →
      LineRel line rest line' rest' → QuotedRel line rest (o.quoted n line rest field) (o.quoted n' line' rest' field) := by
  have hsep : 0 < o.sep.length := List.length_pos_iff.2 h0
  intro n
  induction n with
  | zero => intro n' line rest line' rest' field h; omega
  | succ n ih =>
    intro n' line rest line' rest' field hn hn' rel
    obtain ⟨m, rfl⟩ : ∃ m, n' = m + 1 := ⟨n' - 1, by omega⟩
    rcases rel with ⟨rfl, rfl, h13⟩ | ⟨rfl, rfl, rfl, hl10⟩
    · -- the line is complete
      unfold TextReader.quoted
      cases hc : cutSep [34] line' with
      | some p =>
        obtain ⟨a, l⟩ := p
        have hlen := cutSep_length hc
        simp only [List.length_singleton] at hlen
        simp only
        split
        · refine (ih m (l.drop 1) rest (l.drop 1) (rest ++ [10]) _ ?_ ?_ (Or.inl ⟨rfl, rfl, h13⟩)).mono ?_ (Nat.le_refl _) <;>
            simp only [List.length_drop] <;> omega
        · split
          · refine Or.inr (Or.inl ⟨_, _, _, _, _, rfl, rfl, Or.inl ⟨rfl, rfl, h13⟩, ?_, Nat.le_refl _⟩)
            simp only [List.length_drop]; omega
          · split
            · exact Or.inr (Or.inr ⟨_, _, _, rfl, rfl, Or.inl ⟨rfl, h13⟩, Nat.le_refl _⟩)
            · simp only [hq, Bool.false_eq_true, if_false]
              exact Or.inl ⟨rfl, rfl⟩
      | none =>
        simp only
        split
        · rename_i hne
          have hpos : 0 < line'.length := List.length_pos_iff.2 hne
          by_cases hr : rest = []
          · subst hr
            have e1 : readLine [] = none := rfl
            have e2 : readLine ([] ++ [10]) = some ([10], []) := rfl
            simp only [e1, e2]
            refine Or.inl ⟨quoted_bad o hq _ _, ?_⟩
            cases m with
            | zero => rfl
            | succ m =>
              have e3 : cutSep [34] [10] = none := by decide
              unfold TextReader.quoted
              simp only [e3, ne_eq, List.cons_ne_nil, not_false_eq_true, if_true, e1]
              exact quoted_bad o hq _ _
          · obtain ⟨l, r, l2, r2, e1, e2, rel, h1, h2⟩ := readLine_nl hr h13
            simp only [e1, e2]
            exact (ih m l r l2 r2 _ (by omega) (by omega) rel).mono (by omega) (by omega)
        · simp only [hq, Bool.false_eq_true, if_false]
          exact Or.inl ⟨rfl, rfl⟩
    · -- the last line
      unfold TextReader.quoted
      rw [cutSep_nl (by decide) (by decide)]
      cases hc : cutSep [34] line with
      | some p =>
        obtain ⟨a, l⟩ := p
        have hlen := cutSep_length hc
        have hmem := (cutSep_mem hc).2
        have hl : 10 ∉ l := fun h => hl10 (hmem 10 h)
        simp only [List.length_singleton] at hlen
        simp only [Option.map_some]
        have hh : (l ++ [10]).head? = some 34 ↔ l.head? = some 34 := by
          cases l with
          | nil => simp
          | cons b l => simp
        simp only [hh, isPrefixOf_nl h10]
        simp only [List.length_nil, Nat.add_zero] at hn hn'
        split
        · rename_i hhd
          have hd : (l ++ [10]).drop 1 = l.drop 1 ++ [10] := by
            cases l with
            | nil => simp at hhd
            | cons b l => rfl
          rw [hd]
          refine (ih m (l.drop 1) [] (l.drop 1 ++ [10]) [] _ ?_ ?_ (Or.inr ⟨rfl, rfl, rfl, fun h => hl (List.mem_of_mem_drop h)⟩)).mono ?_ (Nat.le_refl _) <;>
            simp only [List.length_drop, List.length_nil] <;> omega
        · split
          · rename_i hp
            rw [List.drop_append_of_le_length (isPrefixOf_length hp)]
            refine Or.inr (Or.inl ⟨_, _, _, _, _, rfl, rfl, Or.inr ⟨rfl, rfl, rfl, fun h => hl (List.mem_of_mem_drop h)⟩, ?_, Nat.le_refl _⟩)
            simp only [List.length_drop, List.length_nil]; omega
          · by_cases hle : l = []
            · subst hle
              simp only [true_or, if_true, List.nil_append, or_true]
              exact Or.inr (Or.inr ⟨_, _, _, rfl, rfl, Or.inr ⟨rfl, rfl⟩, Nat.le_refl _⟩)
            · have a1 : ¬ (l = [] ∨ l = [10]) := by
                rintro (e | e)
                · exact hle e
                · exact hl (by simp [e])
              have a2 : ¬ (l ++ [10] = [] ∨ l ++ [10] = [10]) := by
                rintro (e | e)
                · simp at e
                · simp at e; exact hle e
              rw [if_neg a1, if_neg a2]
              simp only [hq, Bool.false_eq_true, if_false]
              exact Or.inl ⟨rfl, rfl⟩
      | none =>
        have e1 : readLine [] = none := rfl
        simp only [Option.map_none, ne_eq, List.append_eq_nil_iff, List.cons_ne_nil, and_false, not_false_eq_true, if_true, e1]
        refine Or.inl ⟨?_, quoted_bad o hq _ _⟩
        split
        · exact quoted_bad o hq _ _
        · simp only [hq, Bool.false_eq_true, if_false]

theorem dropNL_none {s : GoStr} (h : 10 ∉ s) : dropNL s = s := by
  unfold dropNL
  rw [if_neg]
  intro e
  exact h (List.mem_of_getLast? e)

theorem fields_nl_rel (o : TextReader) (hq : o.lazyQuotes = false) (h10 : 10 ∉ o.sep) (h0 : o.sep ≠ []) :
    ∀ (n n' : Nat) (line rest line' rest' : GoStr) (acc : List GoStr), line.length + rest.length < n → line.length + rest.length + 1 < n' →
      LineRel line rest line' rest' →
      (o.fields n line rest acc = none ∧ o.fields n' line' rest' acc = none) ∨
      ∃ rec r r', o.fields n line rest acc = some (rec, r) ∧ o.fields n' line' rest' acc = some (rec, r') ∧ EndRel r r' ∧ r.length ≤ rest.length := by
  have hsep : 0 < o.sep.length := List.length_pos_iff.2 h0
  intro n
  induction n with
  | zero => intro n' line rest line' rest' acc h; omega
  | succ n ih =>
    intro n' line rest line' rest' acc hn hn' rel
    obtain ⟨m, rfl⟩ : ∃ m, n' = m + 1 := ⟨n' - 1, by omega⟩
    -- one step, once the spaces are gone
    have step : ∀ l l' : GoStr, l.length ≤ line.length → LineRel l rest l' rest' ∨ (l = [] ∧ l' = [] ∧ rest = [] ∧ rest' = []) →
        (o.trim = true → l = trimLeft line.length line ∧ l' = trimLeft line'.length line') → (o.trim = false → l = line ∧ l' = line') →
        (o.fields (n + 1) line rest acc = none ∧ o.fields (m + 1) line' rest' acc = none) ∨
        ∃ rec r r', o.fields (n + 1) line rest acc = some (rec, r) ∧ o.fields (m + 1) line' rest' acc = some (rec, r') ∧ EndRel r r' ∧
          r.length ≤ rest.length := by
      intro l l' hlen hrel ht1 ht2
      have e1 : (if o.trim then trimLeft line.length line else line) = l := by
        cases ht : o.trim with
        | true => simp [(ht1 ht).1]
        | false => simp [(ht2 ht).1]
      have e2 : (if o.trim then trimLeft line'.length line' else line') = l' := by
        cases ht : o.trim with
        | true => simp [(ht1 ht).2]
        | false => simp [(ht2 ht).2]
      unfold TextReader.fields
      simp only [e1, e2]
      rcases hrel with hrel | ⟨rfl, rfl, hr1, hr2⟩
      · have hsum : l'.length + rest'.length = l.length + rest.length + 1 := by
          rcases hrel with ⟨rfl, rfl, _⟩ | ⟨rfl, rfl, rfl, _⟩ <;> simp <;> omega
        have hh : l'.head? = some 34 ↔ l.head? = some 34 := by
          rcases hrel with ⟨rfl, _⟩ | ⟨rfl, _⟩
          · rfl
          · cases l <;> simp
        simp only [hh]
        split
        · rename_i hhd
          obtain ⟨t, rfl⟩ : ∃ t, l = 34 :: t := by
            cases l with
            | nil => cases hhd
            | cons b t => simp only [List.head?_cons, Option.some.injEq] at hhd; exact ⟨t, by rw [hhd]⟩
          obtain ⟨t', rfl⟩ : ∃ t', l' = 34 :: t' := by
            rcases hrel with ⟨rfl, _⟩ | ⟨rfl, _⟩
            · exact ⟨t, rfl⟩
            · exact ⟨t ++ [10], rfl⟩
          have hrel' : LineRel t rest t' rest' := by
            rcases hrel with ⟨e, a⟩ | ⟨e, a, b, c⟩
            · left; injection e with _ e; exact ⟨e, a⟩
            · right
              rw [List.cons_append] at e
              injection e with _ e
              exact ⟨e, a, b, fun h => c (by simp [h])⟩
          simp only [List.length_cons] at hsum hlen
          have hqr := quoted_nl_rel o hq h10 h0 ((34 :: t).length + rest.length + 1) ((34 :: t').length + rest'.length + 1) t rest t' rest' []
            (by simp only [List.length_cons]; omega) (by simp only [List.length_cons]; omega) hrel'
          simp only [List.drop_succ_cons, List.drop_zero]
          rcases hqr with ⟨q1, q2⟩ | ⟨f, x, r, x', r', q1, q2, q3, q4, q5⟩ | ⟨f, r, r', q1, q2, q3, q4⟩
          · rw [q1, q2]; exact Or.inl ⟨rfl, rfl⟩
          · rw [q1, q2]
            simp only
            rcases ih m x r x' r' (acc ++ [f]) (by omega) (by omega) q3 with h | ⟨rec, y, y', a, b, c, d⟩
            · exact Or.inl h
            · exact Or.inr ⟨rec, y, y', a, b, c, by omega⟩
          · rw [q1, q2]
            exact Or.inr ⟨_, _, _, rfl, rfl, q3, q4⟩
        · rcases hrel with ⟨rfl, rfl, h13⟩ | ⟨rfl, rfl, rfl, hl10⟩
          · cases hc : cutSep o.sep l' with
            | some p =>
              obtain ⟨f, x⟩ := p
              have := cutSep_length hc
              simp only
              split
              · exact Or.inl ⟨rfl, rfl⟩
              · exact ih m x rest x (rest ++ [10]) (acc ++ [f]) (by omega) (by omega) (Or.inl ⟨rfl, rfl, h13⟩)
            | none =>
              simp only
              split
              · exact Or.inl ⟨rfl, rfl⟩
              · exact Or.inr ⟨_, _, _, rfl, rfl, Or.inl ⟨rfl, h13⟩, Nat.le_refl _⟩
          · rw [cutSep_nl h10 h0]
            cases hc : cutSep o.sep l with
            | some p =>
              obtain ⟨f, x⟩ := p
              have := cutSep_length hc
              simp only [Option.map_some]
              simp only [List.length_nil] at hn hn'
              split
              · exact Or.inl ⟨rfl, rfl⟩
              · exact ih m x [] (x ++ [10]) [] (acc ++ [f]) (by simp only [List.length_nil]; omega) (by simp only [List.length_nil]; omega)
                  (Or.inr ⟨rfl, rfl, rfl, fun h => hl10 ((cutSep_mem hc).2 10 h)⟩)
            | none =>
              simp only [Option.map_none, dropNL_append, dropNL_none hl10]
              split
              · exact Or.inl ⟨rfl, rfl⟩
              · exact Or.inr ⟨_, _, _, rfl, rfl, Or.inr ⟨rfl, rfl⟩, Nat.le_refl _⟩
      · subst hr1 hr2
        have e3 : cutSep o.sep [] = none := rfl
        simp only [List.head?_nil, reduceCtorEq, if_false, e3]
        split
        · exact Or.inl ⟨rfl, rfl⟩
        · exact Or.inr ⟨_, _, _, rfl, rfl, Or.inr ⟨rfl, rfl⟩, Nat.le_refl _⟩
    cases ht : o.trim with
    | false => exact step line line' (Nat.le_refl _) (Or.inl rel) (fun h => by rw [ht] at h; cases h) (fun _ => ⟨rfl, rfl⟩)
    | true =>
      rcases rel with ⟨rfl, rfl, h13⟩ | ⟨rfl, rfl, rfl, hl10⟩
      · exact step (trimLeft line'.length line') (trimLeft line'.length line') (trimLeft_length _ _) (Or.inl (Or.inl ⟨rfl, rfl, h13⟩))
          (fun _ => ⟨rfl, rfl⟩) (fun h => by rw [ht] at h; cases h)
      · refine step (trimLeft line.length line) (trimLeft (line ++ [10]).length (line ++ [10])) (trimLeft_length _ _) ?_ (fun _ => ⟨rfl, rfl⟩)
          (fun h => by rw [ht] at h; cases h)
        rcases trim_nl line.length (line ++ [10]).length line (Nat.le_refl _) (by simp) with ⟨a, b⟩ | ⟨a, b⟩
        · exact Or.inl (Or.inr ⟨a, rfl, rfl, fun h => hl10 (b 10 h)⟩)
        · exact Or.inr ⟨a, b, rfl, rfl⟩

theorem records_nil (o : TextReader) (n : Nat) : o.records (n + 1) [] = ⟨[], false⟩ := rfl

theorem records_nl (o : TextReader) (hq : o.lazyQuotes = false) (h10 : 10 ∉ o.sep) (h0 : o.sep ≠ [])
    (hc : ∀ c, o.comment = some c → 10 ∉ c) : ∀ (n n' : Nat) (s : GoStr), s.length < n → s.length + 1 < n' → s.getLast? ≠ some 13 →
      o.records n' (s ++ [10]) = o.records n s := by
  intro n
  induction n with
  | zero => intro n' s h; omega
  | succ n ih =>
    intro n' s hn hn' h13
    obtain ⟨m, rfl⟩ : ∃ m, n' = m + 1 := ⟨n' - 1, by omega⟩
    by_cases hs : s = []
    · subst hs
      obtain ⟨k, rfl⟩ : ∃ k, m = k + 1 := ⟨m - 1, by simp at hn'; omega⟩
      have e2 : readLine ([] ++ [10]) = some ([10], []) := rfl
      rw [records_nil]
      unfold TextReader.records
      simp only [e2, or_true, if_true, ite_self]
      exact records_nil o k
    · obtain ⟨l, r, l', r', e1, e2, rel, h1, h2⟩ := readLine_nl hs h13
      have hcom : o.isComment l' = o.isComment l := by
        rcases rel with ⟨rfl, _⟩ | ⟨rfl, _⟩
        · rfl
        · unfold TextReader.isComment
          cases hco : o.comment with
          | none => rfl
          | some c => exact isPrefixOf_nl (hc c hco) l
      have hrest : ∀ x x', EndRel x x' → x.length ≤ r.length → o.records m x' = o.records n x := by
        rintro x x' (⟨rfl, h⟩ | ⟨rfl, rfl⟩) hx
        · exact ih m x (by omega) (by omega) h
        · obtain ⟨k, rfl⟩ : ∃ k, m = k + 1 := ⟨m - 1, by omega⟩
          obtain ⟨k', rfl⟩ : ∃ k, n = k + 1 := ⟨n - 1, by omega⟩
          rfl
      have hend : EndRel r r' := by
        rcases rel with ⟨_, a⟩ | ⟨_, a, b, _⟩
        · exact Or.inl a
        · exact Or.inr ⟨a, b⟩
      have hblank : (l' = [] ∨ l' = [10]) ↔ (l = [] ∨ l = [10]) := by
        rcases rel with ⟨rfl, _⟩ | ⟨rfl, _, _, h⟩
        · rfl
        · constructor
          · rintro (e | e)
            · simp at e
            · simp at e; exact Or.inl e
          · rintro (e | e)
            · right; simp [e]
            · exact absurd (by simp [e]) h
      have hsum : l'.length + r'.length = l.length + r.length + 1 := by
        rcases rel with ⟨rfl, rfl, _⟩ | ⟨rfl, rfl, rfl, _⟩ <;> simp <;> omega
      unfold TextReader.records
      simp only [e1, e2, hcom, hblank, hrest r r' hend (Nat.le_refl _)]
      split
      · rfl
      · split
        · rfl
        · rcases fields_nl_rel o hq h10 h0 (l.length + r.length + 1) (l'.length + r'.length + 1) l r l' r' [] (by omega) (by omega) rel with
            ⟨a, b⟩ | ⟨rec, x, x', a, b, c, d⟩
          · rw [a, b]
          · rw [a, b]
            simp only [hrest x x' c d]

theorem utf8_no10 {r : Nat} (h : validDelim r = true) : 10 ∉ utf8 r := by
  have hv := validDelim_iff.1 h
  intro hm
  have := utf8_ascii (by omega) hm (by decide)
  have e : (10 : UInt8).toNat = 10 := rfl
  rw [e] at this
  omega

/-- C74: the last line of a text may or may not end with a line feed: the records are the same, whatever the text (unless it
ends with a carriage return, which belongs to the line feed), and so is the error if there is one. (Without `LazyQuotes`:
with it an unterminated quoted field would get the line feed.) -/
theorem C74_last_line {t : CSVTextSpec} (hq : t.lazyQuotes = false) {s : GoStr} (h13 : s.getLast? ≠ some 13) :
    csvRead t (s ++ [10]) = csvRead t s := by
  unfold csvRead
  simp only
  generalize (if t.comma ≠ 0 then t.comma else 44) = comma
  by_cases hd : comma = t.comment ∨ validDelim comma = false ∨ (t.comment ≠ 0 ∧ validDelim t.comment = false)
  · rw [if_pos hd, if_pos hd]
  · rw [if_neg hd, if_neg hd]
    simp only [not_or, not_and] at hd
    have hv : validDelim comma = true := by
      cases h : validDelim comma with
      | true => rfl
      | false => exact absurd h hd.2.1
    unfold TextReader.input
    refine records_nl _ hq (utf8_no10 hv) (sepOk_utf8 hv).ne ?_ _ _ s (by omega) (by simp) h13
    intro c hc
    simp only at hc
    split at hc
    · rename_i h0
      cases hc
      refine utf8_no10 ?_
      cases h : validDelim t.comment with
      | true => rfl
      | false => exact absurd h (hd.2.2 h0)
    · cases hc

namespace Demo

/-- The last line of a text without a final line feed is read whole. -/
example : csvRead plainText b!"a,b\n1,22" = ⟨[[b!"a", b!"b"], [b!"1", b!"22"]], false⟩ ∧
    csvRead plainText (b!"a,b\n1,22" ++ [10]) = csvRead plainText b!"a,b\n1,22" :=
  ⟨by decide, C74_last_line rfl (by decide)⟩

/-- With `LazyQuotes` an unterminated field makes a difference. -/
theorem C74_last_line_lazy_refuted : csvRead ⟨0, 0, true, false⟩ (b!"\"x" ++ [10]) ≠ csvRead ⟨0, 0, true, false⟩ b!"\"x" := by decide

end Demo

end Verif
