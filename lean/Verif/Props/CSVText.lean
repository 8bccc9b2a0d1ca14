import Verif.Proofs.CSVText
import Verif.Props.RoundTrip

/-! C74: the text layer loses nothing but blank lines and carriage returns. C33 at the level of the text. -/

namespace Verif
variable {F : Type}

theorem u8_ofNat {n : Nat} (h : n < 256) : (UInt8.ofNat n).toNat = n := by
  simp [Nat.mod_eq_of_lt h]

theorem u8_ne {a b : UInt8} (h : a.toNat ≠ b.toNat) : a ≠ b := fun e => h (by rw [e])

/-- The text of a valid rune. -/
theorem utf8_rune {r : Nat} (h : r < 0x110000) : ∃ a t, RuneText (utf8 r) a t := by
  unfold utf8
  split
  · rename_i h1
    refine ⟨_, _, rfl, ?_, by simp, ?_⟩
    · rw [u8_ofNat (by omega)]; omega
    · unfold runeTail
      rw [u8_ofNat (by omega), if_pos (by omega)]; rfl
  · split
    · rename_i h1 h2
      refine ⟨_, _, rfl, ?_, ?_, ?_⟩
      · rw [u8_ofNat (by omega)]; omega
      · intro b hb
        simp only [List.mem_cons, List.not_mem_nil, or_false] at hb
        subst hb
        rw [u8_ofNat (by omega)]; omega
      · unfold runeTail
        rw [u8_ofNat (by omega), if_neg (by omega), if_pos (by omega)]; rfl
    · split
      · rename_i h1 h2 h3
        refine ⟨_, _, rfl, ?_, ?_, ?_⟩
        · rw [u8_ofNat (by omega)]; omega
        · intro b hb
          simp only [List.mem_cons, List.not_mem_nil, or_false] at hb
          rcases hb with rfl | rfl <;> rw [u8_ofNat (by omega)] <;> omega
        · unfold runeTail
          rw [u8_ofNat (by omega), if_neg (by omega), if_neg (by omega), if_pos (by omega)]; rfl
      · rename_i h1 h2 h3
        refine ⟨_, _, rfl, ?_, ?_, ?_⟩
        · rw [u8_ofNat (by omega)]; omega
        · intro b hb
          simp only [List.mem_cons, List.not_mem_nil, or_false] at hb
          rcases hb with rfl | rfl | rfl <;> rw [u8_ofNat (by omega)] <;> omega
        · unfold runeTail
          rw [u8_ofNat (by omega), if_neg (by omega), if_neg (by omega), if_neg (by omega)]; rfl

theorem utf8_ascii {r : Nat} (h : r < 0x110000) {b : UInt8} (hb : b ∈ utf8 r) (hl : b.toNat < 0x80) : b.toNat = r := by
  unfold utf8 at hb
  split at hb
  · simp only [List.mem_cons, List.not_mem_nil, or_false] at hb
    subst hb
    rw [u8_ofNat (by omega)]
  · split at hb
    · simp only [List.mem_cons, List.not_mem_nil, or_false] at hb
      rcases hb with rfl | rfl <;> rw [u8_ofNat (by omega)] at hl <;> omega
    · split at hb
      · simp only [List.mem_cons, List.not_mem_nil, or_false] at hb
        rcases hb with rfl | rfl | rfl <;> rw [u8_ofNat (by omega)] at hl <;> omega
      · simp only [List.mem_cons, List.not_mem_nil, or_false] at hb
        rcases hb with rfl | rfl | rfl | rfl <;> rw [u8_ofNat (by omega)] at hl <;> omega

theorem validDelim_iff {r : Nat} : validDelim r = true ↔
    r ≠ 0 ∧ r ≠ 34 ∧ r ≠ 13 ∧ r ≠ 10 ∧ r ≠ 0xFFFD ∧ r < 0x110000 ∧ ¬ (0xD800 ≤ r ∧ r < 0xE000) := by
  unfold validDelim
  exact decide_eq_true_iff

theorem sepOk_utf8 {r : Nat} (h : validDelim r = true) : SepOk (utf8 r) := by
  obtain ⟨-, h34, h13, h10, -, hlt, -⟩ := validDelim_iff.1 h
  refine ⟨utf8_rune hlt, ?_, ?_, ?_⟩
  · intro hb; exact h34 (utf8_ascii hlt hb (by decide)).symm
  · intro hb; exact h13 (utf8_ascii hlt hb (by decide)).symm
  · intro hb; exact h10 (utf8_ascii hlt hb (by decide)).symm

theorem utf8_inj {a b : Nat} (ha : a < 0x110000) (hb : b < 0x110000) (h : utf8 a = utf8 b) : a = b := by
  have key : ∀ x y : Nat, x < 256 → y < 256 → UInt8.ofNat x = UInt8.ofNat y → x = y := by
    intro x y hx hy e
    have := congrArg UInt8.toNat e
    rwa [u8_ofNat hx, u8_ofNat hy] at this
  have len : ∀ x : Nat, (utf8 x).length = if x < 0x80 then 1 else if x < 0x800 then 2 else if x < 0x10000 then 3 else 4 := by
    intro x
    unfold utf8
    split
    · rfl
    · split
      · rfl
      · split <;> rfl
  have hl := congrArg List.length h
  rw [len a, len b] at hl
  unfold utf8 at h
  by_cases a1 : a < 0x80
  · have b1 : b < 0x80 := by
      by_contra b1
      rw [if_pos a1, if_neg b1] at hl
      split at hl
      · omega
      · split at hl <;> omega
    simp only [if_pos a1, if_pos b1, List.cons.injEq, and_true] at h
    exact key _ _ (by omega) (by omega) h
  · have b1 : ¬ b < 0x80 := by
      intro b1
      rw [if_neg a1, if_pos b1] at hl
      split at hl
      · omega
      · split at hl <;> omega
    rw [if_neg a1, if_neg b1] at hl h
    by_cases a2 : a < 0x800
    · have b2 : b < 0x800 := by
        by_contra b2
        rw [if_pos a2, if_neg b2] at hl
        split at hl <;> omega
      simp only [if_pos a2, if_pos b2, List.cons.injEq, and_true] at h
      have h1 := key _ _ (by omega) (by omega) h.1
      have h2 := key _ _ (by omega) (by omega) h.2
      omega
    · have b2 : ¬ b < 0x800 := by
        intro b2
        rw [if_neg a2, if_pos b2] at hl
        split at hl <;> omega
      rw [if_neg a2, if_neg b2] at hl h
      by_cases a3 : a < 0x10000
      · have b3 : b < 0x10000 := by
          by_contra b3
          rw [if_pos a3, if_neg b3] at hl
          omega
        simp only [if_pos a3, if_pos b3, List.cons.injEq, and_true] at h
        have h1 := key _ _ (by omega) (by omega) h.1
        have h2 := key _ _ (by omega) (by omega) h.2.1
        have h3 := key _ _ (by omega) (by omega) h.2.2
        omega
      · have b3 : ¬ b < 0x10000 := by
          intro b3
          rw [if_neg a3, if_pos b3] at hl
          omega
        simp only [if_neg a3, if_neg b3, List.cons.injEq, and_true] at h
        have h1 := key _ _ (by omega) (by omega) h.1
        have h2 := key _ _ (by omega) (by omega) h.2.1
        have h3 := key _ _ (by omega) (by omega) h.2.2.1
        have h4 := key _ _ (by omega) (by omega) h.2.2.2
        omega

/-- A comment rune that is no separator starts no line that the writer writes, when it starts no record. -/
theorem not_comment {w : TextWriter} (hs : SepOk w.sep) {c : GoStr} {a : UInt8} {t : GoStr} (hc : RuneText c a t) (ha : a ≠ 34) (hcs : c ≠ w.sep)
    {r : List GoStr} (hb : blank r = false) (hr : ∀ f, r.head? = some f → ¬ c <+: f) (R : GoStr) :
    ¬ c <+: (lineOf (w.record r ++ R)).1 := by
  obtain ⟨f, r', rfl⟩ : ∃ f r', r = f :: r' := by
    cases r with
    | nil => simp [blank] at hb
    | cons f r' => exact ⟨f, r', rfl⟩
  have hf := hr f rfl
  -- what follows the first field
  have hT : ∃ T, w.record (f :: r') ++ R = w.field f ++ T ∧ NoCont (lineOf T).1 ∧
      (f = [] → ∃ X, (lineOf T).1 = w.sep ++ X) := by
    cases r' with
    | nil =>
      refine ⟨w.nl ++ R, by rw [record_eq, TextWriter.fields, List.append_assoc], ?_, ?_⟩
      · rw [lineOf_end]; exact noCont_nl []
      · rintro rfl; simp [blank] at hb
    | cons g r' =>
      refine ⟨w.sep ++ (w.fields (g :: r') ++ (w.nl ++ R)), ?_, ?_, ?_⟩
      · rw [record_eq, TextWriter.fields]
        · simp
        · simp
      · rw [lineOf_sep hs]; exact hs.noCont _
      · intro _; rw [lineOf_sep hs]; exact ⟨_, rfl⟩
  obtain ⟨T, e, hn, hsep⟩ := hT
  rw [e]
  intro hp
  cases hq : w.needsQuotes f with
  | true =>
    have : w.field f ++ T = 34 :: (f.flatMap w.quoteByte ++ ([34] ++ T)) := by
      unfold TextWriter.field
      rw [if_pos hq]; simp
    rw [this, lineOf_cons (by decide) (fun h => absurd h (by decide)), hc.eq] at hp
    obtain ⟨u, hu⟩ := hp
    simp only [List.cons_append, List.cons.injEq] at hu
    exact ha hu.1
  | false =>
    have hfield : w.field f = f := by unfold TextWriter.field; rw [hq]; rfl
    have hno : ∀ b ∈ f, b ≠ 10 ∧ b ≠ 13 := by
      rcases needsQuotes_false hq with rfl | ⟨-, -, h3, h4, -⟩
      · simp
      · exact fun b hb => ⟨fun e => h4 (e ▸ hb), fun e => h3 (e ▸ hb)⟩
    rw [hfield, lineOf_append hno] at hp
    by_cases hf0 : f = []
    · obtain ⟨X, hX⟩ := hsep hf0
      subst hf0
      simp only [hX, List.nil_append] at hp
      obtain ⟨b, s, hbs⟩ := hs.rune
      exact hcs (hc.prefix_free hbs hp)
    · exact hf (hc.inside hf0 hn hp)

/-- The options with which a text is read fit those with which it was written: the same separator, valid, and not a space when
leading spaces are trimmed; a comment rune, if any, is valid and not the separator. -/
structure TextFits (comma : Nat) (t : CSVTextSpec) : Prop where
  same : (if t.comma ≠ 0 then t.comma else 44) = (if comma ≠ 0 then comma else 44)
  valid : validDelim (if comma ≠ 0 then comma else 44) = true
  space : t.trimLeadingSpace = true → utf8 (if comma ≠ 0 then comma else 44) ∉ spaceRunes
  comment : t.comment ≠ 0 → validDelim t.comment = true ∧ t.comment ≠ (if comma ≠ 0 then comma else 44)

/-- **C74**. Any records written as a text by `encoding/csv` and read again, with fitting options, `LazyQuotes` or not: no error,
and the same records in the same order with the same fields, whatever bytes are in the fields (separators, quotes, line feeds, spaces,
invalid UTF-8), except that blank records are lost and that carriage returns are lost before line feeds (everywhere,
with `UseCRLF`). A record may not start with the comment rune. -/
theorem C74_text {comma : Nat} {t : CSVTextSpec} (ht : TextFits comma t) (crlf : Bool) (rs : List (List GoStr))
    (hc : t.comment ≠ 0 → ∀ r ∈ rs, ∀ f, r.head? = some f → ¬ utf8 t.comment <+: f) :
    csvRead t (csvText comma crlf rs) = ⟨(rs.filter (fun r => !blank r)).map (·.map (survives crlf)), false⟩ := by
  have hs := sepOk_utf8 ht.valid
  unfold csvRead csvText
  dsimp only
  rw [ht.same, if_neg]
  · unfold TextReader.input
    refine records_text (w := ⟨utf8 (if comma ≠ 0 then comma else 44), crlf⟩) hs rfl ht.space ?_ rs _ ?_ ?_
    · unfold TextReader.isComment
      by_cases h0 : t.comment ≠ 0
      · simp only [if_pos h0]
        exact (sepOk_utf8 (ht.comment h0).1).not_nl
      · simp only [if_neg h0]
    · have := text_length ⟨utf8 (if comma ≠ 0 then comma else 44), crlf⟩ rs
      omega
    · intro r hr R hb
      unfold TextReader.isComment
      by_cases h0 : t.comment ≠ 0
      · simp only [if_pos h0]
        obtain ⟨hv, hne⟩ := ht.comment h0
        have hcs := sepOk_utf8 hv
        obtain ⟨a, u, hau⟩ := hcs.rune
        rw [Bool.eq_false_iff]
        intro hp
        rw [List.isPrefixOf_iff_prefix] at hp
        refine not_comment (w := ⟨utf8 (if comma ≠ 0 then comma else 44), crlf⟩) hs hau ?_ ?_ hb (hc h0 r hr) R hp
        · rintro rfl
          exact hcs.noQuote (by rw [hau.eq]; simp)
        · intro e
          exact hne (utf8_inj (validDelim_iff.1 hv).2.2.2.2.2.1 (validDelim_iff.1 ht.valid).2.2.2.2.2.1 e)
      · simp only [if_neg h0]
  · rintro (h | h | ⟨h0, h⟩)
    · by_cases h0 : t.comment ≠ 0
      · exact (ht.comment h0).2 h.symm
      · have := (validDelim_iff.1 ht.valid).1
        exact this (by rw [h]; omega)
    · rw [ht.valid] at h; cases h
    · rw [(ht.comment h0).1] at h; cases h

theorem survives_safe {crlf : Bool} {f : GoStr} (h : TextSafe crlf f) : survives crlf f = f := by
  unfold TextSafe at h
  cases crlf with
  | true => exact survives_plain h
  | false =>
    simp only [Bool.false_eq_true, if_false] at h
    show dropCRLF f = f
    induction f with
    | nil => rfl
    | cons b f ih =>
      rw [dropCRLF, if_neg, ih (fun hm => h (hm.trans (List.suffix_cons b f).isInfix))]
      rintro ⟨rfl, hf⟩
      apply h
      cases f with
      | nil => cases hf
      | cons c f =>
        simp at hf
        subst hf
        exact ⟨[], f, rfl⟩

/-- **C74** (nothing is lost). With fields in which no carriage return comes before a line feed (none at all, with
`UseCRLF`) and without blank records, exactly the written records are read. -/
theorem C74_same {comma : Nat} {t : CSVTextSpec} (ht : TextFits comma t) (crlf : Bool) {rs : List (List GoStr)}
    (hc : t.comment ≠ 0 → ∀ r ∈ rs, ∀ f, r.head? = some f → ¬ utf8 t.comment <+: f)
    (hb : ∀ r ∈ rs, r ≠ [] ∧ r ≠ [[]]) (hf : ∀ r ∈ rs, ∀ f ∈ r, TextSafe crlf f) :
    csvRead t (csvText comma crlf rs) = ⟨rs, false⟩ := by
  rw [C74_text ht crlf rs hc]
  congr 1
  rw [List.filter_eq_self.2 (by intro r hr; simp [blank, hb r hr])]
  conv_rhs => rw [← List.map_id rs]
  apply List.map_congr_left
  intro r hr
  rw [id]
  conv_rhs => rw [← List.map_id r]
  apply List.map_congr_left
  intro f hfm
  exact survives_safe (hf r hr f hfm)

/-- A separator that `encoding/csv` does not accept: reading is an error, whatever the text. -/
theorem C74_bad_separator {t : CSVTextSpec} (h : (if t.comma ≠ 0 then t.comma else 44) = t.comment ∨
    validDelim (if t.comma ≠ 0 then t.comma else 44) = false ∨ (t.comment ≠ 0 ∧ validDelim t.comment = false)) (s : GoStr) :
    csvRead t s = ⟨[], true⟩ := by
  unfold csvRead
  dsimp only
  rw [if_pos h]

/-- **C33** (the text). `C33_roundtrip_partial` down to the bytes: the dataframe is written as a text by `To1CSV`, and the text is
read by `FromCSV` with fitting options. Further conditions: no name and no cell has a carriage return before a
line feed (at all, with `UseCRLF`), and there are two written columns or no cell is written as an empty text. -/
theorem C33_text_partial [GoFloat F] {pf : GoStr → Option F} {ff : F → GoStr} {df : DF} {h : Heap F} {opt : CSVWritingSpec}
    (wf : df.WF h) {ord : Kind → List GoStr → List GoStr} (ho : ∀ k l, (ord k l).Perm l)
    (hm : opt.maintainOrder = true ∨ df.indexViewed = false) (full : Nat → Bool)
    {jobs : List GoStr → List GoStr} (hj : ∀ l, (jobs l).Perm l) (who : GoStr → Nat)
    {spec : CSVReadingSpec} (hd : spec.Default) (hh : spec.header = []) (he : spec.exclude = [])
    {t : CSVTextSpec} (ht : TextFits opt.comma t) (ht0 : t.comment = 0) (crlf : Bool)
    (hcols : ∀ k c, (abs h df).Written k c → ∃ vs, (abs h df).col k c = some (vs.map some) ∧
      ReadsBack pf ff opt.missingMarker spec.missingValues k vs)
    (hone : ∀ k k' c, (abs h df).Written k c → (abs h df).Written k' c → k = k') (hname : ∀ k, ¬ (abs h df).Written k [])
    (hsome : ∃ k c, (abs h df).Written k c)
    (hsafe : ∀ k c, (abs h df).Written k c → TextSafe crlf c ∧ ∀ r v x, (abs h df).cell k c r = some v →
      TextOf ff opt.missingMarker k v x → TextSafe crlf x)
    (hblank : (∃ k c k' c', (abs h df).Written k c ∧ (abs h df).Written k' c' ∧ c ≠ c') ∨
      ∀ k c, (abs h df).Written k c → ∀ r v, (abs h df).cell k c r = some v → ¬ TextOf ff opt.missingMarker k v []) :
    ∃ w h1 r h2 df2 h3, df.to1CSV ff ord (newCsvSink none full) opt h = .ok ((true, w), h1) ∧
      fromCSV pf jobs who (csvRead t (csvText opt.comma crlf w.written)) spec h1 = .ok (some r, h2) ∧
      r.toDataFrame h2 = .ok (df2, h3) ∧ df2.WF h3 ∧
      (abs h3 df2).nRows = (abs h df).nRows ∧
      (∀ k c, (abs h df).Written k c → (abs h3 df2).col k c = (abs h df).col k c) ∧
      (∀ k c, ¬ (abs h df).Written k c → (abs h3 df2).col k c = none) ∧
      (∀ c, (abs h3 df2).isStr c = (abs h df).isStr c) := by
  have hdel : opt.DelimOk := by
    by_cases h0 : opt.comma = 0
    · exact Or.inl h0
    · have := ht.valid
      rw [if_pos h0] at this
      exact Or.inr this
  obtain ⟨w, h1, r, h2, df2, h3, e1, e2, rest⟩ :=
    C33_roundtrip_partial wf ho hdel hm full hj who hd hh he hcols hone hname hsome
  have hx : (abs h df).HasTexts ff opt.missingMarker := by
    intro k c hw r hr
    obtain ⟨vs, hv, hb⟩ := hcols k c hw
    have hl := (wf.cells hv).1
    rw [List.length_map] at hl
    obtain ⟨t, ht⟩ := hb.texts vs[r] (List.getElem_mem (by omega))
    refine ⟨vs[r], t, ?_, ht⟩
    unfold ADF.cell
    rw [hv, Option.bind_some, List.getElem?_map, List.getElem?_eq_getElem (by omega)]
    rfl
  obtain ⟨w', h1', header, e1', hc, -⟩ := C32_to1CSV_partial wf ho hdel hx hm full
  rw [e1] at e1'
  cases e1'
  obtain ⟨recs, hout, hl, hrec⟩ := hc.records
  have hsame : csvRead t (csvText opt.comma crlf w.written) = ⟨w.written, false⟩ := by
    obtain ⟨k0, c0, hw0⟩ := hsome
    have hm0 := (hc.cols k0 c0).2 hw0
    have hne : header ≠ [] := by intro h; rw [h] at hm0; cases hm0
    apply C74_same ht crlf (fun h => absurd ht0 h)
    · intro rec hr
      rw [hout] at hr
      have hlen : rec.length = header.length := by
        rcases List.mem_cons.1 hr with rfl | hr
        · simp
        · obtain ⟨i, hi⟩ := List.mem_iff_getElem?.1 hr
          exact (hrec i rec hi).length_eq.symm
      refine ⟨?_, ?_⟩
      · rintro rfl
        exact hne (List.length_eq_zero_iff.1 hlen.symm)
      · rintro rfl
        obtain ⟨⟨k, c⟩, hk⟩ : ∃ kc, header = [kc] := List.length_eq_one_iff.1 hlen.symm
        have hw := (hc.cols k c).1 (by rw [hk]; simp)
        rcases List.mem_cons.1 hr with hr | hr
        · rw [hk] at hr
          simp at hr
          exact hname k (hr ▸ hw)
        · obtain ⟨i, hi⟩ := List.mem_iff_getElem?.1 hr
          have f := hrec i _ hi
          rw [hk] at f
          cases f with
          | cons f _ =>
            obtain ⟨v, hv, hx⟩ := f
            rcases hblank with ⟨k1, c1, k2, c2, hw1, hw2, hne2⟩ | hb
            · have m1 := (hc.cols k1 c1).2 hw1
              have m2 := (hc.cols k2 c2).2 hw2
              rw [hk] at m1 m2
              simp at m1 m2
              exact hne2 (m1.2.trans m2.2.symm)
            · exact hb k c hw i v hv hx
    · intro rec hr f hf
      rw [hout] at hr
      rcases List.mem_cons.1 hr with rfl | hr
      · obtain ⟨⟨k, c⟩, hk, rfl⟩ := List.mem_map.1 hf
        exact (hsafe k c ((hc.cols k c).1 hk)).1
      · obtain ⟨i, hi⟩ := List.mem_iff_getElem?.1 hr
        have g := hrec i _ hi
        rw [List.forall₂_iff_get] at g
        obtain ⟨gl, gg⟩ := g
        obtain ⟨j, hj, rfl⟩ := List.mem_iff_getElem.1 hf
        obtain ⟨v, hv, hx⟩ := gg j (by omega) hj
        exact (hsafe _ _ ((hc.cols _ _).1 (List.get_mem header ⟨j, by omega⟩))).2 i v _ hv hx
  exact ⟨w, h1, r, h2, df2, h3, e1, by rw [hsame]; exact e2, rest⟩

/-- C33 is false of a single column with empty texts: their rows are lost. What is read is the header and the rows with a
non-empty text, for every column of texts. -/
theorem C33_blank_rows_refuted {comma : Nat} {t : CSVTextSpec} (ht : TextFits comma t) (ht0 : t.comment = 0) {c : GoStr} (hc : c ≠ [])
    {xs : List GoStr} (hs : 13 ∉ c ∧ ∀ x ∈ xs, 13 ∉ x) (crlf : Bool) :
    csvRead t (csvText comma crlf ([c] :: xs.map fun x => [x])) = ⟨[c] :: (xs.filter (· ≠ [])).map fun x => [x], false⟩ := by
  rw [C74_text ht crlf _ (fun h => absurd ht0 h)]
  congr 1
  rw [List.filter_cons_of_pos (by simp [blank, hc]), List.map_cons]
  congr 1
  · simp [survives_plain hs.1]
  · have h2 := hs.2
    clear hs
    induction xs with
    | nil => rfl
    | cons x xs ih =>
      have := ih (fun y hy => h2 y (by simp [hy]))
      by_cases hx : x = []
      · subst hx
        rw [List.map_cons, List.filter_cons_of_neg (by simp [blank]), List.filter_cons_of_neg (by simp), this]
      · rw [List.map_cons, List.filter_cons_of_pos (by simp [blank, hx]), List.filter_cons_of_pos (by simpa using hx), List.map_cons,
          List.map_cons, this]
        simp [survives_plain (h2 x (by simp))]

namespace Demo

def plainText : CSVTextSpec := ⟨0, 0, false, false⟩

theorem plainText_fits : TextFits 0 plainText :=
  ⟨rfl, by decide, fun h => (by cases h), fun h => absurd rfl h⟩

/-- Semicolons, comments with `#`, lazy quotes and trimmed spaces. -/
def fancyText : CSVTextSpec := ⟨59, 35, true, true⟩

theorem fancyText_fits : TextFits 59 fancyText :=
  ⟨rfl, by decide, fun _ => (by decide), fun _ => (by decide)⟩

/-- Fields with separators, quotes, line ends, spaces, and invalid UTF-8. -/
def nasty : List (List GoStr) := [[b!"a;b", b!" c", b!"d"], [b!"say \"hi\"", b!"two\nlines", [0xC2]], [[], [], []], [[13], b!"\\.", b!"\t"]]

-- C74 applies to them
example : csvRead fancyText (csvText 59 false nasty) = ⟨nasty, false⟩ := by
  refine C74_same fancyText_fits false (fun _ r hr f hf => ?_) (by decide) ?_
  · have : ∀ r ∈ nasty, (utf8 35).isPrefixOf (r.headD []) = false := by decide
    have h2 := this r hr
    rw [List.headD_eq_head?_getD, hf] at h2
    rw [← List.isPrefixOf_iff_prefix]
    show ¬ (utf8 35).isPrefixOf f = true
    simp only [Option.getD_some] at h2
    rw [h2]
    decide
  · have : ∀ r ∈ nasty, ∀ f ∈ r, dropCRLF f = f := by decide
    intro r hr f hf
    show ¬ _
    rintro ⟨u, v, e⟩
    have hd := this r hr f hf
    have key : ∀ (u v : GoStr), (dropCRLF (u ++ [13, 10] ++ v)).length < (u ++ [13, 10] ++ v).length := by
      have shrink : ∀ s : GoStr, (dropCRLF s).length ≤ s.length := by
        intro s
        induction s with
        | nil => simp [dropCRLF]
        | cons b s ih =>
          rw [dropCRLF]
          split <;> simp <;> omega
      intro u v
      induction u with
      | nil =>
        rw [List.nil_append, List.cons_append, dropCRLF, if_pos ⟨rfl, rfl⟩]
        have := shrink ([10] ++ v)
        simp at this ⊢
        omega
      | cons b u ih =>
        rw [List.cons_append, List.cons_append, dropCRLF]
        split
        · have := ih; simp at this ⊢; omega
        · have := ih; simp at this ⊢; omega
    have := key u v
    rw [e, hd] at this
    omega

-- the text itself, with quotes where they are needed
example : csvText 0 true [[b!"a,b", b!"c"], [b!"\n", []]] = b!"\"a,b\",c\r\n\"\r\n\",\r\n" := by decide

-- C74_text, where something is lost: a blank record, a carriage return
example : csvRead plainText (csvText 0 false [[b!"a"], [[]], [b!"x\r\ny"]]) = ⟨[[b!"a"], [b!"x\ny"]], false⟩ := by
  rw [C74_text plainText_fits false _ (fun h => absurd rfl h)]
  rfl

/-- C74 is false of records that start with the comment rune: they are lost. -/
theorem C74_comment_refuted : csvRead fancyText (csvText 59 false [[b!"a"], [b!"#1"], [b!"b"]]) = ⟨[[b!"a"], [b!"b"]], false⟩ := by decide

/-- C74 is false when leading spaces are trimmed and the separator is a space: empty fields are lost. -/
theorem C74_trim_refuted : csvRead ⟨9, 0, false, true⟩ (csvText 9 false [[b!"a", [], b!"b"]]) = ⟨[[b!"a", b!"b"]], false⟩ := by decide

-- a syntax error
example : (csvRead plainText b!"a,b\n\"x,y").fails = true := by decide

/-- The demo dataframe survives as a text with `\r\n` line ends. -/
example : ∃ w h1 r h2 df2 h3, df.to1CSV rtF csvOrd (newCsvSink none fun _ => false) csvOpt h = .ok ((true, w), h1) ∧
    fromCSV rtP List.reverse List.length (csvRead plainText (csvText csvOpt.comma true w.written)) rtSpec h1 = .ok (some r, h2) ∧
    r.toDataFrame h2 = .ok (df2, h3) ∧
    (abs h3 df2).col .obj b!"s" = some [some (.str b!"u"), some (.str b!"v"), some (.str b!"u"), some .nil] := by
  have hw1 : (abs h df).Written .int b!"a" := show ((abs h df).col .int b!"a").isSome = true by decide +kernel
  have hw2 : (abs h df).Written .obj b!"s" := show (abs h df).isStr b!"s" = true by decide +kernel
  have hdig : ∀ n, ∀ b ∈ natDec n, b ≠ 13 := by
    intro n b hb
    have := natDec_digits n b hb
    rintro rfl
    revert this; decide
  have hint : ∀ n : Int, 13 ∉ fmtInt n := by
    intro n hm
    unfold fmtInt at hm
    split at hm
    · rcases List.mem_cons.1 hm with h | h
      · revert h; decide
      · exact hdig _ _ h rfl
    · exact hdig _ _ hm rfl
  obtain ⟨w, h1, r, h2, df2, h3, a, b, c, -, -, d, -⟩ := C33_text_partial (pf := rtP) (ff := rtF) (opt := csvOpt) df_wf csvOrd_perm (Or.inl rfl)
    (fun _ => false) (jobs := List.reverse) (fun l => List.reverse_perm l) List.length (spec := rtSpec) ⟨rfl, rfl, rfl⟩ rfl rfl
    (t := plainText) plainText_fits rfl true rt_cols
    (fun k k' c h1 h2 => by
      rcases written_cases k c h1 with ⟨rfl, rfl⟩ | ⟨rfl, rfl⟩ | ⟨rfl, rfl⟩ | ⟨rfl, rfl⟩ <;>
        rcases written_cases k' _ h2 with ⟨rfl, e⟩ | ⟨rfl, e⟩ | ⟨rfl, e⟩ | ⟨rfl, e⟩ <;> first | rfl | (revert e; decide))
    (fun k hk => by rcases written_cases k _ hk with ⟨_, e⟩ | ⟨_, e⟩ | ⟨_, e⟩ | ⟨_, e⟩ <;> (revert e; decide))
    ⟨.int, b!"a", hw1⟩
    (fun k c hw => by
      refine ⟨?_, ?_⟩
      · rcases written_cases k c hw with ⟨rfl, rfl⟩ | ⟨rfl, rfl⟩ | ⟨rfl, rfl⟩ | ⟨rfl, rfl⟩ <;>
          (simp only [TextSafe, if_true]; decide)
      · intro r v x hv hx
        simp only [TextSafe, if_true]
        cases hx with
        | tt => decide
        | ff => decide
        | nat n => intro hm; exact hdig n _ hm rfl
        | neg n =>
          intro hm
          rcases List.mem_cons.1 hm with h | h
          · revert h; decide
          · exact hdig _ _ h rfl
        | float x =>
          intro hm
          rcases List.mem_append.1 hm with h | h
          · exact hint _ h
          · revert h; decide
        | nil => decide
        | str s =>
          rcases written_cases _ c hw with ⟨hk, -⟩ | ⟨hk, -⟩ | ⟨-, rfl⟩ | ⟨hk, -⟩
          · cases hk
          · cases hk
          · have hcol : (abs h df).col .obj b!"s" = some [some (.str b!"u"), some (.str b!"v"), some (.str b!"u"), some .nil] := by
              decide +kernel
            unfold ADF.cell at hv
            rw [hcol, Option.bind_some] at hv
            have hmem : some (Val.str x) ∈ [some (Val.str b!"u" : Val Int), some (.str b!"v"), some (.str b!"u"), some .nil] := by
              cases hi : ([some (Val.str b!"u" : Val Int), some (.str b!"v"), some (.str b!"u"), some .nil])[r]? with
              | none => rw [hi] at hv; cases hv
              | some o => rw [hi] at hv; simp at hv; subst hv; exact List.mem_of_getElem? hi
            simp at hmem
            rcases hmem with rfl | rfl | rfl <;> decide
          · cases hk)
    (Or.inl ⟨.int, b!"a", .obj, b!"s", hw1, hw2, by decide⟩)
  refine ⟨w, h1, r, h2, df2, h3, a, b, c, ?_⟩
  rw [d .obj b!"s" hw2]
  decide +kernel

/-- One column of strings: "x", "", "y". -/
def blankOps : List (BOp Int) := [.addStrings b!"s" [b!"x", [], b!"y"]]

/-- C33 is false of this dataframe of three rows: two are read. -/
theorem C33_blank_refuted : okAnd ((build blankOps heap0).1.toDataFrame (build blankOps heap0).2) (fun d =>
    okAnd (d.1.to1CSV fmtInt csvOrd (newCsvSink none fun _ => false) csvOpt d.2) (fun o =>
      okAnd (fromCSV rtP List.reverse List.length (csvRead plainText (csvText 0 false o.1.2.written)) rtSpec o.2) (fun r =>
        decide (d.1.numRows = 3 ∧ o.1.1 = true) && match r.1 with
          | none => false
          | some r' => okAnd (r'.toDataFrame r.2) fun d2 => decide (d2.1.numRows = 2)))) = true := by decide +kernel

end Demo

end Verif
